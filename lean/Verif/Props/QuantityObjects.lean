import Verif.Model.QuantityObjects
import Verif.Props.MetricSystem
import Verif.Lemmas.PyDict
import Mathlib.Logic.Function.Basic

/-!
# Observable quantities as objects (C126)
-/

namespace Eprem.Observable

open Eprem Eprem.Symbolic Eprem.Metric

/-! ## Lemmas: what is known about the functions and objects made so far -/

/-- The functions in `f` are among the first `n`, as the table says. -/
def Sound (T : Nat → Option Op) (n : Nat) : Op → Prop
  | .method _ => True
  | .binary id k p q => id < n ∧ T id = some (.binary id k p q) ∧ Sound T n p ∧ Sound T n q
  | .power id p e => id < n ∧ T id = some (.power id p e) ∧ Sound T n p

/-- The object is among those made so far, as the tables say. -/
def Known (T : Nat → Option Op) (O : Nat → Option QObj) (s : Session) (q : QObj) : Prop :=
  q.id < s.objects ∧ O q.id = some q ∧ Sound T s.functions q.op

def Inv (T : Nat → Option Op) (O : Nat → Option QObj) (s : Session) : Prop :=
  ∀ k q, s.cache.get? k = some q → Known T O s q

structure Later (T : Nat → Option Op) (O : Nat → Option QObj) (s : Session) (T' : Nat → Option Op) (O' : Nat → Option QObj)
    (s' : Session) : Prop where
  functions : s.functions ≤ s'.functions
  objects : s.objects ≤ s'.objects
  tableT : ∀ i, i < s.functions → T' i = T i
  tableO : ∀ i, i < s.objects → O' i = O i
  cache : ∀ k q, s.cache.get? k = some q → s'.cache.get? k = some q

theorem Later.refl (T O s) : Later T O s T O s := ⟨le_rfl, le_rfl, fun _ _ => rfl, fun _ _ => rfl, fun _ _ h => h⟩

theorem Later.trans {T O s T' O' s' T'' O'' s''} (h : Later T O s T' O' s') (h' : Later T' O' s' T'' O'' s'') :
    Later T O s T'' O'' s'' where
  functions := h.functions.trans h'.functions
  objects := h.objects.trans h'.objects
  tableT i hi := (h'.tableT i (hi.trans_le h.functions)).trans (h.tableT i hi)
  tableO i hi := (h'.tableO i (hi.trans_le h.objects)).trans (h.tableO i hi)
  cache k q hk := h'.cache k q (h.cache k q hk)

theorem Sound.mono {T T' : Nat → Option Op} {n n' : Nat} (hn : n ≤ n') (hT : ∀ i, i < n → T' i = T i) :
    ∀ {f : Op}, Sound T n f → Sound T' n' f
  | .method _, _ => trivial
  | .binary id k p q, ⟨h1, h2, h3, h4⟩ => ⟨h1.trans_le hn, (hT id h1).trans h2, h3.mono hn hT, h4.mono hn hT⟩
  | .power id p e, ⟨h1, h2, h3⟩ => ⟨h1.trans_le hn, (hT id h1).trans h2, h3.mono hn hT⟩

theorem Known.mono {T O s T' O' s'} (h : Later T O s T' O' s') {q : QObj} (hq : Known T O s q) : Known T' O' s' q :=
  ⟨hq.1.trans_le h.objects, (h.tableO _ hq.1).trans hq.2.1, hq.2.2.mono h.functions h.tableT⟩

/-- What holds after a step that leaves the cache alone. -/
def Post (T : Nat → Option Op) (O : Nat → Option QObj) (s : Session) (x : Session × Except QErr QObj) : Prop :=
  x.1.cache = s.cache ∧ ∃ T' O', Later T O s T' O' x.1 ∧ ∀ q, x.2 = .ok q → Known T' O' x.1 q

theorem post_same {T O s r} (h : ∀ q, r = .ok q → Known T O s q) : Post T O s (s, r) :=
  ⟨rfl, T, O, .refl _ _ _, h⟩

theorem post_error {T O s e} : Post T O s (s, .error e) := post_same nofun

theorem post_new {T O s op} (u d) (h : Sound T s.functions op) : Post T O s (newObject s op u d) := by
  refine ⟨rfl, T, Function.update O s.objects (some ⟨s.objects, op, u, d⟩), ⟨le_rfl, Nat.le_succ _, fun _ _ => rfl, ?_, fun _ _ h => h⟩, ?_⟩
  · intro i hi
    exact Function.update_of_ne (Nat.ne_of_lt hi) _ _
  · intro q hq
    cases hq
    exact ⟨Nat.lt_succ_self _, Function.update_self _ _ _, h⟩

theorem post_trans {T O s T' O' s'} {x : Session × Except QErr QObj} (hc : s'.cache = s.cache) (h : Later T O s T' O' s')
    (hx : Post T' O' s' x) : Post T O s x := by
  obtain ⟨h1, T2, O2, h2, h3⟩ := hx
  exact ⟨h1.trans hc, T2, O2, h.trans h2, h3⟩

/-- A new function. -/
theorem post_function {T O s} (f : Op) (u d) (hf : Sound (Function.update T s.functions (some f)) (s.functions + 1) f) :
    Post T O s (newObject ⟨s.cache, s.objects, s.functions + 1⟩ f u d) := by
  have hl : Later T O s (Function.update T s.functions (some f)) O ⟨s.cache, s.objects, s.functions + 1⟩ :=
    ⟨Nat.le_succ _, le_rfl, fun i hi => Function.update_of_ne (Nat.ne_of_lt hi) _ _, fun _ _ => rfl, fun _ _ h => h⟩
  exact post_trans (s' := ⟨s.cache, s.objects, s.functions + 1⟩) rfl hl (post_new u d hf)

theorem sound_fresh {T : Nat → Option Op} {n : Nat} {p : Op} (f : Op) (h : Sound T n p) :
    Sound (Function.update T n (some f)) (n + 1) p :=
  h.mono (Nat.le_succ _) (fun _ hi => Function.update_of_ne (Nat.ne_of_lt hi) _ _)

theorem post_pow (E : Observables) {T O s p} (e) (hp : Known T O s p) : Post T O s (objPow E s p e) := by
  unfold objPow
  cases unitPow (E.float e) p.unit e with
  | error err => exact post_error
  | ok u => exact post_function _ _ _ ⟨Nat.lt_succ_self _, Function.update_self _ _ _, sound_fresh _ hp.2.2⟩

theorem post_binary (E : Observables) {T O s p q} (k) (hp : Known T O s p) (hq : Known T O s q) :
    Post T O s (objBinary E s k p q) := by
  unfold objBinary
  cases binaryAttrs E k p q with
  | error err => exact post_error
  | ok a => exact post_function _ _ _ ⟨Nat.lt_succ_self _, Function.update_self _ _ _, sound_fresh _ hp.2.2, sound_fresh _ hq.2.2⟩

theorem post_withunit (E : Observables) {T O s p} (new) (hp : Known T O s p) : Post T O s (objWithunit E s p new) := by
  unfold objWithunit
  by_cases h : exprEq p.unit new
  · rw [if_pos h]
    exact post_same (fun q hq => by cases hq; exact hp)
  · rw [if_neg h]
    match E.consistent p.unit new with
    | .error e => exact post_error
    | .ok true => exact post_new _ _ hp.2.2
    | .ok false => exact post_error

theorem post_named (E : Observables) {T O s} (key) : Post T O s (objNamed E s key) := by
  unfold objNamed
  cases E.defined (E.canonical key) with
  | none => exact post_error
  | some a => exact post_new _ _ trivial

theorem post_terms (E : Observables) : ∀ (ts : List Term) {T O s this}, Known T O s this → Post T O s (objTerms E s this ts)
  | [], T, O, s, this, h => post_same (fun q hq => by cases hq; exact h)
  | t :: ts, T, O, s, this, h => by
    unfold objTerms
    have h1 := post_named E (T := T) (O := O) (s := s) t.base
    rcases hn : objNamed E s t.base with ⟨s1, r1⟩
    rw [hn] at h1
    obtain ⟨c1, T1, O1, l1, k1⟩ := h1
    cases r1 with
    | error e => exact ⟨c1, T1, O1, l1, nofun⟩
    | ok q =>
      have h2 := post_pow E t.exp (k1 q rfl)
      refine post_trans c1 l1 ?_
      dsimp only at h2 ⊢
      rcases hp : objPow E s1 q t.exp with ⟨s2, r2⟩
      rw [hp] at h2
      obtain ⟨c2, T2, O2, l2, k2⟩ := h2
      cases r2 with
      | error e => exact ⟨c2, T2, O2, l2, nofun⟩
      | ok p =>
        refine post_trans c2 l2 ?_
        have h3 := post_binary E .mul ((h.mono l1).mono l2) (k2 p rfl)
        dsimp only at h3 ⊢
        rcases hb : objBinary E s2 .mul this p with ⟨s3, r3⟩
        rw [hb] at h3
        obtain ⟨c3, T3, O3, l3, k3⟩ := h3
        cases r3 with
        | error e => exact ⟨c3, T3, O3, l3, nofun⟩
        | ok r => exact post_trans c3 l3 (post_terms E ts (k3 r rfl))

theorem post_build (E : Observables) {T O s} (key) : Post T O s (objBuild E s key) := by
  unfold objBuild
  match E.parse (E.canonical key) with
  | .error e => exact post_error
  | .ok [] => exact post_error
  | .ok (t :: ts) =>
    have h1 := post_named E (T := T) (O := O) (s := s) t.base
    dsimp only
    rcases hn : objNamed E s t.base with ⟨s1, r1⟩
    rw [hn] at h1
    obtain ⟨c1, T1, O1, l1, k1⟩ := h1
    cases r1 with
    | error e => exact ⟨c1, T1, O1, l1, nofun⟩
    | ok q =>
      dsimp only
      by_cases h : ts = [] ∧ t.exp = 1
      · rw [if_pos h]
        exact ⟨c1, T1, O1, l1, k1⟩
      · rw [if_neg h]
        have h2 := post_pow E t.exp (k1 q rfl)
        refine post_trans c1 l1 ?_
        dsimp only at h2
        rcases hp : objPow E s1 q t.exp with ⟨s2, r2⟩
        rw [hp] at h2
        obtain ⟨c2, T2, O2, l2, k2⟩ := h2
        cases r2 with
        | error e => exact ⟨c2, T2, O2, l2, nofun⟩
        | ok p => exact post_trans c2 l2 (post_terms E ts (k2 p rfl))

/-- What holds after any step. -/
def After (T : Nat → Option Op) (O : Nat → Option QObj) (s : Session) (x : Session × Except QErr QObj) : Prop :=
  ∃ T' O', Later T O s T' O' x.1 ∧ Inv T' O' x.1 ∧ ∀ q, x.2 = .ok q → Known T' O' x.1 q

theorem Post.after {T O s x} (hi : Inv T O s) (h : Post T O s x) : After T O s x := by
  obtain ⟨hc, T', O', hl, hk⟩ := h
  exact ⟨T', O', hl, fun k q hq => (hi k q (by rw [← hc]; exact hq)).mono hl, hk⟩

theorem after_get (E : Observables) {T O s} (hi : Inv T O s) (key) :
    After T O s (objGet E s key) ∧ ∀ q, (objGet E s key).2 = .ok q → (objGet E s key).1.cache.get? key = some q := by
  unfold objGet
  cases hk : s.cache.get? key with
  | some q =>
    refine ⟨(post_same (fun p hp => ?_)).after hi, fun p hp => ?_⟩
    · cases hp; exact hi key q hk
    · cases hp; exact hk
  | none =>
    have hb := post_build E (T := T) (O := O) (s := s) key
    dsimp only
    rcases hx : objBuild E s key with ⟨s1, r⟩
    rw [hx] at hb
    cases r with
    | error e => exact ⟨hb.after hi, nofun⟩
    | ok q =>
      obtain ⟨hc, T', O', hl, hq⟩ := hb
      have hc : s1.cache = s.cache := hc
      have hq := hq q rfl
      refine ⟨⟨T', O', ⟨hl.functions, hl.objects, hl.tableT, hl.tableO, fun k p hp => ?_⟩, fun k p hp => ?_, fun p hp => ?_⟩, fun p hp => ?_⟩
      · show (s1.cache.set key q).get? k = some p
        rw [Dict.get?_set, hc]
        by_cases h : key = k
        · subst h; rw [hk] at hp; cases hp
        · rw [if_neg h]; exact hp
      · have hp : (s1.cache.set key q).get? k = some p := hp
        rw [Dict.get?_set, hc] at hp
        by_cases h : key = k
        · rw [if_pos h] at hp; cases hp; exact hq
        · rw [if_neg h] at hp; exact (hi k p hp).mono hl
      · cases hp; exact hq
      · cases hp
        show (s1.cache.set key q).get? key = some q
        rw [Dict.get?_set, if_pos rfl]

/-- All results are known. -/
def AllKnown (T : Nat → Option Op) (O : Nat → Option QObj) (s : Session) (rs : List (Except QErr QObj)) : Prop :=
  ∀ q, Except.ok q ∈ rs → Known T O s q

theorem after_step (E : Observables) {T O s rs} (hi : Inv T O s) (hr : AllKnown T O s rs) (c : Cmd) :
    After T O s (stepCmd E s rs c) := by
  have at_ : ∀ {i : Nat} {p}, rs[i]? = some (.ok p) → Known T O s p := fun h => hr _ (List.mem_of_getElem? h)
  unfold stepCmd
  cases c with
  | get key => exact (after_get E hi key).1
  | binary k i j =>
    dsimp only
    split
    · rename_i p q hp hq
      exact (post_binary E k (at_ hp) (at_ hq)).after hi
    · exact post_error.after hi
  | power i e =>
    dsimp only
    split
    · rename_i p hp
      exact (post_pow E e (at_ hp)).after hi
    · exact post_error.after hi
  | withunit i new =>
    dsimp only
    split
    · rename_i p hp
      exact (post_withunit E new (at_ hp)).after hi
    · exact post_error.after hi

theorem after_run (E : Observables) : ∀ (cs : List Cmd) {T O s rs}, Inv T O s → AllKnown T O s rs →
    ∃ T' O', Later T O s T' O' (runCmds E s rs cs).1 ∧ Inv T' O' (runCmds E s rs cs).1 ∧
      AllKnown T' O' (runCmds E s rs cs).1 (runCmds E s rs cs).2
  | [], T, O, s, rs, hi, hr => ⟨T, O, .refl _ _ _, hi, hr⟩
  | c :: cs, T, O, s, rs, hi, hr => by
    obtain ⟨T', O', hl, hi', hk⟩ := after_step E hi hr c
    unfold runCmds
    rcases hx : stepCmd E s rs c with ⟨s1, r⟩
    rw [hx] at hl hi' hk
    obtain ⟨T2, O2, h1, h2, h3⟩ := after_run E cs (rs := rs ++ [r]) hi' (fun q hq => by
      rcases List.mem_append.1 hq with h | h
      · exact (hr q h).mono hl
      · exact hk q (List.mem_singleton.1 h).symm)
    exact ⟨T2, O2, hl.trans h1, h2, h3⟩

theorem run_cons (E : Observables) (c : Cmd) (cs : List Cmd) (s rs) :
    runCmds E s rs (c :: cs) = runCmds E (stepCmd E s rs c).1 (rs ++ [(stepCmd E s rs c).2]) cs := rfl

theorem run_append (E : Observables) : ∀ (a b : List Cmd) (s rs),
    runCmds E s rs (a ++ b) = runCmds E (runCmds E s rs a).1 (runCmds E s rs a).2 b
  | [], _, _, _ => rfl
  | c :: a, b, s, rs => by
    show runCmds E (stepCmd E s rs c).1 _ (a ++ b) = _
    rw [run_append E a b]
    rfl

theorem run_results (E : Observables) : ∀ (cs : List Cmd) (s rs), ∃ new, (runCmds E s rs cs).2 = rs ++ new ∧ new.length = cs.length
  | [], _, rs => ⟨[], by simp [runCmds], rfl⟩
  | c :: cs, s, rs => by
    obtain ⟨new, h, hl⟩ := run_results E cs (stepCmd E s rs c).1 (rs ++ [(stepCmd E s rs c).2])
    refine ⟨(stepCmd E s rs c).2 :: new, ?_, by simp [hl]⟩
    show (runCmds E (stepCmd E s rs c).1 (rs ++ [(stepCmd E s rs c).2]) cs).2 = _
    rw [h]
    simp

/-- A session in which nothing has been asked for. -/
def start : Session := ⟨[], 0, 0⟩

/-- What a program gets. -/
def resultsOf (E : Observables) (cs : List Cmd) : List (Except QErr QObj) := (runCmds E start [] cs).2

theorem run_known (E : Observables) (cs : List Cmd) : ∃ T O, Inv T O (runCmds E start [] cs).1 ∧
    AllKnown T O (runCmds E start [] cs).1 (resultsOf E cs) := by
  obtain ⟨T, O, _, h2, h3⟩ := after_run E cs (T := fun _ => none) (O := fun _ => none) (s := start) (rs := []) nofun nofun
  exact ⟨T, O, h2, h3⟩

/-- The state in which a command of a program runs. -/
theorem run_at (E : Observables) (a : List Cmd) (c : Cmd) (b : List Cmd) :
    (resultsOf E (a ++ c :: b))[a.length]? = some (stepCmd E (runCmds E start [] a).1 (resultsOf E a) c).2 := by
  unfold resultsOf
  rw [run_append]
  obtain ⟨na, ha, hla⟩ := run_results E a start []
  obtain ⟨nb, hb, _⟩ := run_results E b (stepCmd E (runCmds E start [] a).1 (runCmds E start [] a).2 c).1
    ((runCmds E start [] a).2 ++ [(stepCmd E (runCmds E start [] a).1 (runCmds E start [] a).2 c).2])
  rw [run_cons, hb]
  have : (runCmds E start [] a).2.length = a.length := by rw [ha]; simpa using hla
  rw [List.append_assoc, List.getElem?_append_right (by omega), this]
  simp

theorem same_iff {T : Nat → Option Op} {n : Nat} {f g : Op} (hf : Sound T n f) (hg : Sound T n g) :
    Op.same f g = true ↔ f = g := by
  constructor
  · intro h
    cases f <;> cases g <;> first
      | (cases h; done)
      | (exact congrArg Op.method (of_decide_eq_true h))
      | (have h := of_decide_eq_true h; subst h; exact Option.some.inj (hf.2.1.symm.trans hg.2.1))
  · intro h
    subst h
    cases f <;> simp [Op.same]

/-! ## Theorems -/

/-- **C126**, equality.  Whatever a program has done, two quantities that it has are equal exactly if they observe by the same
function, in the same unit and with the same dimensions. -/
theorem c126_equal (E : Observables) (cs : List Cmd) (p q : QObj) (hp : .ok p ∈ resultsOf E cs) (hq : .ok q ∈ resultsOf E cs) :
    p.eq q = true ↔ p.op = q.op ∧ exprEq p.unit q.unit = true ∧ p.dims = q.dims := by
  obtain ⟨T, O, _, hk⟩ := run_known E cs
  unfold QObj.eq
  rw [Bool.and_eq_true, Bool.and_eq_true, decide_eq_true_iff, same_iff (hk p hp).2.2 (hk q hq).2.2]
  tauto

/-- **C126**: equality is an equivalence, and the same object is meant exactly if the identities agree. -/
theorem c126_equivalence (E : Observables) (cs : List Cmd) (p q r : QObj) (hp : .ok p ∈ resultsOf E cs)
    (hq : .ok q ∈ resultsOf E cs) (hr : .ok r ∈ resultsOf E cs) :
    p.eq p = true ∧ (p.eq q = true → q.eq p = true) ∧ (p.eq q = true → q.eq r = true → p.eq r = true) ∧
    (p.id = q.id ↔ p = q) := by
  obtain ⟨T, O, _, hk⟩ := run_known E cs
  refine ⟨?_, ?_, ?_, ?_⟩
  · rw [c126_equal E cs p p hp hp]
    exact ⟨rfl, exprEq_refl _, rfl⟩
  · rw [c126_equal E cs p q hp hq, c126_equal E cs q p hq hp]
    exact fun ⟨h1, h2, h3⟩ => ⟨h1.symm, exprEq_symm h2, h3.symm⟩
  · rw [c126_equal E cs p q hp hq, c126_equal E cs q r hq hr, c126_equal E cs p r hp hr]
    exact fun ⟨h1, h2, h3⟩ ⟨h4, h5, h6⟩ => ⟨h1.trans h4, exprEq_trans h2 h5, h3.trans h6⟩
  · refine ⟨fun h => ?_, fun h => h ▸ rfl⟩
    have h1 := (hk p hp).2.1
    have h2 := (hk q hq).2.1
    rw [h] at h1
    exact Option.some.inj (h1.symm.trans h2)

/-- **C126**, the cache.  Once a name has given a quantity, it always gives the same object. -/
theorem c126_same_object (E : Observables) (a b c : List Cmd) (key : Name) (p q : QObj)
    (hp : (resultsOf E (a ++ .get key :: (b ++ .get key :: c)))[a.length]? = some (.ok p))
    (hq : (resultsOf E (a ++ .get key :: (b ++ .get key :: c)))[(a ++ .get key :: b).length]? = some (.ok q)) : p = q := by
  rw [run_at] at hp
  rw [show a ++ Cmd.get key :: (b ++ Cmd.get key :: c) = (a ++ Cmd.get key :: b) ++ Cmd.get key :: c by simp, run_at] at hq
  obtain ⟨T, O, _, hi, hk⟩ := after_run E a (T := fun _ => none) (O := fun _ => none) (s := start) (rs := []) nofun nofun
  have hp : (objGet E (runCmds E start [] a).1 key).2 = .ok p := Option.some.inj hp
  have hg := after_get E hi key
  obtain ⟨T1, O1, l1, i1, k1⟩ := hg.1
  have hc := hg.2 p hp
  have hrun : runCmds E start [] (a ++ Cmd.get key :: b) = runCmds E (objGet E (runCmds E start [] a).1 key).1
      ((runCmds E start [] a).2 ++ [(objGet E (runCmds E start [] a).1 key).2]) b := by
    rw [run_append]; rfl
  obtain ⟨T2, O2, l2, _, _⟩ := after_run E b (T := T1) (O := O1) (s := (objGet E (runCmds E start [] a).1 key).1)
    (rs := (runCmds E start [] a).2 ++ [(objGet E (runCmds E start [] a).1 key).2]) i1 (fun x hx => by
      rcases List.mem_append.1 hx with h | h
      · exact (hk x h).mono l1
      · exact k1 x (List.mem_singleton.1 h).symm)
  have hc2 := l2.cache key p hc
  rw [← hrun] at hc2
  have hq : (objGet E (runCmds E start [] (a ++ Cmd.get key :: b)).1 key).2 = .ok q := Option.some.inj hq
  unfold objGet at hq
  rw [hc2] at hq
  exact Except.ok.inj hq

/-- The cache holds for the name of a primary quantity that quantity. -/
def Faithful (E : Observables) (s : Session) : Prop :=
  ∀ k q, s.cache.get? k = some q → ∀ t, E.parse (E.canonical k) = .ok [t] → t.exp = 1 →
    ∃ u d, E.defined (E.canonical t.base) = some (u, d) ∧ q.op = .method (E.canonical t.base) ∧ q.unit = u ∧ q.dims = d

theorem build_primary {E : Observables} {s : Session} {k : Name} {t : Term} (h : E.parse (E.canonical k) = .ok [t]) (he : t.exp = 1) :
    objBuild E s k = objNamed E s t.base := by
  unfold objBuild
  rw [h]
  dsimp only
  rcases objNamed E s t.base with ⟨s1, r⟩
  cases r with
  | error e => rfl
  | ok q => exact if_pos ⟨rfl, he⟩

theorem named_primary {E : Observables} {s : Session} {k : Name} {q : QObj} (h : (objNamed E s k).2 = .ok q) :
    ∃ u d, E.defined (E.canonical k) = some (u, d) ∧ q.op = .method (E.canonical k) ∧ q.unit = u ∧ q.dims = d := by
  unfold objNamed at h
  cases hd : E.defined (E.canonical k) with
  | none => rw [hd] at h; cases h
  | some a =>
    rw [hd] at h
    cases h
    exact ⟨_, _, rfl, rfl, rfl, rfl⟩

theorem faithful_get {E : Observables} {s : Session} (hf : Faithful E s) (key : Name) :
    Faithful E (objGet E s key).1 ∧ ∀ q, (objGet E s key).2 = .ok q → ∀ t, E.parse (E.canonical key) = .ok [t] → t.exp = 1 →
    ∃ u d, E.defined (E.canonical t.base) = some (u, d) ∧ q.op = .method (E.canonical t.base) ∧ q.unit = u ∧ q.dims = d := by
  unfold objGet
  cases hk : s.cache.get? key with
  | some q => exact ⟨hf, fun p hp => by cases hp; exact hf key q hk⟩
  | none =>
    dsimp only
    have hb := (post_build E (T := fun _ => none) (O := fun _ => none) (s := s) key).1
    have hprim : ∀ q, (objBuild E s key).2 = .ok q → ∀ t, E.parse (E.canonical key) = .ok [t] → t.exp = 1 →
        ∃ u d, E.defined (E.canonical t.base) = some (u, d) ∧ q.op = .method (E.canonical t.base) ∧ q.unit = u ∧ q.dims = d := by
      intro q hq t ht he
      rw [build_primary ht he] at hq
      exact named_primary hq
    rcases hx : objBuild E s key with ⟨s1, r⟩
    rw [hx] at hb hprim
    have hb : s1.cache = s.cache := hb
    cases r with
    | error e =>
      refine ⟨fun k q hq => hf k q ?_, nofun⟩
      rw [← hb]; exact hq
    | ok q =>
      refine ⟨fun k p hp => ?_, fun p hp => by cases hp; exact hprim q rfl⟩
      have hp : (s1.cache.set key q).get? k = some p := hp
      rw [Dict.get?_set, hb] at hp
      by_cases h : key = k
      · subst h
        rw [if_pos rfl] at hp
        cases hp
        exact hprim _ rfl
      · rw [if_neg h] at hp
        exact hf k p hp

theorem faithful_run (E : Observables) : ∀ (cs : List Cmd) {T O s rs}, Inv T O s → AllKnown T O s rs → Faithful E s →
    Faithful E (runCmds E s rs cs).1
  | [], _, _, _, _, _, _, hf => hf
  | c :: cs, T, O, s, rs, hi, hr, hf => by
    obtain ⟨T', O', hl, hi', hk⟩ := after_step E hi hr c
    refine faithful_run E cs (s := (stepCmd E s rs c).1) (rs := rs ++ [(stepCmd E s rs c).2]) hi' (fun q hq => ?_) ?_
    · rcases List.mem_append.1 hq with h | h
      · exact (hr q h).mono hl
      · exact hk q (List.mem_singleton.1 h).symm
    · have keep : ∀ s' : Session, s'.cache = s.cache → Faithful E s' := fun s' h k q hq => hf k q (by rw [← h]; exact hq)
      have at_ : ∀ {i : Nat} {p}, rs[i]? = some (.ok p) → Known T O s p := fun h => hr _ (List.mem_of_getElem? h)
      unfold stepCmd
      cases c with
      | get key => exact (faithful_get hf key).1
      | binary k i j =>
        dsimp only
        split
        · rename_i p q hp hq
          exact keep _ (post_binary E k (at_ hp) (at_ hq)).1
        · exact hf
      | power i e =>
        dsimp only
        split
        · rename_i p hp
          exact keep _ (post_pow E e (at_ hp)).1
        · exact hf
      | withunit i new =>
        dsimp only
        split
        · rename_i p hp
          exact keep _ (post_withunit E new (at_ hp)).1
        · exact hf

/-- **C126**, aliases.  Two names of the same primary quantity give equal quantities, whatever happened before and in between. -/
theorem c126_alias (E : Observables) (a b c : List Cmd) (k k' : Name) (t t' : Term) (hk : E.parse (E.canonical k) = .ok [t])
    (he : t.exp = 1) (hk' : E.parse (E.canonical k') = .ok [t']) (he' : t'.exp = 1) (h : E.canonical t.base = E.canonical t'.base)
    (p q : QObj) (hp : (resultsOf E (a ++ .get k :: (b ++ .get k' :: c)))[a.length]? = some (.ok p))
    (hq : (resultsOf E (a ++ .get k :: (b ++ .get k' :: c)))[(a ++ .get k :: b).length]? = some (.ok q)) : p.eq q = true := by
  have prim : ∀ (x y : List Cmd) (key : Name) (t : Term) (p : QObj), E.parse (E.canonical key) = .ok [t] → t.exp = 1 →
      (resultsOf E (x ++ .get key :: y))[x.length]? = some (.ok p) →
      ∃ u d, E.defined (E.canonical t.base) = some (u, d) ∧ p.op = .method (E.canonical t.base) ∧ p.unit = u ∧ p.dims = d := by
    intro x y key t p ht he hp
    rw [run_at] at hp
    have hp : (objGet E (runCmds E start [] x).1 key).2 = .ok p := Option.some.inj hp
    exact (faithful_get (faithful_run E x (T := fun _ => none) (O := fun _ => none) (s := start) (rs := []) nofun nofun nofun) key).2 p hp t ht he
  obtain ⟨u, d, h1, h2, h5, h6⟩ := prim a _ k t p hk he hp
  rw [show a ++ Cmd.get k :: (b ++ Cmd.get k' :: c) = (a ++ Cmd.get k :: b) ++ Cmd.get k' :: c by simp] at hq
  obtain ⟨u', d', h3, h4, h7, h8⟩ := prim _ c k' t' q hk' he' hq
  rw [← h, h1] at h3
  cases h3
  unfold QObj.eq
  rw [h2, h4, h, h5, h6, h7, h8, exprEq_refl]
  simp [Op.same]

/-- **C126**, units.  Converting keeps the function and the dimensions; the result is equal to the quantity exactly if the unit is,
and is then the same object. -/
theorem c126_withunit (E : Observables) (s : Session) (p r : QObj) (new : List Term) (h : (objWithunit E s p new).2 = .ok r) :
    r.op = p.op ∧ r.dims = p.dims ∧ exprEq r.unit new = true ∧ (exprEq p.unit new = true → r = p) ∧
    (Op.same p.op p.op = true → (p.eq r = true ↔ exprEq p.unit new = true)) := by
  unfold objWithunit at h
  by_cases he : exprEq p.unit new
  · rw [if_pos he] at h
    cases h
    refine ⟨rfl, rfl, he, fun _ => rfl, fun hs => ?_⟩
    unfold QObj.eq
    simp [exprEq_refl, hs, he]
  · rw [if_neg he] at h
    match hc : E.consistent p.unit new with
    | .error e => rw [hc] at h; cases h
    | .ok false => rw [hc] at h; cases h
    | .ok true =>
      rw [hc] at h
      cases h
      refine ⟨rfl, rfl, exprEq_refl _, fun h => absurd h he, fun hs => ?_⟩
      unfold QObj.eq
      simp [hs]

/-- The command applies an operator. -/
def Cmd.operates : Cmd → Prop
  | .binary _ _ _ => True
  | .power _ _ => True
  | _ => False

/-- The identity of a function that is no method. -/
def Op.number : Op → Option Nat
  | .method _ => none
  | .binary i _ _ _ => some i
  | .power i _ _ => some i

theorem operates_new {E : Observables} {s : Session} {rs : List (Except QErr QObj)} {c : Cmd} {q : QObj} (hc : c.operates)
    (h : (stepCmd E s rs c).2 = .ok q) : q.op.number = some s.functions ∧ (stepCmd E s rs c).1.functions = s.functions + 1 := by
  cases c with
  | get _ => exact hc.elim
  | withunit _ _ => exact hc.elim
  | power i e =>
    unfold stepCmd at h ⊢
    dsimp only at h ⊢
    split at h
    · rename_i p _
      unfold objPow at h ⊢
      cases hu : unitPow (E.float e) p.unit e with
      | error err => rw [hu] at h; cases h
      | ok u => rw [hu] at h; cases h; exact ⟨rfl, rfl⟩
    · cases h
  | binary k i j =>
    unfold stepCmd at h ⊢
    dsimp only at h ⊢
    split at h
    · rename_i p q _ _
      unfold objBinary at h ⊢
      cases hu : binaryAttrs E k p q with
      | error err => rw [hu] at h; cases h
      | ok u => rw [hu] at h; cases h; exact ⟨rfl, rfl⟩
    · cases h

/-- **C126**, violated: what one application of an operator gives is never equal to what another application gives, even to
the same quantities: `p + q == p + q` is false. -/
theorem c126_not_again (E : Observables) (a b d : List Cmd) (c c' : Cmd) (hc : c.operates) (hc' : c'.operates) (p q : QObj)
    (hp : (resultsOf E (a ++ c :: (b ++ c' :: d)))[a.length]? = some (.ok p))
    (hq : (resultsOf E (a ++ c :: (b ++ c' :: d)))[(a ++ c :: b).length]? = some (.ok q)) : p.eq q = false := by
  rw [run_at] at hp
  rw [show a ++ c :: (b ++ c' :: d) = (a ++ c :: b) ++ c' :: d by simp, run_at] at hq
  have n1 := operates_new hc (Option.some.inj hp)
  have n2 := operates_new hc' (Option.some.inj hq)
  obtain ⟨T, O, _, hi, hk⟩ := after_run E a (T := fun _ => none) (O := fun _ => none) (s := start) (rs := []) nofun nofun
  obtain ⟨T1, O1, l1, i1, k1⟩ := after_step E hi hk c
  obtain ⟨T2, O2, l2, _, _⟩ := after_run E b (s := (stepCmd E (runCmds E start [] a).1 (runCmds E start [] a).2 c).1)
    (rs := (runCmds E start [] a).2 ++ [(stepCmd E (runCmds E start [] a).1 (runCmds E start [] a).2 c).2]) i1 (fun x hx => by
      rcases List.mem_append.1 hx with h | h
      · exact (hk x h).mono l1
      · exact k1 x (List.mem_singleton.1 h).symm)
  have hrun : (runCmds E start [] (a ++ c :: b)).1 = (runCmds E (stepCmd E (runCmds E start [] a).1 (runCmds E start [] a).2 c).1
      ((runCmds E start [] a).2 ++ [(stepCmd E (runCmds E start [] a).1 (runCmds E start [] a).2 c).2]) b).1 := by
    rw [run_append]; rfl
  have hlt := l2.functions
  rw [← hrun] at hlt
  have h1 : (stepCmd E (runCmds E start [] a).1 (runCmds E start [] a).2 c).1.functions = (runCmds E start [] a).1.functions + 1 := n1.2
  rw [h1] at hlt
  have hne : (runCmds E start [] a).1.functions ≠ (runCmds E start [] (a ++ c :: b)).1.functions := by omega
  have key : ∀ f g : Op, ∀ m n : Nat, f.number = some m → g.number = some n → m ≠ n → Op.same f g = false := by
    intro f g m n hf hg hmn
    cases f <;> cases g <;> simp_all [Op.number, Op.same]
  unfold QObj.eq
  rw [key _ _ _ _ n1.1 n2.1 hne, Bool.and_false]

/-! ## Examples -/

/-- An observer with two quantities, `r` (also `R`) and `rho`. -/
def sampleObservables : Observables where
  canonical n := if n = ['R'] then ['r'] else n
  parse n := .ok [⟨1, n, 1⟩]
  defined n := if n = ['r'] then some ([⟨1, ['m'], 1⟩], [['t']]) else none
  consistent _ _ := .ok true
  float _ := false
  order := [.mks, .cgs]

example : (match resultsOf sampleObservables [.get ['r'], .binary .add 0 0, .get ['R'], .binary .add 0 2, .get ['r']] with
    | [.ok p, .ok x, .ok q, .ok y, .ok r] => p.eq q && decide (p.id ≠ q.id) && decide (p.id = r.id) && !(x.eq y)
    | _ => false) = true := by decide +kernel

example : (match resultsOf sampleObservables [.get ['r'], .withunit 0 [⟨1, ['c', 'm'], 1⟩], .withunit 0 [⟨1, ['m'], 1⟩],
      .withunit 1 [⟨1, ['m'], 1⟩]] with
    | [.ok p, .ok x, .ok y, .ok z] => !(p.eq x) && decide (p.id = y.id) && p.eq z && decide (p.id ≠ z.id)
    | _ => false) = true := by decide +kernel

example : sampleObservables.parse (sampleObservables.canonical ['R']) = .ok [⟨1, ['r'], 1⟩] := rfl

end Eprem.Observable
