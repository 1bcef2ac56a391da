import Verif.Model.SourceViews
import Verif.Props.Cli
import Verif.Lemmas.PyDict
import Verif.Lemmas.Text

/-!
# Views of source files (C124)
-/

namespace Eprem.Config

open Eprem Eprem.Symbolic

/-! ## Specification -/

/-- Equal dictionaries: the same items, in whatever order. -/
def SameItems {ν : Type} (a b : Dict Str ν) : Prop := ∀ k, a.get? k = b.get? k

/-- The four functions that read parameters, and the types of what they read. -/
def Reads (m : Str) (t : Ty) : Prop :=
  (m = "readInt".toList ∧ t = .int) ∨ (m = "readDouble".toList ∧ t = .float) ∨
    (m = "readString".toList ∧ t = .str) ∨ (m = "readDoubleArray".toList ∧ t = .list)

/-- What source files and the reference file define: dictionaries in which no parameter has a type yet. -/
structure Loaded (l : Dict Str Fields) : Prop where
  keys : l.WF
  items : ∀ p ∈ l, Dict.WF p.2
  untyped : ∀ p ∈ l, "type".toList ∉ p.2.keys

/-! ## Lemmas -/

theorem get_merge {ν : Type} (b : Dict Str ν) : ∀ (a : Dict Str ν), b.WF → ∀ k, (merge a b).get? k = (b.get? k).or (a.get? k) := by
  induction b with
  | nil => intro a _ k; simp [merge, Dict.get?]
  | cons p b ih =>
    intro a hb k
    obtain ⟨hp, hb'⟩ := List.nodup_cons.1 (show (p.1 :: Dict.keys b).Nodup from hb)
    have := ih (a.set p.1 p.2) hb' k
    unfold merge at this ⊢
    rw [List.foldl_cons, this, Dict.get?_set]
    show _ = (Dict.get? (p :: b) k).or _
    rw [show Dict.get? (p :: b) k = if p.1 = k then some p.2 else Dict.get? b k from Dict.get?_cons _ _ _ _]
    by_cases h : p.1 = k
    · subst h
      rw [if_pos rfl, if_pos rfl, Dict.get?_eq_none.2 hp]
      rfl
    · rw [if_neg h, if_neg h]

theorem get_without (old : Str) (f : Fields) (k : Str) :
    (Dict.get? (f.filter (fun p => decide (p.1 ≠ old))) k) = if k = old then none else f.get? k := by
  have := Dict.get?_del f old k
  unfold Dict.del at this
  rw [this]
  by_cases h : k = old
  · subst h; simp
  · simp [h, Ne.symm h]

theorem without_wf {f : Fields} (h : f.WF) (old : Str) : Dict.WF (f.filter (fun p => decide (p.1 ≠ old))) := by
  have := Dict.WF.del h old
  exact this

theorem replaceOne_get {old new : Str} {conv : Attr → Option Attr} {f g : Fields} (hf : f.WF) (h : replaceOne old new conv f = some g) :
    ∃ x y, f.get? old = some x ∧ conv x = some y ∧
      ∀ k, g.get? k = (if k = old then none else f.get? k).or (if k = new then some y else none) := by
  unfold replaceOne at h
  cases hx : f.get? old with
  | none => simp [hx] at h
  | some x =>
    cases hy : conv x with
    | none => simp [hx, hy] at h
    | some y =>
      simp only [hx, hy, Option.bind_eq_bind, Option.bind_some, pure, Option.some.injEq] at h
      subst h
      refine ⟨x, y, rfl, hy, fun k => ?_⟩
      rw [get_merge _ _ (without_wf hf old), get_without]
      congr 1
      simp only [Dict.get?]
      by_cases hk : new = k
      · subst hk; simp
      · simp [hk, Ne.symm hk]

theorem merge_wf {ν : Type} {a b : Dict Str ν} (h : a.WF) : (merge a b).WF := Dict.foldl_set_wf _ _ h

theorem replaceOne_wf {old new : Str} {conv : Attr → Option Attr} {f g : Fields} (h : replaceOne old new conv f = some g) : g.WF := by
  unfold replaceOne at h
  cases hx : f.get? old with
  | none => simp [hx] at h
  | some x =>
    cases hy : conv x with
    | none => simp [hx, hy] at h
    | some y =>
      simp only [hx, hy, Option.bind_eq_bind, Option.bind_some, pure, Option.some.injEq] at h
      subst h
      exact merge_wf (by simp [Dict.WF, Dict.keys])

theorem replaceOne_some {old new : Str} {conv : Attr → Option Attr} {f : Fields} :
    (∃ g, replaceOne old new conv f = some g) ↔ ∃ x y, f.get? old = some x ∧ conv x = some y := by
  unfold replaceOne
  cases hx : f.get? old with
  | none => simp
  | some x => cases hy : conv x <;> simp [hy]

theorem replaceAll_cons (old new : Str) (conv : Attr → Option Attr) (k : Str) (f : Fields) (r : Dict Str Fields) :
    replaceAll old new conv ((k, f) :: r) = (replaceOne old new conv f).bind fun f' =>
      (replaceAll old new conv r).bind fun r' => some ((k, f') :: r') := rfl

theorem replaceAll_rel {old new : Str} {conv : Attr → Option Attr} : ∀ {l r : Dict Str Fields},
    replaceAll old new conv l = some r ↔
      List.Forall₂ (fun p q => p.1 = q.1 ∧ replaceOne old new conv p.2 = some q.2) l r
  | [], r => by
    cases r <;> simp [replaceAll]
  | (k, f) :: l, r => by
    unfold replaceAll
    cases hf : replaceOne old new conv f with
    | none =>
      constructor
      · intro h; simp at h
      · intro h; cases h with | cons h _ => rw [hf] at h; exact absurd h.2 (by simp)
    | some f' =>
      have ih := @replaceAll_rel old new conv l
      cases hl : replaceAll old new conv l with
      | none =>
        constructor
        · intro h; simp at h
        · intro h; cases h with | cons _ h => rw [ih.2 h] at hl; cases hl
      | some r' =>
        have h' := ih.1 hl
        constructor
        · intro h
          simp only [Option.bind_eq_bind, Option.bind_some, pure, Option.some.injEq] at h
          subst h
          exact .cons ⟨rfl, hf⟩ h'
        · intro h
          cases h with
          | @cons _ q _ s h1 h2 =>
            have := ih.2 h2
            rw [hl] at this
            cases this
            have e := h1.2
            rw [hf] at e
            cases e
            obtain ⟨a, g⟩ := q
            obtain rfl : k = a := h1.1
            simp

theorem rel_keys {P : Fields → Fields → Prop} {l r : Dict Str Fields}
    (h : List.Forall₂ (fun p q => p.1 = q.1 ∧ P p.2 q.2) l r) : r.keys = l.keys := by
  induction h with
  | nil => rfl
  | cons h _ ih => simp only [Dict.keys, List.map_cons] at ih ⊢; rw [ih, h.1]

theorem rel_get {P : Fields → Fields → Prop} {l r : Dict Str Fields}
    (h : List.Forall₂ (fun p q => p.1 = q.1 ∧ P p.2 q.2) l r) (k : Str) :
    (l.get? k = none ∧ r.get? k = none) ∨ ∃ f g, (k, f) ∈ l ∧ l.get? k = some f ∧ r.get? k = some g ∧ P f g := by
  induction h with
  | nil => exact .inl ⟨rfl, rfl⟩
  | @cons p q l r h _ ih =>
    obtain ⟨a, f⟩ := p
    obtain ⟨b, g⟩ := q
    obtain ⟨rfl, h⟩ : a = b ∧ P f g := h
    rw [Dict.get?_cons, Dict.get?_cons]
    by_cases hk : a = k
    · subst hk
      exact .inr ⟨f, g, by simp, by simp, by simp, h⟩
    · rw [if_neg hk, if_neg hk]
      rcases ih with ih | ⟨f', g', h1, h2⟩
      · exact .inl ih
      · exact .inr ⟨f', g', by simp [h1], h2⟩

theorem typeOfMode_iff {x y : Attr} : typeOfMode x = some y ↔ ∃ m t, x = .text m ∧ y = .ty t ∧ Reads m t := by
  cases x with
  | ty t => simp [typeOfMode]
  | other s => simp [typeOfMode]
  | text s =>
    have look : ∀ t, Dict.get? modeTypes s = some t ↔ Reads s t := by
      intro t
      unfold modeTypes
      rw [Dict.get?_cons, Dict.get?_cons, Dict.get?_cons, Dict.get?_cons]
      unfold Reads
      by_cases h1 : "readInt".toList = s
      · subst h1; rw [if_pos rfl]; cases t <;> decide
      by_cases h2 : "readDouble".toList = s
      · subst h2; rw [if_neg h1, if_pos rfl]; cases t <;> decide
      by_cases h3 : "readString".toList = s
      · subst h3; rw [if_neg h1, if_neg h2, if_pos rfl]; cases t <;> decide
      by_cases h4 : "readDoubleArray".toList = s
      · subst h4; rw [if_neg h1, if_neg h2, if_neg h3, if_pos rfl]; cases t <;> decide
      rw [if_neg h1, if_neg h2, if_neg h3, if_neg h4]
      constructor
      · intro h; exact absurd h nofun
      · rintro (h | h | h | h)
        · exact absurd h.1.symm h1
        · exact absurd h.1.symm h2
        · exact absurd h.1.symm h3
        · exact absurd h.1.symm h4
    unfold typeOfMode
    constructor
    · intro h
      obtain ⟨t, ht, rfl⟩ := Option.map_eq_some_iff.1 h
      exact ⟨s, t, rfl, rfl, (look t).1 ht⟩
    · rintro ⟨m, t, hm, rfl, h⟩
      cases hm
      exact Option.map_eq_some_iff.2 ⟨t, (look t).2 h, rfl⟩

theorem modeOfType_of {m : Str} {t : Ty} (h : Reads m t) : modeOfType (.ty t) = some (.text m) := by
  rcases h with ⟨rfl, rfl⟩ | ⟨rfl, rfl⟩ | ⟨rfl, rfl⟩ | ⟨rfl, rfl⟩ <;> decide

/-! ## `ConfigurationC` -/

/-- **C124**, definitions.  The definitions of a source file can be used exactly if each parameter is read by one of the four
functions; then the parameters are those of the file, in its order, each has the type of what is read in place of the function,
and everything else about it is as in the file. -/
theorem c124_definitions (l : Dict Str Fields) (hl : Loaded l) :
    ((∃ d, standardize l = some d) ↔ ∀ p ∈ l, ∃ m t, p.2.get? "mode".toList = some (.text m) ∧ Reads m t) ∧
    ∀ d, standardize l = some d → d.keys = l.keys ∧ ∀ key f, l.get? key = some f →
      ∃ g m t, d.get? key = some g ∧ f.get? "mode".toList = some (.text m) ∧ Reads m t ∧
        g.get? "type".toList = some (.ty t) ∧ g.get? "mode".toList = none ∧
        ∀ k, k ≠ "type".toList → k ≠ "mode".toList → g.get? k = f.get? k := by
  refine ⟨?_, ?_⟩
  · have key : (∃ d, standardize l = some d) ↔ ∀ p ∈ l, ∃ g, replaceOne "mode".toList "type".toList typeOfMode p.2 = some g := by
      unfold standardize
      clear hl
      induction l with
      | nil => simp [replaceAll]
      | cons p l ih =>
        obtain ⟨k, f⟩ := p
        rw [List.forall_mem_cons, ← ih, replaceAll_cons]
        cases hf : replaceOne "mode".toList "type".toList typeOfMode f with
        | none => exact ⟨fun ⟨_, h⟩ => absurd h nofun, fun ⟨⟨_, h⟩, _⟩ => absurd h nofun⟩
        | some f' =>
          cases hr : replaceAll "mode".toList "type".toList typeOfMode l with
          | none => exact ⟨fun ⟨_, h⟩ => absurd h nofun, fun ⟨_, _, h⟩ => absurd h nofun⟩
          | some r => exact ⟨fun _ => ⟨⟨_, rfl⟩, _, rfl⟩, fun _ => ⟨_, rfl⟩⟩
    rw [key]
    refine forall₂_congr (fun p _ => ?_)
    rw [replaceOne_some]
    constructor
    · rintro ⟨x, y, hx, hy⟩
      obtain ⟨m, t, rfl, rfl, h⟩ := typeOfMode_iff.1 hy
      exact ⟨m, t, hx, h⟩
    · rintro ⟨m, t, hx, h⟩
      exact ⟨_, .ty t, hx, typeOfMode_iff.2 ⟨m, t, rfl, rfl, h⟩⟩
  · intro d hd
    have hr := replaceAll_rel.1 hd
    refine ⟨rel_keys (P := fun f g => replaceOne _ _ _ f = some g) hr, fun key f hf => ?_⟩
    rcases rel_get (P := fun f g => replaceOne _ _ _ f = some g) hr key with h | ⟨f', g, hm, h1, h2, h3⟩
    · rw [hf] at h; exact absurd h.1 (by simp)
    · rw [hf] at h1
      cases h1
      obtain ⟨x, y, hx, hy, hg⟩ := replaceOne_get (hl.items _ hm) h3
      obtain ⟨m, t, rfl, rfl, h⟩ := typeOfMode_iff.1 hy
      have hu : f.get? "type".toList = none := Dict.get?_eq_none.2 (hl.untyped _ hm)
      refine ⟨g, m, t, h2, hx, h, ?_, ?_, ?_⟩
      · rw [hg, if_neg (by decide), hu, if_pos rfl]; rfl
      · rw [hg, if_pos rfl, if_neg (by decide)]; rfl
      · intro k hk hk'
        rw [hg, if_neg hk', if_neg hk, Option.or_none]

/-- A parameter of the reference file. -/
def sampleParameter : Fields :=
  [("defaultVal".toList, .text "1".toList), ("maxVal".toList, .text "3".toList), ("minVal".toList, .text "1".toList),
    ("mode".toList, .text "readInt".toList)]

def sampleLoaded : Dict Str Fields := [("adiabaticChangeAlg".toList, sampleParameter)]

theorem sampleLoaded_ok : Loaded sampleLoaded where
  keys := by unfold Dict.WF; decide +kernel
  items := by intro p hp; rw [List.mem_singleton.1 hp]; unfold Dict.WF; decide +kernel
  untyped := by intro p hp; rw [List.mem_singleton.1 hp]; decide +kernel

example : ∃ d, standardize sampleLoaded = some d := by
  rw [(c124_definitions _ sampleLoaded_ok).1]
  intro p hp
  rw [List.mem_singleton.1 hp]
  exact ⟨"readInt".toList, .int, by decide +kernel, .inl ⟨rfl, rfl⟩⟩

/-- **C124**, the raw format gives what was loaded, for every parameter, and the default for others. -/
theorem c124_raw (l d : Dict Str Fields) (hl : Loaded l) (hd : standardize l = some d) (metadata : Dict Str Fields) (key : Str)
    (default : Option Fields) :
    (∀ f, l.get? key = some f → ∃ g, viewParameter d metadata key default (some "raw".toList) = .ok (some g) ∧ SameItems g f) ∧
    (l.get? key = none → viewParameter d metadata key default (some "raw".toList) = .ok default) := by
  have hr := replaceAll_rel.1 hd
  have back : ∃ r, replaceAll "type".toList "mode".toList modeOfType d = some r ∧
      List.Forall₂ (fun p q => p.1 = q.1 ∧ SameItems q.2 p.2) l r := by
    obtain ⟨hk, hi, hu⟩ := hl
    clear hk hd
    induction hr with
    | nil => exact ⟨[], rfl, .nil⟩
    | @cons p q l d h _ ih =>
      obtain ⟨r, h1, h2⟩ := ih (fun p hp => hi p (by simp [hp])) (fun p hp => hu p (by simp [hp]))
      obtain ⟨k, f⟩ := p
      obtain ⟨k', g⟩ := q
      obtain ⟨rfl, h⟩ : k = k' ∧ _ := h
      obtain ⟨x, y, hx, hy, hg⟩ := replaceOne_get (hi _ (by simp)) h
      obtain ⟨m, t, rfl, rfl, hm⟩ := typeOfMode_iff.1 hy
      have hu' : f.get? "type".toList = none := Dict.get?_eq_none.2 (hu (k, f) (by simp))
      have ht : g.get? "type".toList = some (.ty t) := by rw [hg, if_neg (by decide), hu', if_pos rfl]; rfl
      obtain ⟨f', hf'⟩ := (replaceOne_some (old := "type".toList) (new := "mode".toList) (conv := modeOfType) (f := g)).2
        ⟨_, _, ht, modeOfType_of hm⟩
      obtain ⟨x', y', hx', hy', hg'⟩ := replaceOne_get (replaceOne_wf h) hf'
      rw [ht] at hx'
      cases hx'
      rw [modeOfType_of hm] at hy'
      cases hy'
      refine ⟨(k, f') :: r, by rw [replaceAll_cons, hf', h1]; rfl, .cons ⟨rfl, fun j => ?_⟩ h2⟩
      show f'.get? j = f.get? j
      rw [hg', hg]
      by_cases h1 : j = "type".toList
      · subst h1
        rw [if_pos rfl, if_neg (by decide), hu']; rfl
      · rw [if_neg h1, if_neg h1, Option.or_none]
        by_cases h2 : j = "mode".toList
        · subst h2
          rw [if_pos rfl, if_pos rfl, hx]; rfl
        · rw [if_neg h2, if_neg h2, Option.or_none]
  obtain ⟨r, hb, hb'⟩ := back
  have hv : viewParameter d metadata key default (some "raw".toList) =
      .ok (match r.get? key with | some f => some f | none => default) := by
    unfold viewParameter
    rw [if_pos rfl, hb]
    rfl
  rw [hv]
  rcases rel_get (P := fun f g => SameItems g f) hb' key with h | ⟨f, g, _, h1, h2, h3⟩
  · rw [h.1, h.2]
    exact ⟨nofun, fun _ => rfl⟩
  · rw [h1, h2]
    refine ⟨fun f' hf' => ?_, nofun⟩
    cases hf'
    exact ⟨g, rfl, h3⟩

example (metadata : Dict Str Fields) (d : Dict Str Fields) (hd : standardize sampleLoaded = some d) :
    ∃ g, viewParameter d metadata "adiabaticChangeAlg".toList none (some "raw".toList) = .ok (some g) ∧ SameItems g sampleParameter :=
  (c124_raw _ d sampleLoaded_ok hd metadata _ _).1 _ (by decide +kernel)

theorem nameTypes_spec : ∀ {f : Fields}, (∀ x, ("type".toList, x) ∈ f → ∃ t, x = .ty t) →
    ∃ g, nameTypes f = some g ∧ g.keys = f.keys ∧
      ∀ k, g.get? k = (f.get? k).map (fun x => if k = "type".toList then match x with | .ty t => .text t.pyName | y => y else x)
  | [], _ => ⟨[], rfl, rfl, fun _ => rfl⟩
  | (a, x) :: f, h => by
    obtain ⟨g, h1, h2, h3⟩ := nameTypes_spec (f := f) (fun x hx => h x (List.mem_cons_of_mem _ hx))
    by_cases ha : a = "type".toList
    · subst ha
      obtain ⟨t, rfl⟩ := h x (by simp)
      refine ⟨("type".toList, .text t.pyName) :: g, by simp [nameTypes, named, h1], by
        simp only [Dict.keys, List.map_cons] at h2 ⊢; rw [h2], fun k => ?_⟩
      rw [Dict.get?_cons, Dict.get?_cons, h3]
      by_cases hk : "type".toList = k
      · subst hk; rw [if_pos rfl, if_pos rfl]; rfl
      · rw [if_neg hk, if_neg hk]
    · refine ⟨(a, x) :: g, by
        have : named (a, x) = some (a, x) := if_neg ha
        unfold nameTypes
        rw [this, h1]
        rfl, by
        simp only [Dict.keys, List.map_cons] at h2 ⊢; rw [h2], fun k => ?_⟩
      rw [Dict.get?_cons, Dict.get?_cons, h3]
      by_cases hk : a = k
      · subst hk
        rw [if_pos rfl, if_pos rfl, Option.map_some, if_neg ha]
      · rw [if_neg hk, if_neg hk]

/-- **C124**, the full format names the type and adds the metadata, which has precedence; for what is not defined and no
default it is a `TypeError`. -/
theorem c124_full (l d : Dict Str Fields) (hl : Loaded l) (hd : standardize l = some d) (metadata : Dict Str Fields) (key : Str)
    (hm : ∀ m, metadata.get? key = some m → m.WF ∧ "type".toList ∉ m.keys) :
    (∀ f, l.get? key = some f → ∃ g t m, viewParameter d metadata key none (some "full".toList) = .ok (some g) ∧
      f.get? "mode".toList = some (.text m) ∧ Reads m t ∧ g.get? "type".toList = some (.text t.pyName) ∧
      ∀ k, k ≠ "type".toList → k ≠ "mode".toList → g.get? k = (((metadata.get? key).getD []).get? k).or (f.get? k)) ∧
    (l.get? key = none → viewParameter d metadata key none (some "full".toList) = .error .type) := by
  obtain ⟨hk, hi⟩ := (c124_definitions l hl).2 d hd
  have hm' : Dict.WF ((metadata.get? key).getD []) ∧ "type".toList ∉ Dict.keys ((metadata.get? key).getD []) := by
    cases h : metadata.get? key with
    | none => exact ⟨Dict.WF.nil, by simp [Dict.keys]⟩
    | some m => exact hm m h
  refine ⟨fun f hf => ?_, fun hn => ?_⟩
  · obtain ⟨g, m, t, h1, h2, h3, h4, h5, h6⟩ := hi key f hf
    have hwf : g.WF := by
      rcases rel_get (P := fun f g => replaceOne _ _ _ f = some g) (replaceAll_rel.1 hd) key with h | ⟨_, g', _, _, h, h'⟩
      · rw [h.2] at h1; cases h1
      · rw [h1] at h
        cases h
        exact replaceOne_wf h'
    have ht : (merge g ((metadata.get? key).getD [])).get? "type".toList = some (.ty t) := by
      rw [get_merge _ _ hm'.1, Dict.get?_eq_none.2 hm'.2, h4]; rfl
    obtain ⟨g', n1, _, n3⟩ := nameTypes_spec (f := merge g ((metadata.get? key).getD [])) (fun x hx =>
      ⟨t, Option.some.inj ((Dict.get?_of_mem (merge_wf hwf) hx).symm.trans ht)⟩)
    refine ⟨g', t, m, ?_, h2, h3, ?_, fun k hk hk' => ?_⟩
    · unfold viewParameter
      rw [if_neg (by decide), if_pos rfl, h1]
      dsimp only
      rw [n1]
    · rw [n3, ht]; rfl
    · have plain : ∀ o : Option Attr, o.map (fun x => if k = "type".toList then match x with | .ty t => .text t.pyName | y => y
          else x) = o := by
        intro o
        cases o with
        | none => rfl
        | some x => exact congrArg some (if_neg hk)
      rw [n3, plain, get_merge _ _ hm'.1, h6 k hk hk']
  · have : d.get? key = none := by
      rw [Dict.get?_eq_none, hk, ← Dict.get?_eq_none]; exact hn
    unfold viewParameter
    rw [if_neg (by decide), if_pos rfl, this]

/-- **C124**, without a format the definition or the default is given; any other format is `NotImplementedError`. -/
theorem c124_formats (d metadata : Dict Str Fields) (key : Str) (default : Option Fields) :
    (∀ f, d.get? key = some f → viewParameter d metadata key default none = .ok (some f)) ∧
    (d.get? key = none → viewParameter d metadata key default none = .ok default) ∧
    ∀ format, format ≠ [] → format ≠ "raw".toList → format ≠ "full".toList →
      viewParameter d metadata key default (some format) = .error .notImplemented := by
  refine ⟨fun f hf => ?_, fun hn => ?_, fun s h0 h1 h2 => ?_⟩
  · unfold viewParameter
    rw [if_neg nofun, if_neg nofun, if_pos (.inl rfl), hf]
  · unfold viewParameter
    rw [if_neg nofun, if_neg nofun, if_pos (.inl rfl), hn]
  · unfold viewParameter
    rw [if_neg (by simpa using h1), if_neg (by simpa using h2), if_neg (by simpa using h0)]

example (metadata d : Dict Str Fields) (key : Str) :
    viewParameter d metadata key none (some "text".toList) = .error .notImplemented :=
  (c124_formats d metadata key none).2.2 _ (by decide) (by decide) (by decide)

/-! ## Dictionaries and lines -/

/-- **C124**, `todict` has an item for every key, with what `get` gives for it, in the order of the keys or sorted. -/
theorem c124_dict {ν : Type} (get : Str → Except ViewErr ν) (keys : List Str) (sort : Bool) :
    ((∃ d, toDict get (dictKeys keys sort) = .ok d) ↔ ∀ k ∈ keys, ∃ x, get k = .ok x) ∧
    ∀ d, toDict get (dictKeys keys sort) = .ok d → (∀ p ∈ d, get p.1 = .ok p.2) ∧ d.keys.Perm keys ∧
      (sort = false → d.keys = keys) ∧ (sort = true → d.keys.Pairwise (fun a b => strLe a b = true)) := by
  have hp : (dictKeys keys sort).Perm keys := by
    unfold dictKeys
    cases sort
    · exact .refl _
    · exact sorted_perm keys
  have total : ∀ ks : List Str, (∃ d, toDict get ks = .ok d) ↔ ∀ k ∈ ks, ∃ x, get k = .ok x := by
    intro ks
    induction ks with
    | nil => simp [toDict]
    | cons k ks ih =>
      have step : toDict get (k :: ks) = (get k).bind fun x => (toDict get ks).bind fun r => .ok ((k, x) :: r) := rfl
      rw [List.forall_mem_cons, ← ih, step]
      cases hk : get k with
      | error e => exact ⟨fun ⟨_, h⟩ => absurd h nofun, fun ⟨⟨_, h⟩, _⟩ => absurd h nofun⟩
      | ok x =>
        cases hr : toDict get ks with
        | error e => exact ⟨fun ⟨_, h⟩ => absurd h nofun, fun ⟨_, _, h⟩ => absurd h nofun⟩
        | ok r => exact ⟨fun _ => ⟨⟨_, rfl⟩, _, rfl⟩, fun _ => ⟨_, rfl⟩⟩
  have spec : ∀ (ks : List Str) d, toDict get ks = .ok d → (∀ p ∈ d, get p.1 = .ok p.2) ∧ d.keys = ks := by
    intro ks
    induction ks with
    | nil => intro d h; cases h; exact ⟨nofun, rfl⟩
    | cons k ks ih =>
      intro d h
      unfold toDict at h
      cases hk : get k with
      | error e => rw [hk] at h; cases h
      | ok x =>
        cases hr : toDict get ks with
        | error e => rw [hk, hr] at h; cases h
        | ok r =>
          rw [hk, hr] at h
          cases h
          obtain ⟨h1, h2⟩ := ih r hr
          refine ⟨?_, by simp only [Dict.keys, List.map_cons] at h2 ⊢; rw [h2]⟩
          intro p hp
          rcases List.mem_cons.1 hp with rfl | hp
          · exact hk
          · exact h1 p hp
  refine ⟨(total _).trans ⟨fun h k hk => h k (hp.mem_iff.2 hk), fun h k hk => h k (hp.mem_iff.1 hk)⟩, fun d hd => ?_⟩
  obtain ⟨h1, h2⟩ := spec _ d hd
  refine ⟨h1, h2 ▸ hp, fun h => ?_, fun h => ?_⟩
  · subst h; exact h2
  · subst h; rw [h2]; exact sorted_pairwise keys

/-- **C124**, lines.  A parameter with attributes is shown on one line with its name, one line per attribute, indented twice
as far, and one line that closes it, if no name and value has a newline character in it. -/
theorem c124_lines (indent : Nat) (rep : Str → Str) (name : Str) (f : List (Str × Attr)) (hf : f ≠ [])
    (hr : ∀ s, '\n' ∉ rep s) (ht : ∀ p ∈ f, '\n' ∉ fieldText rep p.1 p.2) :
    splitOn '\n' (toLine indent rep name (.mapping f)) =
      [List.replicate indent ' ' ++ rep name ++ ": {".toList] ++
      f.map (fun p => List.replicate (indent + indent) ' ' ++ rep p.1 ++ ": ".toList ++ fieldText rep p.1 p.2 ++ [',']) ++
      [List.replicate indent ' ' ++ ['}']] := by
  have hpad : '\n' ∉ List.replicate indent ' ' := by simp
  have h1 : '\n' ∉ List.replicate indent ' ' ++ rep name ++ ": {".toList := by
    simp only [List.mem_append, not_or]
    exact ⟨⟨hpad, hr name⟩, by decide⟩
  have h3 : '\n' ∉ List.replicate indent ' ' ++ ['}'] := by
    simp only [List.mem_append, not_or]
    exact ⟨hpad, by decide⟩
  have h2 : ∀ q ∈ f.map (fun p => List.replicate (indent + indent) ' ' ++ rep p.1 ++ ": ".toList ++ fieldText rep p.1 p.2 ++ [',']),
      '\n' ∉ q := by
    intro q hq
    obtain ⟨p, hp, rfl⟩ := List.mem_map.1 hq
    simp only [List.mem_append, not_or]
    exact ⟨⟨⟨⟨by simp, hr _⟩, by decide⟩, ht p hp⟩, by decide⟩
  have joined : ∀ (l : List Str) (x y : Str), l ≠ [] → joinWith '\n' ([x] ++ l ++ [y]) = x ++ '\n' :: joinWith '\n' l ++ '\n' :: y := by
    intro l x y hl
    have tail : ∀ (l : List Str), l ≠ [] → joinWith '\n' (l ++ [y]) = joinWith '\n' l ++ '\n' :: y := by
      intro l
      induction l with
      | nil => exact fun h => absurd rfl h
      | cons a l ih =>
        intro _
        cases l with
        | nil => simp [joinWith]
        | cons b l =>
          have := ih (by simp)
          simp only [List.cons_append, joinWith] at this ⊢
          rw [this, List.append_assoc, List.cons_append]
    cases l with
    | nil => exact absurd rfl hl
    | cons a l =>
      have := tail (a :: l) (by simp)
      simp only [List.cons_append, List.nil_append, joinWith] at this ⊢
      rw [this, List.append_assoc, List.cons_append]
  have e : toLine indent rep name (.mapping f) = joinWith '\n'
      ([List.replicate indent ' ' ++ rep name ++ ": {".toList] ++
      f.map (fun p => List.replicate (indent + indent) ' ' ++ rep p.1 ++ ": ".toList ++ fieldText rep p.1 p.2 ++ [',']) ++
      [List.replicate indent ' ' ++ ['}']]) := by
    rw [joined _ _ _ (by simpa using hf)]
    unfold toLine unlines
    have : fieldLine (List.replicate indent ' ') rep (fieldText rep) =
        fun p => List.replicate (indent + indent) ' ' ++ rep p.1 ++ ": ".toList ++ fieldText rep p.1 p.2 ++ [','] := by
      funext p
      unfold fieldLine
      rw [List.replicate_add]
      rfl
    dsimp only
    rw [this]
    simp
  rw [e, splitOn_join (by simp)]
  intro p hp
  simp only [List.mem_append, List.mem_singleton] at hp
  rcases hp with (rfl | hp) | rfl
  · exact h1
  · exact h2 p hp
  · exact h3

theorem splitOn_two (d : Char) (x y : Str) : splitOn d (x ++ d :: y) = splitOn d x ++ splitOn d y := by
  induction x with
  | nil => simp [splitOn]
  | cons c x ih =>
    rw [List.cons_append, splitOn, splitOn]
    by_cases h : c = d
    · rw [if_pos h, if_pos h, ih, List.cons_append]
    · rw [if_neg h, if_neg h, ih]
      cases hx : splitOn d x with
      | nil => exact absurd hx (splitOn_ne d x)
      | cons p ps => rfl

theorem splitOn_joined (d : Char) : ∀ l : List Str, l ≠ [] → splitOn d (joinWith d l) = l.flatMap (splitOn d)
  | [], h => absurd rfl h
  | [p], _ => by simp [joinWith]
  | p :: q :: l, _ => by
    rw [joinWith, splitOn_two, splitOn_joined d (q :: l) (by simp)]; simp

/-- **C124**, the whole text.  The lines of the text of an object are a line with its title and an opening brace, the lines of
each of its parameters in order, the last of which ends in a comma, and a line with a closing brace. -/
theorem c124_text (title : Str) (indent : Nat) (rep : Str → Str) (items : List (Str × Shown)) (hi : items ≠ [])
    (ht : '\n' ∉ title) :
    splitOn '\n' (toText title indent rep items) =
      [title ++ " = {".toList] ++
      items.flatMap (fun p => splitOn '\n' (toLine indent rep p.1 p.2 ++ [','])) ++
      [['}']] := by
  have e : toText title indent rep items = (title ++ " = {".toList) ++ '\n' ::
      (joinWith '\n' (items.map (fun p => toLine indent rep p.1 p.2 ++ [','])) ++ '\n' :: ['}']) := by
    unfold toText toLines unlines
    rw [List.map_map]
    simp [Function.comp_def]
  have h1 : '\n' ∉ title ++ " = {".toList := by
    rw [List.mem_append, not_or]; exact ⟨ht, by decide⟩
  rw [e, splitOn_two, splitOn_two, splitOn_joined _ _ (by simpa using hi), splitOn_none h1, List.flatMap_map,
    show splitOn '\n' ['}'] = [['}']] by decide, List.append_assoc]

example : splitOn '\n' (toText "T".toList 1 id [("a".toList, .plain "1".toList), ("b".toList, .plain "2".toList)]) =
    ["T = {", " a: {", "1", " },", " b: {", "2", " },", "}"].map String.toList := by decide

/-- **C124**, the names of types in the texts are those of Python's built-in types. -/
theorem c124_type_names : [Ty.int, Ty.float, Ty.str, Ty.list].map Ty.pyName =
    ["int", "float", "str", "list"].map String.toList ∧ Function.Injective Ty.pyName := by
  refine ⟨rfl, fun a b h => ?_⟩
  revert h
  cases a <;> cases b <;> decide

/-- `repr` of text without quotation marks and other special characters. -/
def plainRepr (s : Str) : Str := '\'' :: (s.filter (fun c => isWord c)) ++ ['\'']

example : toLine 2 plainRepr "useDrift".toList (.mapping [("type".toList, .text "int".toList), ("unit".toList, .text "1".toList)]) =
    "  'useDrift': {\n    'type': int,\n    'unit': '1',\n  }".toList := by decide +kernel

/-! ## `BaseTypesH` -/

variable {R : Type} [Field R]

/-- A cache that holds only what the definitions give. -/
def Fresh (H : Header R) (cache : Dict Str R) : Prop :=
  ∀ k x, cache.get? k = some x → (H.definitions.get? k).isSome ∧ computeConstant H.numbers H.definitions H.types H.fuel k = .ok x

theorem computeConstant_missing {N : Numbers R} {defs : Dict Str Str} {types : Str → Option Ty} {n : Nat} {key : Str}
    (h : defs.get? key = none) : computeConstant N defs types (n + 1) key = .error .key := by
  simp [computeConstant, h]

theorem read_fresh {H : Header R} {cache : Dict Str R} (hc : Fresh H cache) (key : Str) :
    Fresh H (readConstantFrom H cache key).1 ∧
      (readConstantFrom H cache key).2 = (readConstantFrom H [] key).2 := by
  unfold readConstantFrom
  cases h : cache.get? key with
  | some x =>
    obtain ⟨h1, h2⟩ := hc key x h
    obtain ⟨s, hs⟩ := Option.isSome_iff_exists.1 h1
    refine ⟨hc, ?_⟩
    simp [Dict.get?, hs, h2]
  | none =>
    cases hd : H.definitions.get? key with
    | none => exact ⟨hc, by simp [Dict.get?]⟩
    | some s =>
      cases hx : computeConstant H.numbers H.definitions H.types H.fuel key with
      | error e => exact ⟨hc, by simp [Dict.get?]⟩
      | ok x =>
        refine ⟨?_, by simp [Dict.get?]⟩
        intro k y hk
        dsimp only at hk
        rw [Dict.get?_set] at hk
        by_cases e : key = k
        · subst e
          rw [if_pos rfl] at hk
          cases hk
          exact ⟨by simp [hd], hx⟩
        · rw [if_neg e] at hk
          exact hc k y hk

/-- **C124**, constants.  Whatever has been asked for before, successfully or not, a constant has the value that a fresh object
gives. -/
theorem c124_history (H : Header R) (ks : List Str) :
    (readAll H [] ks).2 = ks.map (fun k => (readConstantFrom H [] k).2) ∧
      ∀ k, (readConstantFrom H (readAll H [] ks).1 k).2 = (readConstantFrom H [] k).2 := by
  have run : ∀ (ks : List Str) (cache : Dict Str R), Fresh H cache → Fresh H (readAll H cache ks).1 ∧
      (readAll H cache ks).2 = ks.map (fun k => (readConstantFrom H [] k).2) := by
    intro ks
    induction ks with
    | nil => exact fun cache hc => ⟨hc, rfl⟩
    | cons k ks ih =>
      intro cache hc
      obtain ⟨h1, h2⟩ := read_fresh hc k
      obtain ⟨h3, h4⟩ := ih _ h1
      unfold readAll
      exact ⟨h3, by rw [List.map_cons, ← h2, ← h4]⟩
  obtain ⟨h1, h2⟩ := run ks [] nofun
  exact ⟨h2, fun k => (read_fresh h1 k).2⟩

/-- **C124**, formats of constants, after any accesses: the raw format is the text in the file; without a format and in the
full format the value is given, in the latter with the metadata, where the type is named; what is not defined has the default
value (but metadata all the same); any other format is `NotImplementedError`. -/
theorem c124_constants (H : Header R) (ks : List Str) (key : Str)
    (hm : ∀ m, H.metadata.get? key = some m → m.WF ∧ ∀ x, m.get? "type".toList = some x → ∃ t, x = .ty t) :
    (∀ s, H.definitions.get? key = some s → viewConstant H (readAll H [] ks).1 key (some "raw".toList) = .ok (.text s)) ∧
    (∀ x, (readConstantFrom H [] key).2 = .ok x → viewConstant H (readAll H [] ks).1 key none = .ok (.number x) ∧
      ∃ f, viewConstant H (readAll H [] ks).1 key (some "full".toList) = .ok (.full (some x) f) ∧
        (∀ k, k ≠ "type".toList → f.get? k = ((H.metadata.get? key).getD []).get? k) ∧
        ∀ t, ((H.metadata.get? key).getD []).get? "type".toList = some (.ty t) → f.get? "type".toList = some (.text t.pyName)) ∧
    (H.definitions.get? key = none → viewConstant H (readAll H [] ks).1 key (some "raw".toList) = .ok .default ∧
      viewConstant H (readAll H [] ks).1 key none = .ok .default ∧
      ∃ f, viewConstant H (readAll H [] ks).1 key (some "full".toList) = .ok (.full none f)) ∧
    ∀ format, format ≠ [] → format ≠ "raw".toList → format ≠ "full".toList →
      viewConstant H (readAll H [] ks).1 key (some format) = .error .notImplemented := by
  have hh := (c124_history H ks).2 key
  have names : ∃ f, nameTypes ((H.metadata.get? key).getD []) = some f ∧
      (∀ k, k ≠ "type".toList → f.get? k = ((H.metadata.get? key).getD []).get? k) ∧
        ∀ t, ((H.metadata.get? key).getD []).get? "type".toList = some (.ty t) → f.get? "type".toList = some (.text t.pyName) := by
    have : ∀ m : Fields, (∀ x, ("type".toList, x) ∈ m → ∃ t, x = .ty t) → ∃ f, nameTypes m = some f ∧
        (∀ k, k ≠ "type".toList → f.get? k = m.get? k) ∧
        ∀ t, m.get? "type".toList = some (.ty t) → f.get? "type".toList = some (.text t.pyName) := by
      intro m h
      obtain ⟨g, h1, _, h3⟩ := nameTypes_spec h
      refine ⟨g, h1, fun k hk => ?_, fun t ht => ?_⟩
      · rw [h3]
        cases m.get? k with
        | none => rfl
        | some x => exact congrArg some (if_neg hk)
      · rw [h3, ht]; rfl
    cases h : H.metadata.get? key with
    | none => exact this [] nofun
    | some m => exact this m (fun x hx => (hm m h).2 x (Dict.get?_of_mem (hm m h).1 hx))
  obtain ⟨f, hf, hf1, hf2⟩ := names
  refine ⟨fun s hs => ?_, fun x hx => ?_, fun hn => ?_, fun s h0 h1 h2 => ?_⟩
  · unfold viewConstant
    rw [if_pos rfl, hs]
  · have hp : plainConstant H (readAll H [] ks).1 key = .ok (some x) := by
      unfold plainConstant
      rw [hh, hx]
    refine ⟨?_, f, ?_, hf1, hf2⟩
    · unfold viewConstant
      rw [if_neg nofun, if_neg nofun, if_pos (.inl rfl), hp]
    · unfold viewConstant
      rw [if_neg (by decide), if_pos rfl, hp]
      dsimp only
      rw [hf]
  · have hp : plainConstant H (readAll H [] ks).1 key = .ok none := by
      unfold plainConstant
      rw [hh]
      simp [readConstantFrom, Dict.get?, hn]
    refine ⟨?_, ?_, f, ?_⟩
    · unfold viewConstant
      rw [if_pos rfl, hn]
    · unfold viewConstant
      rw [if_neg nofun, if_neg nofun, if_pos (.inl rfl), hp]
    · unfold viewConstant
      rw [if_neg (by decide), if_pos rfl, hp]
      dsimp only
      rw [hf]
  · unfold viewConstant
    rw [if_neg (by simpa using h1), if_neg (by simpa using h2), if_neg (by simpa using h0)]

/-- A header with one constant. -/
def sampleHeader (N : Numbers R) : Header R :=
  ⟨N, [("MZERO".toList, "12".toList)], fun _ => some .int, [("MZERO".toList, [("type".toList, .ty .int)])], 1⟩

example (N : Numbers R) : viewConstant (sampleHeader N) (readAll (sampleHeader N) [] ["X".toList, "MZERO".toList]).1 "MZERO".toList
    (some "raw".toList) = .ok (.text "12".toList) :=
  (c124_constants (sampleHeader N) _ "MZERO".toList (by
    intro m hm
    obtain rfl : m = [("type".toList, .ty .int)] := (Option.some.inj ((show some _ = _ from hm.symm ▸ rfl) : some m = some _))
    exact ⟨by unfold Dict.WF; decide, fun x hx => ⟨.int, (Option.some.inj hx).symm⟩⟩)).1 _ rfl

end Eprem.Config
