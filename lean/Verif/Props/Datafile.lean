import Verif.Spec.Datafile
import Verif.Props.Exceptions
import Verif.Props.Observer
import Verif.Lemmas.PyDict

/-!
# Views of data files (C80)
-/

namespace Eprem.Datafile

open Eprem Eprem.Exceptions
open Eprem.Symbolic (Str)

variable {α : Type}

/-! ## One mapping -/

/-- What the wrapped getter gives. -/
theorem guarded_eq {β : Type} (get : Str → Except Exc β) (n : Str) :
    guarded get n = match get n with
      | .ok x => .ok (some x)
      | .error .key => .ok none
      | .error e => .error e := by
  unfold guarded compute catchAll
  cases h : get n with
  | ok x => simp [h]
  | error e => cases e <;> simp [h, Dict.keys, Dict.set, Dict.get?]

theorem mapped_ok {β : Type} {get : Str → Except Exc β} : ∀ {names d}, mapped get names = .ok d →
    d.map Prod.fst = names ∧ ∀ p ∈ d, (∃ x, p.2 = some x ∧ get p.1 = .ok x) ∨ (p.2 = none ∧ get p.1 = .error .key)
  | [], d, h => by cases h; simp
  | n :: ns, d, h => by
    simp only [mapped, guarded_eq] at h
    cases hg : get n with
    | error e =>
      rw [hg] at h
      cases e with
      | key =>
        simp only at h
        cases hm : mapped get ns with
        | error e => rw [hm] at h; cases h
        | ok d' =>
          rw [hm] at h
          cases h
          obtain ⟨h1, h2⟩ := mapped_ok hm
          refine ⟨by simp [h1], ?_⟩
          intro p hp
          rcases List.mem_cons.1 hp with rfl | hp
          · exact .inr ⟨rfl, hg⟩
          · exact h2 p hp
      | type => cases h
      | os => cases h
      | nonexistent => cases h
    | ok x =>
      rw [hg] at h
      simp only at h
      cases hm : mapped get ns with
      | error e => rw [hm] at h; cases h
      | ok d' =>
        rw [hm] at h
        cases h
        obtain ⟨h1, h2⟩ := mapped_ok hm
        refine ⟨by simp [h1], ?_⟩
        intro p hp
        rcases List.mem_cons.1 hp with rfl | hp
        · exact .inl ⟨x, rfl, hg⟩
        · exact h2 p hp

theorem present_get {β : Type} {get : Str → Except Exc β} : ∀ (d : List (Str × Option β)),
    (∀ p ∈ d, (∃ x, p.2 = some x ∧ get p.1 = .ok x) ∨ (p.2 = none ∧ get p.1 = .error .key)) →
    ∀ n x, (present d).get? n = some x ↔ n ∈ d.map Prod.fst ∧ get n = .ok x
  | [], _, n, x => by simp [present]
  | (k, some y) :: d, h, n, x => by
    have ih := present_get d (fun p hp => h p (List.mem_cons_of_mem _ hp)) n x
    have hk : get k = .ok y := by
      rcases h _ (List.mem_cons_self ..) with ⟨z, h1, h2⟩ | ⟨h1, _⟩
      · cases h1; exact h2
      · cases h1
    simp only [present, Dict.get?_cons, List.map_cons, List.mem_cons]
    by_cases hn : k = n
    · subst hn
      simp [hk]
    · rw [if_neg hn, ih]
      simp [Ne.symm hn]
  | (k, none) :: d, h, n, x => by
    have ih := present_get d (fun p hp => h p (List.mem_cons_of_mem _ hp)) n x
    have hk : get k = .error .key := by
      rcases h _ (List.mem_cons_self ..) with ⟨z, h1, _⟩ | ⟨_, h2⟩
      · cases h1
      · exact h2
    simp only [present, List.map_cons, List.mem_cons]
    rw [ih]
    constructor
    · rintro ⟨a, b⟩; exact ⟨.inr a, b⟩
    · rintro ⟨rfl | a, b⟩
      · rw [hk] at b; cases b
      · exact ⟨a, b⟩

theorem map_get {β : Type} {get : Str → Except Exc β} {names : List Str} {d : Dict Str β} (h : map get names = .ok d) (n : Str)
    (x : β) : d.get? n = some x ↔ n ∈ names ∧ get n = .ok x := by
  unfold map at h
  cases hm : mapped get names with
  | error e => rw [hm] at h; cases h
  | ok m =>
    rw [hm] at h
    cases h
    obtain ⟨h1, h2⟩ := mapped_ok hm
    rw [present_get m h2, h1]

/-- The mapping fails only where a getter raises another exception. -/
theorem map_error {β : Type} {get : Str → Except Exc β} : ∀ {names : List Str} {e : Exc}, map get names = .error e →
    ∃ n ∈ names, get n = .error e ∧ e ≠ .key := by
  have key : ∀ {names : List Str} {e : Exc}, mapped get names = .error e → ∃ n ∈ names, get n = .error e ∧ e ≠ .key := by
    intro names
    induction names with
    | nil => intro e h; cases h
    | cons n ns ih =>
      intro e h
      simp only [mapped, guarded_eq] at h
      have next : ∀ {v : Option β}, (match mapped get ns with
          | .error e => Except.error e
          | .ok d => .ok ((n, v) :: d)) = .error e → ∃ m ∈ n :: ns, get m = .error e ∧ e ≠ .key := by
        intro v h
        cases hm : mapped get ns with
        | error e' =>
          rw [hm] at h
          cases h
          obtain ⟨m, h1, h2⟩ := ih hm
          exact ⟨m, List.mem_cons_of_mem _ h1, h2⟩
        | ok d => rw [hm] at h; cases h
      cases hg : get n with
      | ok x => rw [hg] at h; exact next h
      | error e' =>
        rw [hg] at h
        cases e' with
        | key => exact next h
        | type => cases h; exact ⟨n, List.mem_cons_self .., hg, by simp⟩
        | os => cases h; exact ⟨n, List.mem_cons_self .., hg, by simp⟩
        | nonexistent => cases h; exact ⟨n, List.mem_cons_self .., hg, by simp⟩
  intro names e h
  unfold map at h
  cases hm : mapped get names with
  | error e' => rw [hm] at h; cases h; exact key hm
  | ok m => rw [hm] at h; cases h

/-! ## One file -/

theorem hasUnit_iff (v : Var α) (u : Option Str) : HasUnit v u ↔ unitOf v = u := by
  unfold HasUnit unitOf
  cases v.unit with
  | some x => simp [eq_comm]
  | none => cases v.units <;> simp [eq_comm]

theorem getArray_ok {f : File α} {n : Str} {a : Arr α} : getArray f n = .ok a ↔
    ∃ v, f.vars.get? n = some v ∧ a.data = v.data ∧ a.dims = v.dims ∧ HasUnit v a.unit := by
  unfold getArray getUnit getVariable
  cases f.vars.get? n with
  | none => simp
  | some v =>
    cases a
    simp [hasUnit_iff]
    tauto

theorem getScalar_ok {f : File α} {n : Str} {a : Scal α} : getScalar f n = .ok a ↔
    ∃ v, f.vars.get? n = some v ∧ v.shape = [] ∧ a.value = v.data ∧ HasUnit v a.unit := by
  unfold getScalar getUnit getVariable
  cases f.vars.get? n with
  | none => simp
  | some v =>
    cases a
    by_cases hs : v.shape = []
    · simp [hs, hasUnit_iff]
      tauto
    · simp [hs]

theorem someUnit_ok {f : File α} {n u : Str} : someUnit f n = .ok u ↔ ∃ v, f.vars.get? n = some v ∧ HasUnit v (some u) := by
  unfold someUnit getUnit getVariable
  cases f.vars.get? n with
  | none => simp
  | some v =>
    simp only [hasUnit_iff, Option.some.injEq, exists_eq_left']
    cases unitOf v <;> simp

theorem getAxis_ok {f : File α} {n : Str} {k : Nat} : getAxis f n = .ok k ↔ f.dimensions.get? n = some k := by
  unfold getAxis
  cases f.dimensions.get? n <;> simp

/-- The value of a property without caches. -/
def direct (f : File α) : Kind → Except Exc (Out α)
  | .units => (map (someUnit f) (arrayNames ++ scalarNames)).map .units
  | .arrays => (map (getArray f) arrayNames).map .arrays
  | .scalars => (map (getScalar f) scalarNames).map .scalars
  | .sizes => (map (getAxis f) axisNames).map .sizes
  | .axes => (map (getAxis f) axisNames).map .axes

/-- The scalars of the file have no dimensions. -/
def ScalarsOk (f : File α) : Prop := ∀ n ∈ scalarNames, ∀ v, f.vars.get? n = some v → v.shape = []

theorem map_inv {β γ : Type} {x : Except Exc β} {g : β → γ} {o : γ} (h : x.map g = .ok o) : ∃ d, x = .ok d ∧ g d = o := by
  cases x with
  | error e => cases h
  | ok d => cases h; exact ⟨d, rfl, rfl⟩

theorem direct_shows {f : File α} {k : Kind} {o : Out α} (h : direct f k = .ok o) : o.kind = k ∧ Shows f o := by
  cases k with
  | units =>
    obtain ⟨d, hd, rfl⟩ := map_inv h
    exact ⟨rfl, fun n u => by rw [map_get hd, someUnit_ok]⟩
  | arrays =>
    obtain ⟨d, hd, rfl⟩ := map_inv h
    exact ⟨rfl, fun n u => by rw [map_get hd, getArray_ok]⟩
  | scalars =>
    obtain ⟨d, hd, rfl⟩ := map_inv h
    refine ⟨rfl, fun n u => ?_⟩
    rw [map_get hd, getScalar_ok]
    constructor
    · rintro ⟨h1, v, h2, _, h3⟩; exact ⟨h1, v, h2, h3⟩
    · rintro ⟨h1, v, h2, h3⟩
      refine ⟨h1, v, h2, ?_, h3⟩
      by_contra hs
      have hg : getScalar f n = .error .type := by
        unfold getScalar getVariable
        rw [h2]
        simp only
        rw [if_pos hs]
      have : map (getScalar f) scalarNames = .error .type := by
        obtain rfl : n = "preEruption".toList := by simpa [scalarNames] using h1
        simp only [map, scalarNames, mapped, guarded_eq, hg]
      rw [this] at hd
      cases hd
  | sizes =>
    obtain ⟨d, hd, rfl⟩ := map_inv h
    exact ⟨rfl, fun n u => by rw [map_get hd, getAxis_ok]⟩
  | axes =>
    obtain ⟨d, hd, rfl⟩ := map_inv h
    exact ⟨rfl, fun n u => by rw [map_get hd, getAxis_ok]⟩

theorem direct_total {f : File α} (hs : ScalarsOk f) (k : Kind) : ∃ o, direct f k = .ok o := by
  have key : ∀ {β : Type} (get : Str → Except Exc β) (names : List Str) (g : β → β) (c : Dict Str β → Out α),
      (∀ n ∈ names, ∀ e, get n = .error e → e = .key) → ∃ o, (map get names).map c = .ok o := by
    intro β get names _ c h
    cases hm : map get names with
    | ok d => exact ⟨c d, rfl⟩
    | error e =>
      obtain ⟨n, h1, h2, h3⟩ := map_error hm
      exact absurd (h n h1 e h2) h3
  cases k with
  | units =>
    refine key _ _ id _ (fun n _ e h => ?_)
    unfold someUnit getUnit getVariable at h
    cases hv : f.vars.get? n with
    | none => rw [hv] at h; cases h; rfl
    | some v =>
      rw [hv] at h
      simp only at h
      cases hu : unitOf v <;> rw [hu] at h <;> cases h
      rfl
  | arrays =>
    refine key _ _ id _ (fun n _ e h => ?_)
    unfold getArray getUnit getVariable at h
    cases hv : f.vars.get? n with
    | none => rw [hv] at h; cases h; rfl
    | some v => rw [hv] at h; cases h
  | scalars =>
    refine key _ _ id _ (fun n hn e h => ?_)
    unfold getScalar getUnit getVariable at h
    cases hv : f.vars.get? n with
    | none => rw [hv] at h; cases h; rfl
    | some v =>
      rw [hv] at h
      simp only [hs n hn v hv] at h
      cases h
  | sizes =>
    refine key _ _ id _ (fun n _ e h => ?_)
    unfold getAxis at h
    cases hv : f.dimensions.get? n <;> rw [hv] at h <;> cases h
    rfl
  | axes =>
    refine key _ _ id _ (fun n _ e h => ?_)
    unfold getAxis at h
    cases hv : f.dimensions.get? n <;> rw [hv] at h <;> cases h
    rfl

/-! ## One view -/

/-- The caches agree with the file that the view has opened. -/
structure Inv (v : View α) : Prop where
  units : ∀ d, v.units = some d → ∃ f, v.viewer = some f ∧ map (someUnit f) (arrayNames ++ scalarNames) = .ok d
  arrays : ∀ d, v.arrays = some d → ∃ f, v.viewer = some f ∧ map (getArray f) arrayNames = .ok d
  scalars : ∀ d, v.scalars = some d → ∃ f, v.viewer = some f ∧ map (getScalar f) scalarNames = .ok d
  sizes : ∀ d, v.sizes = some d → ∃ f, v.viewer = some f ∧ map (getAxis f) axisNames = .ok d
  axes : ∀ d, v.axes = some d → ∃ f, v.viewer = some f ∧ map (getAxis f) axisNames = .ok d

theorem inv_new (h : Option Str) : Inv ({ hint := h } : View α) := by constructor <;> intro d h <;> cases h

/-- The file that a view uses for a request: the one it has opened, or else the present one. -/
def used (v : View α) (p : Path) (o : Except Exc (File α)) : Except Exc (File α) :=
  match v.viewer with
  | some f => .ok f
  | none => if hasViewer p v.hint then o else .error .type

theorem getViewer_eq (v : View α) (p : Path) (o : Except Exc (File α)) : v.getViewer p o = match used v p o with
    | .ok f => (.ok f, { v with viewer := some f })
    | .error e => (.error e, v) := by
  unfold View.getViewer used
  cases hv : v.viewer with
  | some f => simp only; cases v; cases hv; rfl
  | none =>
    simp only
    by_cases hh : hasViewer p v.hint = true
    · rw [if_pos hh, if_pos hh]
      cases o <;> rfl
    · rw [if_neg hh, if_neg hh]

theorem Inv.open {v : View α} (hi : Inv v) {p : Path} {o : Except Exc (File α)} {f : File α} (hu : used v p o = .ok f) :
    Inv { v with viewer := some f } := by
  have : ∀ g, v.viewer = some g → g = f := by
    intro g hg
    unfold used at hu
    rw [hg] at hu
    cases hu
    rfl
  constructor
  · intro d hd; obtain ⟨g, h1, h2⟩ := hi.units d hd; obtain rfl := this g h1; exact ⟨g, rfl, h2⟩
  · intro d hd; obtain ⟨g, h1, h2⟩ := hi.arrays d hd; obtain rfl := this g h1; exact ⟨g, rfl, h2⟩
  · intro d hd; obtain ⟨g, h1, h2⟩ := hi.scalars d hd; obtain rfl := this g h1; exact ⟨g, rfl, h2⟩
  · intro d hd; obtain ⟨g, h1, h2⟩ := hi.sizes d hd; obtain rfl := this g h1; exact ⟨g, rfl, h2⟩
  · intro d hd; obtain ⟨g, h1, h2⟩ := hi.axes d hd; obtain rfl := this g h1; exact ⟨g, rfl, h2⟩

/-- What a request to a view does. -/
def Does (v : View α) (p : Path) (o : Except Exc (File α)) (k : Kind) (r : Except Exc (Out α) × View α) : Prop :=
  Inv r.2 ∧ r.2.hint = v.hint ∧ match used v p o with
    | .ok f => r.1 = direct f k ∧ r.2.viewer = some f
    | .error e => r.1 = .error e ∧ r.2.viewer = none

theorem used_error {v : View α} {p : Path} {o : Except Exc (File α)} {e : Exc} (h : used v p o = .error e) :
    v.viewer = none := by
  unfold used at h
  cases hv : v.viewer with
  | none => rfl
  | some f => rw [hv] at h; cases h

theorem used_some {v : View α} {p : Path} {o : Except Exc (File α)} {f : File α} (h : v.viewer = some f) :
    used v p o = .ok f := by
  unfold used
  rw [h]

theorem axes_does {v : View α} (hi : Inv v) (p : Path) (o : Except Exc (File α)) :
    Inv (v.getAxes p o).2 ∧ (v.getAxes p o).2.hint = v.hint ∧ (v.getAxes p o).2.sizes = v.sizes ∧ match used v p o with
      | .ok f => (v.getAxes p o).1 = map (getAxis f) axisNames ∧ (v.getAxes p o).2.viewer = some f
      | .error e => (v.getAxes p o).1 = .error e ∧ (v.getAxes p o).2.viewer = none := by
  unfold View.getAxes
  cases hc : v.axes with
  | some d =>
    obtain ⟨f, h1, h2⟩ := hi.axes d hc
    rw [used_some h1]
    exact ⟨hi, rfl, rfl, h2.symm, h1⟩
  | none =>
    simp only [getViewer_eq]
    cases hu : used v p o with
    | error e => exact ⟨hi, rfl, rfl, rfl, used_error hu⟩
    | ok f =>
      have hi' := hi.open hu
      cases hm : map (getAxis f) axisNames with
      | error e => dsimp only; rw [hm]; exact ⟨hi', rfl, rfl, rfl, rfl⟩
      | ok d => dsimp only; rw [hm]; exact ⟨⟨hi'.units, hi'.arrays, hi'.scalars, hi'.sizes, fun d' h => by cases h; exact ⟨f, rfl, hm⟩⟩, rfl, rfl, rfl, rfl⟩

theorem get_does {v : View α} (hi : Inv v) (p : Path) (o : Except Exc (File α)) (k : Kind) : Does v p o k (v.get p o k) := by
  cases k with
  | units =>
    simp only [View.get, View.getUnits]
    cases hc : v.units with
    | some d =>
      obtain ⟨f, h1, h2⟩ := hi.units d hc
      refine ⟨hi, rfl, ?_⟩
      rw [used_some h1]
      exact ⟨by simp only [direct, h2]; rfl, h1⟩
    | none =>
      simp only [getViewer_eq]
      cases hu : used v p o with
      | error e => exact ⟨hi, rfl, by rw [hu]; exact ⟨rfl, used_error hu⟩⟩
      | ok f =>
        have hi' := hi.open hu
        cases hm : map (someUnit f) (arrayNames ++ scalarNames) with
        | error e => dsimp only; rw [hm]; exact ⟨hi', rfl, by rw [hu]; exact ⟨by simp only [direct, hm]; rfl, rfl⟩⟩
        | ok d =>
          dsimp only
          rw [hm]
          exact ⟨⟨fun d' h => by cases h; exact ⟨f, rfl, hm⟩, hi'.arrays, hi'.scalars, hi'.sizes, hi'.axes⟩, rfl, by
            rw [hu]; exact ⟨by simp only [direct, hm]; rfl, rfl⟩⟩
  | arrays =>
    simp only [View.get, View.getArrays]
    cases hc : v.arrays with
    | some d =>
      obtain ⟨f, h1, h2⟩ := hi.arrays d hc
      refine ⟨hi, rfl, ?_⟩
      rw [used_some h1]
      exact ⟨by simp only [direct, h2]; rfl, h1⟩
    | none =>
      simp only [getViewer_eq]
      cases hu : used v p o with
      | error e => exact ⟨hi, rfl, by rw [hu]; exact ⟨rfl, used_error hu⟩⟩
      | ok f =>
        have hi' := hi.open hu
        cases hm : map (getArray f) arrayNames with
        | error e => dsimp only; rw [hm]; exact ⟨hi', rfl, by rw [hu]; exact ⟨by simp only [direct, hm]; rfl, rfl⟩⟩
        | ok d =>
          dsimp only
          rw [hm]
          exact ⟨⟨hi'.units, fun d' h => by cases h; exact ⟨f, rfl, hm⟩, hi'.scalars, hi'.sizes, hi'.axes⟩, rfl, by
            rw [hu]; exact ⟨by simp only [direct, hm]; rfl, rfl⟩⟩
  | scalars =>
    simp only [View.get, View.getScalars]
    cases hc : v.scalars with
    | some d =>
      obtain ⟨f, h1, h2⟩ := hi.scalars d hc
      refine ⟨hi, rfl, ?_⟩
      rw [used_some h1]
      exact ⟨by simp only [direct, h2]; rfl, h1⟩
    | none =>
      simp only [getViewer_eq]
      cases hu : used v p o with
      | error e => exact ⟨hi, rfl, by rw [hu]; exact ⟨rfl, used_error hu⟩⟩
      | ok f =>
        have hi' := hi.open hu
        cases hm : map (getScalar f) scalarNames with
        | error e => dsimp only; rw [hm]; exact ⟨hi', rfl, by rw [hu]; exact ⟨by simp only [direct, hm]; rfl, rfl⟩⟩
        | ok d =>
          dsimp only
          rw [hm]
          exact ⟨⟨hi'.units, hi'.arrays, fun d' h => by cases h; exact ⟨f, rfl, hm⟩, hi'.sizes, hi'.axes⟩, rfl, by
            rw [hu]; exact ⟨by simp only [direct, hm]; rfl, rfl⟩⟩
  | sizes =>
    simp only [View.get, View.getSizes]
    cases hc : v.sizes with
    | some d =>
      obtain ⟨f, h1, h2⟩ := hi.sizes d hc
      refine ⟨hi, rfl, ?_⟩
      rw [used_some h1]
      exact ⟨by simp only [direct, h2]; rfl, h1⟩
    | none =>
      obtain ⟨h1, h2, h3, h4⟩ := axes_does hi p o
      generalize v.getAxes p o = r at h1 h2 h3 h4
      obtain ⟨x, v'⟩ := r
      simp only at h1 h2 h3 h4
      unfold Does
      cases hu : used v p o with
      | error e =>
        rw [hu] at h4
        simp only at h4
        rw [h4.1]
        exact ⟨h1, h2, rfl, h4.2⟩
      | ok f =>
        rw [hu] at h4
        simp only at h4
        cases x with
        | error e => exact ⟨h1, h2, by simp only [direct, ← h4.1]; rfl, h4.2⟩
        | ok d =>
          exact ⟨⟨h1.units, h1.arrays, h1.scalars, fun d' h => by cases h; exact ⟨f, h4.2, h4.1.symm⟩, h1.axes⟩, h2, by
            simp only [direct, ← h4.1]; rfl, h4.2⟩
  | axes =>
    obtain ⟨h1, h2, h3, h4⟩ := axes_does hi p o
    simp only [View.get]
    generalize v.getAxes p o = r at h1 h2 h3 h4
    obtain ⟨x, v'⟩ := r
    simp only at h1 h2 h3 h4
    unfold Does
    cases hu : used v p o with
    | error e =>
      rw [hu] at h4
      simp only at h4
      rw [h4.1]
      exact ⟨h1, h2, rfl, h4.2⟩
    | ok f =>
      rw [hu] at h4
      simp only at h4
      cases x with
      | error e => exact ⟨h1, h2, by simp only [direct, ← h4.1]; rfl, h4.2⟩
      | ok d => exact ⟨h1, h2, by simp only [direct, ← h4.1]; rfl, h4.2⟩

/-! ## C80: histories -/

/-- The view that a request uses. -/
def viewOf (s : State α) (p : Path) (hint : Option Str) : View α :=
  match s.views.get? p with
  | some v => v
  | none => { hint := hint }

theorem request_eq (s : State α) (p : Path) (hint : Option Str) (k : Kind) {o : Except Exc (File α)} (h : s.disk p = some o) :
    request s p hint k = (((viewOf s p hint).get p o k).1, { s with views := s.views.set p ((viewOf s p hint).get p o k).2 }) := by
  unfold request
  rw [h]
  rfl

theorem request_none (s : State α) (p : Path) (hint : Option Str) (k : Kind) (h : s.disk p = none) :
    request s p hint k = (.error .nonexistent, s) := by
  unfold request
  rw [h]

/-- All caches agree with the files that the views have opened. -/
def SInv (s : State α) : Prop := ∀ p v, s.views.get? p = some v → Inv v

theorem SInv.viewOf {s : State α} (h : SInv s) (p : Path) (hint : Option Str) : Inv (viewOf s p hint) := by
  unfold Datafile.viewOf
  cases hv : s.views.get? p with
  | some v => exact h p v hv
  | none => exact inv_new hint

theorem SInv.step {s : State α} (h : SInv s) (op : Op α) : SInv (step s op) := by
  cases op with
  | replace p c => exact h
  | request p hint k =>
    show SInv (request s p hint k).2
    cases hd : s.disk p with
    | none => rw [request_none s p hint k hd]; exact h
    | some o =>
      rw [request_eq s p hint k hd]
      intro q v hv
      simp only [Dict.get?_set] at hv
      by_cases hq : p = q
      · rw [if_pos hq] at hv
        cases hv
        exact (get_does (h.viewOf p hint) p o k).1
      · rw [if_neg hq] at hv
        exact h q v hv

theorem SInv.foldl {s : State α} (h : SInv s) (ops : List (Op α)) : SInv (ops.foldl Datafile.step s) := by
  induction ops generalizing s with
  | nil => exact h
  | cons op ops ih => exact ih (h.step op)

theorem run_inv (disk : Disk α) (ops : List (Op α)) : SInv (run disk ops) :=
  SInv.foldl (fun p v hv => by cases hv) ops

theorem request_disk (s : State α) (p : Path) (hint : Option Str) (k : Kind) : (request s p hint k).2.disk = s.disk := by
  cases hd : s.disk p with
  | none => rw [request_none s p hint k hd]
  | some o => rw [request_eq s p hint k hd]

theorem foldl_disk (p : Path) (ops : List (Op α)) : ∀ s : State α, (ops.foldl step s).disk p = content s.disk p ops := by
  induction ops with
  | nil => intro s; rfl
  | cons op ops ih =>
    intro s
    rw [List.foldl_cons, ih]
    cases op with
    | replace q c => rfl
    | request q hint k =>
      show content (request s q hint k).2.disk p ops = content s.disk p ops
      rw [request_disk]

theorem run_disk (disk : Disk α) (p : Path) (ops : List (Op α)) : (run disk ops).disk p = content disk p ops :=
  foldl_disk p ops _

/-- A view that has opened a file keeps it. -/
theorem kept {s : State α} (hs : SInv s) {p : Path} {v : View α} {f : File α} (hv : s.views.get? p = some v)
    (hf : v.viewer = some f) (ops : List (Op α)) :
    ∃ v', (ops.foldl step s).views.get? p = some v' ∧ v'.viewer = some f := by
  induction ops generalizing s v with
  | nil => exact ⟨v, hv, hf⟩
  | cons op ops ih =>
    have hs' := hs.step op
    cases op with
    | replace q c => exact ih hs' hv hf
    | request q hint k =>
      have : ∃ v', (request s q hint k).2.views.get? p = some v' ∧ v'.viewer = some f := by
        cases hd : s.disk q with
        | none => rw [request_none s q hint k hd]; exact ⟨v, hv, hf⟩
        | some o =>
          rw [request_eq s q hint k hd]
          simp only [Dict.get?_set]
          by_cases hq : q = p
          · subst hq
            rw [if_pos rfl]
            refine ⟨_, rfl, ?_⟩
            have e : viewOf s q hint = v := by unfold viewOf; rw [hv]
            have := (get_does (hs.viewOf q hint) q o k).2.2
            rw [e, used_some hf] at this
            rw [e]
            exact this.2
          · rw [if_neg hq]
            exact ⟨v, hv, hf⟩
      obtain ⟨v', h1, h2⟩ := this
      exact ih hs' h1 h2

theorem hasViewer_iff (p : Path) (hint : Option Str) : hasViewer p hint = true ↔ IsNetCDF p hint := by
  unfold hasViewer IsNetCDF
  rw [Bool.or_eq_true, decide_eq_true_eq, Observer.suffix_nc]
  have e : Observer.nc = ".nc".toList := by decide
  rw [e]
  refine or_congr ?_ ?_
  · constructor
    · rintro ⟨s, h1, h2⟩
      refine ⟨s, h1, ?_⟩
      cases hp : p.getLast? with
      | none =>
        rw [List.getLast?_eq_none_iff] at hp
        subst hp
        have := congrArg List.length h2
        simp at this
      | some x =>
        rw [List.getLastD_eq_getLast?, hp] at h2
        exact congrArg some h2
    · rintro ⟨s, h1, h2⟩
      exact ⟨s, h1, by rw [List.getLastD_eq_getLast?, h2]; rfl⟩
  · cases hint with
    | none => simp
    | some h =>
      simp only [Option.some.injEq, decide_eq_true_eq]
      have : Observer.viewers = [".nc".toList, "netcdf".toList, "NetCDF".toList, "NETCDF".toList] := by decide
      rw [this]
      simp only [List.mem_cons, List.not_mem_nil, or_false]
      tauto

/-- **C80**: where nobody replaces the file, every request, at any time and after any history of requests for this and other
files and of changes of other files, shows exactly the content of the file. -/
theorem c80_view (disk : Disk α) (ops : List (Op α)) (p : Path) (f : File α) (hf : disk p = some (.ok f)) (hs : ScalarsOk f)
    (hr : ∀ c, Op.replace p c ∉ ops) (hh : ∀ h k, Op.request p h k ∈ ops → IsNetCDF p h) (hint : Option Str)
    (hn : IsNetCDF p hint) (k : Kind) :
    ∃ o, (request (run disk ops) p hint k).1 = .ok o ∧ o.kind = k ∧ Shows f o := by
  have key : ∀ (ops : List (Op α)) (s : State α), SInv s → s.disk p = some (.ok f) →
      (∀ v, s.views.get? p = some v → (v.viewer = none ∨ v.viewer = some f) ∧ hasViewer p v.hint = true) →
      (∀ c, Op.replace p c ∉ ops) → (∀ h k, Op.request p h k ∈ ops → IsNetCDF p h) →
      (ops.foldl step s).disk p = some (.ok f) ∧ (∀ v, (ops.foldl step s).views.get? p = some v →
        (v.viewer = none ∨ v.viewer = some f) ∧ hasViewer p v.hint = true) := by
    intro ops
    induction ops with
    | nil => intro s _ h1 h2 _ _; exact ⟨h1, h2⟩
    | cons op ops ih =>
      intro s hs h1 h2 h3 h4
      refine ih (step s op) (hs.step op) ?_ ?_ (fun c hc => h3 c (List.mem_cons_of_mem _ hc))
        (fun h k hk => h4 h k (List.mem_cons_of_mem _ hk))
      · cases op with
        | replace q c =>
          have : p ≠ q := by rintro rfl; exact h3 c (List.mem_cons_self ..)
          show (if p = q then c else s.disk p) = _
          rw [if_neg this, h1]
        | request q hint k =>
          show (request s q hint k).2.disk p = _
          rw [request_disk, h1]
      · cases op with
        | replace q c => exact h2
        | request q hint k =>
          show ∀ v, (request s q hint k).2.views.get? p = some v → _
          cases hd : s.disk q with
          | none => rw [request_none s q hint k hd]; exact h2
          | some o =>
            rw [request_eq s q hint k hd]
            intro v hv
            simp only [Dict.get?_set] at hv
            by_cases hq : q = p
            · subst hq
              rw [if_pos rfl] at hv
              cases hv
              rw [h1] at hd
              cases hd
              have hview : (viewOf s q hint).viewer = none ∨ (viewOf s q hint).viewer = some f := by
                unfold viewOf
                cases hv : s.views.get? q with
                | some v => exact (h2 v hv).1
                | none => exact .inl rfl
              have hhint : hasViewer q (viewOf s q hint).hint = true := by
                unfold viewOf
                cases hv : s.views.get? q with
                | some v => exact (h2 v hv).2
                | none => exact (hasViewer_iff q hint).2 (h4 hint k (List.mem_cons_self ..))
              obtain ⟨_, g2, g3⟩ := get_does (hs.viewOf q hint) q (.ok f) k
              have hu : used (viewOf s q hint) q (.ok f) = .ok f := by
                unfold used
                rcases hview with h | h
                · rw [h]; simp only; rw [if_pos hhint]
                · rw [h]
              rw [hu] at g3
              exact ⟨.inr g3.2, by rw [g2]; exact hhint⟩
            · rw [if_neg hq] at hv
              exact h2 v hv
  obtain ⟨h1, h2⟩ := key ops ⟨disk, []⟩ (fun p v hv => by cases hv) hf (fun v hv => by cases hv) hr hh
  have hinv := run_inv disk ops
  change (run disk ops).disk p = _ at h1
  rw [request_eq _ p hint k h1]
  have hview : (viewOf (run disk ops) p hint).viewer = none ∨ (viewOf (run disk ops) p hint).viewer = some f := by
    unfold viewOf
    cases hv : (run disk ops).views.get? p with
    | some v => exact (h2 v hv).1
    | none => exact .inl rfl
  have hhint : hasViewer p (viewOf (run disk ops) p hint).hint = true := by
    unfold viewOf
    cases hv : (run disk ops).views.get? p with
    | some v => exact (h2 v hv).2
    | none => exact (hasViewer_iff p hint).2 hn
  obtain ⟨_, _, g3⟩ := get_does (hinv.viewOf p hint) p (.ok f) k
  have hu : used (viewOf (run disk ops) p hint) p (.ok f) = .ok f := by
    unfold used
    rcases hview with h | h
    · rw [h]; simp only; rw [if_pos hhint]
    · rw [h]
  rw [hu] at g3
  obtain ⟨o, ho⟩ := direct_total hs k
  exact ⟨o, by rw [g3.1, ho], (direct_shows ho).1, (direct_shows ho).2⟩

/-- Every file that a view has opened was the content of its path at some earlier time. -/
theorem opened_before (disk : Disk α) (p : Path) (ops : List (Op α)) (v : View α) (f : File α)
    (hv : (run disk ops).views.get? p = some v) (hf : v.viewer = some f) : ∃ before, before <+: ops ∧
      content disk p before = some (.ok f) := by
  induction ops using List.reverseRecOn generalizing v f with
  | nil => cases hv
  | append_singleton ops op ih =>
    have hrun : run disk (ops ++ [op]) = step (run disk ops) op := by
      unfold run
      rw [List.foldl_append]
      rfl
    rw [hrun] at hv
    have lift : (∃ before, before <+: ops ∧ content disk p before = some (.ok f)) →
        ∃ before, before <+: ops ++ [op] ∧ content disk p before = some (.ok f) := by
      rintro ⟨b, h1, h2⟩
      exact ⟨b, h1.trans (List.prefix_append ..), h2⟩
    cases op with
    | replace q c => exact lift (ih v f hv hf)
    | request q hint k =>
      change (request (run disk ops) q hint k).2.views.get? p = some v at hv
      cases hd : (run disk ops).disk q with
      | none =>
        rw [request_none _ q hint k hd] at hv
        exact lift (ih v f hv hf)
      | some o =>
        rw [request_eq _ q hint k hd] at hv
        simp only [Dict.get?_set] at hv
        by_cases hq : q = p
        · subst hq
          rw [if_pos rfl] at hv
          cases hv
          have hinv := run_inv disk ops
          obtain ⟨_, _, g3⟩ := get_does (hinv.viewOf q hint) q o k
          cases hu : used (viewOf (run disk ops) q hint) q o with
          | error e => rw [hu] at g3; simp only at g3; rw [g3.2] at hf; cases hf
          | ok g =>
            rw [hu] at g3
            simp only at g3
            rw [g3.2] at hf
            cases hf
            unfold used at hu
            cases hw : (viewOf (run disk ops) q hint).viewer with
            | some g' =>
              rw [hw] at hu
              cases hu
              unfold viewOf at hw
              cases hx : (run disk ops).views.get? q with
              | none => rw [hx] at hw; cases hw
              | some x => rw [hx] at hw; exact lift (ih x f hx hw)
            | none =>
              rw [hw] at hu
              simp only at hu
              by_cases hh : hasViewer q (viewOf (run disk ops) q hint).hint = true
              · rw [if_pos hh] at hu
                subst hu
                refine ⟨ops, List.prefix_append .., ?_⟩
                rw [← run_disk, hd]
              · rw [if_neg hh] at hu
                cases hu
        · rw [if_neg hq] at hv
          exact lift (ih v f hv hf)

/-- **C80**: all requests for one path show the same file, one that the path contained at the time of a request; whatever
happens to the file. -/
theorem c80_consistent (disk : Disk α) (ops : List (Op α)) (p : Path) (hint : Option Str) (k : Kind) (o : Out α)
    (h : (request (run disk ops) p hint k).1 = .ok o) :
    ∃ f, (∃ before, before <+: ops ∧ content disk p before = some (.ok f)) ∧ o.kind = k ∧ Shows f o ∧
      ∀ later hint' k' o', (request (run disk (ops ++ .request p hint k :: later)) p hint' k').1 = .ok o' →
        o'.kind = k' ∧ Shows f o' := by
  have hinv := run_inv disk ops
  cases hd : (run disk ops).disk p with
  | none => rw [request_none _ p hint k hd] at h; cases h
  | some op =>
    have hreq := request_eq _ p hint k hd
    rw [hreq] at h
    obtain ⟨g1, _, g3⟩ := get_does (hinv.viewOf p hint) p op k
    cases hu : used (viewOf (run disk ops) p hint) p op with
    | error e => rw [hu] at g3; simp only at g3 h; rw [g3.1] at h; cases h
    | ok f =>
      rw [hu] at g3
      simp only at g3 h
      rw [g3.1] at h
      have hv1 : (request (run disk ops) p hint k).2.views.get? p = some ((viewOf (run disk ops) p hint).get p op k).2 := by
        rw [hreq]
        simp only [Dict.get?_set, if_true]
      have hrun1 : run disk (ops ++ [.request p hint k]) = (request (run disk ops) p hint k).2 := by
        unfold run
        rw [List.foldl_append]
        rfl
      refine ⟨f, ?_, (direct_shows h).1, (direct_shows h).2, ?_⟩
      · have e : ∃ before, before <+: ops ∧ content disk p before = some (.ok f) := by
          unfold used at hu
          cases hw : (viewOf (run disk ops) p hint).viewer with
          | some g' =>
            rw [hw] at hu
            cases hu
            unfold viewOf at hw
            cases hx : (run disk ops).views.get? p with
            | none => rw [hx] at hw; cases hw
            | some x => rw [hx] at hw; exact opened_before disk p ops x f hx hw
          | none =>
            rw [hw] at hu
            simp only at hu
            by_cases hh : hasViewer p (viewOf (run disk ops) p hint).hint = true
            · rw [if_pos hh] at hu
              subst hu
              exact ⟨ops, List.prefix_refl _, by rw [← run_disk, hd]⟩
            · rw [if_neg hh] at hu
              cases hu
        exact e
      · intro later hint' k' o' h'
        have hrun2 : run disk (ops ++ .request p hint k :: later) = later.foldl step (request (run disk ops) p hint k).2 := by
          unfold run
          rw [List.foldl_append]
          rfl
        have hs1 : SInv (request (run disk ops) p hint k).2 := hinv.step (.request p hint k)
        obtain ⟨v', h1, h2⟩ := kept hs1 hv1 g3.2 later
        rw [← hrun2] at h1
        have hinv2 := run_inv disk (ops ++ .request p hint k :: later)
        cases hd2 : (run disk (ops ++ .request p hint k :: later)).disk p with
        | none => rw [request_none _ p hint' k' hd2] at h'; cases h'
        | some op2 =>
          rw [request_eq _ p hint' k' hd2] at h'
          obtain ⟨_, _, g3'⟩ := get_does (hinv2.viewOf p hint') p op2 k'
          have e : viewOf (run disk (ops ++ .request p hint k :: later)) p hint' = v' := by unfold viewOf; rw [h1]
          rw [e, used_some h2] at g3'
          simp only at h'
          rw [e, g3'.1] at h'
          exact ⟨(direct_shows h').1, (direct_shows h').2⟩

/-- **C80**: without the file, the request fails. -/
theorem c80_missing (disk : Disk α) (ops : List (Op α)) (p : Path) (hint : Option Str) (k : Kind)
    (h : content disk p ops = none) : (request (run disk ops) p hint k).1 = .error .nonexistent := by
  rw [request_none _ p hint k (by rw [run_disk, h])]

/-! ## Violations -/

/-- A file with one array. -/
def file1 : File Nat := ⟨[("time".toList, ⟨1, [3], ["time".toList], some "day".toList, none⟩)], [("time".toList, 3)]⟩

/-- Another file. -/
def file2 : File Nat := ⟨[("R".toList, ⟨2, [4], ["shell".toList], none, some "au".toList⟩)], [("shell".toList, 4)]⟩

/-- A disk with the first file under two names. -/
def disk1 : Disk Nat := fun p => if p = ["obs000000.nc".toList] ∨ p = ["obs000000".toList] then some (.ok file1) else none

theorem file1_scalars : ScalarsOk file1 := by
  intro n hn v hv
  obtain rfl : n = "preEruption".toList := by simpa [scalarNames] using hn
  have : file1.vars.get? "preEruption".toList = none := by decide
  rw [this] at hv
  cases hv

/-- the hypotheses of `c80_view` -/
example : disk1 ["obs000000.nc".toList] = some (.ok file1) ∧ ScalarsOk file1 ∧ IsNetCDF ["obs000000.nc".toList] none ∧
    IsNetCDF ["obs000000".toList] (some "netcdf".toList) :=
  ⟨by decide, file1_scalars, .inl ⟨"obs000000".toList, by decide, by decide⟩, .inr (.inl rfl)⟩

example : (request (run disk1 [.request ["obs000000.nc".toList] none .units]) ["obs000000.nc".toList] none .arrays).1 =
    .ok (.arrays [("time".toList, ⟨1, some "day".toList, ["time".toList]⟩)]) := by decide +kernel

/-- **C80 is violated** for changed files: after the file is replaced by another one, a new view shows the old content. -/
theorem c80_not_replaced : let p : Path := ["obs000000.nc".toList]
    (request (run disk1 [.request p none .arrays, .replace p (some (.ok file2))]) p none .axes).1 =
      .ok (.axes [("time".toList, 3)]) ∧
    (request (run disk1 [.replace p (some (.ok file2))]) p none .axes).1 = .ok (.axes [("shell".toList, 4)]) := by
  decide +kernel

/-- **C80 is violated** for hints: after one request without a hint, the hint of a later one is ignored. -/
theorem c80_not_hint : let p : Path := ["obs000000".toList]
    (request (run disk1 []) p (some "netcdf".toList) .sizes).1 = .ok (.sizes [("time".toList, 3)]) ∧
    (request (run disk1 [.request p none .sizes]) p (some "netcdf".toList) .sizes).1 = .error .type := by
  decide +kernel

end Eprem.Datafile
