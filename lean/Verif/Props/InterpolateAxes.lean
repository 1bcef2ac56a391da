import Verif.Lemmas.Interpolate
import Verif.Props.Observable
import Verif.Model.Interpolate

/-!
# Interpolation of physical arrays (C57, C58)
-/

namespace Eprem.Interpolate

open Eprem Eprem.Numeric Eprem.Physical Eprem.Observable
open Eprem.Symbolic (Term)

noncomputable section

variable {κ ν : Type} [DecidableEq κ] {G : Grid κ ν}

/-- The grid with other values on one dimension. -/
def regrid (G : Grid κ ν) (d : κ) (n : Nat) (hn : 0 < n) (v : ν) : Grid κ ν where
  size := Function.update G.size d n
  axis := Function.update G.axis d v
  pos := fun e => by
    by_cases h : e = d
    · subst h; rw [Function.update_self]; exact hn
    · rw [Function.update_of_ne h]; exact G.pos e

theorem hasDims_grid {dims : List κ} {u : List Term} {g : (κ → Nat) → ℝ} {c : Arr κ ν ℝ}
    (h : OnGrid G dims u g (.array c)) : HasDims dims G.size g c.arr.data.data := by
  obtain ⟨hn, c', h', hp, hd, hs, hax, hcu, hg⟩ := h
  cases h'
  refine ⟨hn, hs, fun pos hpos => ?_⟩
  rw [← hg pos hpos]
  show _ = c.arr.data.data.get (c.arr.raw.dims.map pos)
  rw [hd]

theorem replace_grid {dims : List κ} (hn : dims.Nodup) {d : κ} (hd : d ∈ dims) (n : Nat) (h0 : 0 < n) (v : ν) :
    Axes.replace (G.axes dims) d v = .ok ((regrid G d n h0 v).axes dims) := by
  unfold Axes.replace
  rw [keys_axes, if_pos hd]
  congr 1
  rw [Grid.axes, List.map_map, Dict.ofItems_nodup]
  · rw [Grid.axes]
    apply List.map_congr_left
    intro e he
    simp only [Function.comp, regrid]
    by_cases h : e = d
    · subst h; rw [if_pos rfl, Function.update_self]
    · rw [if_neg h, Function.update_of_ne h]
  · rw [List.map_map]
    simpa [Function.comp_def] using hn

/-- **C57**, interpolation along an axis.  The array has the dimension `d`, and the reference gives increasing values along
`d`.  Interpolation to some values inside the range of the reference succeeds; the result has the new values as the axis of
this dimension, and every other axis and the unit stay as they are; and at each position the result is the value of the
polygon through the points of the array (`OnPolygon`, see `OnPolygon.between` and `OnPolygon.unique`): at a value of the
reference it is the value of the array there, and between two of them it is on the straight line. -/
theorem c57_axis (radii : List κ) (shell radius : κ) (coordinates : List ℝ → List Term → ν) {dims : List κ}
    {u ur : List Term} {g x : (κ → Nat) → ℝ} {array reference : Arr κ ν ℝ} {d : κ} (hd : d ∈ dims) (hdr : d ∉ radii)
    (ha : OnGrid G dims u g (.array array)) (hr : OnGrid G [d] ur x (.array reference))
    (hx : ∀ pos i j, i < j → j < G.size d → x (Function.update pos d i) < x (Function.update pos d j))
    (targets : List ℝ) (hT : 0 < targets.length) (hin : ∀ t ∈ targets, ∀ pos,
      x (Function.update pos d 0) ≤ t ∧ t ≤ x (Function.update pos d (G.size d - 1))) :
    ∃ r h, interpolate radii shell radius coordinates array [⟨d, reference, targets⟩] = .ok r ∧
      OnGrid (regrid G d targets.length hT (coordinates targets ur)) dims u h r ∧
      ∀ pos, (regrid G d targets.length hT (coordinates targets ur)).Inside dims pos → ∀ t, targets[pos d]? = some t →
        OnPolygon (G.size d) (fun i => x (Function.update pos d i)) (fun i => g (Function.update pos d i)) t (h pos) := by
  have hA := hasDims_grid ha
  have hR := hasDims_grid hr
  obtain ⟨hn, c', h', hp, hcd, hs, hax, hcu, hg⟩ := ha
  cases h'
  obtain ⟨_, c', h', hrp, hrd, hrs, hrax, hru, hrg⟩ := hr
  cases h'
  have hget : ∀ i < G.size d, ∀ pos, reference.arr.data.data.get [i] = x (Function.update pos d i) := by
    intro i hi pos
    have := hR.get (Function.update pos d i) (by simp [hi])
    simpa using this
  obtain ⟨b, hb1, hb2, hb3⟩ := update_one hA hd (reference := reference.arr.data.data) hR.shape
    (fun i j hij hj => by
      have p0 : κ → Nat := fun _ => 0
      simp only
      rw [hget i (by omega) p0, hget j hj p0]
      exact hx p0 i j hij hj) (G.pos d) (targets := targets) (by rintro rfl; simp at hT)
    (fun t ht => by rw [hget 0 (G.pos d) (fun _ => 0)]; exact (hin t ht _).1)
    (fun t ht => by
      rw [hget (G.size d - 1) (by have := G.pos d; omega) (fun _ => 0)]; exact (hin t ht _).2)
  obtain ⟨r, hr1, hr2⟩ := newArray_grid (G := regrid G d targets.length hT (coordinates targets ur)) (u := u) hn
    (d := b) hb2 (g := fun pos => b.get (dims.map pos)) (fun _ _ => rfl)
  refine ⟨r, _, ?_, hr2, fun pos hpos t ht => ?_⟩
  · unfold interpolate
    rw [if_neg (by simp)]
    have hrd' : reference.arr.data.dims = [d] := hrd
    simp only [interpolateLoop, hax, keys_axes, hrd', hb1, if_neg hdr, hru, hcu, replace_grid hn hd _ hT (coordinates targets ur)]
    exact hr1
  · exact (hb3 pos hpos t ht).congr (fun i hi => hget i hi pos) (fun _ _ => rfl)

/-- The names of the dimensions after `shell` has become `radius`. -/
def renamed (dims : List κ) (shell radius : κ) : List κ := dims.map (fun e => if e = shell then radius else e)

theorem renamed_nodup {dims : List κ} {shell radius : κ} (hn : dims.Nodup) (hr : radius ∉ dims) :
    (renamed dims shell radius).Nodup := by
  refine hn.map_on (fun a ha b hb e => ?_)
  by_cases h1 : a = shell <;> by_cases h2 : b = shell
  · rw [h1, h2]
  · rw [if_pos h1, if_neg h2] at e
    exact absurd (e ▸ hb) hr
  · rw [if_neg h1, if_pos h2] at e
    exact absurd (e ▸ ha) hr
  · rwa [if_neg h1, if_neg h2] at e

theorem replacePair_grid {dims : List κ} (hn : dims.Nodup) {shell radius : κ} (hd : shell ∈ dims) (hr : radius ∉ dims)
    (n : Nat) (h0 : 0 < n) (v : ν) :
    Axes.replacePair (G.axes dims) shell radius v = .ok ((regrid G radius n h0 v).axes (renamed dims shell radius)) := by
  unfold Axes.replacePair
  rw [keys_axes, if_pos hd]
  congr 1
  have e : (G.axes dims).map (fun p => if p.1 = shell then (radius, v) else p) =
      (regrid G radius n h0 v).axes (renamed dims shell radius) := by
    rw [Grid.axes, Grid.axes, renamed, List.map_map, List.map_map]
    apply List.map_congr_left
    intro e he
    simp only [Function.comp, regrid]
    by_cases h : e = shell
    · rw [if_pos h, if_pos h, Function.update_self]
    · have : e ≠ radius := by rintro rfl; exact hr he
      rw [if_neg h, if_neg h, Function.update_of_ne this]
  rw [e, Dict.ofItems_nodup]
  have := keys_axes (G := regrid G radius n h0 v) (renamed dims shell radius)
  unfold Dict.keys at this
  rw [this]
  exact renamed_nodup hn hr

theorem renamed_map {dims : List κ} {shell radius : κ} (hr : radius ∉ dims) (f : κ → Nat) :
    (renamed dims shell radius).map f = dims.map (Function.update f shell (f radius)) := by
  rw [renamed, List.map_map]
  apply List.map_congr_left
  intro e he
  simp only [Function.comp]
  by_cases h : e = shell
  · subst h; rw [if_pos rfl, Function.update_self]
  · rw [if_neg h, Function.update_of_ne h]

/-- Interpolation along the radius, with an array of radii that may have more times than the array: the radii of the
first times are used. -/
theorem radius_rows {G' : Grid κ ν} (radii : List κ) (time shell radius name : κ) (coordinates : List ℝ → List Term → ν) {dims : List κ}
    {u ur : List Term} {g x : (κ → Nat) → ℝ} {array reference : Arr κ ν ℝ} (ht : time ∈ dims) (hs : shell ∈ dims)
    (hts : time ≠ shell) (hrd : radius ∉ dims) (hname : name ∈ radii) (hn2 : 2 ≤ G.size shell)
    (hm : G.size time ≤ G'.size time) (hsz : G'.size shell = G.size shell)
    (ha : OnGrid G dims u g (.array array)) (hr : OnGrid G' [time, shell] ur x (.array reference))
    (hx : ∀ pos i j, pos time < G'.size time → i < j → j < G.size shell →
      x (Function.update pos shell i) < x (Function.update pos shell j))
    (targets : List ℝ) (hT : 0 < targets.length)
    (hoff : ∀ t ∈ targets, ∀ pos, G'.Inside [time, shell] pos → x pos ≠ t)
    (hin : ∀ t ∈ targets, ∀ pos, pos time < G.size time →
      x (Function.update pos shell 0) ≤ t ∧ t ≤ x (Function.update pos shell (G.size shell - 1))) :
    ∃ r h, interpolate radii shell radius coordinates array [⟨name, reference, targets⟩] = .ok r ∧
      OnGrid (regrid G radius targets.length hT (coordinates targets ur)) (renamed dims shell radius) u h r ∧
      ∀ pos, (regrid G radius targets.length hT (coordinates targets ur)).Inside (renamed dims shell radius) pos →
        ∀ t, targets[pos radius]? = some t →
          OnPolygon (G.size shell) (fun i => x (Function.update pos shell i)) (fun i => g (Function.update pos shell i)) t
            (h pos) := by
  have hA := hasDims_grid ha
  have hR := hasDims_grid hr
  obtain ⟨hn, c', h', hp, hcd, hcs, hax, hcu, hg⟩ := ha
  cases h'
  obtain ⟨_, c', h', hrp, hrdm, hrs, hrax, hru, hrg⟩ := hr
  cases h'
  have hget : ∀ pos, pos time < G'.size time → ∀ i < G.size shell,
      reference.arr.data.data.get [pos time, i] = x (Function.update pos shell i) := by
    intro pos hpt i hi
    have := hR.get (Function.update pos shell i) (by
      intro d hd
      simp only [List.mem_cons, List.not_mem_nil, or_false] at hd
      rcases hd with rfl | rfl
      · rw [Function.update_of_ne hts]; exact hpt
      · rw [Function.update_self, hsz]; exact hi)
    simp only [List.map_cons, List.map_nil, Function.update_self, Function.update_of_ne hts] at this
    exact this
  have hgeti : ∀ k < G'.size time, ∀ i < G.size shell, reference.arr.data.data.get [k, i] =
      x (Function.update (fun _ => k) shell i) := fun k hk i hi => hget (fun _ => k) hk i hi
  obtain ⟨b, hb1, hb2, hb3⟩ := update_two hA ht hs hts (reference := reference.arr.data.data) (hR.shape.trans (by simp [hsz])) hm
    (G.pos time) hn2
    (fun k hk i j hij hj => by
      simp only
      rw [hgeti k hk i (by omega), hgeti k hk j hj]
      exact hx (fun _ => k) i j hk hij hj) (targets := targets) (by rintro rfl; simp at hT)
    (fun t htt k hk i hi => by
      rw [hgeti k hk i hi]
      refine hoff t htt _ (fun d hd => ?_)
      simp only [List.mem_cons, List.not_mem_nil, or_false] at hd
      rcases hd with rfl | rfl
      · rw [Function.update_of_ne hts]; exact hk
      · rw [Function.update_self, hsz]; exact hi)
    (fun t htt k hk => by rw [hgeti k (by omega) 0 (G.pos shell)]; exact (hin t htt (fun _ => k) hk).1)
    (fun t htt k hk => by rw [hgeti k (by omega) _ (by omega)]; exact (hin t htt (fun _ => k) hk).2)
  have hshape : dims.map (Function.update G.size shell targets.length) = (renamed dims shell radius).map
      (regrid G radius targets.length hT (coordinates targets ur)).size := by
    rw [renamed_map hrd]
    apply List.map_congr_left
    intro e he
    simp only [regrid, Function.update_self]
    by_cases h : e = shell
    · subst h; rw [Function.update_self, Function.update_self]
    · have : e ≠ radius := by rintro rfl; exact hrd he
      rw [Function.update_of_ne h, Function.update_of_ne h, Function.update_of_ne this]
  obtain ⟨r, hr1, hr2⟩ := newArray_grid (G := regrid G radius targets.length hT (coordinates targets ur)) (u := u)
    (renamed_nodup (shell := shell) hn hrd)
    (d := b) (hb2.trans hshape) (g := fun pos => b.get ((renamed dims shell radius).map pos)) (fun _ _ => rfl)
  refine ⟨r, _, ?_, hr2, fun pos hpos t htt => ?_⟩
  · unfold interpolate
    rw [if_neg (by simp)]
    have hrd' : reference.arr.data.dims = [time, shell] := hrdm
    simp only [interpolateLoop, hax, keys_axes, hrd', hb1, if_pos hname, hru, hcu,
      replacePair_grid hn hs hrd _ hT (coordinates targets ur)]
    exact hr1
  · have hin' : ∀ e ∈ dims, Function.update pos shell (pos radius) e < Function.update G.size shell targets.length e := by
      apply valid_map.1
      rw [hshape, ← renamed_map hrd]
      exact valid_map.2 hpos
    have htime : pos time < G.size time := by
      have := hin' time ht
      rwa [Function.update_of_ne hts, Function.update_of_ne hts] at this
    rw [renamed_map hrd]
    have := hb3 _ hin' t (by rw [Function.update_self]; exact htt)
    simp only [Function.update_idem, Function.update_of_ne hts] at this
    exact this.congr (fun i hi => hget pos (by omega) i hi) (fun _ _ => rfl)

/-- **C57**, interpolation along the radius, which depends on the time and on the shell, to values that no shell has at any
time (`c57_not_radius`: otherwise an exception is raised).  At each position the result is the value of the polygon through
the points of the array at the same time. -/
theorem c57_radius (radii : List κ) (time shell radius name : κ) (coordinates : List ℝ → List Term → ν) {dims : List κ}
    {u ur : List Term} {g x : (κ → Nat) → ℝ} {array reference : Arr κ ν ℝ} (ht : time ∈ dims) (hs : shell ∈ dims)
    (hts : time ≠ shell) (hrd : radius ∉ dims) (hname : name ∈ radii) (hn2 : 2 ≤ G.size shell)
    (ha : OnGrid G dims u g (.array array)) (hr : OnGrid G [time, shell] ur x (.array reference))
    (hx : ∀ pos i j, pos time < G.size time → i < j → j < G.size shell →
      x (Function.update pos shell i) < x (Function.update pos shell j))
    (targets : List ℝ) (hT : 0 < targets.length)
    (hoff : ∀ t ∈ targets, ∀ pos, G.Inside [time, shell] pos → x pos ≠ t)
    (hin : ∀ t ∈ targets, ∀ pos, pos time < G.size time →
      x (Function.update pos shell 0) ≤ t ∧ t ≤ x (Function.update pos shell (G.size shell - 1))) :
    ∃ r h, interpolate radii shell radius coordinates array [⟨name, reference, targets⟩] = .ok r ∧
      OnGrid (regrid G radius targets.length hT (coordinates targets ur)) (renamed dims shell radius) u h r ∧
      ∀ pos, (regrid G radius targets.length hT (coordinates targets ur)).Inside (renamed dims shell radius) pos →
        ∀ t, targets[pos radius]? = some t →
          OnPolygon (G.size shell) (fun i => x (Function.update pos shell i)) (fun i => g (Function.update pos shell i)) t
            (h pos) :=
  radius_rows radii time shell radius name coordinates ht hs hts hrd hname hn2 (le_refl _) rfl ha hr hx targets hT hoff hin

theorem each_mem {α β : Type} {f : α → Except Err β} : ∀ {l : List α} {r : List β}, each f l = .ok r → ∀ a ∈ l,
    ∃ b ∈ r, f a = .ok b
  | [], _, _, _, h => absurd h (List.not_mem_nil)
  | a :: l, r, h, x, hx => by
    unfold each at h
    cases h1 : f a with
    | error e => rw [h1] at h; cases h
    | ok b =>
      rw [h1] at h
      simp only at h
      cases h2 : each f l with
      | error e => rw [h2] at h; cases h
      | ok bs =>
        rw [h2] at h
        cases h
        rcases List.mem_cons.1 hx with rfl | hx
        · exact ⟨b, List.mem_cons_self .., h1⟩
        · obtain ⟨c, c1, c2⟩ := each_mem h2 x hx
          exact ⟨c, List.mem_cons_of_mem _ c1, c2⟩

theorem stack_ndim {l : List (ND ℝ)} {s : ND ℝ} (h : stack l = .ok s) {d : ND ℝ} (hd : d ∈ l) : s.ndim = d.ndim + 1 := by
  cases l with
  | nil => cases hd
  | cons e l =>
    simp only [stack] at h
    by_cases ha : l.all (fun e' => decide (e'.shape = e.shape))
    · rw [if_pos ha] at h
      cases h
      have : d.shape = e.shape := by
        rcases List.mem_cons.1 hd with rfl | hd
        · rfl
        · exact of_decide_eq_true (List.all_eq_true.1 ha d hd)
      rw [ND.ndim, ND.ndim, this]
      rfl
    · rw [if_neg ha] at h
      cases h

theorem transpose_ndim {a b : ND ℝ} {l : List Nat} (h : a.transpose l = .ok b) : b.ndim = a.ndim := by
  unfold ND.transpose at h
  by_cases hc : l.length = a.ndim ∧ l.Nodup ∧ (∀ i ∈ l, i < a.ndim)
  · rw [if_pos hc] at h
    cases h
    show (l.map _).length = _
    rw [List.length_map, hc.1]
  · rw [if_neg hc] at h
    cases h

theorem sub_ndim {a b : ND ℝ} {l : List Nat} (h : sub a l = .ok b) : b.ndim + l.length = a.ndim := by
  unfold sub at h
  by_cases hc : l.length ≤ a.ndim ∧ ∀ k < l.length, l.getD k 0 < a.shape.getD k 0
  · rw [if_pos hc] at h
    cases h
    show (a.shape.drop l.length).length + _ = _
    have := hc.1
    rw [List.length_drop]
    unfold ND.ndim at this ⊢
    omega
  · rw [if_neg hc] at h
    cases h

theorem unravel_length : ∀ (s : List Nat) (k : Nat), (unravel s k).length = s.length
  | [], _ => rfl
  | _ :: s, k => congrArg (· + 1) (unravel_length s _)

theorem newArray_ndim {d : ND ℝ} {u : List Term} {axes : Dict κ ν} (hn : axes.keys.Nodup) (h : d.ndim ≠ axes.keys.length) :
    ∃ e, newArray d u axes = .error e := by
  unfold newArray arrayFactory
  rw [dimensions_nodup hn, if_neg (fun e => h e.symm)]
  exact ⟨_, rfl⟩

/-- **C57 is violated**: interpolation to a radius that some shell has at some time always raises an exception, instead of
giving the tabulated value. -/
theorem c57_not_radius (radii : List κ) (time shell radius name : κ) (coordinates : List ℝ → List Term → ν) {dims : List κ}
    {u ur : List Term} {g x : (κ → Nat) → ℝ} {array reference : Arr κ ν ℝ} (ht : time ∈ dims) (hs : shell ∈ dims)
    (hts : time ≠ shell) (hrd : radius ∉ dims) (hname : name ∈ radii)
    (ha : OnGrid G dims u g (.array array)) (hr : OnGrid G [time, shell] ur x (.array reference)) (targets : List ℝ)
    (t : ℝ) (htt : t ∈ targets) (pos : κ → Nat) (hpos : G.Inside [time, shell] pos) (hon : x pos = t) :
    ∃ e, interpolate radii shell radius coordinates array [⟨name, reference, targets⟩] = .error e := by
  classical
  have hA := hasDims_grid ha
  have hR := hasDims_grid hr
  obtain ⟨hn, c', h', hp, hcd, hcs, hax, hcu, hg⟩ := ha
  cases h'
  obtain ⟨_, c', h', hrp, hrdm, hrs, hrax, hru, hrg⟩ := hr
  cases h'
  have hT : 0 < targets.length := List.length_pos_of_mem htt
  have hrd' : reference.arr.data.dims = [time, shell] := hrdm
  unfold interpolate
  rw [if_neg (by simp)]
  simp only [interpolateLoop, hax, keys_axes, hrd', if_pos hname, replacePair_grid hn hs hrd _ hT (coordinates targets reference.arr.unit)]
  cases hu : updateInterpolation dims array.arr.data.data [time, shell] reference.arr.data.data targets with
  | error e => exact ⟨_, rfl⟩
  | ok b =>
    simp only
    refine newArray_ndim (by rw [keys_axes]; exact renamed_nodup hn hrd) ?_
    rw [keys_axes, renamed, List.length_map]
    have hR2 : ([time, shell] : List κ).Nodup := by simp [hts]
    have hsub : ∀ e ∈ [time, shell], e ∈ dims := by simp [ht, hs]
    have hlen : 2 ≤ dims.length := (List.subperm_of_subset hR2 hsub).length_le
    unfold updateInterpolation at hu
    rw [if_neg (by push Not; exact ⟨by simp, hsub⟩)] at hu
    obtain ⟨y, hy1, hy2⟩ := moveaxis_front hA hR2 hsub
    have hyn : y.ndim = dims.length := by
      rw [ND.ndim, hy2.shape, List.length_map, (front_perm hn hR2 hsub).length_eq]
    simp only [hy1] at hu
    have hnd : reference.arr.data.data.ndim = 2 := by rw [ND.ndim, hR.shape]; rfl
    cases hi : applyInterpolation y reference.arr.data.data targets with
    | error e => rw [hi] at hu; cases hu
    | ok z =>
      rw [hi] at hu
      have hz := transpose_ndim hu
      rw [hz]
      unfold applyInterpolation at hi
      cases he : each (applyInterp1d y reference.arr.data.data) targets with
      | error e => rw [he] at hi; cases hi
      | ok l =>
        rw [he] at hi
        simp only at hi
        cases hst : stack l with
        | error e => rw [hst] at hi; cases hi
        | ok w =>
          rw [hst] at hi
          simp only [if_pos hnd] at hi
          obtain ⟨q, hq1, hq2⟩ := each_mem he t htt
          have hwn := stack_ndim hst hq1
          have hzn : z.ndim = w.ndim := by
            unfold swapaxes at hi
            by_cases hlt : w.ndim < 2
            · rw [if_pos hlt] at hi; cases hi
            · rw [if_neg hlt] at hi
              exact transpose_ndim hi
          have hmem : t ∈ elements reference.arr.data.data := by
            refine (mem_elements_two hR.shape t).2 ⟨pos time, hpos time (by simp), pos shell, hpos shell (by simp), ?_⟩
            rw [← hon]
            exact hR.get pos hpos
          unfold applyInterp1d at hq2
          rw [if_pos hmem] at hq2
          obtain ⟨k, hk1, hk2⟩ := nearest_mem hmem
          rw [hk1] at hq2
          have := sub_ndim hq2
          rw [hR.shape] at this
          have hul : (unravel (List.map G.size [time, shell]) (Int.toNat (k : ℤ))).length = 2 := by rw [unravel_length]; rfl
          omega

theorem linear_outside {x : List ℝ} {y : ND ℝ} {t : ℝ} (h : (∀ v ∈ x, t < v) ∨ ∀ v ∈ x, v < t) :
    ∃ e, linear x y t = .error e := by
  classical
  have hmem : ∀ v ∈ ((List.range x.length).mergeSort (fun i j => decide (x.getD i 0 ≤ x.getD j 0))).map (fun i => x.getD i 0),
      v ∈ x := fun v hv => by
    obtain ⟨i, hi, rfl⟩ := List.mem_map.1 hv
    have hi' := List.mem_range.1 (List.mem_mergeSort.1 hi)
    rw [List.getD_eq_getElem _ _ hi']
    exact List.getElem_mem _
  unfold linear
  by_cases hs : y.shape.head? ≠ some x.length
  · exact ⟨_, if_pos hs⟩
  · rw [if_neg hs]
    simp only
    generalize hxs : ((List.range x.length).mergeSort (fun i j => decide (x.getD i 0 ≤ x.getD j 0))).map (fun i => x.getD i 0) = xs at hmem
    cases ha : xs.head? with
    | none => exact ⟨_, rfl⟩
    | some a =>
      cases hb : xs.getLast? with
      | none => exact ⟨_, rfl⟩
      | some b =>
        have h1 := hmem a (List.mem_of_head? ha)
        have h2 := hmem b (List.mem_of_getLast? hb)
        refine ⟨_, if_pos ?_⟩
        rcases h with h | h
        · exact .inl (h a h1)
        · exact .inr (h b h2)

/-- A radius that is beyond all the shells at one of the times: an exception is raised, for every time. -/
theorem c57_radius_outside (radii : List κ) (time shell radius name : κ) (coordinates : List ℝ → List Term → ν) {dims : List κ}
    {u ur : List Term} {g x : (κ → Nat) → ℝ} {array reference : Arr κ ν ℝ} (ht : time ∈ dims) (hs : shell ∈ dims)
    (hts : time ≠ shell) (hrd : radius ∉ dims) (hname : name ∈ radii)
    (ha : OnGrid G dims u g (.array array)) (hr : OnGrid G [time, shell] ur x (.array reference)) (targets : List ℝ)
    (t : ℝ) (htt : t ∈ targets) (pos : κ → Nat) (hpos : pos time < G.size time)
    (hout : (∀ i < G.size shell, t < x (Function.update pos shell i)) ∨ ∀ i < G.size shell, x (Function.update pos shell i) < t) :
    ∃ e, interpolate radii shell radius coordinates array [⟨name, reference, targets⟩] = .error e := by
  classical
  by_cases hon : ∃ q, G.Inside [time, shell] q ∧ x q = t
  · obtain ⟨q, hq, hqt⟩ := hon
    exact c57_not_radius radii time shell radius name coordinates ht hs hts hrd hname ha hr targets t htt q hq hqt
  have hA := hasDims_grid ha
  have hR := hasDims_grid hr
  obtain ⟨hn, c', h', hp, hcd, hcs, hax, hcu, hg⟩ := ha
  cases h'
  obtain ⟨_, c', h', hrp, hrdm, hrs, hrax, hru, hrg⟩ := hr
  cases h'
  have hT : 0 < targets.length := List.length_pos_of_mem htt
  have hrd' : reference.arr.data.dims = [time, shell] := hrdm
  unfold interpolate
  rw [if_neg (by simp)]
  simp only [interpolateLoop, hax, keys_axes, hrd', if_pos hname]
  cases hu : updateInterpolation dims array.arr.data.data [time, shell] reference.arr.data.data targets with
  | error e => exact ⟨_, rfl⟩
  | ok b =>
    exfalso
    have hR2 : ([time, shell] : List κ).Nodup := by simp [hts]
    have hsub : ∀ e ∈ [time, shell], e ∈ dims := by simp [ht, hs]
    unfold updateInterpolation at hu
    rw [if_neg (by push Not; exact ⟨by simp, hsub⟩)] at hu
    obtain ⟨y, hy1, hy2⟩ := moveaxis_front hA hR2 hsub
    simp only [hy1] at hu
    cases hi : applyInterpolation y reference.arr.data.data targets with
    | error e => rw [hi] at hu; cases hu
    | ok z =>
      unfold applyInterpolation at hi
      cases he : each (applyInterp1d y reference.arr.data.data) targets with
      | error e => rw [he] at hi; cases hi
      | ok l =>
        obtain ⟨q, hq1, hq2⟩ := each_mem he t htt
        have hrs : reference.arr.data.data.shape = [G.size time, G.size shell] := hR.shape
        have hys : y.shape = G.size time :: G.size shell :: (dims.filter (fun e => decide (e ∉ [time, shell]))).map G.size := by
          rw [hy2.shape, front_two]; rfl
        have hget : ∀ i < G.size shell, reference.arr.data.data.get [pos time, i] = x (Function.update pos shell i) := fun i hi => by
          have := hR.get (Function.update pos shell i) (fun d hd => by
            rcases List.mem_cons.1 hd with rfl | hd
            · rw [Function.update_of_ne hts]; exact hpos
            · rw [List.mem_singleton.1 hd, Function.update_self]; exact hi)
          rwa [List.map_cons, List.map_cons, List.map_nil, Function.update_of_ne hts, Function.update_self] at this
        have hmem : t ∉ elements reference.arr.data.data := fun h => by
          obtain ⟨i, hi, j, hj, e⟩ := (mem_elements_two hrs t).1 h
          refine hon ⟨Function.update (Function.update pos time i) shell j, fun d hd => ?_, ?_⟩
          · rcases List.mem_cons.1 hd with rfl | hd
            · rw [Function.update_of_ne hts, Function.update_self]; exact hi
            · rw [List.mem_singleton.1 hd, Function.update_self]; exact hj
          · rw [← e, ← hR.get _ (fun d hd => ?_)]
            · rw [List.map_cons, List.map_cons, List.map_nil, Function.update_of_ne hts, Function.update_self, Function.update_self]
            · rcases List.mem_cons.1 hd with rfl | hd
              · rw [Function.update_of_ne hts, Function.update_self]; exact hi
              · rw [List.mem_singleton.1 hd, Function.update_self]; exact hj
        unfold applyInterp1d at hq2
        rw [if_neg hmem, hrs, hys] at hq2
        simp only [List.headD_cons, Nat.min_self] at hq2
        cases hrow : each (rowInterp y reference.arr.data.data t) (List.range (G.size time)) with
        | error e => rw [hrow] at hq2; cases hq2
        | ok rows =>
          obtain ⟨w, _, hw⟩ := each_mem hrow (pos time) (List.mem_range.2 hpos)
          obtain ⟨x', a1, a2, a3⟩ := sub_one hrs hpos
          obtain ⟨y', b1, _, _⟩ := sub_one hys hpos
          unfold rowInterp at hw
          simp only [a1, b1] at hw
          obtain ⟨e, hl⟩ := linear_outside (x := elements x') (y := y') (t := t) (by
            rw [elements_one a2]
            rcases hout with h | h
            · left
              intro v hv
              obtain ⟨i, hi, rfl⟩ := List.mem_map.1 hv
              have hi := List.mem_range.1 hi
              rw [a3 [i] (.cons hi .nil), hget i hi]
              exact h i hi
            · right
              intro v hv
              obtain ⟨i, hi, rfl⟩ := List.mem_map.1 hv
              have hi := List.mem_range.1 hi
              rw [a3 [i] (.cons hi .nil), hget i hi]
              exact h i hi)
          rw [hl] at hw
          cases hw

/-! ## Time and radius -/

/-- What a user expects when a quantity `g` is requested at a time and a radius: `h` is the value at the radius `r` of the
polygon through the values that the quantity has at the time `t`, over the radii that the shells have at the time `t`. -/
def AtTimeAndRadius (m n : Nat) (times : Nat → ℝ) (x g : Nat → Nat → ℝ) (t r h : ℝ) : Prop :=
  ∃ ρ w : Nat → ℝ, (∀ j < n, OnPolygon m times (fun i => x i j) t (ρ j)) ∧
    (∀ j < n, OnPolygon m times (fun i => g i j) t (w j)) ∧ OnPolygon n ρ w r h

/-- What the package computes for a quantity at some times and some radii: the radii of the stored time with the same number
as the target time, instead of the radii at the target time. -/
theorem c58_rows (radii : List κ) (time shell radius name : κ) (coordinates : List ℝ → List Term → ν) {dims : List κ}
    {u ut ur : List Term} {g x times : (κ → Nat) → ℝ} {array reference stored : Arr κ ν ℝ} (ht : time ∈ dims)
    (hs : shell ∈ dims) (hts : time ≠ shell) (hrd : radius ∉ dims) (hname : name ∈ radii) (htime : time ∉ radii)
    (hn2 : 2 ≤ G.size shell) (ha : OnGrid G dims u g (.array array)) (hst : OnGrid G [time] ut times (.array stored))
    (hr : OnGrid G [time, shell] ur x (.array reference))
    (hti : ∀ pos i j, i < j → j < G.size time → times (Function.update pos time i) < times (Function.update pos time j))
    (hx : ∀ pos i j, pos time < G.size time → i < j → j < G.size shell →
      x (Function.update pos shell i) < x (Function.update pos shell j))
    (ts rs : List ℝ) (hT : 0 < ts.length) (hTm : ts.length ≤ G.size time) (hR : 0 < rs.length)
    (htin : ∀ t ∈ ts, ∀ pos, times (Function.update pos time 0) ≤ t ∧ t ≤ times (Function.update pos time (G.size time - 1)))
    (hoff : ∀ r ∈ rs, ∀ pos, G.Inside [time, shell] pos → x pos ≠ r)
    (hin : ∀ r ∈ rs, ∀ pos, pos time < ts.length →
      x (Function.update pos shell 0) ≤ r ∧ r ≤ x (Function.update pos shell (G.size shell - 1))) :
    ∃ res h, interpolate radii shell radius coordinates array [⟨time, stored, ts⟩, ⟨name, reference, rs⟩] = .ok res ∧
      OnGrid (regrid (regrid G time ts.length hT (coordinates ts ut)) radius rs.length hR (coordinates rs ur))
        (renamed dims shell radius) u h res ∧
      ∀ pos, (regrid (regrid G time ts.length hT (coordinates ts ut)) radius rs.length hR (coordinates rs ur)).Inside
          (renamed dims shell radius) pos → ∀ t r, ts[pos time]? = some t → rs[pos radius]? = some r →
        ∃ w : Nat → ℝ,
          (∀ j < G.size shell, OnPolygon (G.size time) (fun i => times (Function.update pos time i))
            (fun i => g (Function.update (Function.update pos shell j) time i)) t (w j)) ∧
          OnPolygon (G.size shell) (fun j => x (Function.update pos shell j)) w r (h pos) := by
  have hA := hasDims_grid ha
  have hS := hasDims_grid hst
  have hX := hasDims_grid hr
  obtain ⟨hn, c', h', hp, hcd, hcs, hax, hcu, hg⟩ := ha
  cases h'
  obtain ⟨_, c', h', hrp, hrdm, hrs, hrax, hru, hrg⟩ := hr
  cases h'
  obtain ⟨_, c', h', hsp, hsd, hss, hsax, hsu, hsg⟩ := hst
  cases h'
  have hgett : ∀ i < G.size time, ∀ pos, stored.arr.data.data.get [i] = times (Function.update pos time i) := by
    intro i hi pos
    have := hS.get (Function.update pos time i) (by simp [hi])
    simpa using this
  obtain ⟨a, ha1, ha2, ha3⟩ := update_one hA ht (reference := stored.arr.data.data) hS.shape
    (fun i j hij hj => by
      have p0 : κ → Nat := fun _ => 0
      simp only
      rw [hgett i (by omega) p0, hgett j hj p0]
      exact hti p0 i j hij hj) (G.pos time) (targets := ts) (by rintro rfl; simp at hT)
    (fun t ht => by rw [hgett 0 (G.pos time) (fun _ => 0)]; exact (htin t ht _).1)
    (fun t ht => by
      rw [hgett (G.size time - 1) (by have := G.pos time; omega) (fun _ => 0)]; exact (htin t ht _).2)
  have hA1 : HasDims dims (Function.update G.size time ts.length) _ a := hasDims_self hn ha2
  have hsz : Function.update G.size time ts.length shell = G.size shell := Function.update_of_ne hts.symm ..
  have hszt : Function.update G.size time ts.length time = ts.length := Function.update_self ..
  have hget : ∀ pos, pos time < G.size time → ∀ i < G.size shell,
      reference.arr.data.data.get [pos time, i] = x (Function.update pos shell i) := by
    intro pos hpt i hi
    have := hX.get (Function.update pos shell i) (by
      intro d hd
      simp only [List.mem_cons, List.not_mem_nil, or_false] at hd
      rcases hd with rfl | rfl
      · rw [Function.update_of_ne hts]; exact hpt
      · rw [Function.update_self]; exact hi)
    simp only [List.map_cons, List.map_nil, Function.update_self, Function.update_of_ne hts] at this
    exact this
  have hgeti : ∀ k < G.size time, ∀ i < G.size shell, reference.arr.data.data.get [k, i] =
      x (Function.update (fun _ => k) shell i) := fun k hk i hi => hget (fun _ => k) hk i hi
  obtain ⟨b, hb1, hb2, hb3⟩ := update_two hA1 ht hs hts (reference := reference.arr.data.data) (m := G.size time)
    (by rw [hsz]; exact hX.shape) (by rw [hszt]; exact hTm) (by rw [hszt]; exact hT) (by rw [hsz]; exact hn2)
    (fun k hk i j hij hj => by
      rw [hsz] at hj
      simp only
      rw [hgeti k hk i (by omega), hgeti k hk j hj]
      exact hx (fun _ => k) i j hk hij hj) (targets := rs) (by rintro rfl; simp at hR)
    (fun t htt k hk i hi => by
      rw [hsz] at hi
      rw [hgeti k hk i hi]
      refine hoff t htt _ (fun d hd => ?_)
      simp only [List.mem_cons, List.not_mem_nil, or_false] at hd
      rcases hd with rfl | rfl
      · rw [Function.update_of_ne hts]; exact hk
      · rw [Function.update_self]; exact hi)
    (fun t htt k hk => by
      rw [hszt] at hk
      rw [hgeti k (by omega) 0 (G.pos shell)]; exact (hin t htt (fun _ => k) hk).1)
    (fun t htt k hk => by
      rw [hszt] at hk
      rw [hsz, hgeti k (by omega) _ (by omega)]; exact (hin t htt (fun _ => k) hk).2)
  have hshape : dims.map (Function.update (Function.update G.size time ts.length) shell rs.length) =
      (renamed dims shell radius).map
      (regrid (regrid G time ts.length hT (coordinates ts ut)) radius rs.length hR (coordinates rs ur)).size := by
    rw [renamed_map hrd]
    apply List.map_congr_left
    intro e he
    simp only [regrid, Function.update_self]
    by_cases h : e = shell
    · subst h; rw [Function.update_self, Function.update_self]
    · have : e ≠ radius := by rintro rfl; exact hrd he
      rw [Function.update_of_ne h, Function.update_of_ne h, Function.update_of_ne this]
  obtain ⟨r, hr1, hr2⟩ := newArray_grid
    (G := regrid (regrid G time ts.length hT (coordinates ts ut)) radius rs.length hR (coordinates rs ur)) (u := u)
    (renamed_nodup (shell := shell) hn hrd)
    (d := b) (hb2.trans hshape) (g := fun pos => b.get ((renamed dims shell radius).map pos)) (fun _ _ => rfl)
  refine ⟨r, _, ?_, hr2, fun pos hpos t r' htt hrr => ?_⟩
  · unfold interpolate
    rw [if_neg (by simp)]
    have hrd' : reference.arr.data.dims = [time, shell] := hrdm
    have hsd' : stored.arr.data.dims = [time] := hsd
    simp only [interpolateLoop, hax, keys_axes, hrd', hsd', ha1, hb1, if_pos hname, if_neg htime, hru, hcu, hsu,
      replace_grid hn ht _ hT (coordinates ts ut), replacePair_grid hn hs hrd _ hR (coordinates rs ur)]
    exact hr1
  · have hin' : ∀ e ∈ dims, Function.update pos shell (pos radius) e <
        Function.update (Function.update G.size time ts.length) shell rs.length e := by
      apply valid_map.1
      rw [hshape, ← renamed_map hrd]
      exact valid_map.2 hpos
    have hpt : pos time < ts.length := by
      have := hin' time ht
      rwa [Function.update_of_ne hts, Function.update_of_ne hts, Function.update_self] at this
    refine ⟨fun j => a.get (dims.map (Function.update pos shell j)), fun j hj => ?_, ?_⟩
    · have := ha3 (Function.update pos shell j) (fun e he => by
        by_cases h : e = shell
        · subst h; rw [Function.update_self, hsz]; exact hj
        · have h2 := hin' e he
          rw [Function.update_of_ne h, Function.update_of_ne h] at h2
          rw [Function.update_of_ne h]
          exact h2) t (by rw [Function.update_of_ne hts]; exact htt)
      exact this.congr (fun i hi => hgett i hi pos) (fun _ _ => rfl)
    · rw [renamed_map hrd]
      have := hb3 _ hin' r' (by rw [Function.update_self]; exact hrr)
      simp only [Function.update_idem, Function.update_of_ne hts, hsz] at this
      exact this.congr (fun i hi => hget pos (by omega) i hi) (fun _ _ => rfl)

theorem onPolygon_const {m : Nat} {x : Nat → ℝ} {t c : ℝ} : OnPolygon m x (fun _ => c) t c :=
  ⟨fun _ _ _ => rfl, fun _ _ _ _ => by ring⟩

/-- **C58** where the radii of the shells do not depend on the time. -/
theorem c58_partial (radii : List κ) (time shell radius name : κ) (coordinates : List ℝ → List Term → ν) {dims : List κ}
    {u ut ur : List Term} {g x times : (κ → Nat) → ℝ} {array reference stored : Arr κ ν ℝ} (ht : time ∈ dims)
    (hs : shell ∈ dims) (hts : time ≠ shell) (hrd : radius ∉ dims) (hname : name ∈ radii) (htime : time ∉ radii)
    (hn2 : 2 ≤ G.size shell) (ha : OnGrid G dims u g (.array array)) (hst : OnGrid G [time] ut times (.array stored))
    (hr : OnGrid G [time, shell] ur x (.array reference))
    (hti : ∀ pos i j, i < j → j < G.size time → times (Function.update pos time i) < times (Function.update pos time j))
    (hx : ∀ pos i j, pos time < G.size time → i < j → j < G.size shell →
      x (Function.update pos shell i) < x (Function.update pos shell j))
    (hconst : ∀ pos i, x (Function.update pos time i) = x pos)
    (ts rs : List ℝ) (hT : 0 < ts.length) (hTm : ts.length ≤ G.size time) (hR : 0 < rs.length)
    (htin : ∀ t ∈ ts, ∀ pos, times (Function.update pos time 0) ≤ t ∧ t ≤ times (Function.update pos time (G.size time - 1)))
    (hoff : ∀ r ∈ rs, ∀ pos, G.Inside [time, shell] pos → x pos ≠ r)
    (hin : ∀ r ∈ rs, ∀ pos, pos time < ts.length →
      x (Function.update pos shell 0) ≤ r ∧ r ≤ x (Function.update pos shell (G.size shell - 1))) :
    ∃ res h, interpolate radii shell radius coordinates array [⟨time, stored, ts⟩, ⟨name, reference, rs⟩] = .ok res ∧
      OnGrid (regrid (regrid G time ts.length hT (coordinates ts ut)) radius rs.length hR (coordinates rs ur))
        (renamed dims shell radius) u h res ∧
      ∀ pos, (regrid (regrid G time ts.length hT (coordinates ts ut)) radius rs.length hR (coordinates rs ur)).Inside
          (renamed dims shell radius) pos → ∀ t r, ts[pos time]? = some t → rs[pos radius]? = some r →
        AtTimeAndRadius (G.size time) (G.size shell) (fun i => times (Function.update pos time i))
          (fun i j => x (Function.update (Function.update pos shell j) time i))
          (fun i j => g (Function.update (Function.update pos shell j) time i)) t r (h pos) := by
  obtain ⟨res, h, h1, h2, h3⟩ := c58_rows radii time shell radius name coordinates ht hs hts hrd hname htime hn2 ha hst hr
    hti hx ts rs hT hTm hR htin hoff hin
  refine ⟨res, h, h1, h2, fun pos hpos t r htt hrr => ?_⟩
  obtain ⟨w, w1, w2⟩ := h3 pos hpos t r htt hrr
  refine ⟨fun j => x (Function.update pos shell j), w, fun j hj => ?_, w1, w2⟩
  simp only [hconst]
  exact onPolygon_const

/-! ## Examples -/

/-- Two times and two shells. -/
def twoGrid : Grid String Unit := ⟨fun _ => 2, fun _ => (), fun _ => by omega⟩

/-- The stored times 0 and 1. -/
def exTimes (p : String → Nat) : ℝ := ((p "time" : ℕ) : ℝ)

/-- The stored radii: 1 and 3 at the first time, 2 and 4 at the second. -/
def exRadii (p : String → Nat) : ℝ := 1 + ((p "time" : ℕ) : ℝ) + 2 * ((p "shell" : ℕ) : ℝ)

theorem exRadii_increasing (pos : String → Nat) (i j : Nat) (hij : i < j) :
    exRadii (Function.update pos "shell" i) < exRadii (Function.update pos "shell" j) := by
  have : (i : ℝ) < j := by exact_mod_cast hij
  simp only [exRadii, Function.update_self, Function.update_of_ne (show "time" ≠ "shell" by decide)]
  linarith

theorem exTimes_increasing (pos : String → Nat) (i j : Nat) (hij : i < j) :
    exTimes (Function.update pos "time" i) < exTimes (Function.update pos "time" j) := by
  have : (i : ℝ) < j := by exact_mod_cast hij
  simpa only [exTimes, Function.update_self] using this

theorem ex_arrays (u : List Term) : (∃ c, OnGrid twoGrid ["time"] u exTimes (.array c)) ∧
    ∃ c, OnGrid twoGrid ["time", "shell"] u exRadii (.array c) := by
  obtain ⟨f, hf⟩ := onGrid_ofFn twoGrid ["time", "shell"] (by decide) u
    (fun l => 1 + ((l.getD 0 0 : ℕ) : ℝ) + 2 * ((l.getD 1 0 : ℕ) : ℝ))
  obtain ⟨t, ht⟩ := onGrid_ofFn twoGrid ["time"] (by decide) u (fun l => ((l.getD 0 0 : ℕ) : ℝ))
  obtain ⟨_, c, rfl, _⟩ := id hf
  obtain ⟨_, d, rfl, _⟩ := id ht
  exact ⟨⟨d, ht⟩, ⟨c, hf⟩⟩

theorem exRadii_off (pos : String → Nat) : exRadii pos ≠ 5 / 2 := by
  intro h
  unfold exRadii at h
  have h2 : (2 : ℝ) * (1 + pos "time" + 2 * pos "shell" : ℕ) = (5 : ℕ) := by push_cast; linarith
  have h3 : 2 * (1 + pos "time" + 2 * pos "shell") = 5 := by exact_mod_cast h2
  omega

/-- times inside the range of the stored times, and radii between those of the shells -/
example : ∃ array reference stored, OnGrid twoGrid ["time", "shell"] [] exRadii (.array array) ∧
    OnGrid twoGrid ["time", "shell"] [] exRadii (.array reference) ∧ OnGrid twoGrid ["time"] [] exTimes (.array stored) ∧
    (∀ t ∈ [(1 / 2 : ℝ), 1], ∀ pos, exTimes (Function.update pos "time" 0) ≤ t ∧ t ≤ exTimes (Function.update pos "time" 1)) ∧
    ∀ r ∈ [(5 / 2 : ℝ)], ∀ pos, pos "time" < 2 → exRadii pos ≠ r ∧ exRadii (Function.update pos "shell" 0) ≤ r ∧
      r ≤ exRadii (Function.update pos "shell" 1) := by
  obtain ⟨⟨c, hc⟩, d, hd⟩ := ex_arrays []
  refine ⟨d, d, c, hd, hd, hc, ?_, ?_⟩
  · intro t ht pos
    simp only [exTimes, Function.update_self]
    simp only [List.mem_cons, List.not_mem_nil, or_false] at ht
    rcases ht with rfl | rfl <;> norm_num
  · intro r hr pos hpos
    obtain rfl := List.mem_singleton.1 hr
    have : (pos "time" : ℝ) ≤ 1 := by exact_mod_cast (by omega : pos "time" ≤ 1)
    have h0 : (0 : ℝ) ≤ pos "time" := by positivity
    refine ⟨exRadii_off pos, ?_, ?_⟩ <;>
      simp only [exRadii, Function.update_self, Function.update_of_ne (show "time" ≠ "shell" by decide)] <;>
      push_cast <;> linarith

/-- a radius that is above the first shell, but only at the first time: `c57_radius_outside` applies -/
example : (∀ i < twoGrid.size "shell", (7 : ℝ) / 2 > exRadii (Function.update (fun _ => 0) "shell" i)) ∧
    exRadii (fun d => if d = "shell" then 1 else if d = "time" then 1 else 0) > 7 / 2 := by
  refine ⟨fun i hi => ?_, ?_⟩
  · have hi : i < 2 := hi
    interval_cases i <;> simp [exRadii] <;> norm_num
  · simp [exRadii]; norm_num

/-- a radius that a shell has: `c57_not_radius` applies -/
example : exRadii (fun d => if d = "shell" then 1 else 0) = 3 := by
  simp [exRadii]; norm_num

/-- **C58 is violated**: with stored times 0 and 1, at which the two shells have the radii 1, 3 and 2, 4, the radius itself
at the time 1/2 and at the radius 5/2 is 3 instead of 5/2. -/
theorem c58_not : ∃ (array stored : Arr String Unit ℝ) (h : (String → Nat) → ℝ) (res : Operand String Unit ℝ),
    OnGrid twoGrid ["time", "shell"] [] exRadii (.array array) ∧ OnGrid twoGrid ["time"] [] exTimes (.array stored) ∧
    interpolate ["r"] "shell" "radius" (fun _ _ => ()) array [⟨"time", stored, [1 / 2]⟩, ⟨"r", array, [5 / 2]⟩] = .ok res ∧
    OnGrid ⟨fun d => if d = "time" ∨ d = "radius" then 1 else 2, fun _ => (), fun d => by positivity⟩ ["time", "radius"] [] h res ∧
    h (fun _ => 0) = 3 ∧
    ¬ AtTimeAndRadius 2 2 (fun i => exTimes (Function.update (fun _ => 0) "time" i))
      (fun i j => exRadii (Function.update (Function.update (fun _ => 0) "shell" j) "time" i))
      (fun i j => exRadii (Function.update (Function.update (fun _ => 0) "shell" j) "time" i)) (1 / 2) (5 / 2) 3 := by
  obtain ⟨⟨c, hc⟩, d, hd⟩ := ex_arrays []
  obtain ⟨res, h, h1, h2, h3⟩ := c58_rows (G := twoGrid) ["r"] "time" "shell" "radius" "r" (fun _ _ => ()) (by simp) (by simp)
    (by decide) (by decide) (by decide) (by decide) (by decide) hd hc hd
    (fun pos i j hij _ => exTimes_increasing pos i j hij) (fun pos i j _ hij _ => exRadii_increasing pos i j hij)
    [1 / 2] [5 / 2] (by simp) (by simp [twoGrid]) (by simp)
    (by
      intro t ht pos
      obtain rfl := List.mem_singleton.1 ht
      simp only [exTimes, Function.update_self, twoGrid]
      norm_num)
    (fun r hr pos _ => by
      obtain rfl := List.mem_singleton.1 hr
      exact exRadii_off pos)
    (fun r hr pos hpos => by
      obtain rfl := List.mem_singleton.1 hr
      have h0 : pos "time" = 0 := by simpa using hpos
      simp only [exRadii, Function.update_self, Function.update_of_ne (show "time" ≠ "shell" by decide), h0, twoGrid]
      norm_num)
  have hv : h (fun _ => 0) = 3 := by
    obtain ⟨w, w1, w2⟩ := h3 (fun _ => 0) (fun d hd => by
      simp only [renamed, List.map_cons, List.map_nil] at hd
      have : d = "time" ∨ d = "radius" := by simpa using hd
      rcases this with rfl | rfl <;> simp [regrid, Function.update]) (1 / 2) (5 / 2) (by simp) (by simp)
    have e0 := (w1 0 (by decide)).2 0 (by decide)
      (by simp [exTimes]) (by simp [exTimes]; norm_num)
    have e1 := (w1 1 (by decide)).2 0 (by decide)
      (by simp [exTimes]) (by simp [exTimes]; norm_num)
    have e2 := w2.2 0 (by decide)
      (by simp [exRadii]; norm_num) (by simp [exRadii]; norm_num)
    simp [exTimes, exRadii] at e0 e1 e2
    rw [e2, e0, e1]
    norm_num
  refine ⟨d, c, h, res, hd, hc, h1, ?_, hv, ?_⟩
  · have e : regrid (regrid twoGrid "time" [(1 / 2 : ℝ)].length (by simp) ()) "radius" [(5 / 2 : ℝ)].length (by simp) () =
        ⟨fun d => if d = "time" ∨ d = "radius" then 1 else 2, fun _ => (), fun d => by positivity⟩ := by
      simp only [regrid, twoGrid]
      congr 1
      funext d
      by_cases h1 : d = "radius"
      · subst h1; simp
      · by_cases h2 : d = "time"
        · subst h2; simp
        · simp [h1, h2]
    have := h2
    rw [e] at this
    exact this
  · rintro ⟨ρ, w, w1, w2, w3⟩
    have a0 := (w1 0 (by decide)).2 0 (by decide) (by simp [exTimes]) (by simp [exTimes]; norm_num)
    have a1 := (w1 1 (by decide)).2 0 (by decide) (by simp [exTimes]) (by simp [exTimes]; norm_num)
    have b0 := (w2 0 (by decide)).2 0 (by decide) (by simp [exTimes]) (by simp [exTimes]; norm_num)
    have b1 := (w2 1 (by decide)).2 0 (by decide) (by simp [exTimes]) (by simp [exTimes]; norm_num)
    simp [exTimes, exRadii] at a0 a1 b0 b1
    have := w3.2 0 (by decide) (by rw [a0]; norm_num) (by rw [a1]; norm_num)
    rw [a0, a1, b0, b1] at this
    norm_num at this

end

end Eprem.Interpolate
