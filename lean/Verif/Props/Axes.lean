import Verif.Model.Axes
import Verif.Lemmas.PyDict
import Verif.Props.Axis
import Verif.Props.NamedArray

/-!
# C39 and C74: collections of axes

A collection is an ordered mapping without repeated names (`Dict.WF`).  `keys` are the names in order.
-/

namespace Eprem.Axes

open Eprem Eprem.Numeric Eprem.Dict

variable {κ ν : Type} [DecidableEq κ]

/-! ## Lemmas -/

theorem keys_ofItems (items : List (κ × ν)) : (Dict.ofItems items).keys = Container.unique (items.map Prod.fst) := by
  have h : ∀ (items : List (κ × ν)) (d : Dict κ ν), (items.foldl (fun d p => d.set p.1 p.2) d).keys =
      Container.uniqueLoop d.keys (items.map Prod.fst) := by
    intro items
    induction items with
    | nil => intro d; rfl
    | cons p items ih =>
      intro d
      simp only [List.foldl_cons, List.map_cons, Container.uniqueLoop]
      rw [ih, keys_set]
      split <;> rfl
  exact h items []

/-- A comprehension `{k: g(k) for k in names}`. -/
theorem collect_items (g : κ → Except Err ν) (names : List κ) (h : ∀ k ∈ names, ∃ v, g k = .ok v) :
    ∃ items, Axis.collect (fun k => (g k).map (fun v => (k, v))) names = .ok items ∧
      (Dict.ofItems items).keys = Container.unique names ∧
      ∀ k, (Dict.ofItems items).get? k = if k ∈ names then (g k).toOption else none := by
  obtain ⟨items, h1, h2⟩ := Axis.collect_ok (f := fun k => (g k).map (fun v => (k, v)))
    (P := fun k p => p.1 = k ∧ g k = .ok p.2) (l := names) (fun k hk => by
      obtain ⟨v, hv⟩ := h k hk
      exact ⟨(k, v), by rw [hv]; rfl, rfl, hv⟩)
  refine ⟨items, h1, ?_, ?_⟩
  · rw [keys_ofItems]
    congr 1
    clear h1 h
    induction h2 with
    | nil => rfl
    | cons hab _ ih => simp [hab.1, ih]
  · intro k
    have hgen : ∀ d : Dict κ ν, (items.foldl (fun d p => d.set p.1 p.2) d).get? k =
        if k ∈ names then (g k).toOption else d.get? k := by
      clear h1 h
      induction h2 with
      | nil => intro d; simp
      | @cons a b l₁ l₂ hab _ ih =>
        intro d
        simp only [List.foldl_cons]
        rw [ih, get?_set, hab.1]
        by_cases h3 : k ∈ l₁
        · simp [h3]
        · by_cases h4 : a = k
          · subst h4; simp [hab.2, Except.toOption, h3]
          · simp [h3, h4, Ne.symm h4]
    exact hgen []

theorem lookupAll_eq (a : Dict κ ν) (names : List κ) : lookupAll a names =
    match Axis.collect (fun k => (match a.get? k with | some v => Except.ok v | none => .error Err.key).map (fun v => (k, v))) names with
    | .error e => .error e
    | .ok items => .ok (Dict.ofItems items) := by
  unfold lookupAll
  congr 2
  funext d
  cases a.get? d <;> rfl

theorem lookupAll_ok (a : Dict κ ν) (names : List κ) (h : ∀ k ∈ names, k ∈ a.keys) : ∃ r, lookupAll a names = .ok r ∧
    r.keys = Container.unique names ∧ ∀ k, r.get? k = if k ∈ names then a.get? k else none := by
  obtain ⟨items, h1, h2, h3⟩ := collect_items (fun k => match a.get? k with | some v => Except.ok v | none => .error Err.key)
    names (fun k hk => by
      obtain ⟨v, hv⟩ := get?_isSome.2 (h k hk)
      exact ⟨v, by rw [hv]⟩)
  refine ⟨Dict.ofItems items, by rw [lookupAll_eq, h1], h2, fun k => ?_⟩
  rw [h3]
  cases a.get? k <;> rfl

theorem lookupAll_error (a : Dict κ ν) (names : List κ) (h : ∃ k ∈ names, k ∉ a.keys) : lookupAll a names = .error .key := by
  obtain ⟨k, hk, hn⟩ := h
  unfold lookupAll
  rw [Axis.collect_error (e := .key) (fun d _ => by
    cases a.get? d with
    | none => exact .inr rfl
    | some v => exact .inl ⟨_, rfl⟩) ⟨k, hk, by rw [get?_eq_none.2 hn]⟩]

theorem unique_of_nodup {l : List κ} (h : l.Nodup) : Container.unique l = l := Container.unique_nodup l h

/-! ## C39: removing, extracting, replacing -/

/-- **C39**, removal: the named axis is gone, the other axes are there in the same order. -/
theorem c39_without (a : Dict κ ν) (d : κ) : ∃ r, without a d false = .ok r ∧
    r.keys = a.keys.filter (fun k => decide (k ≠ d)) ∧ ∀ k, r.get? k = if k = d then none else a.get? k := by
  refine ⟨a.filter (fun p : κ × ν => decide (p.1 ≠ d)), rfl, ?_, fun k => ?_⟩
  · simp only [Dict.keys, List.filter_map]
    rfl
  · have := get?_del a d k
    unfold Dict.del at this
    simp only [eq_comm (a := k)]
    exact this

/-- **C39**, removal in strict mode refuses names that do not exist, and is the same otherwise. -/
theorem c39_without_strict (a : Dict κ ν) (d : κ) :
    without a d true = if d ∈ a.keys then without a d false else .error .key := by
  by_cases h : d ∈ a.keys <;> simp [without, h]

/-- **C39**, extraction: exactly the requested axes, in the requested order. -/
theorem c39_extract (a : Dict κ ν) (ds : List κ) (hne : ds ≠ []) (h : ∀ d ∈ ds, d ∈ a.keys) : ∃ r, extract a ds = .ok r ∧
    Container.FirstOccurrences ds r.keys ∧ ∀ k, r.get? k = if k ∈ ds then a.get? k else none := by
  obtain ⟨r, h1, h2, h3⟩ := lookupAll_ok a ds h
  refine ⟨r, by simp [extract, hne, h1], ?_, h3⟩
  rw [h2]
  exact Container.c08_unique ds

/-- **C39**, extraction fails if there is nothing to extract or a name does not exist. -/
theorem c39_extract_errors (a : Dict κ ν) : extract a [] = .error .type ∧
    ∀ ds : List κ, (∃ d ∈ ds, d ∉ a.keys) → extract a ds = .error .key := by
  refine ⟨rfl, fun ds h => ?_⟩
  obtain ⟨d, hd, _⟩ := id h
  rw [extract, if_neg (List.ne_nil_of_mem hd), lookupAll_error a ds h]

/-- **C39**, replacement of an axis: all names in the same order, and only the named axis changed. -/
theorem c39_replace (a : Dict κ ν) (hw : a.WF) (d : κ) (v : ν) (hd : d ∈ a.keys) : ∃ r, replace a d v = .ok r ∧
    r.keys = a.keys ∧ ∀ k, r.get? k = if k = d then some v else a.get? k := by
  have hk : (a.map (fun p : κ × ν => (p.1, if p.1 = d then v else p.2))).map Prod.fst = a.keys := by
    simp [Dict.keys, List.map_map, Function.comp_def]
  refine ⟨a.map (fun p : κ × ν => (p.1, if p.1 = d then v else p.2)), ?_, hk, fun k => ?_⟩
  · rw [replace, if_pos hd, ofItems_nodup _ (by rw [hk]; exact hw)]
  · clear hk hw
    induction a with
    | nil => simp [Dict.keys] at hd
    | cons p a ih =>
      obtain ⟨n, w⟩ := p
      simp only [List.map_cons, get?_cons]
      by_cases hn : n = k
      · subst hn
        by_cases hnd : n = d <;> simp [hnd]
      · rw [if_neg hn, if_neg hn]
        by_cases hk : d ∈ Dict.keys a
        · exact ih hk
        · have hnd : n = d := by
            simp only [Dict.keys, List.map_cons, List.mem_cons] at hd hk
            exact (hd.resolve_right hk).symm
          subst hnd
          rw [if_neg (Ne.symm hn)]
          have : a.map (fun p : κ × ν => (p.1, if p.1 = n then v else p.2)) = a := by
            rw [List.map_congr_left (g := id)]
            · simp
            · rintro ⟨m, u⟩ hm
              have : m ≠ n := fun h => hk (h ▸ List.mem_map.2 ⟨_, hm, rfl⟩)
              simp [this]
          rw [this]

/-- **C39**, replacement refuses names that do not exist. -/
theorem c39_replace_missing (a : Dict κ ν) (d key : κ) (v : ν) (hd : d ∉ a.keys) :
    replace a d v = .error .key ∧ replacePair a d key v = .error .key := by
  simp [replace, replacePair, hd]

/-- **C39**, replacement of an axis and its name: the new axis takes the place of the old one.  The new name must not
be that of another axis. -/
theorem c39_replace_pair_partial (a : Dict κ ν) (hw : a.WF) (d key : κ) (v : ν) (hd : d ∈ a.keys)
    (hkey : key ∈ a.keys → key = d) : ∃ r, replacePair a d key v = .ok r ∧
    r.keys = a.keys.map (fun k => if k = d then key else k) ∧
    ∀ k, r.get? k = if k = key then some v else if k = d then none else a.get? k := by
  have hk : (a.map (fun p : κ × ν => if p.1 = d then (key, v) else p)).map Prod.fst = a.keys.map (fun k => if k = d then key else k) := by
    simp only [Dict.keys, List.map_map]
    apply List.map_congr_left
    rintro ⟨n, w⟩ _
    simp only [Function.comp_apply]
    split <;> rfl
  have hnd : (a.keys.map (fun k => if k = d then key else k)).Nodup := by
    refine (List.nodup_map_iff_inj_on hw).2 (fun x hx y hy hxy => ?_)
    by_cases h1 : x = d <;> by_cases h2 : y = d
    · rw [h1, h2]
    · rw [if_pos h1, if_neg h2] at hxy
      exact absurd (hxy ▸ hkey (hxy ▸ hy)) h2
    · rw [if_neg h1, if_pos h2] at hxy
      exact absurd (hxy ▸ hkey (hxy ▸ hx)) h1
    · simpa [h1, h2] using hxy
  refine ⟨a.map (fun p : κ × ν => if p.1 = d then (key, v) else p), ?_, hk, fun k => ?_⟩
  · rw [replacePair, if_pos hd, ofItems_nodup _ (by rw [hk]; exact hnd)]
  · have hw' : Dict.WF (a.map (fun p : κ × ν => if p.1 = d then (key, v) else p)) := by
      unfold Dict.WF; rw [show Dict.keys _ = _ from hk]; exact hnd
    by_cases h1 : k = key
    · subst h1
      rw [if_pos rfl]
      obtain ⟨w, hm⟩ := get?_isSome.2 hd
      exact get?_of_mem hw' (List.mem_map.2 ⟨(d, w), mem_of_get? hm, by simp⟩)
    · rw [if_neg h1]
      by_cases h2 : k = d
      · rw [if_pos h2, get?_eq_none, show Dict.keys _ = _ from hk]
        intro hc
        obtain ⟨x, _, hx⟩ := List.mem_map.1 hc
        split at hx
        · exact h1 hx.symm
        · rename_i hxd; exact hxd (hx.trans h2)
      · rw [if_neg h2]
        cases hg : a.get? k with
        | none =>
          rw [get?_eq_none, show Dict.keys _ = _ from hk]
          intro hc
          obtain ⟨x, hx', hx⟩ := List.mem_map.1 hc
          split at hx
          · exact h1 hx.symm
          · exact get?_eq_none.1 hg (hx ▸ hx')
        | some w => exact get?_of_mem hw' (List.mem_map.2 ⟨(k, w), mem_of_get? hg, by simp [h2]⟩)

/-- **C39**, the restriction is necessary: giving an axis the name of another one loses an axis. -/
theorem c39_replace_pair_clash : replacePair [("x", 1), ("y", 2), ("z", 3)] "z" "x" 9 = .ok [("x", 9), ("y", 2)] := by decide

example : without [("x", 1), ("y", 2), ("z", 3)] "y" false = .ok [("x", 1), ("z", 3)] := by decide
example : extract [("x", 1), ("y", 2), ("z", 3)] ["z", "x"] = .ok [("z", 3), ("x", 1)] := by decide
example : replace [("x", 1), ("y", 2), ("z", 3)] "y" 7 = .ok [("x", 1), ("y", 7), ("z", 3)] := by decide
example : replacePair [("x", 1), ("y", 2), ("z", 3)] "y" "w" 7 = .ok [("x", 1), ("w", 7), ("z", 3)] := by decide

/-! ## C39: union -/

theorem union_aux (a b : Dict κ ν) (ha : a.WF) (hb : b.WF) (h : ¬ Container.OrderConflict a.keys b.keys) :
    ∃ r, merge a b = .ok r ∧ Container.merge a.keys b.keys = .ok r.keys ∧ Container.IsMerge a.keys b.keys r.keys ∧
      ∀ k, r.get? k = match b.get? k with | some v => some v | none => a.get? k := by
  cases hm : Container.merge a.keys b.keys with
  | error e => exact absurd ((Container.c09_merge_fails_iff _ _ ha hb).1 ⟨e, hm⟩) h
  | ok keys =>
    have hM := Container.c09_merge_ok _ _ _ ha hb hm
    obtain ⟨items, h1, h2, h3⟩ := collect_items (fun k => match b.get? k with
      | some v => Except.ok v
      | none => match a.get? k with
        | some v => .ok v
        | none => .error Err.key) keys (fun k hk => by
      cases hbk : b.get? k with
      | some v => exact ⟨v, rfl⟩
      | none =>
        rcases (hM.mem k).1 hk with h' | h'
        · obtain ⟨v, hv⟩ := get?_isSome.2 h'
          exact ⟨v, by simp only [hv]⟩
        · exact absurd h' (get?_eq_none.1 hbk))
    rw [unique_of_nodup hM.nodup] at h2
    refine ⟨Dict.ofItems items, ?_, by rw [h2], by rw [h2]; exact hM, fun k => ?_⟩
    · unfold merge
      rw [hm]
      have hf : ∀ f, (f = fun k => (match b.get? k with
          | some v => Except.ok v
          | none => match a.get? k with
            | some v => .ok v
            | none => .error Err.key).map (fun v => (k, v))) → Axis.collect f keys = .ok items := by
        rintro f rfl; exact h1
      simp only
      rw [hf _ (by
        funext k
        cases b.get? k with
        | some v => rfl
        | none => cases a.get? k <;> rfl)]
    · rw [h3]
      by_cases hk : k ∈ keys
      · rw [if_pos hk]
        cases b.get? k with
        | some v => rfl
        | none => cases a.get? k <;> rfl
      · rw [if_neg hk]
        rw [hM.mem, not_or] at hk
        rw [get?_eq_none.2 hk.1, get?_eq_none.2 hk.2]

/-- **C39**, union: all names of both, each in its own order; the axes are those of the second operand where it has them. -/
theorem c39_union (a b : Dict κ ν) (ha : a.WF) (hb : b.WF) (h : ¬ Container.OrderConflict a.keys b.keys) :
    ∃ r, merge a b = .ok r ∧ Container.IsMerge a.keys b.keys r.keys ∧
      ∀ k, r.get? k = match b.get? k with | some v => some v | none => a.get? k := by
  obtain ⟨r, h1, _, h2, h3⟩ := union_aux a b ha hb h
  exact ⟨r, h1, h2, h3⟩

/-- **C39**, union fails for names in opposite orders. -/
theorem c39_union_conflict (a b : Dict κ ν) (ha : a.WF) (hb : b.WF) (h : Container.OrderConflict a.keys b.keys) :
    merge a b = .error .value := by
  obtain ⟨e, he⟩ := (Container.c09_merge_fails_iff _ _ ha hb).2 h
  simp only [merge, he]

example : merge [("x", 1), ("y", 2), ("z", 3)] [("w", 7), ("y", 8)] =
    .ok [("x", 1), ("w", 7), ("y", 8), ("z", 3)] := by decide
example : merge [("x", 1), ("y", 2)] [("y", 7), ("x", 8)] = .error .value := by decide

/-! ## C39: insertion -/

theorem insertLoop_append (dim : κ) (new : ν) (loc : Location κ) : ∀ (l m : List (κ × ν)) (i : Nat),
    insertLoop dim new loc i (l ++ m) = insertLoop dim new loc i l ++ insertLoop dim new loc (i + l.length) m
  | [], m, i => by simp [insertLoop]
  | p :: l, m, i => by
    simp only [List.cons_append, insertLoop, List.length_cons, List.append_assoc]
    rw [insertLoop_append dim new loc l m (i + 1), show i + 1 + l.length = i + (l.length + 1) by omega]

theorem insertLoop_same (dim : κ) (new : ν) (loc : Location κ) : ∀ (l : List (κ × ν)) (i : Nat),
    (∀ (j : Nat) p, l[j]? = some p → insertItems dim new loc (i + j) p = [p]) → insertLoop dim new loc i l = l
  | [], _, _ => rfl
  | p :: l, i, h => by
    have h0 := h 0 p rfl
    rw [insertLoop, show insertItems dim new loc i p = [p] from h0,
      insertLoop_same dim new loc l (i + 1) (fun j q hq => by
        have := h (j + 1) q (by simpa using hq)
        rwa [show i + (j + 1) = i + 1 + j by omega] at this)]
    rfl

/-- **C39**, insertion without a location: a new axis is the last one. -/
theorem c39_insert_last (a : Dict κ ν) (hw : a.WF) (dim : κ) (new : ν) (hd : dim ∉ a.keys) :
    ∃ r, insert a dim new none = .ok r ∧ r.keys = a.keys ++ [dim] ∧
      ∀ k, r.get? k = if k = dim then some new else a.get? k := by
  have hc : ¬ Container.OrderConflict a.keys (Dict.keys [(dim, new)]) := by
    rintro ⟨x, y, h1, h2⟩
    have := h2.length_le
    simp [Dict.keys] at this
  obtain ⟨r, h1, h0, h2, h3⟩ := union_aux a [(dim, new)] hw (by simp [Dict.WF, Dict.keys]) hc
  refine ⟨r, h1, ?_, fun k => ?_⟩
  · have hm : Container.merge a.keys [dim] = .ok (a.keys ++ [dim]) := by
      have hf : a.keys.filter (fun i => decide (i ∈ [dim])) = [] := by
        rw [List.filter_eq_nil_iff]
        intro x hx; simp; rintro rfl; exact hd hx
      unfold Container.merge
      simp only [hf, if_true]
    rw [show Dict.keys [(dim, new)] = [dim] from rfl, hm] at h0
    simpa using h0.symm
  · rw [h3]
    by_cases hk : k = dim
    · subst hk; simp [Dict.get?]
    · simp [Dict.get?, hk, Ne.symm hk]

/-- **C39**, insertion without a location: an existing axis is replaced. -/
theorem c39_insert_existing (a : Dict κ ν) (hw : a.WF) (dim : κ) (new : ν) (hd : dim ∈ a.keys) :
    ∃ r, insert a dim new none = .ok r ∧ r.keys = a.keys ∧ ∀ k, r.get? k = if k = dim then some new else a.get? k := by
  have hc : ¬ Container.OrderConflict a.keys (Dict.keys [(dim, new)]) := by
    rintro ⟨x, y, h1, h2⟩
    have := h2.length_le
    simp [Dict.keys] at this
  obtain ⟨r, h1, h2, h3⟩ := c39_union a [(dim, new)] hw (by simp [Dict.WF, Dict.keys]) hc
  refine ⟨r, h1, ?_, fun k => ?_⟩
  · refine (h2.left.eq_of_length_le ?_).symm
    refine (h2.nodup.subperm (fun x hx => ?_)).length_le
    rcases (h2.mem x).1 hx with h | h
    · exact h
    · simp [Dict.keys] at h; rw [h]; exact hd
  · rw [h3]
    by_cases hk : k = dim
    · subst hk; simp [Dict.get?]
    · simp [Dict.get?, hk, Ne.symm hk]

/-- The places of an axis in the collection. -/
theorem split_at {a : Dict κ ν} {d : κ} (hd : d ∈ a.keys) (hw : a.WF) : ∃ p v s, a = p ++ (d, v) :: s ∧
    d ∉ Dict.keys p ∧ d ∉ Dict.keys s := by
  obtain ⟨⟨n, v⟩, hm, rfl⟩ := List.mem_map.1 hd
  obtain ⟨p, s, rfl⟩ := List.append_of_mem hm
  unfold Dict.WF Dict.keys at hw
  rw [List.map_append, List.map_cons, List.nodup_append] at hw
  refine ⟨p, v, s, rfl, fun h => hw.2.2 _ h _ (List.mem_cons_self ..) rfl, (List.nodup_cons.1 hw.2.1).1⟩

theorem get?_append (a b : Dict κ ν) (k : κ) : Dict.get? (a ++ b) k = match a.get? k with | some v => some v | none => b.get? k := by
  induction a with
  | nil => rfl
  | cons p a ih =>
    obtain ⟨n, v⟩ := p
    simp only [List.cons_append, get?_cons]
    split
    · rfl
    · exact ih

theorem keys_append (a b : Dict κ ν) : Dict.keys (a ++ b) = a.keys ++ b.keys := by simp [Dict.keys]

/-- The collection `p ++ s` with a new axis between the two parts. -/
theorem between {p s : Dict κ ν} {dim : κ} (new : ν) (hw : Dict.WF (p ++ s)) (hd : dim ∉ Dict.keys (p ++ s)) :
    Dict.ofItems (p ++ (dim, new) :: s) = p ++ (dim, new) :: s ∧
    Dict.keys (p ++ (dim, new) :: s) = p.keys ++ dim :: s.keys ∧
    ∀ k, Dict.get? (p ++ (dim, new) :: s) k = if k = dim then some new else Dict.get? (p ++ s) k := by
  have hk : Dict.keys (p ++ (dim, new) :: s) = p.keys ++ dim :: s.keys := by simp [Dict.keys]
  rw [keys_append, List.mem_append, not_or] at hd
  refine ⟨ofItems_nodup _ ?_, hk, fun k => ?_⟩
  · show (Dict.keys (p ++ (dim, new) :: s)).Nodup
    rw [hk]
    unfold Dict.WF at hw
    rw [keys_append] at hw
    exact (List.perm_middle.nodup_iff).2 (List.nodup_cons.2 ⟨by simp [hd], hw⟩)
  · rw [get?_append, get?_append, get?_cons]
    by_cases h : k = dim
    · subst h; simp [get?_eq_none.2 hd.1]
    · simp [h, Ne.symm h]

/-- **C39**, insertion at an index on the collection: the new axis is there, and the others keep their order. -/
theorem c39_insert_index (a : Dict κ ν) (hw : a.WF) (dim : κ) (new : ν) (hd : dim ∉ a.keys) (i : Nat) (hi : i < a.length) :
    ∃ r, insert a dim new (some (.index i)) = .ok r ∧ r.keys = a.keys.take i ++ dim :: a.keys.drop i ∧
      ∀ k, r.get? k = if k = dim then some new else a.get? k := by
  have ha : a = a.take i ++ a.drop i := (List.take_append_drop i a).symm
  have hdrop : a.drop i = a[i] :: a.drop (i + 1) := List.drop_eq_getElem_cons hi
  have hloop : insertLoop dim new (.index i) 0 a = a.take i ++ (dim, new) :: a.drop i := by
    conv_lhs => rw [ha, insertLoop_append, hdrop]
    rw [insertLoop_same _ _ _ (a.take i) 0 (fun j p hj => by
      have : j < i := by
        have := (List.getElem?_eq_some_iff.1 hj).1
        simp at this; omega
      simp only [insertItems]
      rw [if_neg (by omega)])]
    congr 1
    simp only [insertLoop, insertItems, List.length_take]
    rw [if_pos (by omega), insertLoop_same _ _ _ (a.drop (i + 1)) _ (fun j p hj => by
      simp only [insertItems]; rw [if_neg (by omega)]), hdrop]
    rfl
  obtain ⟨h1, h2, h3⟩ := between (p := a.take i) (s := a.drop i) (dim := dim) new (by rwa [← ha]) (by rwa [← ha])
  refine ⟨_, by rw [insert, hloop, h1], ?_, ?_⟩
  · rw [h2]; simp [Dict.keys, List.map_take, List.map_drop]
  · rw [← ha] at h3; exact h3

/-- **C39** is violated by an index that is not on the collection, or negative: the new axis is dropped. -/
theorem c39_insert_index_not (a : Dict κ ν) (hw : a.WF) (dim : κ) (new : ν) (i : ℤ) (hi : i < 0 ∨ a.length ≤ i) :
    insert a dim new (some (.index i)) = .ok a := by
  rw [insert, insertLoop_same _ _ _ a 0 (fun j p hj => by
    have := (List.getElem?_eq_some_iff.1 hj).1
    simp only [insertItems]
    rw [if_neg (by omega)]), ofItems_nodup a hw]

/-- **C39** is violated by `before` and `after`: they are exchanged.  `before=d` puts the new axis directly behind `d`,
and `after=d` directly in front of it. -/
theorem c39_insert_swapped (a : Dict κ ν) (hw : a.WF) (dim : κ) (new : ν) (hd : dim ∉ a.keys) (d : κ) (hl : d ∈ a.keys) :
    ∃ p s, a.keys = p ++ d :: s ∧
      (∃ r, insert a dim new (some (.before d)) = .ok r ∧ r.keys = p ++ d :: dim :: s ∧
        ∀ k, r.get? k = if k = dim then some new else a.get? k) ∧
      (∃ r, insert a dim new (some (.after d)) = .ok r ∧ r.keys = p ++ dim :: d :: s ∧
        ∀ k, r.get? k = if k = dim then some new else a.get? k) := by
  obtain ⟨p, v, s, rfl, hp, hs⟩ := split_at hl hw
  have hsame : ∀ (loc : Location κ) (l : Dict κ ν) (i : Nat), (loc = .before d ∨ loc = .after d) → d ∉ l.keys →
      insertLoop dim new loc i l = l := by
    intro loc l i hloc hdl
    refine insertLoop_same _ _ _ l i (fun j q hj => ?_)
    have hq : q.1 ≠ d := fun h => hdl (h ▸ List.mem_map.2 ⟨q, List.mem_of_getElem? hj, rfl⟩)
    rcases hloc with rfl | rfl <;> simp [insertItems, hq]
  refine ⟨Dict.keys p, Dict.keys s, by simp [Dict.keys], ?_, ?_⟩
  · obtain ⟨h1, h2, h3⟩ := between (p := p ++ [(d, v)]) (s := s) (dim := dim) new (by simpa using hw) (by simpa using hd)
    refine ⟨(p ++ [(d, v)] ++ (dim, new) :: s : Dict κ ν), ?_, ?_, ?_⟩
    rotate_left
    · rw [h2]; simp [Dict.keys]
    · simpa using h3
    · rw [insert, insertLoop_append, hsame _ p _ (.inl rfl) hp, insertLoop, hsame _ s _ (.inl rfl) hs]
      simp only [insertItems, if_true]
      rw [← h1]; simp
  · obtain ⟨h1, h2, h3⟩ := between (p := p) (s := (d, v) :: s) (dim := dim) new (by simpa using hw) (by simpa using hd)
    refine ⟨(p ++ (dim, new) :: (d, v) :: s : Dict κ ν), ?_, ?_, ?_⟩
    rotate_left
    · rw [h2]; simp [Dict.keys]
    · simpa using h3
    · rw [insert, insertLoop_append, hsame _ p _ (.inr rfl) hp, insertLoop, hsame _ s _ (.inr rfl) hs]
      simp only [insertItems, if_true]
      rw [← h1]; simp

/-- **C39** is violated by a location that does not exist: the new axis is dropped. -/
theorem c39_insert_missing (a : Dict κ ν) (hw : a.WF) (dim : κ) (new : ν) (d : κ) (hl : d ∉ a.keys) :
    insert a dim new (some (.before d)) = .ok a ∧ insert a dim new (some (.after d)) = .ok a := by
  have hsame : ∀ (loc : Location κ), (loc = .before d ∨ loc = .after d) → insertLoop dim new loc 0 a = a := by
    intro loc hloc
    refine insertLoop_same _ _ _ a 0 (fun j q hj => ?_)
    have hq : q.1 ≠ d := fun h => hl (h ▸ List.mem_map.2 ⟨q, List.mem_of_getElem? hj, rfl⟩)
    rcases hloc with rfl | rfl <;> simp [insertItems, hq]
  exact ⟨by rw [insert, hsame _ (.inl rfl), ofItems_nodup a hw], by rw [insert, hsame _ (.inr rfl), ofItems_nodup a hw]⟩

example : insert [("x", 1), ("y", 2)] "z" 3 none = .ok [("x", 1), ("y", 2), ("z", 3)] := by decide
example : insert [("x", 1), ("y", 2)] "z" 3 (some (.index 1)) = .ok [("x", 1), ("z", 3), ("y", 2)] := by decide
example : insert [("x", 1), ("y", 2)] "z" 3 (some (.before "x")) = .ok [("x", 1), ("z", 3), ("y", 2)] := by decide
example : insert [("x", 1), ("y", 2)] "z" 3 (some (.before "w")) = .ok [("x", 1), ("y", 2)] := by decide

/-! ## C39: permutation -/

/-- **C39**, permutation by names: the same axes in the requested order. -/
theorem c39_permute_names (a : Dict κ ν) (hw : a.WF) (names : List κ) (h : names.Perm a.keys) :
    ∃ r, permuteNames a names = .ok r ∧ r.keys = names ∧ ∀ k, r.get? k = a.get? k := by
  have hm : dimsMismatch a.keys names = false := by
    unfold dimsMismatch
    have h1 : (a.keys.all fun n => decide (n ∈ names)) = true := List.all_eq_true.2 (fun n hn => by simpa using h.mem_iff.2 hn)
    have h2 : (names.all fun n => decide (n ∈ a.keys)) = true := List.all_eq_true.2 (fun n hn => by simpa using h.mem_iff.1 hn)
    simp [h1, h2]
  have hn : names.Nodup := h.nodup_iff.2 hw
  have hu : dimensions names = names := unique_of_nodup hn
  obtain ⟨r, h1, h2, h3⟩ := lookupAll_ok a names (fun k hk => h.mem_iff.1 hk)
  refine ⟨r, by simp [permuteNames, hm, hu, h1], by rw [h2, unique_of_nodup hn], fun k => ?_⟩
  rw [h3]
  split
  · rfl
  · rename_i hk
    exact (get?_eq_none.2 (fun hc => hk (h.mem_iff.2 hc))).symm

/-- **C39**, a permutation by names has the same axes, or fails. -/
theorem c39_permute_names_sound (a : Dict κ ν) (names : List κ) (r : Dict κ ν) (h : permuteNames a names = .ok r) :
    (∀ k, k ∈ r.keys ↔ k ∈ a.keys) ∧ ∀ k, r.get? k = a.get? k := by
  unfold permuteNames at h
  split at h
  · cases h
  · rename_i hm
    have hin : ∀ k ∈ dimensions names, k ∈ a.keys := by
      by_contra hc
      simp only [not_forall] at hc
      obtain ⟨k, hk, hn⟩ := hc
      rw [lookupAll_error a _ ⟨k, hk, hn⟩] at h
      cases h
    have hsub : ∀ k, k ∈ names ↔ k ∈ dimensions names := fun k => ((Container.c08_unique names).mem k).symm
    have hall : ∀ k ∈ a.keys, k ∈ names := by
      by_contra hc
      apply hm
      unfold dimsMismatch
      have h2 : (names.all fun n => decide (n ∈ a.keys)) = true :=
        List.all_eq_true.2 (fun n hn => by simpa using hin n ((hsub n).1 hn))
      have h1 : (a.keys.all fun n => decide (n ∈ names)) = false := by
        rw [← Bool.not_eq_true, List.all_eq_true]
        intro h'; exact hc (fun k hk => by simpa using h' k hk)
      simp [h1, h2]
    obtain ⟨r', h1, h2, h3⟩ := lookupAll_ok a _ hin
    rw [h1] at h; cases h
    refine ⟨fun k => ?_, fun k => ?_⟩
    · rw [h2, (Container.c08_unique _).mem, ← hsub]
      exact ⟨fun hk => hin k ((hsub k).1 hk), hall k⟩
    · rw [h3]
      split
      · rfl
      · rename_i hk
        exact (get?_eq_none.2 (fun hc => hk ((hsub k).1 (hall k hc)))).symm

/-- **C39**, permutation by numbers: the same axes, in the requested order if each is requested once. -/
theorem c39_permute_axes (a : Dict κ ν) (hw : a.WF) (order : List ℤ) (r : Dict κ ν) (h : permuteAxes a order = .ok r) :
    r.keys.Perm a.keys ∧ (∀ k, r.get? k = a.get? k) ∧ (order.length = a.length →
      List.Forall₂ (fun i n => ∃ j, axisIndex a.length i = .ok j ∧ a.keys[j]? = some n) order r.keys) := by
  have hl : a.keys.length = a.length := by simp [Dict.keys]
  unfold permuteAxes at h
  split at h
  · cases h
  · rename_i names hn
    obtain ⟨h1, h2⟩ := c30_permute a.keys order names hn hw
    obtain ⟨r', h3, h4, h5⟩ := lookupAll_ok a names (fun k hk => h1.mem_iff.1 hk)
    rw [h3] at h; cases h
    have hnn : names.Nodup := h1.nodup_iff.2 hw
    rw [unique_of_nodup hnn] at h4
    rw [hl] at h2
    refine ⟨h4 ▸ h1, fun k => ?_, fun ho => by rw [h4]; exact h2 ho⟩
    rw [h5]
    split
    · rfl
    · rename_i hk
      exact (get?_eq_none.2 (fun hc => hk (h1.mem_iff.2 hc))).symm

example : permuteNames [("x", 1), ("y", 2), ("z", 3)] ["z", "x", "y"] = .ok [("z", 3), ("x", 1), ("y", 2)] := by decide
example : permuteAxes [("x", 1), ("y", 2), ("z", 3)] [2, 0, -2] = .ok [("z", 3), ("x", 1), ("y", 2)] := by decide
example : permuteNames [("x", 1), ("y", 2), ("z", 3)] ["z", "x"] = .error .value := by decide

/-! ## C74: comparison and addition -/

section C74
variable (same inside : ν → ν → Bool)

/-- The two collections agree where both have an axis. -/
def Agree (a b : Dict κ ν) : Prop := ∀ k x y, a.get? k = some x → b.get? k = some y → same x y = true

theorem compare_eq (f : List κ → List κ → Bool) (a b : Dict κ ν) (ha : a.WF) :
    (Agree same a b → compare same f a b = .ok (f a.keys b.keys)) ∧ (¬ Agree same a b → compare same f a b = .error .value) := by
  have hany : conflict same a b = true ↔ ¬ Agree same a b := by
    rw [conflict, List.any_eq_true]
    constructor
    · rintro ⟨⟨k, x⟩, hm, h⟩ hag
      simp only at h
      cases hb : b.get? k with
      | none => rw [hb] at h; cases h
      | some y =>
        rw [hb] at h
        simp only [hag k x y (get?_of_mem ha hm) hb] at h
        cases h
    · intro h
      simp only [Agree, not_forall] at h
      obtain ⟨k, x, y, hx, hy, hs⟩ := h
      exact ⟨(k, x), mem_of_get? hx, by simp only [hy]; simpa using hs⟩
  refine ⟨fun h => ?_, fun h => ?_⟩
  · rw [compare, if_neg (by rw [hany]; exact not_not.2 h)]
  · rw [compare, if_pos (hany.2 h)]

theorem subset_iff (x y : List κ) : subset x y = true ↔ ∀ k ∈ x, k ∈ y := by simp [subset]

theorem strict_iff (x y : List κ) : strict x y = true ↔ (∀ k ∈ x, k ∈ y) ∧ ∃ k ∈ y, k ∉ x := by
  simp [strict, subset]

/-- **C74**: collections that agree on common axes are compared as sets of names; otherwise all four comparisons fail. -/
theorem c74_compare (a b : Dict κ ν) (ha : a.WF) :
    (Agree same a b → ∃ r₁ r₂ r₃ r₄, lt same a b = .ok r₁ ∧ le same a b = .ok r₂ ∧ gt same a b = .ok r₃ ∧ ge same a b = .ok r₄ ∧
      (r₁ = true ↔ (∀ k ∈ a.keys, k ∈ b.keys) ∧ ∃ k ∈ b.keys, k ∉ a.keys) ∧ (r₂ = true ↔ ∀ k ∈ a.keys, k ∈ b.keys) ∧
      (r₃ = true ↔ (∀ k ∈ b.keys, k ∈ a.keys) ∧ ∃ k ∈ a.keys, k ∉ b.keys) ∧ (r₄ = true ↔ ∀ k ∈ b.keys, k ∈ a.keys)) ∧
    (¬ Agree same a b → lt same a b = .error .value ∧ le same a b = .error .value ∧ gt same a b = .error .value ∧
      ge same a b = .error .value) := by
  refine ⟨fun h => ?_, fun h => ?_⟩
  · exact ⟨_, _, _, _, (compare_eq same _ a b ha).1 h, (compare_eq same _ a b ha).1 h, (compare_eq same _ a b ha).1 h,
      (compare_eq same _ a b ha).1 h, strict_iff .., subset_iff .., strict_iff .., subset_iff ..⟩
  · exact ⟨(compare_eq same _ a b ha).2 h, (compare_eq same _ a b ha).2 h, (compare_eq same _ a b ha).2 h,
      (compare_eq same _ a b ha).2 h⟩

/-- **C74**, equality: the same names in the same order, and equal axes. -/
theorem c74_eq (a b : Dict κ ν) (ha : a.WF) : eq same a b = true ↔ a.keys = b.keys ∧ Agree same a b := by
  unfold eq
  rw [Bool.and_eq_true, decide_eq_true_eq, List.all_eq_true]
  refine and_congr_right (fun hk => ⟨fun h k x y hx hy => ?_, fun h => ?_⟩)
  · have := h (k, x) (mem_of_get? hx)
    simpa only [hy] using this
  · rintro ⟨k, x⟩ hm
    obtain ⟨y, hy⟩ := get?_isSome.2 (hk ▸ List.mem_map.2 ⟨(k, x), hm, rfl⟩ : k ∈ b.keys)
    simp only [hy]
    exact h k x y (get?_of_mem ha hm) hy

/-- **C74**, addition: if it succeeds, the sum has the names of the first operand, and each axis is that of one of the
operands: they are equal, or the other one has a single value on it. -/
theorem c74_add (a b r : Dict κ ν) (ha : a.WF) (h : add same inside a b = .ok r) : r.keys = a.keys ∧
    (∀ k, k ∈ a.keys ↔ k ∈ b.keys) ∧ ∀ k ∈ a.keys, ∃ x y v, a.get? k = some x ∧ b.get? k = some y ∧ r.get? k = some v ∧
      (v = x ∧ (same x y = true ∨ inside y x = true) ∨ v = y ∧ inside x y = true) := by
  unfold add at h
  split at h
  · cases h
  · rename_i hk
    simp only [Bool.not_eq_true, Bool.not_eq_false, Bool.and_eq_true, subset_iff, Bool.not_eq_eq_eq_not, Bool.not_true] at hk
    split at h
    · cases h
    · rename_i items hi
      cases h
      have hok : ∀ k ∈ a.keys, ∃ v, filled same inside a b k = .ok v := by
        intro k hk'
        have h2 := Axis.collect_inv hi
        obtain ⟨p, hp⟩ : ∃ p, (filled same inside a b k).map (fun v => (k, v)) = .ok p := by
          clear hi hk
          revert h2 hk'
          generalize a.keys = ks
          intro hk' h2
          induction h2 with
          | nil => cases hk'
          | cons hab _ ih =>
            rcases List.mem_cons.1 hk' with rfl | h'
            · exact ⟨_, hab⟩
            · exact ih h'
        cases hf : filled same inside a b k with
        | error e => rw [hf] at hp; cases hp
        | ok v => exact ⟨v, rfl⟩
      obtain ⟨items', h1, h2, h3⟩ := collect_items (filled same inside a b) a.keys hok
      rw [h1] at hi; cases hi
      refine ⟨by rw [h2, unique_of_nodup ha], fun k => ⟨hk.1 k, hk.2 k⟩, fun k hka => ?_⟩
      obtain ⟨x, hx⟩ := get?_isSome.2 hka
      obtain ⟨y, hy⟩ := get?_isSome.2 (hk.1 k hka)
      obtain ⟨v, hv⟩ := hok k hka
      refine ⟨x, y, v, hx, hy, by rw [h3, if_pos hka, hv]; rfl, ?_⟩
      simp only [filled, hx, hy, fill] at hv
      split at hv
      · cases hv; exact .inl ⟨rfl, .inl ‹_›⟩
      · split at hv
        · cases hv; exact .inl ⟨rfl, .inr ‹_›⟩
        · split at hv
          · cases hv; exact .inr ⟨rfl, ‹_›⟩
          · cases hv

/-- **C74**, addition succeeds if the names agree and for every name the axes are equal or one has a single value that is
on the other. -/
theorem c74_add_ok (a b : Dict κ ν) (hk : ∀ k, k ∈ a.keys ↔ k ∈ b.keys)
    (h : ∀ k x y, a.get? k = some x → b.get? k = some y → same x y = true ∨ inside y x = true ∨ inside x y = true) :
    ∃ r, add same inside a b = .ok r := by
  obtain ⟨items, h1, _⟩ := collect_items (filled same inside a b) a.keys (fun k hka => by
    obtain ⟨x, hx⟩ := get?_isSome.2 hka
    obtain ⟨y, hy⟩ := get?_isSome.2 ((hk k).1 hka)
    simp only [filled, hx, hy, fill]
    rcases h k x y hx hy with h | h | h <;> simp only [h, if_true]
    · exact ⟨_, rfl⟩
    · split <;> exact ⟨_, rfl⟩
    · split
      · exact ⟨_, rfl⟩
      · split <;> exact ⟨_, rfl⟩)
  refine ⟨Dict.ofItems items, ?_⟩
  rw [add, if_neg, h1]
  simp only [Bool.not_eq_eq_eq_not, Bool.not_true, Bool.and_eq_false_iff, not_or, Bool.not_eq_false, subset_iff]
  exact ⟨fun k => (hk k).1, fun k => (hk k).2⟩

/-- **C74** is violated by collections with different names: the intended `ValueError` is never raised. -/
theorem c74_add_not (a b : Dict κ ν) (h : ¬ ∀ k, k ∈ a.keys ↔ k ∈ b.keys) : add same inside a b = .error .attribute := by
  rw [add, if_pos]
  simp only [Bool.not_eq_eq_eq_not, Bool.not_true, Bool.and_eq_false_iff]
  by_contra hc
  simp only [not_or, Bool.not_eq_false, subset_iff] at hc
  exact h (fun k => ⟨hc.1 k, hc.2 k⟩)

end C74

/-- axes as lists of numbers; one is inside another if it has one value and the other has this value -/
example : add (ν := List ℤ) (fun x y => decide (x = y)) (fun x y => x.length == 1 && x.all (fun i => decide (i ∈ y)))
    [("x", [1, 2]), ("y", [5])] [("x", [2]), ("y", [4, 5, 6])] = .ok [("x", [1, 2]), ("y", [4, 5, 6])] := by decide
example : lt (ν := List ℤ) (fun x y => decide (x = y)) [("x", [1, 2])] [("x", [1, 2]), ("y", [5])] = .ok true := by decide
example : lt (ν := List ℤ) (fun x y => decide (x = y)) [("x", [1, 2])] [("x", [1]), ("y", [5])] = .error .value := by decide
example : Agree (ν := List ℤ) (fun x y => decide (x = y)) [("x", [1, 2])] [("x", [1, 2]), ("y", [5])] := by
  intro k x y hx hy
  simp only [Dict.get?] at hx hy
  split at hx
  · subst k; simp at hx hy; simp [← hx, ← hy]
  · cases hx

end Eprem.Axes
