import Verif.Spec.RunLog
import Verif.Lemmas.PyDict
import Verif.Props.Project

/-!
# The log of runs (C97)
-/

namespace Eprem.RunLog

open Eprem

theorem get?_orderedInsert (p : Text × Value) (k : Text) : ∀ l : List (Text × Value),
    Dict.get? (l.orderedInsert (fun a b => a.1 ≤ b.1) p) k = if p.1 = k then some p.2 else Dict.get? l k
  | [] => by
    rw [List.orderedInsert_nil, ← Prod.mk.eta (p := p), Dict.get?_cons]
  | q :: l => by
    have ih := get?_orderedInsert p k l
    rw [List.orderedInsert_cons]
    by_cases h : p.1 ≤ q.1
    · rw [if_pos h, ← Prod.mk.eta (p := p), Dict.get?_cons]
    · rw [if_neg h, ← Prod.mk.eta (p := q), Dict.get?_cons, Dict.get?_cons, ih]
      by_cases h1 : q.1 = k
      · rw [if_pos h1, if_pos h1, if_neg (fun h2 => h (le_of_eq (h2.trans h1.symm)))]
      · rw [if_neg h1, if_neg h1]

theorem get?_sortKeys (k : Text) : ∀ l : List (Text × Value), Dict.get? (sortKeys l) k = Dict.get? l k
  | [] => rfl
  | p :: l => by
    have ih := get?_sortKeys k l
    unfold sortKeys at ih ⊢
    rw [List.insertionSort_cons, get?_orderedInsert, ih, ← Prod.mk.eta (p := p), Dict.get?_cons]

theorem sortKeys_perm (l : List (Text × Value)) : (sortKeys l).Perm l := List.perm_insertionSort _ _

theorem sortKeys_sorted (l : List (Text × Value)) (h : (l.map Prod.fst).Nodup) : ((sortKeys l).map Prod.fst).Pairwise (· < ·) := by
  haveI : Std.Total (fun a b : Text × Value => a.1 ≤ b.1) := ⟨fun a b => le_total a.1 b.1⟩
  haveI : IsTrans (Text × Value) (fun a b => a.1 ≤ b.1) := ⟨fun a b c h1 h2 => le_trans h1 h2⟩
  have h1 : (sortKeys l).Pairwise (fun a b => a.1 ≤ b.1) := List.pairwise_insertionSort _ _
  have h2 : ((sortKeys l).map Prod.fst).Nodup := ((sortKeys_perm l).map Prod.fst).nodup_iff.2 h
  rw [List.pairwise_map]
  rw [List.Nodup, List.pairwise_map] at h2
  exact (h1.and h2).imp (fun h => lt_of_le_of_ne h.1 h.2)

/-! ## Encoding -/

/-- Equal values without paths. -/
def Copies (v w : Value) : Prop := Equal v w ∧ Plain w

theorem items_ok : ∀ l : List Value, (∀ v ∈ l, ∃ w, serialize v = some w ∧ Copies v w) →
    ∃ l', serializeItems l = some l' ∧ List.Forall₂ Copies l l'
  | [], _ => ⟨[], by rw [serializeItems], .nil⟩
  | v :: l, h => by
    obtain ⟨w, h1, h2⟩ := h v (by simp)
    obtain ⟨l', h3, h4⟩ := items_ok l (fun v hv => h v (by simp [hv]))
    exact ⟨w :: l', by rw [serializeItems, h1, h3], .cons h2 h4⟩

theorem fields_ok : ∀ l : List (Text × Value), (∀ p ∈ l, ∃ w, serialize p.2 = some w ∧ Copies p.2 w) →
    ∃ l', serializeFields l = some l' ∧ List.Forall₂ (fun p q : Text × Value => q.1 = p.1 ∧ Copies p.2 q.2) l l'
  | [], _ => ⟨[], by rw [serializeFields], .nil⟩
  | (k, v) :: l, h => by
    obtain ⟨w, h1, h2⟩ := h (k, v) (by simp)
    obtain ⟨l', h3, h4⟩ := fields_ok l (fun v hv => h v (by simp [hv]))
    exact ⟨(k, w) :: l', by rw [serializeFields, h1, h3], .cons ⟨rfl, h2⟩ h4⟩

theorem get?_fields {l l' : List (Text × Value)} (h : List.Forall₂ (fun p q : Text × Value => q.1 = p.1 ∧ Copies p.2 q.2) l l') (k : Text) :
    (Dict.get? l k = none ∧ Dict.get? l' k = none) ∨ ∃ v w, Dict.get? l k = some v ∧ Dict.get? l' k = some w ∧ Copies v w := by
  induction h with
  | nil => exact .inl ⟨rfl, rfl⟩
  | @cons p q l l' h _ ih =>
    rw [← Prod.mk.eta (p := p), ← Prod.mk.eta (p := q), Dict.get?_cons, Dict.get?_cons, h.1]
    by_cases hk : p.1 = k
    · rw [if_pos hk, if_pos hk]
      exact .inr ⟨_, _, rfl, rfl, h.2⟩
    · rw [if_neg hk, if_neg hk]
      exact ih

theorem plain_fields {l l' : List (Text × Value)} (h : List.Forall₂ (fun p q : Text × Value => q.1 = p.1 ∧ Copies p.2 q.2) l l') :
    (∀ p ∈ l', Plain p.2) ∧ l'.map Prod.fst = l.map Prod.fst := by
  induction h with
  | nil => exact ⟨fun p hp => absurd hp List.not_mem_nil, rfl⟩
  | cons h _ ih =>
    refine ⟨fun p hp => ?_, by rw [List.map_cons, List.map_cons, ih.2, h.1]⟩
    rcases List.mem_cons.1 hp with rfl | hp
    · exact h.2.2
    · exact ih.1 p hp

theorem serialize_plain {v : Value} (h : Plain v) : ∃ w, serialize v = some w ∧ Copies v w := by
  induction h with
  | atom t => exact ⟨.atom t, by rw [serialize], fun p => rfl, .atom t⟩
  | @arr l h ih =>
    obtain ⟨l', h1, h2⟩ := items_ok l ih
    refine ⟨.arr l', by rw [serialize, h1]; rfl, fun p => ?_, .arr ?_⟩
    · match p with
      | [] => simp only [look, h2.length_eq]
      | .key k :: p => rfl
      | .index i :: p =>
        simp only [look]
        by_cases hi : i < l.length
        · have hi' : i < l'.length := h2.length_eq ▸ hi
          rw [List.getElem?_eq_getElem hi, List.getElem?_eq_getElem hi']
          exact ((List.forall₂_iff_get.1 h2).2 i hi hi').1 p
        · have hi' : ¬ i < l'.length := h2.length_eq ▸ hi
          rw [List.getElem?_eq_none (by omega), List.getElem?_eq_none (by omega)]
    · intro w hw
      obtain ⟨i, hi, rfl⟩ := List.getElem_of_mem hw
      exact ((List.forall₂_iff_get.1 h2).2 i (h2.length_eq ▸ hi) hi).2
  | @obj l h ih =>
    obtain ⟨l', h1, h2⟩ := fields_ok l ih
    refine ⟨.obj (sortKeys l'), by rw [serialize, h1]; rfl, fun p => ?_, .obj ?_⟩
    · match p with
      | [] => rfl
      | .index i :: p => rfl
      | .key k :: p =>
        simp only [look, get?_sortKeys]
        rcases get?_fields h2 k with ⟨e1, e2⟩ | ⟨v, w, e1, e2, e3⟩
        · rw [e1, e2]
        · rw [e1, e2]
          exact e3.1 p
    · exact fun p hp => (plain_fields h2).1 p ((sortKeys_perm l').mem_iff.1 hp)

mutual

theorem plain_of_serialize : ∀ v w, serialize v = some w → Plain v
  | .atom t, _, _ => .atom t
  | .arr l, w, h => by
    rw [serialize] at h
    cases h1 : serializeItems l with
    | none => rw [h1] at h; cases h
    | some l' => exact .arr (plain_of_items l l' h1)
  | .obj l, w, h => by
    rw [serialize] at h
    cases h1 : serializeFields l with
    | none => rw [h1] at h; cases h
    | some l' => exact .obj (plain_of_fields l l' h1)
  | .path t, w, h => by rw [serialize] at h; cases h

theorem plain_of_items : ∀ l l', serializeItems l = some l' → ∀ v ∈ l, Plain v
  | [], _, _, v, hv => absurd hv List.not_mem_nil
  | x :: l, l', h, v, hv => by
    rw [serializeItems] at h
    cases h1 : serialize x with
    | none => rw [h1] at h; cases h
    | some w =>
      cases h2 : serializeItems l with
      | none => rw [h1, h2] at h; cases h
      | some l'' =>
        rcases List.mem_cons.1 hv with hv | hv
        · rw [hv]; exact plain_of_serialize x w h1
        · exact plain_of_items l l'' h2 v hv

theorem plain_of_fields : ∀ l l', serializeFields l = some l' → ∀ p ∈ l, Plain p.2
  | [], _, _, v, hv => absurd hv List.not_mem_nil
  | (k, x) :: l, l', h, v, hv => by
    rw [serializeFields] at h
    cases h1 : serialize x with
    | none => rw [h1] at h; cases h
    | some w =>
      cases h2 : serializeFields l with
      | none => rw [h1, h2] at h; cases h
      | some l'' =>
        rcases List.mem_cons.1 hv with hv | hv
        · rw [hv]; exact plain_of_serialize x w h1
        · exact plain_of_fields l l'' h2 v hv

end

/-! ## The file -/

/-- The file holds the book. -/
structure Holds (c : Contents) (b : Book) : Prop where
  plain : ∀ p ∈ c, Plain p.2
  sorted : c.keys.Pairwise (· < ·)
  get : ∀ k, (c.get? k = none ∧ b k = none) ∨ ∃ v w, c.get? k = some v ∧ b k = some w ∧ Equal w v

theorem payload_plain {v : Value} (h : Plain v) : payload v = v := by cases h <;> rfl

theorem get?_map_values (f : Value → Value) (c : Contents) (k : Text) :
    Dict.get? (c.map (fun p => (p.1, f p.2))) k = (c.get? k).map f := by
  induction c with
  | nil => rfl
  | cons p c ih =>
    rw [List.map_cons, Dict.get?_cons, ih, ← Prod.mk.eta (p := p), Dict.get?_cons]
    split <;> rfl

theorem dump_ok {c : Contents} (hw : c.WF) (h : ∀ p ∈ c, Plain (payload p.2)) : ∃ c', dump c = (some c', .ok ()) ∧
    Holds c' (fun k => (c.get? k).map payload) := by
  obtain ⟨l, h1, h2⟩ := fields_ok (c.map (fun p => (p.1, payload p.2))) (fun q hq => by
    obtain ⟨p, hp, rfl⟩ := List.mem_map.1 hq
    exact serialize_plain (h p hp))
  obtain ⟨h3, h4⟩ := plain_fields h2
  refine ⟨sortKeys l, by unfold dump; rw [h1], ?_, ?_, fun k => ?_⟩
  · exact fun p hp => h3 p ((sortKeys_perm l).mem_iff.1 hp)
  · refine sortKeys_sorted l ?_
    rw [h4, List.map_map]
    exact hw
  · rw [get?_sortKeys]
    rcases get?_fields h2 k with ⟨e1, e2⟩ | ⟨v, w, e1, e2, e3⟩
    · left
      rw [get?_map_values] at e1
      exact ⟨e2, e1⟩
    · right
      rw [get?_map_values] at e1
      exact ⟨w, v, e2, e1, e3.1⟩

theorem Holds.wf {c : Contents} {b : Book} (h : Holds c b) : c.WF := by
  unfold Dict.WF
  exact h.sorted.imp (fun h => ne_of_lt h)

theorem dump_plain {c : Contents} (hw : c.WF) (h : ∀ p ∈ c, Plain p.2) (b : Book)
    (hb : ∀ k, (c.get? k = none ∧ b k = none) ∨ ∃ v w, c.get? k = some v ∧ b k = some w ∧ Equal w v) :
    ∃ c', dump c = (some c', .ok ()) ∧ Holds c' b := by
  obtain ⟨c', h1, h2⟩ := dump_ok hw (fun p hp => by rw [payload_plain (h p hp)]; exact h p hp)
  refine ⟨c', h1, h2.plain, h2.sorted, fun k => ?_⟩
  rcases hb k with ⟨e1, e2⟩ | ⟨v, w, e1, e2, e3⟩
  · rcases h2.get k with ⟨f1, f2⟩ | ⟨v', w', f1, f2, f3⟩
    · exact .inl ⟨f1, e2⟩
    · rw [e1] at f2; cases f2
  · rcases h2.get k with ⟨f1, f2⟩ | ⟨v', w', f1, f2, f3⟩
    · rw [e1] at f2; cases f2
    · rw [e1] at f2
      cases f2
      rw [payload_plain (h (k, v) (Dict.mem_of_get? e1))] at f3
      exact .inr ⟨v', w, f1, e2, fun p => (e3 p).trans (f3 p)⟩

theorem mem_set {c : Contents} {k : Text} {v : Value} {p : Text × Value} (h : p ∈ c.set k v) (hw : c.WF) :
    p = (k, v) ∨ p ∈ c := by
  have := Dict.get?_of_mem (hw.set k v) (k := p.1) (v := p.2) h
  rw [Dict.get?_set] at this
  by_cases hk : k = p.1
  · rw [if_pos hk] at this
    cases this
    exact .inl (by rw [hk])
  · rw [if_neg hk] at this
    exact .inr (Dict.mem_of_get? this)

theorem equal_set {l l' : List (Text × Value)} (h : Equal (.obj l) (.obj l')) (k : Text) (v : Value) :
    Equal (.obj (Dict.set l k v)) (.obj (Dict.set l' k v)) := by
  intro p
  match p with
  | [] => rfl
  | .index i :: p => rfl
  | .key j :: p =>
    simp only [look, Dict.get?_set]
    by_cases hk : k = j
    · rw [if_pos hk, if_pos hk]
    · rw [if_neg hk, if_neg hk]
      exact h (.key j :: p)

theorem obj_of_equal {l : List (Text × Value)} {v : Value} (h : Equal (.obj l) v) : ∃ l', v = .obj l' := by
  have := h []
  cases v <;> simp [look] at this
  exact ⟨_, rfl⟩

theorem obj_of_equal' {l : List (Text × Value)} {v : Value} (h : Equal v (.obj l)) : ∃ l', v = .obj l' :=
  obj_of_equal (fun p => (h p).symm)

/-- One operation. -/
theorem exec_holds {c : Contents} {b : Book} (h : Holds c b) (o : Op) (ho : o.Supported) :
    match b.apply o with
    | .error e => exec (some c) o = (some c, .error e)
    | .ok b' => ∃ c', exec (some c) o = (some c', .ok ()) ∧ Holds c' b' := by
  have hset : ∀ (key : Text) (v : Value), Plain v → ∃ c', dump (c.set key v) = (some c', .ok ()) ∧
      Holds c' (Function.update b key (some v)) := fun key v hv => by
    refine dump_plain (h.wf.set key v) (fun p hp => ?_) _ (fun k => ?_)
    · rcases mem_set hp h.wf with rfl | hp
      · exact hv
      · exact h.plain p hp
    · rw [Dict.get?_set]
      by_cases hk : key = k
      · subst hk
        rw [if_pos rfl, Function.update_self]
        exact .inr ⟨v, v, rfl, rfl, fun p => rfl⟩
      · rw [if_neg hk, Function.update_of_ne (fun h => hk h.symm)]
        exact h.get k
  match o, ho with
  | .create key [] items, ho => exact hset key (.obj items) (.obj ho.2)
  | .create key [m] [], ho =>
    have := hset key (.obj m) (.obj (ho.1 m (by simp)))
    simp only [Book.apply, exec, create, ne_eq, not_true_eq_false, and_false, if_false]
    by_cases hm : m = []
    · subst hm; simpa using this
    · simpa [hm] using this
  | .create key [m] (i :: items), _ => simp [Book.apply, exec, create]
  | .create key (m :: m' :: ms) items, _ =>
    simp only [Book.apply, exec, create]
    split <;> rfl
  | .load key .unknown, _ => rfl
  | .load key .unsupported, _ => rfl
  | .append target key value, ho =>
    simp only [Book.apply, exec, append]
    rcases h.get target with ⟨e1, e2⟩ | ⟨v, w, e1, e2, e3⟩
    · rw [e1, e2]
    · rw [e1, e2]
      cases w with
      | obj l =>
        obtain ⟨l', rfl⟩ := obj_of_equal e3
        simp only
        have hp : Plain (.obj l') := h.plain (target, .obj l') (Dict.mem_of_get? e1)
        have hpl : ∀ p ∈ Dict.set l' key value, Plain p.2 := by
          cases hp with
          | obj hp =>
            have : ∀ (l : List (Text × Value)), (∀ p ∈ l, Plain p.2) → ∀ p ∈ Dict.set l key value, Plain p.2 := by
              intro l
              induction l with
              | nil =>
                intro _ p hp
                have hp : p ∈ [(key, value)] := hp
                rw [List.mem_singleton.1 hp]; exact ho
              | cons q l ih =>
                obtain ⟨a, x⟩ := q
                intro hl p hp
                unfold Dict.set at hp
                by_cases hk : a = key
                · rw [if_pos hk] at hp
                  rcases List.mem_cons.1 hp with rfl | hp
                  · exact ho
                  · exact hl p (by simp [hp])
                · rw [if_neg hk] at hp
                  rcases List.mem_cons.1 hp with rfl | hp
                  · exact hl _ (by simp)
                  · exact ih (fun p hp => hl p (by simp [hp])) p hp
            exact this l' hp
        obtain ⟨c', k1, k2⟩ := hset target (.obj (Dict.set l' key value)) (.obj hpl)
        refine ⟨c', k1, k2.plain, k2.sorted, fun k => ?_⟩
        rcases k2.get k with ⟨f1, f2⟩ | ⟨v', w', f1, f2, f3⟩
        · left
          refine ⟨f1, ?_⟩
          by_cases hk : k = target
          · subst hk; rw [Function.update_self] at f2; cases f2
          · rw [Function.update_of_ne hk] at f2 ⊢; exact f2
        · right
          by_cases hk : k = target
          · subst hk
            rw [Function.update_self] at f2
            cases f2
            exact ⟨v', _, f1, Function.update_self .., fun p => (equal_set e3 key value p).trans (f3 p)⟩
          · rw [Function.update_of_ne hk] at f2
            exact ⟨v', w', f1, by rw [Function.update_of_ne hk]; exact f2, f3⟩
      | atom t =>
        have := e3 []
        cases v <;> simp [look] at this <;> rfl
      | arr l =>
        have := e3 []
        cases v <;> simp [look] at this <;> rfl
      | path t =>
        have := e3 []
        cases v <;> simp [look] at this <;> rfl
  | .mv old new, _ =>
    simp only [Book.apply, exec, mv]
    rcases h.get old with ⟨e1, e2⟩ | ⟨v, w, e1, e2, e3⟩
    · rw [e1, e2]
    · rw [e1, e2]
      refine dump_plain (((h.wf.del old)).set new v) (fun p hp => ?_) _ (fun k => ?_)
      · rcases mem_set hp (h.wf.del old) with rfl | hp
        · exact h.plain (old, v) (Dict.mem_of_get? e1)
        · have := Dict.get?_of_mem (h.wf.del old) (k := p.1) (v := p.2) hp
          rw [Dict.get?_del] at this
          by_cases hk : old = p.1
          · rw [if_pos hk] at this; cases this
          · rw [if_neg hk] at this
            exact h.plain p (Dict.mem_of_get? this)
      · rw [Dict.get?_set, Dict.get?_del]
        by_cases hn : new = k
        · subst hn
          rw [if_pos rfl, Function.update_self]
          exact .inr ⟨v, w, rfl, rfl, e3⟩
        · rw [if_neg hn, Function.update_of_ne (fun h => hn h.symm)]
          by_cases hk : old = k
          · subst hk
            rw [if_pos rfl, Function.update_self]
            exact .inl ⟨rfl, rfl⟩
          · rw [if_neg hk, Function.update_of_ne (fun h => hk h.symm)]
            exact h.get k
  | .rm target, _ =>
    simp only [Book.apply, exec, rm]
    refine dump_plain (h.wf.del target) (fun p hp => ?_) _ (fun k => ?_)
    · have := Dict.get?_of_mem (h.wf.del target) (k := p.1) (v := p.2) hp
      rw [Dict.get?_del] at this
      by_cases hk : target = p.1
      · rw [if_pos hk] at this; cases this
      · rw [if_neg hk] at this
        exact h.plain p (Dict.mem_of_get? this)
    · rw [Dict.get?_del]
      by_cases hk : target = k
      · subst hk
        rw [if_pos rfl, Function.update_self]
        exact .inl ⟨rfl, rfl⟩
      · rw [if_neg hk, Function.update_of_ne (fun h => hk h.symm)]
        exact h.get k

theorem execAll_holds : ∀ (os : List Op) {c : Contents} {b : Book}, Holds c b → (∀ o ∈ os, o.Supported) →
    ∃ c', execAll (some c) os = (some c', (b.applyAll os).2) ∧ Holds c' (b.applyAll os).1
  | [], c, b, h, _ => ⟨c, rfl, h⟩
  | o :: os, c, b, h, ho => by
    have h1 := exec_holds h o (ho o (by simp))
    cases ha : b.apply o with
    | error e =>
      rw [ha] at h1
      obtain ⟨c', k1, k2⟩ := execAll_holds os h (fun o h => ho o (by simp [h]))
      refine ⟨c', ?_, ?_⟩
      · simp only [execAll, h1, k1, Book.applyAll, ha]
      · simp only [Book.applyAll, ha]; exact k2
    | ok b' =>
      rw [ha] at h1
      obtain ⟨c₁, h1, h2⟩ := h1
      obtain ⟨c', k1, k2⟩ := execAll_holds os h2 (fun o h => ho o (by simp [h]))
      refine ⟨c', ?_, ?_⟩
      · simp only [execAll, h1, k1, Book.applyAll, ha]
      · simp only [Book.applyAll, ha]; exact k2

/-- **C97**: whatever has been done with a log that was made with some common attributes, it holds for each run the metadata
that the operations say, it refuses the operations that make no sense and is unchanged by them, and it lists the runs in the
order of their names.  What is missing: metadata from files (`c97_not_load`) and metadata with paths (`c97_not_path`). -/
theorem c97_log_partial (common : Contents) (hw : common.WF) (hc : ∀ p ∈ common, Plain (payload p.2)) (ops : List Op)
    (ho : ∀ o ∈ ops, o.Supported) :
    ∃ (f f' : File) (b : Book) (results : List (Except Err Unit)) (keys : List Text),
      init none common = (f, .ok ()) ∧ execAll f ops = (f', results) ∧
      Book.applyAll (fun k => (common.get? k).map payload) ops = (b, results) ∧
      (∀ k, b k = none → getItem f' k = .error .logKey) ∧
      (∀ k v, b k = some v → ∃ w, getItem f' k = .ok w ∧ Equal v w) ∧
      iter f' = .ok keys ∧ keys.Pairwise (· < ·) ∧ ∀ k, k ∈ keys ↔ b k ≠ none := by
  obtain ⟨c, h1, h2⟩ := dump_ok hw hc
  obtain ⟨c', k1, k2⟩ := execAll_holds ops h2 ho
  refine ⟨some c, some c', _, _, c'.keys, h1, k1, rfl, fun k hk => ?_, fun k v hk => ?_, rfl, k2.sorted, fun k => ?_⟩
  · rcases k2.get k with ⟨e1, e2⟩ | ⟨v, w, e1, e2, e3⟩
    · simp only [getItem, e1]
    · rw [hk] at e2; cases e2
  · rcases k2.get k with ⟨e1, e2⟩ | ⟨v', w, e1, e2, e3⟩
    · rw [hk] at e2; cases e2
    · rw [hk] at e2
      cases e2
      exact ⟨v', by simp only [getItem, e1], e3⟩
  · rcases k2.get k with ⟨e1, e2⟩ | ⟨v', w, e1, e2, e3⟩
    · rw [e2]
      exact ⟨fun h => absurd h (Dict.get?_eq_none.1 e1), fun h => absurd rfl h⟩
    · rw [e2]
      exact ⟨fun _ => by simp, fun _ => Dict.get?_isSome.1 ⟨_, e1⟩⟩

/-- An existing log is used as it is; common attributes are refused. -/
theorem c97_reopen (f : File) (common : Contents) :
    init (some f) [] = (f, .ok ()) ∧ (common ≠ [] → init (some f) common = (f, .error .type)) :=
  ⟨rfl, fun h => if_neg h⟩

theorem get?_foldl_set (l : Contents) : ∀ (c : Contents) (k : Text), l.WF →
    Dict.get? (l.foldl (fun (c : Contents) p => Dict.set c p.1 p.2) c) k = match Dict.get? l k with
      | some v => some v
      | none => c.get? k := by
  induction l with
  | nil => intro c k _; rfl
  | cons p l ih =>
    intro c k hw
    obtain ⟨a, v⟩ := p
    have hw' : Dict.WF l := (List.nodup_cons.1 hw).2
    have ha : a ∉ l.map Prod.fst := (List.nodup_cons.1 hw).1
    rw [List.foldl_cons, ih _ _ hw', Dict.get?_cons, Dict.get?_set]
    by_cases hk : a = k
    · subst hk
      have : Dict.get? l a = none := Dict.get?_eq_none.2 ha
      rw [this, if_pos rfl, if_pos rfl]
    · rw [if_neg hk, if_neg hk]

theorem foldl_set_mem (l : Contents) : ∀ (c : Contents), (∀ p ∈ c, Plain p.2) → c.WF → (∀ p ∈ l, Plain p.2) →
    ∀ p ∈ l.foldl (fun (c : Contents) p => Dict.set c p.1 p.2) c, Plain p.2 := by
  induction l with
  | nil => intro c hc _ _; exact hc
  | cons q l ih =>
    intro c hc hw hl
    rw [List.foldl_cons]
    refine ih _ (fun p hp => ?_) (hw.set _ _) (fun p hp => hl p (by simp [hp]))
    rcases mem_set hp hw with rfl | hp
    · exact hl q (by simp)
    · exact hc p hp

/-- **C97 is violated** by metadata from files: the metadata of the new run contain, beside those in the file, the whole log:
the metadata of all other runs, under their names. -/
theorem c97_not_load (c : Contents) (hw : c.WF) (hc : ∀ p ∈ c, Plain p.2) (key : Text) (loaded : Contents) (hl : loaded.WF)
    (hp : ∀ p ∈ loaded, Plain p.2) :
    ∃ f v, load (some c) key (.contents loaded) = (f, .ok ()) ∧ getItem f key = .ok v ∧
      (∀ k x, loaded.get? k = some x → ∀ p, look (.key k :: p) v = look p x) ∧
      ∀ k x, loaded.get? k = none → c.get? k = some x → ∀ p, look (.key k :: p) v = look p x := by
  obtain ⟨c', h1, h2⟩ := dump_plain (c := c.set key (.obj (loaded.foldl (fun (c : Contents) p => Dict.set c p.1 p.2) c))) (hw.set _ _)
    (fun p hpm => by
      rcases mem_set hpm hw with rfl | hpm
      · exact .obj (foldl_set_mem loaded c hc hw hp)
      · exact hc p hpm)
    (fun k => (c.set key (.obj (loaded.foldl (fun (c : Contents) p => Dict.set c p.1 p.2) c))).get? k)
    (fun k => by
      cases h : (c.set key (.obj (loaded.foldl (fun (c : Contents) p => Dict.set c p.1 p.2) c))).get? k with
      | none => exact .inl ⟨rfl, rfl⟩
      | some v => exact .inr ⟨v, v, rfl, rfl, fun p => rfl⟩)
  rcases h2.get key with ⟨_, e2⟩ | ⟨v, w, e1, e2, e3⟩
  · rw [Dict.get?_set, if_pos rfl] at e2; cases e2
  · rw [Dict.get?_set, if_pos rfl] at e2
    cases e2
    refine ⟨some c', v, h1, by simp only [getItem, e1], fun k x hk p => ?_, fun k x hk hx p => ?_⟩
    · rw [← e3 (.key k :: p)]
      simp only [look]
      rw [get?_foldl_set loaded c k hl, hk]
      rfl
    · rw [← e3 (.key k :: p)]
      simp only [look]
      rw [get?_foldl_set loaded c k hl, hk]
      simp only
      rw [hx]
      rfl

theorem fields_none {l : List (Text × Value)} {k : Text} {v : Value} (h : (k, v) ∈ l) (hv : ¬ Plain v) : serializeFields l = none := by
  cases h1 : serializeFields l with
  | none => rfl
  | some l' => exact absurd (plain_of_fields l l' h1 (k, v) h) hv

theorem mem_set_self (c : Contents) (k : Text) (v : Value) : (k, v) ∈ c.set k v :=
  Dict.mem_of_get? (by rw [Dict.get?_set, if_pos rfl])

/-- **C97 is violated** by metadata with paths: the operation is refused, but the whole log is lost.  Each later operation
raises an exception. -/
theorem c97_not_path (c : Contents) (v : Value) (hv : ¬ Plain v) :
    (∀ target key l, c.get? target = some (.obj l) → append (some c) target key v = (none, .error .type)) ∧
    (∀ key k items, items.get? k = some v → create (some c) key [] items = (none, .error .type)) ∧
    (∀ o, exec none o = (none, .error .jsonDecode)) ∧ (∀ k, getItem none k = .error .jsonDecode) ∧
    iter none = .error .jsonDecode := by
  have hd : ∀ (key : Text) (l : List (Text × Value)) (k : Text), (k, v) ∈ l → dump (c.set key (.obj l)) = (none, .error .type) := by
    intro key l k hk
    unfold dump
    rw [fields_none (k := key) (v := .obj l)]
    · exact List.mem_map.2 ⟨(key, .obj l), mem_set_self c key (.obj l), rfl⟩
    · intro h
      cases h with
      | obj h => exact hv (h (k, v) hk)
  refine ⟨fun target key l h => ?_, fun key k items h => ?_, fun o => ?_, fun k => rfl, rfl⟩
  · simp only [append, h]
    exact hd target _ key (mem_set_self l key v)
  · simp only [create, ne_eq, not_true_eq_false, false_and, if_false]
    exact hd key items k (Dict.mem_of_get? h)
  · cases o <;> rfl

/-! ## Cases -/

/-- the common attributes of a new project, and a run that is created, described and renamed; another operation is refused -/
example : ∃ (f f' : File),
    init none [("output".toList, .atom "eprem.log".toList), ("config".toList, .path "eprem.cfg".toList)] = (f, .ok ()) ∧
    execAll f [.create "/p/runs/r0".toList [] [("branch".toList, .atom "A".toList), ("args".toList, .arr [.atom "1".toList])],
      .append "/p/runs/r0".toList "time".toList (.atom "2".toList), .mv "/p/runs/r0".toList "/p/runs/r1".toList, .rm "none".toList,
      .mv "/p/runs/r0".toList "/p/runs/r2".toList] = (f', [.ok (), .ok (), .ok (), .ok (), .error .logKey]) ∧
    iter f' = .ok ["/p/runs/r1".toList, "config".toList, "output".toList] := by
  refine ⟨_, _, rfl, rfl, ?_⟩
  rfl

/-- `c97_not_load` and `c97_not_path` apply -/
example : (∀ p ∈ ([("r0".toList, .obj [("time".toList, .atom "2".toList)])] : Contents), Plain p.2) ∧
    ¬ Plain (.obj [("directory".toList, .path "/p".toList)]) := by
  constructor
  · intro p hp
    rw [List.mem_singleton.1 hp]
    refine .obj (fun q hq => ?_)
    rw [List.mem_singleton.1 hq]
    exact .atom _
  · intro h
    cases h with
    | obj h => cases h _ (List.mem_singleton.2 rfl)

end Eprem.RunLog
