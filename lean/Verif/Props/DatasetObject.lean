import Verif.Model.DatasetObject
import Verif.Lemmas.PyDict
import Verif.Props.Observer

/-!
# C128: the observers of a dataset object
-/

namespace Eprem.Observer

open Eprem Eprem.Config
open Eprem.Symbolic (Str)

/-! ## Specification -/

/-- The orders are orders of the sets of prefixes. -/
structure Orders.Valid (O : Orders) : Prop where
  all : O.all.Perm (streamPrefixes ++ pointPrefixes)
  streams : O.streams.Perm streamPrefixes
  points : O.points.Perm pointPrefixes

/-- What a program gets when it asks for a listing after other requests. -/
def listing (O : Orders) (before : List (Listing × List Str)) (which : Listing) (dir : List Str) : Except OErr (Dict Id Str) :=
  (request O (requests O newDataset before) (which, dir)).2

/-! ## Lemmas -/

theorem mem_set {α β : Type} [DecidableEq α] {p : α × β} {k : α} {v : β} : ∀ {d : Dict α β}, p ∈ d.set k v → p ∈ d ∨ p = (k, v)
  | [], h => .inr (List.mem_singleton.1 h)
  | y :: d, h => by
    unfold Dict.set at h
    split at h
    · rename_i hy
      rcases List.mem_cons.1 h with h | h
      · exact .inr (h.trans (by rw [hy]))
      · exact .inl (List.mem_cons_of_mem _ h)
    · rcases List.mem_cons.1 h with h | h
      · exact .inl (h ▸ List.mem_cons_self)
      · exact (mem_set h).imp (List.mem_cons_of_mem _) id

theorem collect_mem {order : List Str} : ∀ {fs : List Str} {d r : Dict Id Str}, d.WF → collect order fs d = .ok r →
    r.WF ∧ ∀ p ∈ r, p ∈ d ∨ (p.2 ∈ fs ∧ observerId order p.2 = .ok p.1)
  | [], d, r, hd, h => by
    cases h
    exact ⟨hd, fun p hp => .inl hp⟩
  | f :: fs, d, r, hd, h => by
    unfold collect at h
    cases hi : observerId order f with
    | error e => rw [hi] at h; cases h
    | ok k =>
      rw [hi] at h
      obtain ⟨h1, h2⟩ := collect_mem (Dict.WF.set hd k f) h
      refine ⟨h1, fun p hp => ?_⟩
      rcases h2 p hp with h | ⟨h, h'⟩
      · rcases mem_set h with h | rfl
        · exact .inl h
        · exact .inr ⟨List.mem_cons_self, hi⟩
      · exact .inr ⟨List.mem_cons_of_mem _ h, h'⟩

theorem kind_of {O : Orders} (hO : O.Valid) {prefixes kind dir : List Str} (hp : prefixes.Perm kind)
    (hk : ∀ p ∈ kind, p ∈ streamPrefixes ++ pointPrefixes) {r : Dict Id Str} (h : observers O.all prefixes dir = .ok r) :
    r.WF ∧ ∀ q ∈ r, q.2 ∈ dir ∧ ∃ p ∈ kind, p <+: q.2 ∧ (if p ∈ streamPrefixes then ∃ n, q.1 = .int n else ∃ s, q.1 = .str s) := by
  obtain ⟨h1, h2⟩ := collect_mem (d := []) List.nodup_nil h
  refine ⟨h1, fun q hq => ?_⟩
  rcases h2 q hq with h | ⟨h, hi⟩
  · cases h
  obtain ⟨hd, p, hpp, hpre, s, hs, hf⟩ := (mem_obspaths (fun p h => plain_prefixes p (hk p (hp.mem_iff.1 h))) q.2).1 h
  have hpk := hp.mem_iff.1 hpp
  have hstem : p <+: stem q.2 := by
    rw [hf, stem_nc hs]
    have a : p <+: s ++ nc := hf ▸ hpre
    rcases List.prefix_or_prefix_of_prefix a (List.prefix_append s nc) with h | ⟨t, ht⟩
    · exact h
    · subst ht
      cases t with
      | nil => simp
      | cons c t =>
        exfalso
        have : c = '.' := by
          obtain ⟨r', hr'⟩ := a
          rw [List.append_assoc] at hr'
          have h3 := List.append_cancel_left hr'
          simp only [nc, List.cons_append, List.cons.injEq] at h3
          exact h3.1
        exact (plain_prefixes _ (hk _ hpk) c (by simp)).2.2.1 this
  refine ⟨hd, p, hpk, hpre, ?_⟩
  rw [observerId_prefix (p := p) (fun q hq => hO.all.mem_iff.1 hq) (hO.all.mem_iff.2 (hk p hpk)) hstem] at hi
  by_cases hps : p ∈ streamPrefixes
  · rw [if_pos hps] at hi ⊢
    cases hn : pyInt (lstrip (stem q.2) p) with
    | none => rw [hn] at hi; cases hi
    | some n => rw [hn] at hi; exact ⟨n, (Except.ok.inj hi).symm⟩
  · rw [if_neg hps] at hi ⊢
    exact ⟨_, (Except.ok.inj hi).symm⟩

theorem streams_kind {O : Orders} (hO : O.Valid) {dir : List Str} {r : Dict Id Str} (h : observers O.all O.streams dir = .ok r) :
    r.WF ∧ ∀ q ∈ r, q.2 ∈ dir ∧ (∃ p ∈ streamPrefixes, p <+: q.2) ∧ ∃ n, q.1 = .int n := by
  obtain ⟨h1, h2⟩ := kind_of hO hO.streams (fun p h => List.mem_append_left _ h) h
  refine ⟨h1, fun q hq => ?_⟩
  obtain ⟨a, p, hp, b, c⟩ := h2 q hq
  rw [if_pos hp] at c
  exact ⟨a, ⟨p, hp, b⟩, c⟩

theorem points_kind {O : Orders} (hO : O.Valid) {dir : List Str} {r : Dict Id Str} (h : observers O.all O.points dir = .ok r) :
    r.WF ∧ ∀ q ∈ r, q.2 ∈ dir ∧ (∃ p ∈ pointPrefixes, p <+: q.2) ∧ ∃ s, q.1 = .str s := by
  obtain ⟨h1, h2⟩ := kind_of hO hO.points (fun p h => List.mem_append_right _ h) h
  refine ⟨h1, fun q hq => ?_⟩
  obtain ⟨a, p, hp, b, c⟩ := h2 q hq
  rw [if_neg (stream_not_point p hp)] at c
  exact ⟨a, ⟨p, hp, b⟩, c⟩

/-- Streams have numbers. -/
def Ints (d : Dict Id Str) : Prop := d.WF ∧ ∀ q ∈ d, ∃ n, q.1 = .int n

/-- Points have texts. -/
def Texts (d : Dict Id Str) : Prop := d.WF ∧ ∀ q ∈ d, ∃ s, q.1 = .str s

theorem union_get : ∀ (b a : Dict Id Str), b.WF → ∀ k, (union a b).get? k = (b.get? k).or (a.get? k)
  | [], a, _, k => rfl
  | p :: b, a, hb, k => by
    have hb' := List.nodup_cons.1 (show (p.1 :: b.map Prod.fst).Nodup from hb)
    show (union (a.set p.1 p.2) b).get? k = _
    rw [union_get b _ hb'.2 k, Dict.get?_set, show (p :: b) = (p.1, p.2) :: b from rfl, Dict.get?_cons]
    by_cases h : p.1 = k
    · subst h
      rw [if_pos rfl, if_pos rfl, Dict.get?_eq_none.2 hb'.1]
      rfl
    · rw [if_neg h, if_neg h]

theorem get_int {d : Dict Id Str} (h : Texts d) (n : Int) : d.get? (.int n) = none := by
  refine Dict.get?_eq_none.2 fun hm => ?_
  obtain ⟨q, hq, he⟩ := List.mem_map.1 hm
  obtain ⟨s, hs⟩ := h.2 q hq
  rw [hs] at he
  cases he

theorem get_str {d : Dict Id Str} (h : Ints d) (s : Str) : d.get? (.str s) = none := by
  refine Dict.get?_eq_none.2 fun hm => ?_
  obtain ⟨q, hq, he⟩ := List.mem_map.1 hm
  obtain ⟨n, hn⟩ := h.2 q hq
  rw [hn] at he
  cases he

/-- What the caches can hold. -/
structure Fine (O : Orders) (dirs : List (List Str)) (c : Caches) : Prop where
  streams : ∀ d, c.streams = some d → ∃ dir ∈ dirs, observers O.all O.streams dir = .ok d
  points : ∀ d, c.points = some d → ∃ dir ∈ dirs, observers O.all O.points dir = .ok d
  observers : ∀ d, c.observers = some d → ∃ s p, c.streams = some s ∧ c.points = some p ∧ d = union s p

/-- What stays. -/
structure Stays (c c' : Caches) : Prop where
  streams : ∀ d, c.streams = some d → c'.streams = some d
  points : ∀ d, c.points = some d → c'.points = some d
  observers : ∀ d, c.observers = some d → c'.observers = some d

theorem Stays.refl (c : Caches) : Stays c c := ⟨fun _ h => h, fun _ h => h, fun _ h => h⟩

theorem Stays.trans {a b c : Caches} (h : Stays a b) (h' : Stays b c) : Stays a c :=
  ⟨fun d hd => h'.streams d (h.streams d hd), fun d hd => h'.points d (h.points d hd), fun d hd => h'.observers d (h.observers d hd)⟩

/-- The cache that belongs to a listing. -/
def Caches.of (c : Caches) : Listing → Option (Dict Id Str)
  | .observers => c.observers
  | .streams => c.streams
  | .points => c.points

theorem Stays.of {c c' : Caches} (h : Stays c c') (w : Listing) {d} (hd : c.of w = some d) : c'.of w = some d := by
  cases w
  · exact h.observers d hd
  · exact h.streams d hd
  · exact h.points d hd

theorem fine_streams {O : Orders} {dirs : List (List Str)} {c : Caches} (h : Fine O dirs c) {dir : List Str} (hd : dir ∈ dirs) :
    Fine O dirs (getStreams O c dir).1 ∧ Stays c (getStreams O c dir).1 ∧
    ∀ d, (getStreams O c dir).2 = .ok d → (getStreams O c dir).1.streams = some d := by
  unfold getStreams
  cases hc : c.streams with
  | some d => exact ⟨h, Stays.refl c, fun d' h' => by cases h'; exact hc⟩
  | none =>
    cases ho : observers O.all O.streams dir with
    | error e => exact ⟨h, Stays.refl c, nofun⟩
    | ok d =>
      refine ⟨⟨fun d' h' => ?_, h.points, fun d' h' => ?_⟩, ⟨fun d' h' => ?_, fun _ h => h, fun _ h => h⟩, fun d' h' => by cases h'; rfl⟩
      · cases h'; exact ⟨dir, hd, ho⟩
      · obtain ⟨s, p, hs, _⟩ := h.observers d' h'
        rw [hc] at hs; cases hs
      · rw [hc] at h'; cases h'

theorem fine_points {O : Orders} {dirs : List (List Str)} {c : Caches} (h : Fine O dirs c) {dir : List Str} (hd : dir ∈ dirs) :
    Fine O dirs (getPoints O c dir).1 ∧ Stays c (getPoints O c dir).1 ∧
    ∀ d, (getPoints O c dir).2 = .ok d → (getPoints O c dir).1.points = some d := by
  unfold getPoints
  cases hc : c.points with
  | some d => exact ⟨h, Stays.refl c, fun d' h' => by cases h'; exact hc⟩
  | none =>
    cases ho : observers O.all O.points dir with
    | error e => exact ⟨h, Stays.refl c, nofun⟩
    | ok d =>
      refine ⟨⟨h.streams, fun d' h' => ?_, fun d' h' => ?_⟩, ⟨fun _ h => h, fun d' h' => ?_, fun _ h => h⟩, fun d' h' => by cases h'; rfl⟩
      · cases h'; exact ⟨dir, hd, ho⟩
      · obtain ⟨s, p, _, hs, _⟩ := h.observers d' h'
        rw [hc] at hs; cases hs
      · rw [hc] at h'; cases h'

theorem fine_observers {O : Orders} {dirs : List (List Str)} {c : Caches} (h : Fine O dirs c) {dir : List Str} (hd : dir ∈ dirs) :
    Fine O dirs (getObservers O c dir).1 ∧ Stays c (getObservers O c dir).1 ∧
    ∀ d, (getObservers O c dir).2 = .ok d → (getObservers O c dir).1.observers = some d := by
  unfold getObservers
  cases hc : c.observers with
  | some d => exact ⟨h, Stays.refl c, fun d' h' => by cases h'; exact hc⟩
  | none =>
    obtain ⟨a1, a2, a3⟩ := fine_streams h hd
    rcases hs : getStreams O c dir with ⟨c1, r1⟩
    rw [hs] at a1 a2 a3
    cases r1 with
    | error e => exact ⟨a1, a2, nofun⟩
    | ok s =>
      dsimp only
      obtain ⟨b1, b2, b3⟩ := fine_points a1 hd
      rcases hp : getPoints O c1 dir with ⟨c2, r2⟩
      rw [hp] at b1 b2 b3
      cases r2 with
      | error e => exact ⟨b1, a2.trans b2, nofun⟩
      | ok p =>
        refine ⟨⟨b1.streams, b1.points, fun d' h' => ?_⟩, ⟨fun d' h' => (a2.trans b2).streams d' h', fun d' h' => (a2.trans b2).points d' h',
          fun d' h' => ?_⟩, fun d' h' => by cases h'; rfl⟩
        · cases h'
          exact ⟨s, p, b2.streams s (a3 s rfl), b3 p rfl, rfl⟩
        · rw [hc] at h'; cases h'

theorem fine_request {O : Orders} {dirs : List (List Str)} {c : Caches} (h : Fine O dirs c) (w : Listing) {dir : List Str} (hd : dir ∈ dirs) :
    Fine O dirs (request O c (w, dir)).1 ∧ Stays c (request O c (w, dir)).1 ∧
    ∀ d, (request O c (w, dir)).2 = .ok d → (request O c (w, dir)).1.of w = some d := by
  cases w
  · exact fine_observers h hd
  · exact fine_streams h hd
  · exact fine_points h hd

theorem fine_requests {O : Orders} {dirs : List (List Str)} : ∀ (l : List (Listing × List Str)) {c : Caches}, Fine O dirs c →
    (∀ r ∈ l, r.2 ∈ dirs) → Fine O dirs (requests O c l) ∧ Stays c (requests O c l)
  | [], c, h, _ => ⟨h, Stays.refl c⟩
  | r :: l, c, h, hl => by
    obtain ⟨h1, h2, _⟩ := fine_request h r.1 (hl r (by simp))
    obtain ⟨h3, h4⟩ := fine_requests l h1 fun x hx => hl x (by simp [hx])
    exact ⟨h3, h2.trans h4⟩

theorem fine_new (O : Orders) (dirs : List (List Str)) : Fine O dirs newDataset := ⟨nofun, nofun, nofun⟩

/-- A cached listing is what a request gives. -/
theorem request_cached (O : Orders) {c : Caches} {w : Listing} {d : Dict Id Str} (h : c.of w = some d) (dir : List Str) :
    (request O c (w, dir)).2 = .ok d := by
  cases w
  · have h : c.observers = some d := h
    unfold request getObservers; rw [h]
  · have h : c.streams = some d := h
    unfold request getStreams; rw [h]
  · have h : c.points = some d := h
    unfold request getPoints; rw [h]

/-- The state after a request that gave a listing. -/
theorem listing_state (O : Orders) (before : List (Listing × List Str)) (w : Listing) (dir : List Str) {d : Dict Id Str}
    (h : listing O before w dir = .ok d) (dirs : List (List Str)) (hb : ∀ r ∈ before, r.2 ∈ dirs) (hd : dir ∈ dirs) :
    Fine O dirs (requests O newDataset (before ++ [(w, dir)])) ∧ (requests O newDataset (before ++ [(w, dir)])).of w = some d := by
  obtain ⟨h1, _⟩ := fine_requests before (fine_new O dirs) hb
  obtain ⟨h2, _, h3⟩ := fine_request h1 w hd
  have e : requests O newDataset (before ++ [(w, dir)]) = (request O (requests O newDataset before) (w, dir)).1 := by
    unfold requests; rw [List.foldl_append]; rfl
  rw [e]
  exact ⟨h2, h3 d h⟩

/-! ## Theorems -/

/-- **C128**, kinds.  Whatever was asked before, streams have numbers and files with the prefix of a stream, and points have
texts and files with the prefix of a point; the files were in the directory at one of the requests. -/
theorem c128_kinds (O : Orders) (hO : O.Valid) (before : List (Listing × List Str)) (dir : List Str) (d : Dict Id Str) :
    (listing O before .streams dir = .ok d → ∀ k f, d.get? k = some f →
      (∃ n, k = .int n) ∧ (∃ p ∈ streamPrefixes, p <+: f) ∧ ∃ e ∈ dir :: before.map Prod.snd, f ∈ e) ∧
    (listing O before .points dir = .ok d → ∀ k f, d.get? k = some f →
      (∃ s, k = .str s) ∧ (∃ p ∈ pointPrefixes, p <+: f) ∧ ∃ e ∈ dir :: before.map Prod.snd, f ∈ e) := by
  have hb : ∀ r ∈ before, r.2 ∈ dir :: before.map Prod.snd := fun r hr => List.mem_cons_of_mem _ (List.mem_map.2 ⟨r, hr, rfl⟩)
  refine ⟨fun h k f hk => ?_, fun h k f hk => ?_⟩
  · obtain ⟨h1, h2⟩ := listing_state O before .streams dir h _ hb (by simp)
    obtain ⟨e, he, ho⟩ := h1.streams d h2
    obtain ⟨a, b, c⟩ := (streams_kind hO ho).2 _ (Dict.mem_of_get? hk)
    exact ⟨c, b, e, he, a⟩
  · obtain ⟨h1, h2⟩ := listing_state O before .points dir h _ hb (by simp)
    obtain ⟨e, he, ho⟩ := h1.points d h2
    obtain ⟨a, b, c⟩ := (points_kind hO ho).2 _ (Dict.mem_of_get? hk)
    exact ⟨c, b, e, he, a⟩

/-- **C128**, stability.  A listing that was given once is given again at every later request, however the directory changes
and whatever else is asked. -/
theorem c128_stable (O : Orders) (before between : List (Listing × List Str)) (w : Listing) (dir dir' : List Str) (d : Dict Id Str)
    (h : listing O before w dir = .ok d) : listing O (before ++ (w, dir) :: between) w dir' = .ok d := by
  have hmem : ∀ r ∈ before ++ (w, dir) :: between, r.2 ∈ (before ++ (w, dir) :: between).map Prod.snd :=
    fun r hr => List.mem_map.2 ⟨r, hr, rfl⟩
  obtain ⟨h1, h2⟩ := listing_state O before w dir h _ (fun r hr => hmem r (List.mem_append_left _ hr)) (hmem (w, dir) (by simp))
  obtain ⟨_, h3⟩ := fine_requests between h1 (fun r hr => hmem r (by simp [hr]))
  refine request_cached O ?_ dir'
  have e : requests O newDataset (before ++ (w, dir) :: between) = requests O (requests O newDataset (before ++ [(w, dir)])) between := by
    unfold requests; rw [← List.foldl_append]; simp
  rw [e]
  exact h3.of w h2

/-- **C128**, observers.  The observers are exactly the streams and the points that the object gives at that time and later: no
stream hides a point, and no point a stream. -/
theorem c128_observers (O : Orders) (hO : O.Valid) (before after : List (Listing × List Str)) (dir dir' : List Str) (d : Dict Id Str)
    (h : listing O before .observers dir = .ok d) :
    ∃ s p, listing O (before ++ (.observers, dir) :: after) .streams dir' = .ok s ∧
      listing O (before ++ (.observers, dir) :: after) .points dir' = .ok p ∧
      (∀ n, d.get? (.int n) = s.get? (.int n) ∧ p.get? (.int n) = none) ∧
      (∀ t, d.get? (.str t) = p.get? (.str t) ∧ s.get? (.str t) = none) := by
  have hmem : ∀ r ∈ before ++ (.observers, dir) :: after, r.2 ∈ (before ++ (.observers, dir) :: after).map Prod.snd :=
    fun r hr => List.mem_map.2 ⟨r, hr, rfl⟩
  obtain ⟨h1, h2⟩ := listing_state O before .observers dir h _ (fun r hr => hmem r (List.mem_append_left _ hr)) (hmem (.observers, dir) (by simp))
  obtain ⟨_, h3⟩ := fine_requests after h1 (fun r hr => hmem r (by simp [hr]))
  obtain ⟨s, p, hs, hp, rfl⟩ := h1.observers d h2
  have e : requests O newDataset (before ++ (.observers, dir) :: after) =
      requests O (requests O newDataset (before ++ [(.observers, dir)])) after := by
    unfold requests; rw [← List.foldl_append]; simp
  have hsi : Ints s := by
    obtain ⟨_, _, ho⟩ := h1.streams s hs
    have := streams_kind hO ho
    exact ⟨this.1, fun q hq => (this.2 q hq).2.2⟩
  have hpt : Texts p := by
    obtain ⟨_, _, ho⟩ := h1.points p hp
    have := points_kind hO ho
    exact ⟨this.1, fun q hq => (this.2 q hq).2.2⟩
  refine ⟨s, p, request_cached O (w := .streams) (e ▸ h3.streams s hs) dir', request_cached O (w := .points) (e ▸ h3.points p hp) dir',
    fun n => ⟨?_, get_int hpt n⟩, fun t => ⟨?_, get_str hsi t⟩⟩
  · rw [union_get p s hpt.1, get_int hpt, Option.none_or]
  · rw [union_get p s hpt.1, get_str hsi]
    cases p.get? (.str t) <;> rfl

/-- **C128**, a new object: its first listing of streams or points is that of the directory (C62). -/
theorem c128_first (O : Orders) (dir : List Str) : listing O [] .streams dir = observers O.all O.streams dir ∧
    listing O [] .points dir = observers O.all O.points dir := by
  constructor
  · show (getStreams O newDataset dir).2 = _
    unfold getStreams
    cases h : observers O.all O.streams dir <;> simp [newDataset]
  · show (getPoints O newDataset dir).2 = _
    unfold getPoints
    cases h : observers O.all O.points dir <;> simp [newDataset]

/-- The orders of the source code. -/
def sourceOrders : Orders := ⟨allPrefixes, streamPrefixes, pointPrefixes⟩

/-- **C128**, violated: the observers are not those of the directory at any one time: streams and points that were asked for at
different times are combined. -/
theorem c128_not_one_time : let a := ["obs000001.nc".toList, "p_obs007.nc".toList]; let b := ["obs000002.nc".toList]
    listing sourceOrders [(.streams, a)] .observers b = .ok [(.int 1, "obs000001.nc".toList)] ∧
    listing sourceOrders [] .observers a = .ok [(.int 1, "obs000001.nc".toList), (.str "007".toList, "p_obs007.nc".toList)] ∧
    listing sourceOrders [] .observers b = .ok [(.int 2, "obs000002.nc".toList)] := by
  decide +kernel

theorem source_orders_valid : sourceOrders.Valid := ⟨.refl _, .refl _, .refl _⟩

end Eprem.Observer
