import Verif.Model.Attrs

/-!
# Property C50: the attributes of a project
-/

namespace Eprem.Attrs

/-- A component of a resolved absolute path. -/
def Comp (c : Str) : Prop := c ≠ [] ∧ c ≠ ['.'] ∧ '/' ∉ c

theorem splitSlash_noSlash (c : Str) (h : '/' ∉ c) : splitSlash c = [c] := by
  induction c with
  | nil => rfl
  | cons x c ih =>
    rw [List.mem_cons, not_or] at h
    rw [splitSlash, if_neg (Ne.symm h.1), ih h.2]

theorem splitSlash_append (c s : Str) (h : '/' ∉ c) : splitSlash (c ++ '/' :: s) = c :: splitSlash s := by
  induction c with
  | nil => simp [splitSlash]
  | cons x c ih =>
    rw [List.mem_cons, not_or] at h
    rw [List.cons_append, splitSlash, if_neg (Ne.symm h.1), ih h.2]

theorem splitSlash_mem (s : Str) : ∀ c ∈ splitSlash s, '/' ∉ c := by
  induction s with
  | nil => simp [splitSlash]
  | cons x s ih =>
    unfold splitSlash
    split
    · intro c hc
      rcases List.mem_cons.1 hc with rfl | hc
      · simp
      · exact ih c hc
    · rename_i hx
      split
      · intro c hc; simp only [List.mem_singleton] at hc; subst hc; simpa using Ne.symm hx
      · rename_i p ps hp
        rw [hp] at ih
        intro c hc
        rcases List.mem_cons.1 hc with rfl | hc
        · rw [List.mem_cons, not_or]; exact ⟨Ne.symm hx, ih p (by simp)⟩
        · exact ih c (by simp [hc])

theorem splitSlash_abs (p : List Str) (h : ∀ c ∈ p, Comp c) :
    splitSlash (p.flatMap (fun c => '/' :: c)) = [] :: p := by
  have key : ∀ (c : Str) (p : List Str), '/' ∉ c → (∀ c ∈ p, Comp c) →
      splitSlash (c ++ p.flatMap (fun c => '/' :: c)) = c :: p := by
    intro c p
    induction p generalizing c with
    | nil => intro hc _; simpa using splitSlash_noSlash c hc
    | cons x p ih =>
      intro hc hp
      rw [List.flatMap_cons, List.cons_append, splitSlash_append c _ hc,
        ih x (hp x (by simp)).2.2 (fun y hy => hp y (by simp [hy]))]
  have := key [] p (by simp) h
  simpa using this

theorem parts_abs (p : List Str) (h : ∀ c ∈ p, Comp c) : parts (showAbs p) = p := by
  unfold parts showAbs
  split
  · rename_i hp; subst hp; decide
  · rw [splitSlash_abs p h, List.filter_cons_of_neg (by simp), List.filter_eq_self]
    intro c hc
    simpa using ⟨(h c hc).1, (h c hc).2.1⟩

theorem parts_comp (s : Str) : ∀ c ∈ parts s, Comp c := by
  intro c hc
  obtain ⟨h1, h2⟩ := List.mem_filter.1 hc
  simp only [ne_eq, decide_eq_true_eq] at h2
  exact ⟨h2.1, h2.2, splitSlash_mem s c h1⟩

theorem localize_comp (s : Str) : localize s = [] ∨ Comp (localize s) := by
  unfold localize
  cases h : parts s with
  | nil => exact Or.inl rfl
  | cons a l =>
    right
    have hne : parts s ≠ [] := by rw [h]; simp
    rw [← h]
    rw [List.getLastD_eq_getLast?, List.getLast?_eq_some_getLast hne]
    exact parts_comp s _ (List.getLast_mem hne)

theorem localize_name (c : Str) (h : c = [] ∨ Comp c) : localize (showName c) = c := by
  rcases h with rfl | h
  · decide
  · unfold localize parts showName
    rw [if_neg h.1, splitSlash_noSlash c h.2.2, List.filter_cons_of_pos (by simpa using ⟨h.1, h.2.1⟩)]
    rfl

theorem localize_join (root : List Str) (n : Str) (hr : ∀ c ∈ root, Comp c) (h : Comp n) :
    localize (showAbs (join root n)) = n := by
  unfold localize join
  rw [if_neg h.1, parts_abs _ (by
    intro c hc
    rcases List.mem_append.1 hc with hc | hc
    · exact hr c hc
    · rw [List.mem_singleton.1 hc]; exact h)]
  simp [List.getLastD_eq_getLast?]

/-- Adding the suffix twice is adding it once. -/
theorem withJson_idem (n n' : Str) (h : withJson n = .ok n') : withJson n' = .ok n' := by
  have key : ∀ s : Str, s ≠ [] → withJson (s ++ json) = .ok (s ++ json) := by
    intro s hs
    have hd : lastDot (s ++ json) = s.length := by
      unfold lastDot json
      have : (s ++ ['.', 'j', 's', 'o', 'n']).reverse.idxOf '.' = 4 := by
        simp only [List.reverse_append, List.reverse_cons, List.reverse_nil, List.nil_append,
          List.cons_append]
        rfl
      rw [this]; simp
    unfold withJson
    rw [if_neg (by simp [hs]), if_pos, hd, List.take_left]
    rw [hd]
    refine ⟨by simp [json], List.length_pos_iff.2 hs, by simp [json]⟩
  unfold withJson at h
  split at h
  · cases h
  · rename_i hn
    split at h
    · rename_i hc
      cases h
      refine key _ (fun he => ?_)
      have : (n.take (lastDot n)).length = 0 := by rw [he]; rfl
      rw [List.length_take] at this
      omega
    · cases h
      exact key n hn

theorem withJson_comp (n n' : Str) (hn : n = [] ∨ Comp n) (h : withJson n = .ok n') : Comp n' := by
  have hslash : ∀ s : Str, '/' ∉ s → s ≠ [] → Comp (s ++ json) := by
    intro s hs hne
    refine ⟨by simp [json], ?_, by simp [hs, json]⟩
    intro he
    have := congrArg List.length he
    simp [json] at this
  unfold withJson at h
  split at h
  · cases h
  · rename_i hne
    have hc : Comp n := hn.resolve_left hne
    split at h
    · rename_i hd
      cases h
      refine hslash _ (fun hm => hc.2.2 (List.mem_of_mem_take hm)) (fun he => ?_)
      have : (n.take (lastDot n)).length = 0 := by rw [he]; rfl
      rw [List.length_take] at this
      omega
    · cases h; exact hslash n hc.2.2 hne

theorem orDefault_some {s : Str} (h : s ≠ []) (d : Str) : orDefault (some s) d = s := by
  simp only [orDefault, if_neg h]

theorem orDefault_ne {d : Str} (hd : d ≠ []) (x : Option Str) : orDefault x d ≠ [] := by
  cases x with
  | none => exact hd
  | some s =>
    by_cases h : s = []
    · subst h; exact hd
    · rw [orDefault_some h]; exact h

theorem showName_ne (n : Str) : showName n ≠ [] := by
  unfold showName; split <;> simp_all

theorem showAbs_ne (p : List Str) : showAbs p ≠ [] := by
  unfold showAbs
  split
  · simp
  · cases p with
    | nil => simp_all
    | cons x p => simp

/-- **C50.** If a project was created, with any optional arguments, and its input directory has a name of its own,
then reopening it from its metadata gives the same attributes. -/
theorem c50_reopen (root : List Str) (hr : ∀ c ∈ root, Comp c) (o : Opts) (a : Attrs)
    (h : Attrs.mk? root o = .ok a) (hin : a.inputs ≠ a.root) : restore a.serial = .ok a := by
  unfold Attrs.mk? at h
  split at h
  · cases h
  · rename_i logname hl
    cases h
    have hlc := withJson_comp _ _ (localize_comp _) hl
    simp only [ne_eq] at hin
    have hic : Comp (localize (orDefault o.inputs ['i', 'n', 'p', 'u', 't', 's'])) := by
      refine (localize_comp _).resolve_left (fun he => hin ?_)
      rw [he]; rfl
    unfold restore Attrs.serial Attrs.mk?
    dsimp only
    rw [orDefault_some (showName_ne _), orDefault_some (showName_ne _), orDefault_some (showName_ne _),
      orDefault_some (showAbs_ne _), orDefault_some (orDefault_ne (by simp) _), localize_name _ (Or.inr hlc), withJson_idem _ _ hl, parts_abs root hr,
      localize_name _ (localize_comp _), localize_name _ (localize_comp _), localize_join root _ hr hic]
    rfl

/-- **C50 is false of the code for `inputs='.'`** (or `'/'`): the input directory is then the root itself, and reopening
takes it to be a directory below the root with the root's own name. -/
theorem c50_inputs_dot (root : List Str) (n : Str) (hr : ∀ c ∈ root, Comp c) (hn : Comp n) :
    ∃ a b, Attrs.mk? (root ++ [n]) { inputs := some ['.'] } = .ok a ∧ a.inputs = root ++ [n] ∧
      restore a.serial = .ok b ∧ b.inputs = root ++ [n, n] := by
  have hr' : ∀ c ∈ root ++ [n], Comp c := by
    intro c hc
    rcases List.mem_append.1 hc with hc | hc
    · exact hr c hc
    · rw [List.mem_singleton.1 hc]; exact hn
  have hmk : Attrs.mk? (root ++ [n]) { inputs := some ['.'] } = .ok {
      root := root ++ [n], branches := [], config := ['e', 'p', 'r', 'e', 'm', '.', 'c', 'f', 'g'],
      inputs := root ++ [n], output := ['e', 'p', 'r', 'e', 'm', '.', 'l', 'o', 'g'],
      rundir := ['r', 'u', 'n', 's'], logname := ['r', 'u', 'n', 's', '.', 'j', 's', 'o', 'n'] } := rfl
  have hloc : localize (showAbs (root ++ [n])) = n := by
    have := localize_join root n hr hn
    unfold join at this
    rwa [if_neg hn.1] at this
  refine ⟨_, {
      root := root ++ [n], branches := [], config := ['e', 'p', 'r', 'e', 'm', '.', 'c', 'f', 'g'],
      inputs := root ++ [n, n], output := ['e', 'p', 'r', 'e', 'm', '.', 'l', 'o', 'g'],
      rundir := ['r', 'u', 'n', 's'], logname := ['r', 'u', 'n', 's', '.', 'j', 's', 'o', 'n'] }, hmk, rfl, ?_, rfl⟩
  unfold restore Attrs.serial Attrs.mk?
  dsimp only
  rw [orDefault_some (showAbs_ne _), hloc, parts_abs _ hr']
  have : join (root ++ [n]) n = root ++ [n, n] := by unfold join; rw [if_neg hn.1]; simp
  rw [this]
  rfl

/-- **C50**, opening: an existing project is reopened with its stored attributes when no option is given, and
giving any option is refused. -/
theorem c50_open_existing (root : List Str) (hr : ∀ c ∈ root, Comp c) (o : Opts) (a : Attrs)
    (h : Attrs.mk? root o = .ok a) (hin : a.inputs ≠ a.root) (o' : Opts) :
    getAttrs (some a.serial) root o' = if o' = {} then .ok a else .error .projectExists := by
  unfold getAttrs
  dsimp only
  split
  · exact c50_reopen root hr o a h hin
  · rfl

/-- **C50**, renaming: after a project is renamed, reopening it gives the same attributes at the new root. -/
theorem c50_reopen_renamed (root new : List Str) (hr : ∀ c ∈ root, Comp c) (hnew : ∀ c ∈ new, Comp c) (o : Opts)
    (a : Attrs) (h : Attrs.mk? root o = .ok a) (hin : a.inputs ≠ a.root) :
    ∃ b, restore (updateMetadata a.serial new) = .ok b ∧ Attrs.mk? new o = .ok b := by
  have h1 := c50_reopen root hr o a h hin
  unfold Attrs.mk? at h
  split at h
  · cases h
  · rename_i logname hl
    refine ⟨{ a with root := new, inputs := join new (localize (orDefault o.inputs ['i', 'n', 'p', 'u', 't', 's'])) }, ?_, ?_⟩
    · cases h
      simp only [ne_eq] at hin
      have hic : Comp (localize (orDefault o.inputs ['i', 'n', 'p', 'u', 't', 's'])) := by
        refine (localize_comp _).resolve_left (fun he => hin ?_)
        rw [he]; rfl
      unfold restore Attrs.mk? at h1 ⊢
      dsimp only [updateMetadata, Attrs.serial] at h1 ⊢
      rw [parts_abs new hnew]
      rw [parts_abs root hr] at h1
      rw [orDefault_some (showAbs_ne _), localize_join root _ hr hic] at h1 ⊢
      split at h1
      · cases h1
      · simp only [Except.ok.injEq, Attrs.mk.injEq] at h1 ⊢
        obtain ⟨_, h2, h3, _, h4, h5, h6⟩ := h1
        exact ⟨trivial, h2, h3, trivial, h4, h5, h6⟩
    · cases h
      unfold Attrs.mk?
      rw [hl]

/-- **C50 is false of the code for copies**: a new project made as a copy of another one, without further
options, gets the default attributes, whatever the attributes of the source are. -/
theorem c50_copy_ignores_source (root : List Str) (source : Serial) (b a : Attrs) (hs : restore source = .ok b)
    (h : initProject none root (some source) {} = .ok a) : Attrs.mk? root {} = .ok a := by
  simp only [initProject, hs] at h
  exact h

/-- A project with two branches whose copy has none. -/
theorem c50_copy_loses_branches :
    ∃ a b, Attrs.mk? [['p']] { branches := some [['A'], ['B']] } = .ok a ∧
      initProject none [['q']] (some a.serial) {} = .ok b ∧ a.branches = [['A'], ['B']] ∧ b.branches = [] :=
  ⟨_, _, rfl, rfl, rfl, rfl⟩

example : ∃ a, Attrs.mk? [['h'], ['p']] {
      branches := some [['A']], inputs := some ['x', '/', 'i', 'n', '/'],
      logname := some ['a', '/', 'l', '.', 't', 'x', 't'] } = .ok a ∧ a.inputs = [['h'], ['p'], ['i', 'n']] ∧
      a.logname = ['l', '.', 'j', 's', 'o', 'n'] ∧ a.inputs ≠ a.root ∧ restore a.serial = .ok a :=
  ⟨_, rfl, by decide, by decide, by decide, rfl⟩
example : ∀ c ∈ [['h'], ['p']], Comp c := by
  intro c hc
  simp only [List.mem_cons, List.not_mem_nil, or_false] at hc
  rcases hc with rfl | rfl <;> exact ⟨by decide, by decide, by decide⟩

end Eprem.Attrs
