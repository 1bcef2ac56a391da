import Verif.Model.RunLog
import Verif.Props.Project

/-!
# Property C96: the runs a project lists are the directories on the disk
-/

namespace Eprem.Project

open Eprem

variable {κ : Type} [DecidableEq κ] {ε : Type}

theorem get?_dictOf {ν : Type} (f : κ → ν) (l : List κ) (k : κ) :
    (dictOf f l).get? k = if k ∈ l then some (f k) else none := by
  have key : ∀ (l : List κ) (d : Dict κ ν), Dict.get? (l.foldl (fun d k => Dict.set d k (f k)) d) k =
      if k ∈ l then some (f k) else d.get? k := by
    intro l
    induction l with
    | nil => intro d; simp
    | cons x l ih =>
      intro d
      rw [List.foldl_cons, ih, Dict.get?_set]
      by_cases h : x = k
      · subst h; simp
      · have h' : k ≠ x := fun e => h e.symm
        simp [h, h']
  exact key l []

theorem mem_keys_dictOf {ν : Type} (f : κ → ν) (l : List κ) (k : κ) : k ∈ (dictOf f l).keys ↔ k ∈ l := by
  rw [mem_keys_iff, get?_dictOf]
  by_cases h : k ∈ l <;> simp [h]

theorem dictOf_wf {ν : Type} (f : κ → ν) (l : List κ) : Dict.WF (dictOf f l) := by
  have key : ∀ (l : List κ) (d : Dict κ ν), d.WF → Dict.WF (l.foldl (fun d k => Dict.set d k (f k)) d) := by
    intro l
    induction l with
    | nil => intro d h; exact h
    | cons x l ih => intro d h; exact ih _ (h.set x (f x))
  exact key l [] Dict.WF.nil

theorem mem_names {fs : FS κ} {d : Path κ} {n : κ} : n ∈ names fs d ↔ fs.get? (d ++ [n]) ≠ none := by
  unfold names globDir
  rw [List.mem_filterMap]
  constructor
  · rintro ⟨p, hp, hn⟩
    obtain ⟨hk, hp⟩ := List.mem_filter.1 hp
    rw [Bool.and_eq_true, under_iff] at hp
    obtain ⟨⟨r, rfl⟩, hp⟩ := hp
    rw [List.drop_left] at hp
    obtain ⟨m, rfl⟩ := one_comp (beq_iff_eq.1 hp)
    rw [List.getLast?_append, List.getLast?_singleton, Option.some_or, Option.some.injEq] at hn
    subst hn
    exact mem_keys_iff.1 hk
  · intro h
    refine ⟨d ++ [n], List.mem_filter.2 ⟨mem_keys_iff.2 h, ?_⟩, by simp⟩
    rw [Bool.and_eq_true, under_iff, List.drop_left]
    exact ⟨List.prefix_append _ _, rfl⟩

theorem app3 (r : Path κ) (b c n : κ) : r ++ [b, c] ++ [n] = r ++ [b, c, n] := by simp

theorem app2 (r : Path κ) (c n : κ) : r ++ [c] ++ [n] = r ++ [c, n] := by simp

/-- **C96, the two views of a project with branches**, on any disk: the runs are the names found in the run directory
of any branch, the branches of a run are those in which it is a directory, and each branch has the runs that are
directories in it. -/
theorem c96_views (P : Paths κ) (hb : P.branches ≠ []) (fs : FS κ) :
    (∀ n, n ∈ (P.runs fs).keys ↔ ∃ b ∈ P.branches, fs.get? (P.root ++ [b, P.base, n]) ≠ none) ∧
    (∀ n bs, (P.runs fs).get? n = some bs →
      ∀ b, b ∈ bs ↔ b ∈ P.branches ∧ isDir fs (P.root ++ [b, P.base, n])) ∧
    (∀ b, b ∈ (P.branchRuns fs).keys ↔ b ∈ P.branches) ∧
    (∀ b ns, (P.branchRuns fs).get? b = some ns → ∀ n, n ∈ ns ↔ isDir fs (P.root ++ [b, P.base, n])) := by
  have hkeys : ∀ n, n ∈ (P.runs fs).keys ↔ ∃ b ∈ P.branches, fs.get? (P.root ++ [b, P.base, n]) ≠ none := by
    intro n
    unfold Paths.runs
    rw [if_neg hb, mem_keys_dictOf, List.mem_flatMap]
    simp only [mem_names, app3]
  have hval : ∀ n bs, (P.runs fs).get? n = some bs →
      ∀ b, b ∈ bs ↔ b ∈ P.branches ∧ isDir fs (P.root ++ [b, P.base, n]) := by
    intro n bs h b
    unfold Paths.runs at h
    rw [if_neg hb, get?_dictOf] at h
    split at h
    · cases h
      rw [List.mem_filter, decide_eq_true_iff]
    · cases h
  refine ⟨hkeys, hval, fun b => ?_, fun b ns h n => ?_⟩
  · unfold Paths.branchRuns
    rw [if_neg hb, mem_keys_dictOf]
  · unfold Paths.branchRuns at h
    rw [if_neg hb, get?_dictOf] at h
    split at h
    · rename_i hmem
      cases h
      simp only [List.mem_map, List.mem_filter, decide_eq_true_iff]
      constructor
      · rintro ⟨⟨m, bs⟩, ⟨hp, hbs⟩, rfl⟩
        have hw : Dict.WF (P.runs fs) := by
          unfold Paths.runs
          rw [if_neg hb]
          exact dictOf_wf _ _
        exact ((hval m bs (Dict.get?_of_mem hw hp) b).1 hbs).2
      · intro hd
        have hk : n ∈ (P.runs fs).keys := (hkeys n).2 ⟨b, hmem, by rw [hd]; simp⟩
        obtain ⟨bs, hbs⟩ := Option.ne_none_iff_exists'.1 (mem_keys_iff.1 hk)
        exact ⟨(n, bs), ⟨Dict.mem_of_get? hbs, (hval n bs hbs b).2 ⟨hmem, hd⟩⟩, rfl⟩
    · cases h

/-- **C96, the two views of a project without branches**: the runs are the names found in its run directory, and no run
belongs to a branch. -/
theorem c96_views_single (P : Paths κ) (hb : P.branches = []) (fs : FS κ) :
    (∀ n, n ∈ (P.runs fs).keys ↔ fs.get? (P.root ++ [P.base, n]) ≠ none) ∧
    (∀ n bs, (P.runs fs).get? n = some bs → bs = []) ∧ P.branchRuns fs = [] := by
  refine ⟨fun n => ?_, fun n bs h => ?_, ?_⟩
  · unfold Paths.runs
    rw [if_pos hb, mem_keys_dictOf, mem_names, app2]
  · unfold Paths.runs at h
    rw [if_pos hb, get?_dictOf] at h
    split at h
    · cases h; rfl
    · cases h
  · unfold Paths.branchRuns
    rw [if_pos hb]

/-! ### No file lies directly in a run directory -/

/-- Every entry of a run directory is a directory. -/
def NoFiles (P : Paths κ) (s : State κ ε) : Prop := ∀ d ∈ P.listing, ∀ n, s.fs.get? (d ++ [n]) ≠ some .file

theorem runOne_noFiles {P : Paths κ} (force : Bool) {s : State κ ε} {d : Path κ} (hd : d ∈ P.listing) (n : κ)
    (o : Outcome κ ε) (h : NoFiles P s) : NoFiles P (runOne force s (d ++ [n], o)).final := by
  intro d' hd' n'
  rcases runOne_final force s (d ++ [n]) o with e | ⟨hp, e⟩
  · rw [e]; exact h d' hd' n'
  · rw [e, get?_run o hp]
    · split
      · simp
      · exact h d' hd' n'
    · rintro ⟨ha, hb⟩
      exact hb (entry_prefix hd hd' ha).symm

theorem mvOne_noFiles {P : Paths κ} (force : Bool) {s : State κ ε} {d : Path κ} (hd : d ∈ P.listing) (a b : κ)
    (h : NoFiles P s) : NoFiles P (mvOne force s (d ++ [a], d ++ [b])).final := by
  intro d' hd' n'
  rcases mvOne_cases force s (d ++ [a]) (d ++ [b]) with ⟨e, _⟩ | ⟨ha, hb, hab, _, e, _⟩
  · rw [e]; exact h d' hd' n'
  · have hba : ¬ d ++ [b] <+: d ++ [a] := by
      intro hp
      rw [← entry_prefix hd hd hp, isDir, hb] at ha
      cases ha
    rw [e, get?_renameDir _ _ _ _ hba hab]
    split
    · rename_i hp
      have e2 := entry_prefix hd hd' hp
      rw [← e2, List.drop_length, List.append_nil]
      exact h d hd a
    · split
      · simp
      · exact h d' hd' n'

theorem rmOne_noFiles {P : Paths κ} (force : Bool) {s : State κ ε} (p : Path κ)
    (h : NoFiles P s) : NoFiles P (rmOne force s p).final := by
  intro d' hd' n'
  rcases rmOne_cases force s p with ⟨e, _⟩ | ⟨_, e, _⟩
  · rw [e]; exact h d' hd' n'
  · rw [e, get?_rmtree]
    split
    · simp
    · exact h d' hd' n'

theorem reachable_noFiles {P : Paths κ} {s : State κ ε} (h : Reachable P s) : NoFiles P s := by
  induction h with
  | start fs common hfs =>
    intro d hd n
    change Dict.get? (P.listing.foldl mkdirP fs) _ ≠ _
    rw [get?_foldl_mkdirP, hfs _ ((listing_under hd).trans (List.prefix_append _ _))]
    split <;> simp
  | step c _ hc ih =>
    cases c with
    | run name bs es out =>
      obtain ⟨n, rfl⟩ := one_comp hc
      refine loop_final (fun t x hx ht => ?_) ih
      obtain ⟨d, hd, rfl⟩ := List.mem_map.1 hx
      exact runOne_noFiles _ (rundirs_sub hd) n _ ht
    | mv a b bs es =>
      obtain ⟨⟨a, rfl⟩, b, rfl⟩ := And.intro (one_comp hc.1) (one_comp hc.2)
      refine loop_final (fun t x hx ht => ?_) ih
      obtain ⟨d, hd, rfl⟩ := List.mem_map.1 hx
      exact mvOne_noFiles _ (rundirs_sub hd) a b ht
    | rm pat bs es => exact loop_final (fun t x _ ht => rmOne_noFiles _ x ht) ih

theorem entry_isDir {P : Paths κ} {s : State κ ε} (h : Reachable P s) {d : Path κ} (hd : d ∈ P.listing) (n : κ) :
    s.fs.get? (d ++ [n]) ≠ none ↔ isDir s.fs (d ++ [n]) := by
  unfold isDir
  have := reachable_noFiles h d hd n
  cases hg : s.fs.get? (d ++ [n]) with
  | none => simp
  | some x =>
    cases x with
    | dir => simp
    | file => exact absurd hg this

theorem mem_listing {P : Paths κ} {d : Path κ} : d ∈ P.listing ↔
    (P.branches = [] ∧ d = P.root ++ [P.base]) ∨ ∃ b ∈ P.branches, d = P.root ++ [b, P.base] := by
  unfold Paths.listing
  by_cases h : P.branches = []
  · simp [h]
  · rw [if_neg h, List.mem_map]
    constructor
    · rintro ⟨b, hb, rfl⟩; exact Or.inr ⟨b, hb, rfl⟩
    · rintro (⟨h', _⟩ | ⟨b, hb, rfl⟩)
      · exact absurd h' h
      · exact ⟨b, hb, rfl⟩

/-- **C96, `show`.** After any history of commands, the runs of a project are the names of the directories in its run
directories, and `show(run)` prints the paths of exactly the existing directories with that name; it reports that there is
no such run if there are none. -/
theorem c96_show {P : Paths κ} {s : State κ ε} (h : Reachable P s) (n : κ) :
    (n ∈ (P.runs s.fs).keys ↔ ∃ d ∈ P.listing, isDir s.fs (d ++ [n])) ∧
    (P.showRun s.fs n = none ↔ ∀ d ∈ P.listing, ¬ isDir s.fs (d ++ [n])) ∧
    ∀ ps, P.showRun s.fs n = some ps →
      ∀ p, p ∈ ps ↔ isDir s.fs p ∧ ∃ d ∈ P.listing, p = d ++ [n] := by
  have hkeys : n ∈ (P.runs s.fs).keys ↔ ∃ d ∈ P.listing, isDir s.fs (d ++ [n]) := by
    by_cases hb : P.branches = []
    · rw [(c96_views_single P hb s.fs).1 n, ← app2]
      rw [entry_isDir h (mem_listing.2 (Or.inl ⟨hb, rfl⟩))]
      constructor
      · exact fun hd => ⟨_, mem_listing.2 (Or.inl ⟨hb, rfl⟩), hd⟩
      · rintro ⟨d, hd, hdir⟩
        rcases mem_listing.1 hd with ⟨_, rfl⟩ | ⟨b, hb', _⟩
        · exact hdir
        · rw [hb] at hb'; cases hb'
    · rw [(c96_views P hb s.fs).1 n]
      constructor
      · rintro ⟨b, hb', hg⟩
        rw [← app3] at hg
        have hl : P.root ++ [b, P.base] ∈ P.listing := mem_listing.2 (Or.inr ⟨b, hb', rfl⟩)
        exact ⟨_, hl, (entry_isDir h hl n).1 hg⟩
      · rintro ⟨d, hd, hdir⟩
        rcases mem_listing.1 hd with ⟨hb', _⟩ | ⟨b, hb', rfl⟩
        · exact absurd hb' hb
        · rw [app3] at hdir
          exact ⟨b, hb', by rw [hdir]; simp⟩
  refine ⟨hkeys, ?_, fun ps hs p => ?_⟩
  · have : P.showRun s.fs n = none ↔ n ∉ (P.runs s.fs).keys := by
      rw [← Dict.get?_eq_none]
      unfold Paths.showRun
      cases (P.runs s.fs).get? n <;> simp
    rw [this, hkeys]
    push Not
    rfl
  · unfold Paths.showRun at hs
    cases hg : (P.runs s.fs).get? n with
    | none => rw [hg] at hs; cases hs
    | some bs =>
      rw [hg] at hs
      cases hs
      have hk : n ∈ (P.runs s.fs).keys := mem_keys_iff.2 (by rw [hg]; simp)
      have hex := hkeys.1 hk
      unfold Paths.resolve
      by_cases hb : P.branches = []
      · rw [if_pos ((c96_views_single P hb s.fs).2.1 n bs hg), List.mem_singleton]
        obtain ⟨d, hd, hdir⟩ := hex
        rcases mem_listing.1 hd with ⟨_, rfl⟩ | ⟨b, hb', _⟩
        · rw [app2] at hdir
          constructor
          · rintro rfl
            exact ⟨hdir, _, hd, (app2 _ _ _).symm⟩
          · rintro ⟨_, d', hd', rfl⟩
            rcases mem_listing.1 hd' with ⟨_, rfl⟩ | ⟨b, hb', _⟩
            · exact app2 _ _ _
            · rw [hb] at hb'; cases hb'
        · rw [hb] at hb'; cases hb'
      · have hv := (c96_views P hb s.fs).2.1 n bs hg
        have hne : bs ≠ [] := by
          obtain ⟨d, hd, hdir⟩ := hex
          rcases mem_listing.1 hd with ⟨hb', _⟩ | ⟨b, hb', rfl⟩
          · exact absurd hb' hb
          · rw [app3] at hdir
            exact List.ne_nil_of_mem ((hv b).2 ⟨hb', hdir⟩)
        rw [if_neg hne, List.mem_map]
        constructor
        · rintro ⟨b, hbs, rfl⟩
          obtain ⟨hb', hdir⟩ := (hv b).1 hbs
          exact ⟨hdir, _, mem_listing.2 (Or.inr ⟨b, hb', rfl⟩), (app3 _ _ _ _).symm⟩
        · rintro ⟨hdir, d, hd, rfl⟩
          rcases mem_listing.1 hd with ⟨hb', _⟩ | ⟨b, hb', rfl⟩
          · exact absurd hb' hb
          · rw [app3] at hdir ⊢
            exact ⟨b, (hv b).2 ⟨hb', hdir⟩, rfl⟩

/-- **C96, the listing and the log.** If every started process exits with code 0, then after any history `show(run)`
prints exactly the logged paths with that name. -/
theorem c96_logged {P : Paths κ} {s : State κ ε} (h : ReachableOk P s) (n : κ) :
    ∃ l, s.log = some l ∧ (n ∈ (P.runs s.fs).keys ↔ ∃ d ∈ P.listing, LogKey.run (d ++ [n]) ∈ l.keys) ∧
      ∀ ps, P.showRun s.fs n = some ps →
        ∀ p, p ∈ ps ↔ LogKey.run p ∈ l.keys ∧ ∃ d ∈ P.listing, p = d ++ [n] := by
  have hr : Reachable P s := by
    induction h with
    | start fs common hfs => exact .start fs common hfs
    | step c _ hc _ ih => exact .step c ih hc
  obtain ⟨l, hl, hlog⟩ := c46_log_is_listing h
  obtain ⟨h1, _, h3⟩ := c96_show hr n
  refine ⟨l, hl, ?_, fun ps hps p => ?_⟩
  · rw [h1]
    constructor
    · rintro ⟨d, hd, hdir⟩
      exact ⟨d, hd, (hlog _).2 ⟨hdir, d, hd, n, rfl⟩⟩
    · rintro ⟨d, hd, hk⟩
      exact ⟨d, hd, ((hlog _).1 hk).1⟩
  · rw [h3 ps hps p]
    constructor
    · rintro ⟨hdir, d, hd, rfl⟩
      exact ⟨(hlog _).2 ⟨hdir, d, hd, n, rfl⟩, d, hd, rfl⟩
    · rintro ⟨hk, d, hd, rfl⟩
      exact ⟨((hlog _).1 hk).1, d, hd, rfl⟩

section Examples

/-- The views of the project of the examples of C46: run 2 in both branches, run 8 in branch 5. -/
example : demoP.runs demoS.fs = [(8, [5]), (2, [5, 6])] ∧ demoP.branchRuns demoS.fs = [(5, [8, 2]), (6, [2])] := by decide
example : demoP.showRun demoS.fs 8 = some [[0, 5, 1, 8]] ∧ demoP.showRun demoS.fs 2 = some [[0, 5, 1, 2], [0, 6, 1, 2]] ∧
    demoP.showRun demoS.fs 7 = none := by decide
example : Reachable demoP demoS := by
  refine .step _ (.step _ (.step _ (.start [] [(3, 4)] (fun q _ => rfl)) ?_) ?_) ?_ <;> simp [Cmd.Plain]

end Examples

/-- **C96 is false of the code when there is a file in a run directory.**  A file called 7 in the run directory of a
branch is listed as a run that belongs to no branch, and `show('7')` prints the path of a run of the project without
branches, where there is nothing. -/
theorem c96_not_file : ∃ (P : Paths Nat) (fs : FS Nat), P.branches ≠ [] ∧
    fs.get? (P.root ++ [5, P.base, 7]) = some .file ∧ (P.runs fs).get? 7 = some [] ∧
    P.showRun fs 7 = some [P.root ++ [P.base, 7]] ∧ fs.get? (P.root ++ [P.base, 7]) = none :=
  ⟨demoP, [([], .dir), ([0], .dir), ([0, 5], .dir), ([0, 5, 1], .dir), ([0, 6], .dir), ([0, 6, 1], .dir),
    ([0, 5, 1, 7], .file)], by decide⟩

/-- **C49 is false of the code for a name that has been read.**  The name of a project is remembered the first time it is
read, so that after a rename that succeeds (and that moves the directory) the project reports its old name. -/
theorem c49_not_name : ∃ (P P' : Paths Nat) (s s' : State Nat Nat) (new : Path Nat),
    Reachable P s ∧ rename P s new false = .ok (P', s') ∧ isDir s'.fs new ∧ P'.root = new ∧
    (readName none P').1 = new.getLast? ∧ (readName (readName none P).2 P').1 ≠ new.getLast? :=
  ⟨⟨[0], [], 1⟩, ⟨[9], [], 1⟩, newProject ⟨[0], [], 1⟩ [] [], ⟨[([], .dir), ([9], .dir), ([9, 1], .dir)], some []⟩, [9],
    .start [] [] (fun _ _ => rfl), rfl, by decide⟩

end Eprem.Project
