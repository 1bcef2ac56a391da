import Verif.Lemmas.Project

/-!
# Properties C46-C49, C51: the disk and the log of a project
-/

namespace Eprem.Project

open Eprem

variable {κ : Type} [DecidableEq κ] {ε : Type}

/-- Commands that name runs by a single path component and patterns that match only entries of the run
directories themselves (no `/`, no `**`). -/
def Cmd.Plain : Cmd κ ε → Prop
  | .run name _ _ _ => name.length = 1
  | .mv a b _ _ => a.length = 1 ∧ b.length = 1
  | .rm .empty _ _ => True
  | .rm (.glob sel) _ _ => ∀ r, sel r = true → r.length = 1

/-- The states of a project: it is created where nothing existed, then changed by any finite sequence of
commands, whatever the started processes do and whether or not a command raises. -/
inductive Reachable (P : Paths κ) : State κ ε → Prop
  | start (fs : FS κ) (common : Dict κ ε) : (∀ q, P.root <+: q → fs.get? q = none) →
      Reachable P (newProject P fs common)
  | step {s : State κ ε} (c : Cmd κ ε) : Reachable P s → c.Plain → Reachable P (exec P s c).final

/-- The run directories exist and every logged run is an existing entry of one of them. -/
def Inv (P : Paths κ) (s : State κ ε) : Prop :=
  (∀ d ∈ P.listing, isDir s.fs d) ∧
  ∃ l, s.log = some l ∧ ∀ p, LogKey.run p ∈ l.keys → isDir s.fs p ∧ ∃ d ∈ P.listing, ∃ n, p = d ++ [n]

theorem one_comp {name : Path κ} (h : name.length = 1) : ∃ n, name = [n] := List.length_eq_one_iff.1 h

/-! ### Frames -/

/-- An entry of a run directory lies strictly above, below or beside another only if they are equal. -/
theorem entry_prefix {P : Paths κ} {d d' : Path κ} (h : d ∈ P.listing) (h' : d' ∈ P.listing) {n n' : κ}
    (hp : d ++ [n] <+: d' ++ [n']) : d ++ [n] = d' ++ [n'] :=
  prefix_eq hp (by simp [listing_length h h'])

theorem entry_not_prefix_dir {P : Paths κ} {d d' : Path κ} (h : d ∈ P.listing) (h' : d' ∈ P.listing) {n : κ} :
    ¬ d ++ [n] <+: d' := by
  intro hp
  have := hp.length_le
  have := listing_length h h'
  simp at *; omega

theorem runOne_final (force : Bool) (s : State κ ε) (p : Path κ) (o : Outcome κ ε) :
    (runOne force s (p, o)).final.fs = s.fs ∨
      (s.fs.get? p = none ∧ (runOne force s (p, o)).final.fs = rewrite (mkdirP s.fs p) p o.files) := by
  unfold runOne
  dsimp only
  split
  · exact Or.inl rfl
  · rename_i hp
    rw [not_not] at hp
    split
    · exact Or.inl rfl
    · right
      refine ⟨hp, ?_⟩
      split
      · rfl
      · split
        · split <;> rfl
        · rfl

/-- What `run` leaves of the disk. -/
theorem get?_run {fs : FS κ} {p q : Path κ} (o : Outcome κ ε) (hp : fs.get? p = none)
    (h : ¬ (p <+: q ∧ q ≠ p)) :
    (rewrite (mkdirP fs p) p o.files).get? q =
      if q <+: p ∧ fs.get? q = none then some .dir else fs.get? q := by
  rw [get?_rewrite _ _ _ _ h, get?_mkdirP]

theorem runOne_inv {P : Paths κ} (force : Bool) {s : State κ ε} {d : Path κ} (hd : d ∈ P.listing) (n : κ)
    (o : Outcome κ ε) (hI : Inv P s) : Inv P (runOne force s (d ++ [n], o)).final := by
  obtain ⟨h1, l, hl, h2⟩ := hI
  -- run directories and entries survive the changes of the disk
  have hkeep : s.fs.get? (d ++ [n]) = none → ∀ q, ((∃ d' ∈ P.listing, q = d') ∨ ∃ d' ∈ P.listing, ∃ n', q = d' ++ [n']) →
      isDir s.fs q → isDir (rewrite (mkdirP s.fs (d ++ [n])) (d ++ [n]) o.files) q := by
    intro hp q hq hdir
    unfold isDir at *
    rw [get?_run o hp, if_neg (by rw [hdir]; simp), hdir]
    rintro ⟨ha, hb⟩
    rcases hq with ⟨d', hd', rfl⟩ | ⟨d', hd', n', rfl⟩
    · exact entry_not_prefix_dir hd hd' ha
    · exact hb (entry_prefix hd hd' ha).symm
  unfold runOne
  dsimp only
  split
  · exact ⟨h1, l, hl, h2⟩
  · rename_i hp
    rw [not_not] at hp
    have k1 : ∀ d' ∈ P.listing, isDir (rewrite (mkdirP s.fs (d ++ [n])) (d ++ [n]) o.files) d' :=
      fun d' hd' => hkeep hp d' (Or.inl ⟨d', hd', rfl⟩) (h1 d' hd')
    have k2 : ∀ p, LogKey.run p ∈ l.keys →
        isDir (rewrite (mkdirP s.fs (d ++ [n])) (d ++ [n]) o.files) p ∧ ∃ d ∈ P.listing, ∃ n, p = d ++ [n] := by
      intro p hpl
      obtain ⟨hdir, d', hd', n', e⟩ := h2 p hpl
      exact ⟨hkeep hp p (Or.inr ⟨d', hd', n', e⟩) hdir, d', hd', n', e⟩
    split
    · exact ⟨h1, l, hl, h2⟩
    · split
      · exact ⟨k1, l, hl, k2⟩
      · split
        · rw [hl]
          refine ⟨k1, _, rfl, fun p hpl => ?_⟩
          rw [Dict.mem_keys_set] at hpl
          rcases hpl with hpl | hpl
          · cases hpl
            refine ⟨?_, d, hd, n, rfl⟩
            unfold isDir
            change Dict.get? (rewrite (mkdirP s.fs (d ++ [n])) (d ++ [n]) o.files) _ = _
            rw [get?_run o hp (by simp), if_pos ⟨List.prefix_refl _, hp⟩]
          · exact k2 p hpl
        · exact ⟨k1, l, hl, k2⟩

theorem mvOne_inv {P : Paths κ} (force : Bool) {s : State κ ε} {d : Path κ} (hd : d ∈ P.listing) (a b : κ)
    (hI : Inv P s) : Inv P (mvOne force s (d ++ [a], d ++ [b])).final := by
  obtain ⟨h1, l, hl, h2⟩ := hI
  unfold mvOne
  dsimp only
  split
  · exact ⟨h1, l, hl, h2⟩
  · split
    · exact ⟨h1, l, hl, h2⟩
    · split
      · exact ⟨h1, l, hl, h2⟩
      · split
        · exact ⟨h1, l, hl, h2⟩
        · rename_i ha hadir hb hos
          rw [not_not] at hb hadir
          have hne : d ++ [a] ≠ d ++ [b] := fun h => ha (h ▸ hb)
          have hba : ¬ d ++ [b] <+: d ++ [a] := fun h => hne (entry_prefix hd hd h).symm
          have hab : ¬ d ++ [a] <+: d ++ [b] := fun h => hne (entry_prefix hd hd h)
          have k1 : ∀ d' ∈ P.listing, isDir (renameDir s.fs (d ++ [a]) (d ++ [b])) d' := by
            intro d' hd'
            unfold isDir
            rw [get?_renameDir _ _ _ _ hba hab, if_neg (entry_not_prefix_dir hd hd'),
              if_neg (entry_not_prefix_dir hd hd')]
            exact h1 d' hd'
          have k2 : ∀ p, LogKey.run p ∈ l.keys → p ≠ d ++ [a] →
              isDir (renameDir s.fs (d ++ [a]) (d ++ [b])) p ∧ ∃ d ∈ P.listing, ∃ n, p = d ++ [n] := by
            intro p hpl hpa
            obtain ⟨hdir, d', hd', n', rfl⟩ := h2 p hpl
            refine ⟨?_, d', hd', n', rfl⟩
            unfold isDir at *
            rw [get?_renameDir _ _ _ _ hba hab, if_neg, if_neg]
            · exact hdir
            · exact fun h => hpa (entry_prefix hd hd' h).symm
            · intro h
              rw [← entry_prefix hd hd' h, hb] at hdir
              cases hdir
          rw [hl]
          dsimp only
          split
          · rename_i hg
            refine ⟨k1, l, rfl, fun p hpl => k2 p hpl ?_⟩
            rintro rfl
            exact mem_keys_iff.1 hpl hg
          · refine ⟨k1, _, rfl, fun p hpl => ?_⟩
            rw [Dict.mem_keys_set, Dict.mem_keys_del] at hpl
            rcases hpl with hpl | ⟨hpl, hpa⟩
            · cases hpl
              refine ⟨?_, d, hd, b, rfl⟩
              unfold isDir
              change Dict.get? (renameDir s.fs (d ++ [a]) (d ++ [b])) _ = _
              rw [get?_renameDir _ _ _ _ hba hab, if_pos (List.prefix_refl _)]
              rw [List.drop_length, List.append_nil]; exact hadir
            · exact k2 p hpl (fun h => hpa (by rw [h]))

theorem rmOne_inv {P : Paths κ} (force : Bool) {s : State κ ε} {d : Path κ} (hd : d ∈ P.listing) (a : κ)
    (hI : Inv P s) : Inv P (rmOne force s (d ++ [a])).final := by
  obtain ⟨h1, l, hl, h2⟩ := hI
  unfold rmOne
  split
  · exact ⟨h1, l, hl, h2⟩
  · split
    · exact ⟨h1, l, hl, h2⟩
    · dsimp only
      rw [hl]
      refine ⟨fun d' hd' => ?_, _, rfl, fun p hpl => ?_⟩
      · change Dict.get? (rmtree s.fs (d ++ [a])) _ = _
        rw [get?_rmtree, if_neg (entry_not_prefix_dir hd hd')]
        exact h1 d' hd'
      · rw [Dict.mem_keys_del] at hpl
        obtain ⟨hdir, d', hd', n', rfl⟩ := h2 p hpl.1
        refine ⟨?_, d', hd', n', rfl⟩
        change Dict.get? (rmtree s.fs (d ++ [a])) _ = _
        rw [get?_rmtree, if_neg]
        · exact hdir
        · exact fun h => hpl.2 (by rw [entry_prefix hd hd' h])

/-- The paths of an `rm` command with a plain pattern are entries of run directories. -/
theorem mem_definePattern {P : Paths κ} {fs : FS κ} {pat : Pattern κ} {bs : List κ} {es : Bool}
    (hc : (Cmd.rm pat bs es : Cmd κ ε).Plain) {p : Path κ} (hp : p ∈ P.definePattern fs pat bs) :
    ∃ d ∈ P.rundirs bs, ∃ n, p = d ++ [n] := by
  unfold Paths.definePattern at hp
  obtain ⟨d, hd, hp⟩ := List.mem_flatMap.1 hp
  unfold globDir at hp
  obtain ⟨_, hp⟩ := List.mem_filter.1 hp
  rw [Bool.and_eq_true, under_iff] at hp
  obtain ⟨⟨r, rfl⟩, hp⟩ := hp
  rw [List.drop_left] at hp
  have : r.length = 1 := by
    cases pat with
    | empty => simpa using hp
    | glob sel => exact hc r hp
  obtain ⟨n, rfl⟩ := one_comp this
  exact ⟨d, hd, n, rfl⟩

theorem exec_inv {P : Paths κ} {s : State κ ε} (c : Cmd κ ε) (hc : c.Plain) (hI : Inv P s) :
    Inv P (exec P s c).final := by
  cases c with
  | run name bs es out =>
    obtain ⟨n, rfl⟩ := one_comp hc
    refine loop_final (fun t x hx ht => ?_) hI
    obtain ⟨d, hd, rfl⟩ := List.mem_map.1 hx
    exact runOne_inv _ (rundirs_sub hd) n _ ht
  | mv a b bs es =>
    obtain ⟨⟨a, rfl⟩, b, rfl⟩ := And.intro (one_comp hc.1) (one_comp hc.2)
    refine loop_final (fun t x hx ht => ?_) hI
    obtain ⟨d, hd, rfl⟩ := List.mem_map.1 hx
    exact mvOne_inv _ (rundirs_sub hd) a b ht
  | rm pat bs es =>
    refine loop_final (fun t x hx ht => ?_) hI
    obtain ⟨d, hd, n, rfl⟩ := mem_definePattern (ε := ε) (es := es) hc hx
    exact rmOne_inv _ (rundirs_sub hd) n ht

theorem get?_foldl_mkdirP (l : List (Path κ)) (fs : FS κ) (q : Path κ) :
    Dict.get? (l.foldl mkdirP fs) q = if (∃ d ∈ l, q <+: d) ∧ fs.get? q = none then some .dir else fs.get? q := by
  induction l generalizing fs with
  | nil => simp
  | cons d l ih =>
    rw [List.foldl_cons, ih, get?_mkdirP]
    by_cases h1 : q <+: d <;> by_cases h2 : fs.get? q = none <;> simp [h1, h2]

theorem listing_under {P : Paths κ} {d : Path κ} (h : d ∈ P.listing) : P.root <+: d := by
  unfold Paths.listing at h
  split at h
  · simp only [List.mem_singleton] at h; subst h; exact List.prefix_append _ _
  · obtain ⟨x, _, rfl⟩ := List.mem_map.1 h; exact List.prefix_append _ _

theorem newProject_inv (P : Paths κ) (fs : FS κ) (common : Dict κ ε)
    (hfs : ∀ q, P.root <+: q → fs.get? q = none) : Inv P (newProject P fs common) := by
  refine ⟨fun d hd => ?_, _, rfl, fun p hp => ?_⟩
  · change Dict.get? (P.listing.foldl mkdirP fs) d = _
    rw [get?_foldl_mkdirP, if_pos ⟨⟨d, hd, List.prefix_refl _⟩, hfs d (listing_under hd)⟩]
  · exfalso
    simp [Dict.keys] at hp

theorem reachable_inv {P : Paths κ} {s : State κ ε} (h : Reachable P s) : Inv P s := by
  induction h with
  | start fs common hfs => exact newProject_inv P fs common hfs
  | step c _ hc ih => exact exec_inv c hc ih

/-! ## C46 -/

/-- **C46.** After any history of commands (naming runs by one path component), the log is readable and
every run in it is an existing directory in one of the project's run directories. -/
theorem c46_logged_runs_exist {P : Paths κ} {s : State κ ε} (h : Reachable P s) :
    ∃ l, s.log = some l ∧
      ∀ p, LogKey.run p ∈ l.keys → isDir s.fs p ∧ ∃ d ∈ P.listing, ∃ n, p = d ++ [n] :=
  (reachable_inv h).2

/-! ### Completeness -/

/-- Every process that the command starts exits with code 0. -/
def Cmd.Succeeds : Cmd κ ε → Prop
  | .run _ _ _ out => ∀ p, (out p).exit = some 0
  | _ => True

/-- The states of a project all of whose processes succeeded. -/
inductive ReachableOk (P : Paths κ) : State κ ε → Prop
  | start (fs : FS κ) (common : Dict κ ε) : (∀ q, P.root <+: q → fs.get? q = none) →
      ReachableOk P (newProject P fs common)
  | step {s : State κ ε} (c : Cmd κ ε) : ReachableOk P s → c.Plain → c.Succeeds →
      ReachableOk P (exec P s c).final

/-- Every entry of a run directory that is a directory is logged. -/
def Complete (P : Paths κ) (s : State κ ε) : Prop :=
  ∀ l, s.log = some l → ∀ d ∈ P.listing, ∀ n, isDir s.fs (d ++ [n]) → LogKey.run (d ++ [n]) ∈ l.keys

theorem runOne_complete {P : Paths κ} (force : Bool) {s : State κ ε} {d : Path κ} (hd : d ∈ P.listing) (n : κ)
    (o : Outcome κ ε) (ho : o.exit = some 0) (hI : Inv P s) (hC : Complete P s) :
    Complete P (runOne force s (d ++ [n], o)).final := by
  obtain ⟨_, l, hl, _⟩ := hI
  have hC' := hC l hl
  unfold runOne
  dsimp only
  split
  · exact hC
  · rename_i hp
    rw [not_not] at hp
    split
    · exact hC
    · rw [ho]
      dsimp only
      rw [if_pos rfl, hl]
      intro l' hl' d' hd' n' hdir
      cases hl'
      rw [Dict.mem_keys_set]
      by_cases he : d' ++ [n'] = d ++ [n]
      · exact Or.inl (by rw [he])
      · right
        refine hC' d' hd' n' ?_
        change Dict.get? (rewrite (mkdirP s.fs (d ++ [n])) (d ++ [n]) o.files) _ = _ at hdir
        rw [get?_run o hp (fun h => he (entry_prefix hd hd' h.1).symm), if_neg] at hdir
        · exact hdir
        · exact fun h => he (entry_prefix hd' hd h.1)

theorem mvOne_complete {P : Paths κ} (force : Bool) {s : State κ ε} {d : Path κ} (hd : d ∈ P.listing) (a b : κ)
    (hI : Inv P s) (hC : Complete P s) : Complete P (mvOne force s (d ++ [a], d ++ [b])).final := by
  obtain ⟨_, l, hl, _⟩ := hI
  have hC' := hC l hl
  unfold mvOne
  dsimp only
  split
  · exact hC
  · split
    · exact hC
    · split
      · exact hC
      · split
        · exact hC
        · rename_i ha hadir hb hos
          rw [not_not] at hb hadir
          have hne : d ++ [a] ≠ d ++ [b] := fun h => ha (h ▸ hb)
          have hba : ¬ d ++ [b] <+: d ++ [a] := fun h => hne (entry_prefix hd hd h).symm
          have hab : ¬ d ++ [a] <+: d ++ [b] := fun h => hne (entry_prefix hd hd h)
          obtain ⟨v, hv⟩ := Dict.get?_isSome.2 (hC' d hd a hadir)
          rw [hl]
          dsimp only
          rw [hv]
          intro l' hl' d' hd' n' hdir
          cases hl'
          rw [Dict.mem_keys_set, Dict.mem_keys_del]
          change Dict.get? (renameDir s.fs (d ++ [a]) (d ++ [b])) _ = _ at hdir
          rw [get?_renameDir _ _ _ _ hba hab] at hdir
          split at hdir
          · rename_i h; exact Or.inl (by rw [entry_prefix hd hd' h])
          · split at hdir
            · cases hdir
            · rename_i h1 h2
              refine Or.inr ⟨hC' d' hd' n' hdir, fun h => h2 ?_⟩
              rw [LogKey.run.injEq] at h
              rw [h]

theorem rmOne_complete {P : Paths κ} (force : Bool) {s : State κ ε} {d : Path κ} (hd : d ∈ P.listing) (a : κ)
    (hI : Inv P s) (hC : Complete P s) : Complete P (rmOne force s (d ++ [a])).final := by
  obtain ⟨_, l, hl, _⟩ := hI
  have hC' := hC l hl
  unfold rmOne
  split
  · exact hC
  · split
    · exact hC
    · dsimp only
      rw [hl]
      intro l' hl' d' hd' n' hdir
      cases hl'
      change Dict.get? (rmtree s.fs (d ++ [a])) _ = _ at hdir
      rw [get?_rmtree] at hdir
      split at hdir
      · cases hdir
      · rename_i h
        refine Dict.mem_keys_del.2 ⟨hC' d' hd' n' hdir, fun he => h ?_⟩
        rw [LogKey.run.injEq] at he
        rw [he]

theorem exec_complete {P : Paths κ} {s : State κ ε} (c : Cmd κ ε) (hc : c.Plain) (hs : c.Succeeds)
    (hI : Inv P s) (hC : Complete P s) : Complete P (exec P s c).final := by
  cases c with
  | run name bs es out =>
    obtain ⟨n, rfl⟩ := one_comp hc
    refine (loop_final (I := fun t => Inv P t ∧ Complete P t) (fun t x hx ht => ?_) ⟨hI, hC⟩).2
    obtain ⟨d, hd, rfl⟩ := List.mem_map.1 hx
    exact ⟨runOne_inv _ (rundirs_sub hd) n _ ht.1, runOne_complete _ (rundirs_sub hd) n _ (hs _) ht.1 ht.2⟩
  | mv a b bs es =>
    obtain ⟨⟨a, rfl⟩, b, rfl⟩ := And.intro (one_comp hc.1) (one_comp hc.2)
    refine (loop_final (I := fun t => Inv P t ∧ Complete P t) (fun t x hx ht => ?_) ⟨hI, hC⟩).2
    obtain ⟨d, hd, rfl⟩ := List.mem_map.1 hx
    exact ⟨mvOne_inv _ (rundirs_sub hd) a b ht.1, mvOne_complete _ (rundirs_sub hd) a b ht.1 ht.2⟩
  | rm pat bs es =>
    refine (loop_final (I := fun t => Inv P t ∧ Complete P t) (fun t x hx ht => ?_) ⟨hI, hC⟩).2
    obtain ⟨d, hd, n, rfl⟩ := mem_definePattern (ε := ε) (es := es) hc hx
    exact ⟨rmOne_inv _ (rundirs_sub hd) n ht.1, rmOne_complete _ (rundirs_sub hd) n ht.1 ht.2⟩

/-- **C46, converse.** If every started process exits with code 0, the log lists exactly the directories
found in the run directories, after any history. -/
theorem c46_log_is_listing {P : Paths κ} {s : State κ ε} (h : ReachableOk P s) :
    ∃ l, s.log = some l ∧
      ∀ p, LogKey.run p ∈ l.keys ↔ isDir s.fs p ∧ ∃ d ∈ P.listing, ∃ n, p = d ++ [n] := by
  have : Inv P s ∧ Complete P s := by
    induction h with
    | start fs common hfs =>
      refine ⟨newProject_inv P fs common hfs, fun l hl d hd n hdir => ?_⟩
      exfalso
      change Dict.get? (P.listing.foldl mkdirP fs) _ = _ at hdir
      rw [get?_foldl_mkdirP, hfs _ ((listing_under hd).trans (List.prefix_append _ _)), if_neg] at hdir
      · cases hdir
      · rintro ⟨⟨d', hd', h⟩, _⟩
        exact entry_not_prefix_dir hd hd' h
    | step c _ hc hs ih => exact ⟨exec_inv c hc ih.1, exec_complete c hc hs ih.1 ih.2⟩
  obtain ⟨⟨_, l, hl, h2⟩, hC⟩ := this
  refine ⟨l, hl, fun p => ⟨h2 p, ?_⟩⟩
  rintro ⟨hdir, d, hd, n, rfl⟩
  exact hC l hl d hd n hdir

/-! ## C47 -/

/-- The entries of the selected run directories that an `rm` command names. -/
def Pattern.Matches : Pattern κ → Path κ → Prop
  | .empty, _ => False
  | .glob sel, r => sel r = true

/-- **C47, `run`.** Whatever the command, its process and the moment at which it is interrupted: nothing that
existed before is changed. -/
theorem c47_run_keeps (P : Paths κ) (s : State κ ε) (name : Path κ) (bs : List κ) (es : Bool)
    (out : Path κ → Outcome κ ε) (q : Path κ) (x : Node) (hq : s.fs.get? q = some x)
    (hclosed : ∀ d ∈ P.rundirs bs, d ++ name <+: q → s.fs.get? (d ++ name) ≠ none) :
    (exec P s (.run name bs es out)).final.fs.get? q = some x ∧
    ∀ t ∈ (exec P s (.run name bs es out)).visited, t.fs.get? q = some x := by
  have hone : ∀ t : State κ ε, ∀ y ∈ (P.rundirs bs).map (fun d => (d ++ name, out (d ++ name))),
      (t.fs.get? q = some x ∧ ∀ d ∈ P.rundirs bs, d ++ name <+: q → t.fs.get? (d ++ name) ≠ none) →
      ((runOne (!es) t y).final.fs.get? q = some x ∧
        ∀ d ∈ P.rundirs bs, d ++ name <+: q → (runOne (!es) t y).final.fs.get? (d ++ name) ≠ none) ∧
      ∀ u ∈ (runOne (!es) t y).visited, u.fs.get? q = some x := by
    rintro t y hy ⟨ht1, ht2⟩
    obtain ⟨d, hd, rfl⟩ := List.mem_map.1 hy
    have hmk : ∀ r, t.fs.get? r ≠ none → (mkdirP t.fs (d ++ name)).get? r = t.fs.get? r := by
      intro r hr; rw [get?_mkdirP, if_neg (fun h => hr h.2)]
    by_cases hp : t.fs.get? (d ++ name) = none
    · have hnp : ¬ d ++ name <+: q := fun h => ht2 d hd h hp
      have hrw : ∀ r, ¬ d ++ name <+: r → t.fs.get? r ≠ none →
          (rewrite (mkdirP t.fs (d ++ name)) (d ++ name) (out (d ++ name)).files).get? r = t.fs.get? r := by
        intro r hr hr'
        rw [get?_rewrite _ _ _ _ (fun h => hr h.1), hmk r hr']
      have e1 : (mkdirP t.fs (d ++ name)).get? q = some x := by rw [hmk q (by rw [ht1]; simp), ht1]
      have e2 : (rewrite (mkdirP t.fs (d ++ name)) (d ++ name) (out (d ++ name)).files).get? q = some x := by
        rw [hrw q hnp (by rw [ht1]; simp), ht1]
      have e3 : ∀ d' ∈ P.rundirs bs, d' ++ name <+: q →
          (rewrite (mkdirP t.fs (d ++ name)) (d ++ name) (out (d ++ name)).files).get? (d' ++ name) ≠ none := by
        intro d' hd' h'
        rw [hrw _ (fun h => hnp (h.trans h')) (ht2 d' hd' h')]
        exact ht2 d' hd' h'
      unfold runOne
      dsimp only
      rw [if_neg (by simpa using hp)]
      split
      · exact ⟨⟨ht1, ht2⟩, by simp⟩
      · split
        · refine ⟨⟨e2, e3⟩, ?_⟩
          simp only [List.mem_cons, List.not_mem_nil, or_false]
          rintro u (rfl | rfl)
          · exact e1
          · exact e2
        · split
          · split
            · refine ⟨⟨e2, e3⟩, ?_⟩
              simp only [List.mem_cons, List.not_mem_nil, or_false]
              rintro u (rfl | rfl)
              · exact e1
              · exact e2
            · refine ⟨⟨e2, e3⟩, ?_⟩
              simp only [dump, Exec.after, List.cons_append, List.nil_append, List.mem_cons, List.not_mem_nil,
                or_false]
              rintro u (rfl | rfl | rfl | rfl)
              · exact e1
              · exact e2
              · exact e2
              · exact e2
          · refine ⟨⟨e2, e3⟩, ?_⟩
            simp only [List.mem_cons, List.not_mem_nil, or_false]
            rintro u (rfl | rfl)
            · exact e1
            · exact e2
    · unfold runOne
      dsimp only
      rw [if_pos (by simpa using hp)]
      exact ⟨⟨ht1, ht2⟩, by simp [pathError]⟩
  exact ⟨(loop_final (fun t y hy ht => (hone t y hy ht).1) ⟨hq, hclosed⟩).1,
    loop_visited (fun t y hy ht => (hone t y hy ht).1) (fun t y hy ht => (hone t y hy ht).2) ⟨hq, hclosed⟩⟩

/-- Every state an `mv` of one pair passes through. -/
theorem mvOne_cases (force : Bool) (s : State κ ε) (a b : Path κ) :
    ((mvOne force s (a, b)).final = s ∧ (mvOne force s (a, b)).visited = []) ∨
    (isDir s.fs a ∧ s.fs.get? b = none ∧ ¬ a <+: b ∧ isDir s.fs b.dropLast ∧
      (mvOne force s (a, b)).final.fs = renameDir s.fs a b ∧
      ∀ t ∈ (mvOne force s (a, b)).visited, t.fs = renameDir s.fs a b) := by
  unfold mvOne
  dsimp only
  split
  · exact Or.inl ⟨rfl, rfl⟩
  · split
    · exact Or.inl ⟨rfl, rfl⟩
    · split
      · exact Or.inl ⟨rfl, rfl⟩
      · split
        · exact Or.inl ⟨rfl, rfl⟩
        · rename_i ha hadir hb hos
          rw [not_not] at hb hadir
          rw [not_or, under_iff, not_not] at hos
          refine Or.inr ⟨hadir, hb, hos.1, hos.2, ?_⟩
          split
          · exact ⟨rfl, by simp⟩
          · split
            · exact ⟨rfl, by simp⟩
            · exact ⟨rfl, by simp [dump, Exec.after]⟩

/-- **C47, `mv`.** Nothing outside the source and target runs of the selected branches changes, at any moment
of the command.  (A target that is the source, or a directory around it, exists if the source does.) -/
theorem c47_mv_frame (P : Paths κ) (s : State κ ε) (a b : Path κ) (bs : List κ) (es : Bool) (q : Path κ)
    (hq : ∀ d ∈ P.rundirs bs, ¬ d ++ a <+: q ∧ ¬ d ++ b <+: q)
    (hba : ¬ b <+: a) :
    (exec P s (.mv a b bs es)).final.fs.get? q = s.fs.get? q ∧
    ∀ t ∈ (exec P s (.mv a b bs es)).visited, t.fs.get? q = s.fs.get? q := by
  have hone : ∀ t : State κ ε, ∀ y ∈ (P.rundirs bs).map (fun d => (d ++ a, d ++ b)),
      t.fs.get? q = s.fs.get? q →
      (mvOne (!es) t y).final.fs.get? q = s.fs.get? q ∧
      ∀ u ∈ (mvOne (!es) t y).visited, u.fs.get? q = s.fs.get? q := by
    intro t y hy ht
    obtain ⟨d, hd, rfl⟩ := List.mem_map.1 hy
    rcases mvOne_cases (!es) t (d ++ a) (d ++ b) with ⟨h1, h2⟩ | ⟨_, _, hab, _, h1, h2⟩
    · rw [h1, h2]; exact ⟨ht, by simp⟩
    · have e : (renameDir t.fs (d ++ a) (d ++ b)).get? q = s.fs.get? q := by
        rw [get?_renameDir _ _ _ _ (fun h => hba ((List.prefix_append_right_inj d).1 h)) hab, if_neg (hq d hd).2, if_neg (hq d hd).1, ht]
      rw [h1]
      exact ⟨e, fun u hu => by rw [h2 u hu, e]⟩
  exact ⟨loop_final (fun t y hy ht => (hone t y hy ht).1) rfl,
    loop_visited (I := fun t => t.fs.get? q = s.fs.get? q) (fun t y hy ht => (hone t y hy ht).1)
      (fun t y hy ht => (hone t y hy ht).2) rfl⟩

/-- **C47, `mv`.** In each selected branch either both runs stay as they were, or the target did not exist
and now holds exactly what the source held, the source having disappeared.  In particular an existing
target is never changed.  (At every moment of the command.) -/
theorem c47_mv_moves (P : Paths κ) (s : State κ ε) (a b : κ) (bs : List κ) (es : Bool) (hab : a ≠ b)
    (d : Path κ) (hd : d ∈ P.listing) (t : State κ ε)
    (ht : t ∈ (exec P s (.mv [a] [b] bs es)).visited ∨ t = (exec P s (.mv [a] [b] bs es)).final) :
    (∀ r, t.fs.get? (d ++ [a] ++ r) = s.fs.get? (d ++ [a] ++ r) ∧
      t.fs.get? (d ++ [b] ++ r) = s.fs.get? (d ++ [b] ++ r)) ∨
    (isDir s.fs (d ++ [a]) ∧ s.fs.get? (d ++ [b]) = none ∧
      ∀ r, t.fs.get? (d ++ [b] ++ r) = s.fs.get? (d ++ [a] ++ r) ∧ t.fs.get? (d ++ [a] ++ r) = none) := by
  let J : State κ ε → Prop := fun t =>
    (∀ r, t.fs.get? (d ++ [a] ++ r) = s.fs.get? (d ++ [a] ++ r) ∧
      t.fs.get? (d ++ [b] ++ r) = s.fs.get? (d ++ [b] ++ r)) ∨
    (isDir s.fs (d ++ [a]) ∧ s.fs.get? (d ++ [b]) = none ∧
      ∀ r, t.fs.get? (d ++ [b] ++ r) = s.fs.get? (d ++ [a] ++ r) ∧ t.fs.get? (d ++ [a] ++ r) = none)
  have hren : ∀ (u : State κ ε) (d' : Path κ), d' ∈ P.listing → isDir u.fs (d' ++ [a]) → u.fs.get? (d' ++ [b]) = none →
      J u → ∀ v : State κ ε, v.fs = renameDir u.fs (d' ++ [a]) (d' ++ [b]) → J v := by
    intro u d' hd' hdir hnone hu v hv
    have hne : ∀ x y : κ, x ≠ y → ¬ d' ++ [x] <+: d' ++ [y] := fun x y hxy h =>
      hxy (by simpa using entry_prefix hd' hd' h)
    have hg := fun q => get?_renameDir u.fs (d' ++ [a]) (d' ++ [b]) q (hne b a hab.symm) (hne a b hab)
    by_cases hdd : d' = d
    · subst hdd
      rcases hu with hu | ⟨hu1, hu2, hu3⟩
      · refine Or.inr ⟨?_, ?_, fun r => ?_⟩
        · have := (hu []).1; simp only [List.append_nil] at this; unfold isDir at *; rw [← this]; exact hdir
        · have := (hu []).2; simp only [List.append_nil] at this; rw [← this]; exact hnone
        · rw [hv, hg, hg, if_pos (List.prefix_append _ _), List.drop_left, (hu r).1, if_neg,
            if_pos (List.prefix_append _ _)]
          · exact ⟨rfl, rfl⟩
          · intro h
            rcases List.prefix_or_prefix_of_prefix h (List.prefix_append _ r) with h | h
            · exact hne b a hab.symm h
            · exact hne a b hab h
      · have := (hu3 []).1
        simp only [List.append_nil] at this
        rw [this] at hnone
        unfold isDir at hu1; rw [hnone] at hu1; cases hu1
    · have hsame : ∀ x r, v.fs.get? (d ++ [x] ++ r) = u.fs.get? (d ++ [x] ++ r) := by
        intro x r
        have hno : ∀ y, ¬ d' ++ [y] <+: d ++ [x] ++ r := by
          intro y h
          rcases List.prefix_or_prefix_of_prefix h (List.prefix_append (d ++ [x]) r) with h | h
          · exact hdd (by simpa using List.append_inj_left' (entry_prefix hd' hd h) rfl)
          · exact hdd (by simpa using (List.append_inj_left' (entry_prefix hd hd' h) rfl).symm)
        rw [hv, hg, if_neg (hno b), if_neg (hno a)]
      rcases hu with hu | ⟨hu1, hu2, hu3⟩
      · exact Or.inl fun r => by rw [hsame, hsame]; exact hu r
      · exact Or.inr ⟨hu1, hu2, fun r => by rw [hsame, hsame]; exact hu3 r⟩
  have hone : ∀ u : State κ ε, ∀ y ∈ (P.rundirs bs).map (fun d => (d ++ [a], d ++ [b])), J u →
      J (mvOne (!es) u y).final ∧ ∀ v ∈ (mvOne (!es) u y).visited, J v := by
    intro u y hy hu
    obtain ⟨d', hd', rfl⟩ := List.mem_map.1 hy
    rcases mvOne_cases (!es) u (d' ++ [a]) (d' ++ [b]) with ⟨h1, h2⟩ | ⟨hdir, hnone, _, _, h1, h2⟩
    · rw [h1, h2]; exact ⟨hu, by simp⟩
    · exact ⟨hren u d' (rundirs_sub hd') hdir hnone hu _ h1,
        fun v hv => hren u d' (rundirs_sub hd') hdir hnone hu v (h2 v hv)⟩
  have hJs : J s := Or.inl fun r => ⟨rfl, rfl⟩
  rcases ht with ht | rfl
  · exact loop_visited (I := J) (fun t y hy ht => (hone t y hy ht).1) (fun t y hy ht => (hone t y hy ht).2) hJs t ht
  · exact loop_final (I := J) (fun t y hy ht => (hone t y hy ht).1) hJs

/-- Every state an `rm` of one path passes through. -/
theorem rmOne_cases (force : Bool) (s : State κ ε) (p : Path κ) :
    ((rmOne force s p).final = s ∧ (rmOne force s p).visited = [] ∧ ¬ isDir s.fs p) ∨
    (isDir s.fs p ∧ (rmOne force s p).final.fs = rmtree s.fs p ∧
      ∀ t ∈ (rmOne force s p).visited, t.fs = rmtree s.fs p) := by
  unfold rmOne
  split
  · rename_i h
    exact Or.inl ⟨rfl, rfl, by unfold isDir; rw [h]; simp⟩
  · split
    · rename_i h; exact Or.inl ⟨rfl, rfl, h⟩
    · rename_i h
      rw [not_not] at h
      refine Or.inr ⟨h, ?_⟩
      dsimp only
      split
      · exact ⟨rfl, by simp⟩
      · exact ⟨rfl, by simp [dump, Exec.after]⟩

/-- **C47, `rm`** with a non-empty pattern: at every moment of the command, whatever has disappeared lies in
an entry of a selected run directory that the pattern matches; everything else is unchanged. -/
theorem c47_rm_frame (P : Paths κ) (s : State κ ε) (sel : Path κ → Bool) (bs : List κ) (es : Bool) (q : Path κ)
    (t : State κ ε)
    (ht : t ∈ (exec P s (.rm (.glob sel) bs es)).visited ∨ t = (exec P s (.rm (.glob sel) bs es)).final) :
    t.fs.get? q = s.fs.get? q ∨
    (t.fs.get? q = none ∧ ∃ d ∈ P.rundirs bs, ∃ r, (Pattern.glob sel).Matches r ∧ isDir s.fs (d ++ r) ∧
      d ++ r <+: q) := by
  let J : State κ ε → Prop := fun t => (∀ q, t.fs.get? q = s.fs.get? q ∨
    (t.fs.get? q = none ∧ ∃ d ∈ P.rundirs bs, ∃ r, (Pattern.glob sel).Matches r ∧ isDir s.fs (d ++ r) ∧
      d ++ r <+: q))
  have hone : ∀ u : State κ ε, ∀ y ∈ P.definePattern s.fs (.glob sel) bs, J u →
      J (rmOne (!es) u y).final ∧ ∀ v ∈ (rmOne (!es) u y).visited, J v := by
    intro u y hy hu
    have hy' : ∃ d ∈ P.rundirs bs, ∃ r, (Pattern.glob sel).Matches r ∧ y = d ++ r := by
      unfold Paths.definePattern globDir at hy
      obtain ⟨d, hd, hy⟩ := List.mem_flatMap.1 hy
      obtain ⟨_, hy⟩ := List.mem_filter.1 hy
      rw [Bool.and_eq_true, under_iff] at hy
      obtain ⟨⟨r, rfl⟩, hy⟩ := hy
      rw [List.drop_left] at hy
      exact ⟨d, hd, r, hy, rfl⟩
    rcases rmOne_cases (!es) u y with ⟨h1, h2, _⟩ | ⟨hdir, h1, h2⟩
    · rw [h1, h2]; exact ⟨hu, by simp⟩
    · have key : ∀ v : State κ ε, v.fs = rmtree u.fs y → J v := by
        intro v hv q
        rw [hv, get?_rmtree]
        split
        · rename_i hyq
          right
          refine ⟨rfl, ?_⟩
          obtain ⟨d, hd, r, hr, rfl⟩ := hy'
          refine ⟨d, hd, r, hr, ?_, hyq⟩
          unfold isDir at *
          rcases hu (d ++ r) with h | ⟨h, _⟩
          · rw [← h]; exact hdir
          · rw [h] at hdir; cases hdir
        · exact hu q
      exact ⟨key _ h1, fun v hv => key v (h2 v hv)⟩
  have hJs : J s := fun q => Or.inl rfl
  rcases ht with ht | rfl
  · exact loop_visited (I := J) (fun t y hy ht => (hone t y hy ht).1) (fun t y hy ht => (hone t y hy ht).2) hJs t ht q
  · exact loop_final (I := J) (fun t y hy ht => (hone t y hy ht).1) hJs q

/-- **C47, `rm`**: without `errors`, an `rm` command with a plain pattern raises nothing and removes every directory
that the pattern matches in the selected run directories, and its log entry. -/
theorem c47_rm_removes {P : Paths κ} {s : State κ ε} (h : Reachable P s) (sel : Path κ → Bool) (bs : List κ)
    (hplain : ∀ r, sel r = true → r.length = 1) :
    (exec P s (.rm (.glob sel) bs false)).exc = none ∧
    (∀ d ∈ P.rundirs bs, ∀ n, sel [n] = true → ¬ isDir (exec P s (.rm (.glob sel) bs false)).final.fs (d ++ [n])) ∧
    ∃ l, (exec P s (.rm (.glob sel) bs false)).final.log = some l ∧
      ∀ d ∈ P.rundirs bs, ∀ n, sel [n] = true → LogKey.run (d ++ [n]) ∉ l.keys := by
  have hI := reachable_inv h
  have hplain' : (Cmd.rm (.glob sel) bs false : Cmd κ ε).Plain := hplain
  have hmem : ∀ p ∈ P.definePattern s.fs (.glob sel) bs, ∃ d ∈ P.listing, ∃ n, p = d ++ [n] := by
    intro p hp
    obtain ⟨d, hd, n, e⟩ := mem_definePattern (ε := ε) hplain' hp
    exact ⟨d, rundirs_sub hd, n, e⟩
  have hfin : Inv P (exec P s (.rm (.glob sel) bs false)).final := exec_inv _ hplain' hI
  have hexc : ∀ t : State κ ε, ∀ p ∈ P.definePattern s.fs (.glob sel) bs, Inv P t →
      (rmOne (!false) t p).exc = none := by
    rintro t p _ ⟨_, l, hl, _⟩
    unfold rmOne pathError dump Exec.after
    split
    · rfl
    · split
      · rfl
      · dsimp only; rw [hl]
  have hstep : ∀ t : State κ ε, ∀ p ∈ P.definePattern s.fs (.glob sel) bs, Inv P t →
      Inv P (rmOne (!false) t p).final := by
    intro t p hp ht
    obtain ⟨d, hd, n, rfl⟩ := hmem p hp
    exact rmOne_inv _ hd n ht
  obtain ⟨he, hf⟩ := loop_no_exc hstep hexc hI
  -- every entry listed at the start is not a directory at the end
  have hgone : ∀ (xs : List (Path κ)) (t : State κ ε),
      (∀ p, p ∈ xs → ¬ isDir (xs.foldl (fun u x => (rmOne (!false) u x).final) t).fs p) ∧
      (∀ p, ¬ isDir t.fs p → ¬ isDir (xs.foldl (fun u x => (rmOne (!false) u x).final) t).fs p) := by
    intro xs
    induction xs with
    | nil => intro t; exact ⟨by simp, fun p hp => hp⟩
    | cons x xs ih =>
      intro t
      have hnd : ∀ p, ¬ isDir t.fs p → ¬ isDir (rmOne (!false) t x).final.fs p := by
        intro p hp
        rcases rmOne_cases (!false) t x with ⟨h1, _, _⟩ | ⟨_, h1, _⟩
        · rw [h1]; exact hp
        · rw [h1]; unfold isDir at *; rw [get?_rmtree]; split <;> simp_all
      have hx : ¬ isDir (rmOne (!false) t x).final.fs x := by
        rcases rmOne_cases (!false) t x with ⟨h1, _, h2⟩ | ⟨_, h1, _⟩
        · rw [h1]; exact h2
        · rw [h1]; unfold isDir; rw [get?_rmtree, if_pos (List.prefix_refl _)]; simp
      obtain ⟨i1, i2⟩ := ih (rmOne (!false) t x).final
      refine ⟨fun p hp => ?_, fun p hp => i2 p (hnd p hp)⟩
      rcases List.mem_cons.1 hp with rfl | hp
      · exact i2 _ hx
      · exact i1 p hp
  have hno : ∀ d ∈ P.rundirs bs, ∀ n, sel [n] = true →
      ¬ isDir (exec P s (.rm (.glob sel) bs false)).final.fs (d ++ [n]) := by
    intro d hd n hn hdir
    have hs : s.fs.get? (d ++ [n]) ≠ none := by
      unfold isDir at hdir
      rcases c47_rm_frame P s sel bs false (d ++ [n]) _ (Or.inr rfl) with h | ⟨h, _⟩
      · rw [← h, hdir]; simp
      · rw [h] at hdir; cases hdir
    have hin : d ++ [n] ∈ P.definePattern s.fs (.glob sel) bs := by
      unfold Paths.definePattern
      refine List.mem_flatMap.2 ⟨d, hd, ?_⟩
      unfold globDir
      refine List.mem_filter.2 ⟨mem_keys_iff.2 hs, ?_⟩
      rw [Bool.and_eq_true, under_iff]
      refine ⟨List.prefix_append _ _, ?_⟩
      rw [List.drop_left]
      exact hn
    refine (hgone _ s).1 _ hin ?_
    change isDir (loop (rmOne (!false)) s (P.definePattern s.fs (.glob sel) bs)).final.fs _ at hdir
    rw [hf] at hdir
    exact hdir
  refine ⟨he, hno, ?_⟩
  obtain ⟨_, l, hl, h2⟩ := hfin
  refine ⟨l, hl, fun d hd n hn hp => ?_⟩
  exact hno d hd n hn (h2 _ hp).1

/-! ### What the other commands achieve -/

/-- A step establishes `K`, and no step destroys it. -/
theorem foldl_establish {α σ : Type} {f : σ → α → σ} {I K : σ → Prop} (xs : List α)
    (hI : ∀ u, ∀ y ∈ xs, I u → I (f u y)) (hK : ∀ u, ∀ y ∈ xs, I u → K u → K (f u y)) (x : α) (hx : x ∈ xs)
    (hest : ∀ u, I u → K (f u x)) (s : σ) (hs : I s) : K (xs.foldl f s) := by
  have stable : ∀ (ys : List α), (∀ y ∈ ys, y ∈ xs) → ∀ u, I u → K u → K (ys.foldl f u) := by
    intro ys
    induction ys with
    | nil => intro _ u _ h; exact h
    | cons y ys ih =>
      intro hy u h1 h2
      exact ih (fun z hz => hy z (by simp [hz])) _ (hI u y (hy y (by simp)) h1) (hK u y (hy y (by simp)) h1 h2)
  have key : ∀ (ys : List α), (∀ y ∈ ys, y ∈ xs) → x ∈ ys → ∀ u, I u → K (ys.foldl f u) := by
    intro ys
    induction ys with
    | nil => intro _ h; simp at h
    | cons y ys ih =>
      intro hy hxy u hu
      rw [List.foldl_cons]
      have hu' := hI u y (hy y (by simp)) hu
      rcases List.mem_cons.1 hxy with rfl | hxy
      · exact stable ys (fun z hz => hy z (by simp [hz])) _ hu' (hest u hu)
      · exact ih (fun z hz => hy z (by simp [hz])) hxy _ hu'
  exact key xs (fun y hy => hy) hx s hs

/-- **C46, `run`**: without `errors`, a `run` command whose processes succeed creates and logs the run in every
selected branch in which its name was free. -/
theorem c46_run_effect {P : Paths κ} {s : State κ ε} (h : Reachable P s) (n : κ) (bs : List κ)
    (out : Path κ → Outcome κ ε) (hout : ∀ p, (out p).exit = some 0)
    (hanc : ∀ d ∈ P.listing, ∀ q, q <+: d → s.fs.get? q ≠ some .file) :
    (exec P s (.run [n] bs false out)).exc = none ∧
    ∀ d ∈ P.rundirs bs, s.fs.get? (d ++ [n]) = none →
      isDir (exec P s (.run [n] bs false out)).final.fs (d ++ [n]) ∧
      ∃ l, (exec P s (.run [n] bs false out)).final.log = some l ∧
        l.get? (.run (d ++ [n])) = some (out (d ++ [n])).entry := by
  let I : State κ ε → Prop := fun t => Inv P t ∧ ∀ d ∈ P.listing, ∀ q, q <+: d → t.fs.get? q ≠ some .file
  let xs := (P.rundirs bs).map (fun d => (d ++ [n], out (d ++ [n])))
  have hIs : I s := ⟨reachable_inv h, hanc⟩
  -- one step
  have hstep : ∀ t : State κ ε, ∀ d ∈ P.listing, I t →
      (t.fs.get? (d ++ [n]) ≠ none ∧ runOne (!false) t (d ++ [n], out (d ++ [n])) = ⟨[], t, none⟩) ∨
      (t.fs.get? (d ++ [n]) = none ∧ ∃ l, t.log = some l ∧
        (runOne (!false) t (d ++ [n], out (d ++ [n]))).exc = none ∧
        (runOne (!false) t (d ++ [n], out (d ++ [n]))).final =
          ⟨rewrite (mkdirP t.fs (d ++ [n])) (d ++ [n]) (out (d ++ [n])).files,
            some (l.set (.run (d ++ [n])) (out (d ++ [n])).entry)⟩) := by
    rintro t d hd ⟨⟨_, l, hl, _⟩, ha⟩
    by_cases hp : t.fs.get? (d ++ [n]) = none
    · refine Or.inr ⟨hp, l, hl, ?_⟩
      have hf : ¬ ((d ++ [n]).inits.any (fun q => decide (t.fs.get? q = some .file)) = true) := by
        rw [List.any_eq_true]
        rintro ⟨q, hq, hq'⟩
        rw [decide_eq_true_eq] at hq'
        rw [List.mem_inits] at hq
        rcases List.prefix_concat_iff.1 hq with rfl | hq
        · rw [hp] at hq'; cases hq'
        · exact ha d hd q hq hq'
      unfold runOne
      dsimp only
      rw [if_neg (by simpa using hp), if_neg hf, hout]
      dsimp only
      rw [if_pos rfl, hl]
      exact ⟨rfl, rfl⟩
    · left
      refine ⟨hp, ?_⟩
      unfold runOne
      dsimp only
      rw [if_pos hp]
      rfl
  have hI : ∀ t : State κ ε, ∀ y ∈ xs, I t → I (runOne (!false) t y).final := by
    intro t y hy ht
    obtain ⟨d, hd, rfl⟩ := List.mem_map.1 hy
    have hd' := rundirs_sub hd
    refine ⟨runOne_inv _ hd' n _ ht.1, fun d₂ hd₂ q hq => ?_⟩
    rcases hstep t d hd' ht with ⟨_, e⟩ | ⟨hp, l, _, _, e⟩
    · rw [e]; exact ht.2 d₂ hd₂ q hq
    · rw [e]
      dsimp only
      rw [get?_run _ hp, ]
      · split
        · simp
        · exact ht.2 d₂ hd₂ q hq
      · intro hh
        exact entry_not_prefix_dir hd' hd₂ (hh.1.trans hq)
  have hexc : ∀ t : State κ ε, ∀ y ∈ xs, I t → (runOne (!false) t y).exc = none := by
    intro t y hy ht
    obtain ⟨d, hd, rfl⟩ := List.mem_map.1 hy
    rcases hstep t d (rundirs_sub hd) ht with ⟨_, e⟩ | ⟨_, _, _, e, _⟩
    · rw [e]
    · exact e
  obtain ⟨h1, h2⟩ := loop_no_exc hI hexc hIs
  refine ⟨h1, fun d hd hfree => ?_⟩
  have hd' := rundirs_sub hd
  change isDir (loop (runOne (!false)) s xs).final.fs _ ∧ ∃ l, (loop (runOne (!false)) s xs).final.log = some l ∧ _
  rw [h2]
  let K : State κ ε → Prop := fun t => isDir t.fs (d ++ [n]) ∧ ∃ l, t.log = some l ∧
    l.get? (.run (d ++ [n])) = some (out (d ++ [n])).entry
  let I' : State κ ε → Prop := fun t => I t ∧ (t.fs.get? (d ++ [n]) = none ∨ K t)
  have hK : ∀ t : State κ ε, ∀ y ∈ xs, I' t → K t → K (runOne (!false) t y).final := by
    rintro t y hy ⟨ht, _⟩ ⟨hk1, l, hk2, hk3⟩
    obtain ⟨d₂, hd₂, rfl⟩ := List.mem_map.1 hy
    rcases hstep t d₂ (rundirs_sub hd₂) ht with ⟨_, e⟩ | ⟨hp, l', hl', _, e⟩
    · rw [e]; exact ⟨hk1, l, hk2, hk3⟩
    · rw [hk2] at hl'; cases hl'
      have hne : d₂ ++ [n] ≠ d ++ [n] := by
        intro h; rw [h] at hp; unfold isDir at hk1; rw [hk1] at hp; cases hp
      rw [e]
      refine ⟨?_, _, rfl, ?_⟩
      · unfold isDir at *
        dsimp only
        rw [get?_run _ hp (fun hh => hne (entry_prefix (rundirs_sub hd₂) hd' hh.1)), if_neg (by rw [hk1]; simp), hk1]
      · rw [Dict.get?_set, if_neg (by simpa using hne)]; exact hk3
  have hest : ∀ t : State κ ε, I' t → K (runOne (!false) t (d ++ [n], out (d ++ [n]))).final := by
    rintro t ⟨ht, hor⟩
    rcases hstep t d hd' ht with ⟨hex, e⟩ | ⟨hp, l, hl, _, e⟩
    · rw [e]; exact hor.resolve_left hex
    · rw [e]
      refine ⟨?_, _, rfl, by rw [Dict.get?_set, if_pos rfl]⟩
      unfold isDir
      dsimp only
      rw [get?_run _ hp (by simp), if_pos ⟨List.prefix_refl _, hp⟩]
  refine foldl_establish (I := I') (K := K) xs (fun t y hy ht => ?_) hK (d ++ [n], out (d ++ [n]))
    (List.mem_map.2 ⟨d, hd, rfl⟩) hest s ⟨hIs, Or.inl hfree⟩
  refine ⟨hI t y hy ht.1, ?_⟩
  rcases ht.2 with hn | hk
  · obtain ⟨d₂, hd₂, rfl⟩ := List.mem_map.1 hy
    by_cases he : d₂ ++ [n] = d ++ [n]
    · rw [he]; exact Or.inr (hest t ht)
    · rcases hstep t d₂ (rundirs_sub hd₂) ht.1 with ⟨_, e⟩ | ⟨hp, l, hl, _, e⟩
      · rw [e]; exact Or.inl hn
      · left
        rw [e]
        dsimp only
        rw [get?_run _ hp (fun hh => he (entry_prefix (rundirs_sub hd₂) hd' hh.1)), if_neg, hn]
        exact fun hh => he (entry_prefix hd' (rundirs_sub hd₂) hh.1).symm
  · exact Or.inr (hK t y hy ht hk)

/-- **C47, `mv`**: when every existing run is logged (as it is if all processes succeeded), an `mv` command without
`errors` raises nothing and renames the run in every selected branch that has it and has the target name free. -/
theorem c47_mv_effect {P : Paths κ} {s : State κ ε} (h : ReachableOk P s) (a b : κ) (bs : List κ) (hab : a ≠ b) :
    (exec P s (.mv [a] [b] bs false)).exc = none ∧
    ∀ d ∈ P.rundirs bs, isDir s.fs (d ++ [a]) → s.fs.get? (d ++ [b]) = none →
      (∀ r, (exec P s (.mv [a] [b] bs false)).final.fs.get? (d ++ [b] ++ r) = s.fs.get? (d ++ [a] ++ r)) ∧
      (exec P s (.mv [a] [b] bs false)).final.fs.get? (d ++ [a]) = none ∧
      ∃ l, (exec P s (.mv [a] [b] bs false)).final.log = some l ∧ LogKey.run (d ++ [b]) ∈ l.keys ∧
        LogKey.run (d ++ [a]) ∉ l.keys := by
  have hIC : Inv P s ∧ Complete P s := by
    induction h with
    | start fs common hfs =>
      refine ⟨newProject_inv P fs common hfs, fun l hl d hd n hdir => ?_⟩
      exfalso
      change Dict.get? (P.listing.foldl mkdirP fs) _ = _ at hdir
      rw [get?_foldl_mkdirP, hfs _ ((listing_under hd).trans (List.prefix_append _ _)), if_neg] at hdir
      · cases hdir
      · rintro ⟨⟨d', hd', h⟩, _⟩
        exact entry_not_prefix_dir hd hd' h
    | step c _ hc hs ih => exact ⟨exec_inv c hc ih.1, exec_complete c hc hs ih.1 ih.2⟩
  let I : State κ ε → Prop := fun t => Inv P t ∧ Complete P t
  let xs := (P.rundirs bs).map (fun d => (d ++ [a], d ++ [b]))
  have hI : ∀ t : State κ ε, ∀ y ∈ xs, I t → I (mvOne (!false) t y).final := by
    intro t y hy ht
    obtain ⟨d, hd, rfl⟩ := List.mem_map.1 hy
    exact ⟨mvOne_inv _ (rundirs_sub hd) a b ht.1, mvOne_complete _ (rundirs_sub hd) a b ht.1 ht.2⟩
  have hne : ∀ d : Path κ, ∀ x y : κ, x ≠ y → ¬ d ++ [x] <+: d ++ [y] := fun d x y hxy hp =>
    hxy (by simpa using hp.eq_of_length (by simp))
  have hexc : ∀ t : State κ ε, ∀ y ∈ xs, I t → (mvOne (!false) t y).exc = none := by
    rintro t y hy ⟨⟨h1, l, hl, _⟩, hC⟩
    obtain ⟨d, hd, rfl⟩ := List.mem_map.1 hy
    unfold mvOne
    dsimp only
    split
    · rfl
    · split
      · rfl
      · rename_i _ hdir
        rw [not_not] at hdir
        split
        · rfl
        · rw [if_neg]
          · obtain ⟨v, hv⟩ := Dict.get?_isSome.2 (hC l hl d (rundirs_sub hd) a hdir)
            rw [hl]; dsimp only; rw [hv]; rfl
          · rw [not_or, under_iff, not_not, List.dropLast_concat]
            exact ⟨hne d a b hab, h1 d (rundirs_sub hd)⟩
  obtain ⟨e1, e2⟩ := loop_no_exc hI hexc hIC
  refine ⟨e1, fun d hd ha hb => ?_⟩
  have hd' := rundirs_sub hd
  -- the source is gone at the end
  have hgone : (exec P s (.mv [a] [b] bs false)).final.fs.get? (d ++ [a]) = none := by
    change (loop (mvOne (!false)) s xs).final.fs.get? _ = _
    rw [e2]
    let K : State κ ε → Prop := fun t => t.fs.get? (d ++ [a]) = none
    let I' : State κ ε → Prop := fun t => I t ∧ (K t ∨ (isDir t.fs (d ++ [a]) ∧ t.fs.get? (d ++ [b]) = none))
    have hother : ∀ t : State κ ε, ∀ d₂ ∈ P.listing, d₂ ≠ d → ∀ x,
        (mvOne (!false) t (d₂ ++ [a], d₂ ++ [b])).final.fs.get? (d ++ [x]) = t.fs.get? (d ++ [x]) := by
      intro t d₂ hd₂ hdd x
      rcases mvOne_cases (!false) t (d₂ ++ [a]) (d₂ ++ [b]) with ⟨q1, _⟩ | ⟨_, _, _, _, q1, _⟩
      · rw [q1]
      · rw [q1, get?_renameDir _ _ _ _ (hne d₂ b a hab.symm) (hne d₂ a b hab), if_neg, if_neg]
        · exact fun hh => hdd (by simpa using List.append_inj_left' (entry_prefix hd₂ hd' hh) rfl)
        · exact fun hh => hdd (by simpa using List.append_inj_left' (entry_prefix hd₂ hd' hh) rfl)
    have hest : ∀ t : State κ ε, I' t → K (mvOne (!false) t (d ++ [a], d ++ [b])).final := by
      rintro t ⟨ht, hor⟩
      rcases mvOne_cases (!false) t (d ++ [a]) (d ++ [b]) with ⟨q1, q2⟩ | ⟨_, _, _, _, q1, _⟩
      · rcases hor with hk | ⟨hda, hdb⟩
        · change Dict.get? _ _ = _; rw [q1]; exact hk
        · exfalso
          have hx := hexc t (d ++ [a], d ++ [b]) (List.mem_map.2 ⟨d, hd, rfl⟩) ht
          obtain ⟨⟨h1, l, hl, _⟩, hC⟩ := ht
          obtain ⟨v, hv⟩ := Dict.get?_isSome.2 (hC l hl d hd' a hda)
          unfold mvOne at q2
          dsimp only at q2
          rw [if_neg (by unfold isDir at hda; rw [hda]; simp), if_neg (by simpa using hda),
            if_neg (by simpa using hdb), if_neg, hl] at q2
          · dsimp only at q2
            rw [hv] at q2
            simp [Exec.after] at q2
          · rw [not_or, under_iff, not_not, List.dropLast_concat]
            exact ⟨hne d a b hab, h1 d hd'⟩
      · change Dict.get? _ _ = _
        rw [q1, get?_renameDir _ _ _ _ (hne d b a hab.symm) (hne d a b hab), if_neg (hne d b a hab.symm),
          if_pos (List.prefix_refl _)]
    have hK : ∀ t : State κ ε, ∀ y ∈ xs, I' t → K t → K (mvOne (!false) t y).final := by
      rintro t y hy ht hk
      obtain ⟨d₂, hd₂, rfl⟩ := List.mem_map.1 hy
      by_cases hdd : d₂ = d
      · subst hdd; exact hest t ht
      · change Dict.get? _ _ = _; rw [hother t d₂ (rundirs_sub hd₂) hdd]; exact hk
    refine foldl_establish (I := I') (K := K) xs (fun t y hy ht => ?_) hK (d ++ [a], d ++ [b])
      (List.mem_map.2 ⟨d, hd, rfl⟩) hest s ⟨hIC, Or.inr ⟨ha, hb⟩⟩
    refine ⟨hI t y hy ht.1, ?_⟩
    rcases ht.2 with hk | ⟨hda, hdb⟩
    · exact Or.inl (hK t y hy ht hk)
    · obtain ⟨d₂, hd₂, rfl⟩ := List.mem_map.1 hy
      by_cases hdd : d₂ = d
      · subst hdd; exact Or.inl (hest t ht)
      · right
        unfold isDir at *
        rw [hother t d₂ (rundirs_sub hd₂) hdd, hother t d₂ (rundirs_sub hd₂) hdd]
        exact ⟨hda, hdb⟩
  rcases c47_mv_moves P s a b bs false hab d hd' _ (Or.inr rfl) with hun | ⟨_, _, hmv⟩
  · exfalso
    have := (hun []).1
    simp only [List.append_nil] at this
    rw [hgone] at this
    unfold isDir at ha
    rw [ha] at this; cases this
  · refine ⟨fun r => (hmv r).1, hgone, ?_⟩
    obtain ⟨⟨_, l, hl, h2⟩, hC⟩ : I (exec P s (.mv [a] [b] bs false)).final := by
      change I (loop (mvOne (!false)) s xs).final
      exact loop_final hI hIC
    refine ⟨l, hl, hC l hl d hd' b ?_, fun hp => ?_⟩
    · have := (hmv []).1
      simp only [List.append_nil] at this
      unfold isDir at *
      rw [this]; exact ha
    · have := (h2 _ hp).1
      unfold isDir at this
      rw [hgone] at this; cases this

/-! ### Branches -/

/-- The run directories of the selected branches, in terms of branch names. -/
theorem c47_selection (P : Paths κ) (bs : List κ) (hb : P.branches ≠ []) (d : Path κ) :
    d ∈ P.rundirs bs ↔ ∃ b ∈ P.branches, d = P.root ++ [b, P.base] ∧ (bs = [] ∨ b ∈ bs) := by
  have hpn : ∀ b, parentName (P.root ++ [b, P.base]) = some b := by
    intro b
    unfold parentName
    rw [show P.root ++ [b, P.base] = (P.root ++ [b]) ++ [P.base] by simp, List.dropLast_concat]
    simp
  unfold Paths.rundirs Paths.listing
  rw [if_neg hb]
  split
  · rename_i hbs
    simp only [List.mem_map, hbs, true_or, and_true]
    constructor
    · rintro ⟨b, h1, rfl⟩; exact ⟨b, h1, rfl⟩
    · rintro ⟨b, h1, rfl⟩; exact ⟨b, h1, rfl⟩
  · rename_i hbs
    simp only [List.mem_filter, List.mem_map, hbs, false_or]
    constructor
    · rintro ⟨⟨b, h1, rfl⟩, h2⟩
      rw [hpn] at h2
      exact ⟨b, h1, rfl, by simpa using h2⟩
    · rintro ⟨b, h1, rfl, h2⟩
      refine ⟨⟨b, h1, rfl⟩, ?_⟩
      rw [hpn]; simpa using h2

/-- **C47.** A command restricted to some branches changes nothing in any other branch, at any moment. -/
theorem c47_other_branches {P : Paths κ} (s : State κ ε) (c : Cmd κ ε) (hc : c.Plain) (bs : List κ)
    (hbs : bs ≠ []) (hcb : (∃ n es out, c = .run n bs es out) ∨ (∃ a b es, c = .mv a b bs es) ∨
      ∃ pat es, c = .rm pat bs es)
    (x : κ) (hPb : P.branches ≠ []) (hx : x ∉ bs) (q : Path κ) (hq : P.root ++ [x] <+: q) (t : State κ ε)
    (ht : t ∈ (exec P s c).visited ∨ t = (exec P s c).final) : t.fs.get? q = s.fs.get? q := by
  -- paths of other branches are not comparable with `q`
  have hinc : ∀ d ∈ P.rundirs bs, ∀ r, ¬ d ++ r <+: q := by
    intro d hd r hp
    obtain ⟨b, _, rfl, hor⟩ := (c47_selection P bs hPb d).1 hd
    have hb := hor.resolve_left hbs
    have h1 : P.root ++ [b] <+: q := by
      refine List.IsPrefix.trans ?_ hp
      exact ⟨[P.base] ++ r, by simp⟩
    have := List.prefix_of_prefix_length_le h1 hq (by simp)
    have := this.eq_of_length (by simp)
    exact hx (by simp at this; rwa [← this])
  have hinc' : ∀ d ∈ P.rundirs bs, ∀ r, q <+: d ++ r → False := by
    intro d hd r hp
    obtain ⟨b, _, rfl, hor⟩ := (c47_selection P bs hPb d).1 hd
    have hb := hor.resolve_left hbs
    have h1 : P.root ++ [x] <+: P.root ++ [b, P.base] ++ r := hq.trans hp
    have h2 : P.root ++ [b] <+: P.root ++ [b, P.base] ++ r := ⟨[P.base] ++ r, by simp⟩
    have := (List.prefix_of_prefix_length_le h1 h2 (by simp)).eq_of_length (by simp)
    exact hx (by simp at this; rwa [this])
  let J : State κ ε → Prop := fun t => t.fs.get? q = s.fs.get? q
  rcases hcb with ⟨name, es, out, rfl⟩ | ⟨a, b, es, rfl⟩ | ⟨pat, es, rfl⟩
  · have hone : ∀ u : State κ ε, ∀ y ∈ (P.rundirs bs).map (fun d => (d ++ name, out (d ++ name))), J u →
        J (runOne (!es) u y).final ∧ ∀ v ∈ (runOne (!es) u y).visited, J v := by
      intro u y hy hu
      obtain ⟨d, hd, rfl⟩ := List.mem_map.1 hy
      have e1 : (mkdirP u.fs (d ++ name)).get? q = s.fs.get? q := by
        rw [get?_mkdirP, if_neg (fun hh => hinc' d hd name hh.1)]; exact hu
      have e2 : (rewrite (mkdirP u.fs (d ++ name)) (d ++ name) (out (d ++ name)).files).get? q = s.fs.get? q := by
        rw [get?_rewrite _ _ _ _ (fun hh => hinc d hd name hh.1)]; exact e1
      unfold runOne
      dsimp only
      split
      · exact ⟨hu, by simp [pathError]⟩
      · split
        · exact ⟨hu, by simp⟩
        · split
          · refine ⟨e2, ?_⟩
            simp only [List.mem_cons, List.not_mem_nil, or_false]
            rintro v (rfl | rfl)
            · exact e1
            · exact e2
          · split
            · split
              · refine ⟨e2, ?_⟩
                simp only [List.mem_cons, List.not_mem_nil, or_false]
                rintro v (rfl | rfl)
                · exact e1
                · exact e2
              · refine ⟨e2, ?_⟩
                simp only [dump, Exec.after, List.cons_append, List.nil_append, List.mem_cons, List.not_mem_nil,
                  or_false]
                rintro v (rfl | rfl | rfl | rfl)
                · exact e1
                · exact e2
                · exact e2
                · exact e2
            · refine ⟨e2, ?_⟩
              simp only [List.mem_cons, List.not_mem_nil, or_false]
              rintro v (rfl | rfl)
              · exact e1
              · exact e2
    rcases ht with ht | rfl
    · exact loop_visited (I := J) (fun t y hy ht => (hone t y hy ht).1) (fun t y hy ht => (hone t y hy ht).2) rfl t ht
    · exact loop_final (I := J) (fun t y hy ht => (hone t y hy ht).1) rfl
  · obtain ⟨⟨a, rfl⟩, b, rfl⟩ := And.intro (one_comp hc.1) (one_comp hc.2)
    by_cases hab : a = b
    · -- renaming a run to itself is refused
      subst hab
      have hone : ∀ u : State κ ε, ∀ y ∈ (P.rundirs bs).map (fun d => (d ++ [a], d ++ [a])), J u →
          J (mvOne (!es) u y).final ∧ ∀ v ∈ (mvOne (!es) u y).visited, J v := by
        intro u y hy hu
        obtain ⟨d, hd, rfl⟩ := List.mem_map.1 hy
        rcases mvOne_cases (!es) u (d ++ [a]) (d ++ [a]) with ⟨q1, q2⟩ | ⟨_, _, hh, _⟩
        · rw [q1, q2]; exact ⟨hu, by simp⟩
        · exact absurd (List.prefix_refl _) hh
      rcases ht with ht | rfl
      · exact loop_visited (I := J) (fun t y hy ht => (hone t y hy ht).1) (fun t y hy ht => (hone t y hy ht).2) rfl t ht
      · exact loop_final (I := J) (fun t y hy ht => (hone t y hy ht).1) rfl
    · have hfr := c47_mv_frame P s [a] [b] bs es q (fun d hd => ⟨hinc d hd _, hinc d hd _⟩)
        (fun hp => hab (by simpa using (hp.eq_of_length (by simp)).symm))
      rcases ht with ht | rfl
      · exact hfr.2 t ht
      · exact hfr.1
  · have hgl : ∀ sel : Path κ → Bool, (t ∈ (exec P s (.rm (.glob sel) bs es)).visited ∨
        t = (exec P s (.rm (.glob sel) bs es)).final) → t.fs.get? q = s.fs.get? q := by
      intro sel ht
      rcases c47_rm_frame P s sel bs es q t ht with hh | ⟨_, d, hd, r, _, _, hp⟩
      · exact hh
      · exact absurd hp (hinc d hd r)
    cases pat with
    | empty => exact hgl (fun r => r.length == 1) ht
    | glob sel => exact hgl sel ht

/-! ## C51 -/

/-- **C51.** After a forced reset of any reachable project, no directory is left in a run directory, the
log holds no run, every other path is as before and no exception is raised. -/
theorem c51_reset {P : Paths κ} {s : State κ ε} (h : Reachable P s) :
    (reset P s true).exc = none ∧
    (∀ d ∈ P.listing, ∀ n, ¬ isDir (reset P s true).final.fs (d ++ [n])) ∧
    (∃ l, (reset P s true).final.log = some l ∧ ∀ p, LogKey.run p ∉ l.keys) ∧
    (∀ q, (∀ d ∈ P.listing, ∀ n, isDir s.fs (d ++ [n]) → ¬ d ++ [n] <+: q) →
      (reset P s true).final.fs.get? q = s.fs.get? q) := by
  have hstar : ∀ r : Path κ, (r.length == 1) = true → r.length = 1 := fun r hr => by simpa using hr
  obtain ⟨h1, h2, h3⟩ := c47_rm_removes h (fun r => r.length == 1) [] hstar
  have hrd : P.rundirs [] = P.listing := by simp [Paths.rundirs]
  rw [hrd] at h2 h3
  have hno : ∀ d ∈ P.listing, ∀ n, ¬ isDir (reset P s true).final.fs (d ++ [n]) :=
    fun d hd n => h2 d hd n rfl
  refine ⟨h1, hno, ?_, fun q hq => ?_⟩
  · obtain ⟨_, l, hl, h4⟩ : Inv P (reset P s true).final :=
      exec_inv (.rm .star [] (!true)) hstar (reachable_inv h)
    refine ⟨l, hl, fun p hp => ?_⟩
    obtain ⟨hdir, d, hd, n, rfl⟩ := h4 p hp
    exact hno d hd n hdir
  · rcases c47_rm_frame P s _ [] false q _ (Or.inr rfl) with hh | ⟨_, d, hd, r, hr, hdir, hpre⟩
    · exact hh
    · obtain ⟨n, rfl⟩ := one_comp (hstar r hr)
      exact absurd hpre (hq d (rundirs_sub hd) n hdir)

/-- **C47 is false of the code for an empty name**: `rm('')` matches no run, but removes every run and every
log entry. -/
theorem c47_rm_empty_removes_all {P : Paths κ} {s : State κ ε} (h : Reachable P s) :
    (∀ r, ¬ (Pattern.empty : Pattern κ).Matches r) ∧
    (∀ d ∈ P.listing, ∀ n, ¬ isDir (exec P s (.rm .empty [] false)).final.fs (d ++ [n])) ∧
    ∃ l, (exec P s (.rm .empty [] false)).final.log = some l ∧ ∀ p, LogKey.run p ∉ l.keys :=
  ⟨fun _ h => h, (c51_reset h).2.1, (c51_reset h).2.2.1⟩

/-! ## C48 -/

/-- At a crash point the run directories exist, and every logged run that is not `exc` exists. -/
def CrashOk (P : Paths κ) (lost : Path κ → Prop) (t : State κ ε) : Prop :=
  (∀ d ∈ P.listing, isDir t.fs d) ∧
  ∀ l, t.log = some l → ∀ p, LogKey.run p ∈ l.keys → ¬ lost p →
    isDir t.fs p ∧ ∃ d ∈ P.listing, ∃ n, p = d ++ [n]

theorem CrashOk.mono {P : Paths κ} {A B : Path κ → Prop} (hAB : ∀ p, A p → B p) {t : State κ ε}
    (h : CrashOk P A t) : CrashOk P B t :=
  ⟨h.1, fun l hl p hp hn => h.2 l hl p hp (fun ha => hn (hAB p ha))⟩

theorem Inv.crashOk {P : Paths κ} {A : Path κ → Prop} {t : State κ ε} (h : Inv P t) : CrashOk P A t := by
  obtain ⟨h1, l, hl, h2⟩ := h
  refine ⟨h1, fun l' hl' p hp _ => ?_⟩
  rw [hl] at hl'; cases hl'; exact h2 p hp

theorem runOne_crash {P : Paths κ} (force : Bool) {s : State κ ε} {d : Path κ} (hd : d ∈ P.listing) (n : κ)
    (o : Outcome κ ε) (hI : Inv P s) : ∀ t ∈ (runOne force s (d ++ [n], o)).visited, CrashOk P (fun _ => False) t := by
  have hfin := runOne_inv force hd n o hI
  obtain ⟨h1, l, hl, h2⟩ := hI
  by_cases hp : s.fs.get? (d ++ [n]) = none
  · have hmk : ∀ q, isDir s.fs q → isDir (mkdirP s.fs (d ++ [n])) q := by
      intro q hq
      unfold isDir at *
      rw [get?_mkdirP, if_neg (by rw [hq]; simp), hq]
    have c1 : CrashOk P (fun _ => False) { s with fs := mkdirP s.fs (d ++ [n]) } := by
      refine ⟨fun d' hd' => hmk d' (h1 d' hd'), fun l' hl' p hpl _ => ?_⟩
      change s.log = some l' at hl'
      rw [hl] at hl'; cases hl'
      exact ⟨hmk p (h2 p hpl).1, (h2 p hpl).2⟩
    have hrw : ∀ q, ((∃ d' ∈ P.listing, q = d') ∨ ∃ d' ∈ P.listing, ∃ n', q = d' ++ [n']) → isDir s.fs q →
        isDir (rewrite (mkdirP s.fs (d ++ [n])) (d ++ [n]) o.files) q := by
      intro q hq hdir
      have := hmk q hdir
      unfold isDir at *
      rw [get?_rewrite, this]
      rintro ⟨ha, hb⟩
      rcases hq with ⟨d', hd', rfl⟩ | ⟨d', hd', n', rfl⟩
      · exact entry_not_prefix_dir hd hd' ha
      · exact hb (entry_prefix hd hd' ha).symm
    have c2 : CrashOk P (fun _ => False) { s with fs := rewrite (mkdirP s.fs (d ++ [n])) (d ++ [n]) o.files } := by
      refine ⟨fun d' hd' => hrw d' (Or.inl ⟨d', hd', rfl⟩) (h1 d' hd'), fun l' hl' p hpl _ => ?_⟩
      change s.log = some l' at hl'
      rw [hl] at hl'; cases hl'
      obtain ⟨hdir, d', hd', n', e⟩ := h2 p hpl
      exact ⟨hrw p (Or.inr ⟨d', hd', n', e⟩) hdir, d', hd', n', e⟩
    have c3 : CrashOk P (fun _ => False)
        (⟨rewrite (mkdirP s.fs (d ++ [n])) (d ++ [n]) o.files, none⟩ : State κ ε) :=
      ⟨c2.1, fun l' hl' => by cases hl'⟩
    have c4 : CrashOk P (fun _ => False) (runOne force s (d ++ [n], o)).final := hfin.crashOk
    revert c4
    unfold runOne
    dsimp only
    rw [if_neg (by simpa using hp)]
    split
    · intro _; simp
    · split
      · intro _ t ht
        simp only [List.mem_cons, List.not_mem_nil, or_false] at ht
        rcases ht with rfl | rfl
        · exact c1
        · exact c2
      · split
        · rw [hl]
          intro c4 t ht
          simp only [dump, Exec.after, List.cons_append, List.nil_append, List.mem_cons, List.not_mem_nil,
            or_false] at ht c4
          rcases ht with rfl | rfl | rfl | rfl
          · rw [← hl]; exact c1
          · rw [← hl]; exact c2
          · exact c3
          · exact c4
        · intro _ t ht
          simp only [List.mem_cons, List.not_mem_nil, or_false] at ht
          rcases ht with rfl | rfl
          · exact c1
          · exact c2
  · unfold runOne
    dsimp only
    rw [if_pos (by simpa using hp)]
    simp [pathError]

theorem mvOne_crash {P : Paths κ} (force : Bool) {s : State κ ε} {d : Path κ} (hd : d ∈ P.listing) (a b : κ)
    (hI : Inv P s) : ∀ t ∈ (mvOne force s (d ++ [a], d ++ [b])).visited, CrashOk P (· = d ++ [a]) t := by
  have hfin := mvOne_inv force hd a b hI
  obtain ⟨h1, l, hl, h2⟩ := hI
  unfold mvOne at hfin ⊢
  dsimp only at hfin ⊢
  split
  · simp [pathError]
  · rename_i ha
    rw [if_neg ha] at hfin
    split
    · simp [pathError]
    · rename_i hadir
      rw [if_neg hadir] at hfin
      split
      · simp [pathError]
      · rename_i hb
        rw [if_neg hb] at hfin
        split
        · simp
        · rename_i hos
          rw [if_neg hos] at hfin
          rw [not_not] at hb hadir
          have hne : d ++ [a] ≠ d ++ [b] := fun h => ha (h ▸ hb)
          have hba : ¬ d ++ [b] <+: d ++ [a] := fun h => hne (entry_prefix hd hd h).symm
          have hab : ¬ d ++ [a] <+: d ++ [b] := fun h => hne (entry_prefix hd hd h)
          have k1 : ∀ d' ∈ P.listing, isDir (renameDir s.fs (d ++ [a]) (d ++ [b])) d' := by
            intro d' hd'
            unfold isDir
            rw [get?_renameDir _ _ _ _ hba hab, if_neg (entry_not_prefix_dir hd hd'),
              if_neg (entry_not_prefix_dir hd hd')]
            exact h1 d' hd'
          have c1 : CrashOk P (· = d ++ [a]) { s with fs := renameDir s.fs (d ++ [a]) (d ++ [b]) } := by
            refine ⟨k1, fun l' hl' p hpl hpa => ?_⟩
            change s.log = some l' at hl'
            rw [hl] at hl'; cases hl'
            obtain ⟨hdir, d', hd', n', rfl⟩ := h2 p hpl
            refine ⟨?_, d', hd', n', rfl⟩
            unfold isDir at *
            change Dict.get? (renameDir s.fs (d ++ [a]) (d ++ [b])) _ = _
            rw [get?_renameDir _ _ _ _ hba hab, if_neg, if_neg]
            · exact hdir
            · exact fun h => hpa (entry_prefix hd hd' h).symm
            · intro h
              rw [← entry_prefix hd hd' h, hb] at hdir
              cases hdir
          rw [hl] at hfin ⊢
          dsimp only at hfin ⊢
          rw [hl] at c1
          split
          · simp only [List.mem_cons, List.not_mem_nil, or_false]
            rintro t rfl; exact c1
          · rename_i v hv
            rw [hv] at hfin
            simp only [dump, Exec.after, List.cons_append, List.nil_append, List.mem_cons, List.not_mem_nil,
              or_false] at hfin ⊢
            rintro t (rfl | rfl | rfl)
            · exact c1
            · exact ⟨k1, fun l' hl' => by cases hl'⟩
            · exact hfin.crashOk

theorem rmOne_crash {P : Paths κ} (force : Bool) {s : State κ ε} {d : Path κ} (hd : d ∈ P.listing) (a : κ)
    (hI : Inv P s) : ∀ t ∈ (rmOne force s (d ++ [a])).visited, CrashOk P (· = d ++ [a]) t := by
  have hfin := rmOne_inv force hd a hI
  obtain ⟨h1, l, hl, h2⟩ := hI
  unfold rmOne at hfin ⊢
  split
  · simp [pathError]
  · rename_i ha
    rw [if_neg ha] at hfin
    split
    · simp [pathError]
    · rename_i hadir
      rw [if_neg hadir] at hfin
      have k1 : ∀ d' ∈ P.listing, isDir (rmtree s.fs (d ++ [a])) d' := by
        intro d' hd'
        unfold isDir
        rw [get?_rmtree, if_neg (entry_not_prefix_dir hd hd')]
        exact h1 d' hd'
      dsimp only at hfin ⊢
      rw [hl] at hfin ⊢
      simp only [dump, Exec.after, List.cons_append, List.nil_append, List.mem_cons, List.not_mem_nil,
        or_false] at hfin ⊢
      rintro t (rfl | rfl | rfl)
      · refine ⟨k1, fun l' hl' p hpl hpa => ?_⟩
        cases hl'
        obtain ⟨hdir, d', hd', n', rfl⟩ := h2 p hpl
        refine ⟨?_, d', hd', n', rfl⟩
        change Dict.get? (rmtree s.fs (d ++ [a])) _ = _
        rw [get?_rmtree, if_neg (fun h => hpa (entry_prefix hd hd' h).symm)]
        exact hdir
      · exact ⟨k1, fun l' hl' => by cases hl'⟩
      · exact hfin.crashOk

/-- **C48, the part that holds.** If a command is killed at any point, every logged run exists, except
possibly the one run the command was renaming or removing; and a killed `run` command leaves no such
exception.  Missing: the exception itself (`c48_mv_crash_dangling`) and the unreadable log
(`c48_log_truncated`). -/
theorem c48_crash_partial {P : Paths κ} {s : State κ ε} (h : Reachable P s) (c : Cmd κ ε) (hc : c.Plain)
    (t : State κ ε) (ht : t ∈ (exec P s c).visited) :
    (∀ d ∈ P.listing, isDir t.fs d) ∧
    ∃ x : Path κ, ∀ l, t.log = some l → ∀ p, LogKey.run p ∈ l.keys →
      (p ≠ x ∨ ∃ name bs es out, c = .run name bs es out) →
      isDir t.fs p ∧ ∃ d ∈ P.listing, ∃ n, p = d ++ [n] := by
  have hI := reachable_inv h
  cases c with
  | run name bs es out =>
    obtain ⟨n, rfl⟩ := one_comp hc
    have : CrashOk P (fun _ => False) t := by
      refine loop_visited (I := Inv P) (fun t x hx ht => ?_) (fun t x hx ht => ?_) hI t ht
      · obtain ⟨d, hd, rfl⟩ := List.mem_map.1 hx
        exact runOne_inv _ (rundirs_sub hd) n _ ht
      · obtain ⟨d, hd, rfl⟩ := List.mem_map.1 hx
        exact runOne_crash _ (rundirs_sub hd) n _ ht
    exact ⟨this.1, [], fun l hl p hp _ => this.2 l hl p hp id⟩
  | mv a b bs es =>
    obtain ⟨⟨a, rfl⟩, b, rfl⟩ := And.intro (one_comp hc.1) (one_comp hc.2)
    have : ∃ x, CrashOk P (· = x) t := by
      refine loop_visited (I := Inv P) (J := fun t => ∃ x, CrashOk P (· = x) t)
        (fun t x hx ht => ?_) (fun t x hx ht u hu => ?_) hI t ht
      · obtain ⟨d, hd, rfl⟩ := List.mem_map.1 hx
        exact mvOne_inv _ (rundirs_sub hd) a b ht
      · obtain ⟨d, hd, rfl⟩ := List.mem_map.1 hx
        exact ⟨_, mvOne_crash _ (rundirs_sub hd) a b ht u hu⟩
    obtain ⟨x, hx⟩ := this
    refine ⟨hx.1, x, fun l hl p hp hor => hx.2 l hl p hp ?_⟩
    rcases hor with h | ⟨_, _, _, _, h⟩
    · exact h
    · cases h
  | rm pat bs es =>
    have : ∃ x, CrashOk P (· = x) t := by
      refine loop_visited (I := Inv P) (J := fun t => ∃ x, CrashOk P (· = x) t)
        (fun t x hx ht => ?_) (fun t x hx ht u hu => ?_) hI t ht
      · obtain ⟨d, hd, n, rfl⟩ := mem_definePattern (ε := ε) (es := es) hc hx
        exact rmOne_inv _ (rundirs_sub hd) n ht
      · obtain ⟨d, hd, n, rfl⟩ := mem_definePattern (ε := ε) (es := es) hc hx
        exact ⟨_, rmOne_crash _ (rundirs_sub hd) n ht u hu⟩
    obtain ⟨x, hx⟩ := this
    refine ⟨hx.1, x, fun l hl p hp hor => hx.2 l hl p hp ?_⟩
    rcases hor with h | ⟨_, _, _, _, h⟩
    · exact h
    · cases h

/-- The first steps of a loop are the steps of its first element. -/
theorem loop_first {α : Type} {f : State κ ε → α → Exec κ ε} (s : State κ ε) (x : α) (xs : List α) {t : State κ ε}
    (h : t ∈ (f s x).visited) : t ∈ (loop f s (x :: xs)).visited := by
  simp only [loop]
  split
  · exact h
  · simp only [Exec.after, List.mem_append]; exact Or.inl h

/-- **C48 is false of the code**: whenever a logged run is renamed to a free name, a crash right after the
directory is renamed leaves a log entry for a run that no longer exists; a crash while the log is written
leaves an unreadable log. -/
theorem c48_mv_crash_dangling {P : Paths κ} {s : State κ ε} (h : Reachable P s) (a b : κ) (bs : List κ) (es : Bool)
    (d : Path κ) (ds : List (Path κ)) (hds : P.rundirs bs = d :: ds) (l : Dict (LogKey κ) ε) (hl : s.log = some l)
    (ha : LogKey.run (d ++ [a]) ∈ l.keys) (hb : s.fs.get? (d ++ [b]) = none) :
    (∃ t ∈ (exec P s (.mv [a] [b] bs es)).visited, t.log = some l ∧ LogKey.run (d ++ [a]) ∈ l.keys ∧
      t.fs.get? (d ++ [a]) = none) ∧
    ∃ t ∈ (exec P s (.mv [a] [b] bs es)).visited, t.log = none := by
  obtain ⟨h1, l', hl', h2⟩ := reachable_inv h
  rw [hl] at hl'; cases hl'
  have hd : d ∈ P.listing := rundirs_sub (bs := bs) (by rw [hds]; simp)
  obtain ⟨hadir, _⟩ := h2 _ ha
  have hne : d ++ [a] ≠ d ++ [b] := by
    intro h; rw [← h] at hb; unfold isDir at hadir; rw [hb] at hadir; cases hadir
  have hba : ¬ d ++ [b] <+: d ++ [a] := fun h => hne (entry_prefix hd hd h).symm
  have hab : ¬ d ++ [a] <+: d ++ [b] := fun h => hne (entry_prefix hd hd h)
  obtain ⟨v, hv⟩ := Dict.get?_isSome.2 ha
  have hex : mvOne (!es) s (d ++ [a], d ++ [b]) =
      (dump { s with fs := renameDir s.fs (d ++ [a]) (d ++ [b]) }
        ((l.del (.run (d ++ [a]))).set (.run (d ++ [b])) v)).after
        [{ s with fs := renameDir s.fs (d ++ [a]) (d ++ [b]) }] := by
    unfold mvOne
    dsimp only
    rw [if_neg (by unfold isDir at hadir; rw [hadir]; simp), if_neg (by simpa using hadir),
      if_neg (by simpa using hb), if_neg]
    · rw [hl]; dsimp only; rw [hv]
    · rw [not_or, under_iff, not_not]
      refine ⟨hab, ?_⟩
      rw [List.dropLast_concat]; exact h1 d hd
  have hvis : ∀ t ∈ (mvOne (!es) s (d ++ [a], d ++ [b])).visited, t ∈ (exec P s (.mv [a] [b] bs es)).visited := by
    intro t ht
    simp only [exec, hds]
    exact loop_first s _ _ ht
  constructor
  · refine ⟨{ s with fs := renameDir s.fs (d ++ [a]) (d ++ [b]) }, hvis _ ?_, hl, ha, ?_⟩
    · rw [hex]; simp [Exec.after]
    · change Dict.get? (renameDir s.fs (d ++ [a]) (d ++ [b])) _ = _
      rw [get?_renameDir _ _ _ _ hba hab, if_neg hba, if_pos (List.prefix_refl _)]
  · refine ⟨⟨renameDir s.fs (d ++ [a]) (d ++ [b]), none⟩, hvis _ ?_, rfl⟩
    rw [hex]; simp [Exec.after, dump]

/-! ## C49 -/

theorem replaceComps_self (n : Nat) (x key : Path κ) : replaceComps n x x key = key := by
  induction n generalizing key with
  | zero => rfl
  | succ n ih =>
    unfold replaceComps
    split
    · rename_i h
      obtain ⟨r, rfl⟩ := under_iff.1 h.2
      rw [ih, List.drop_left]
    · cases key with
      | nil => rfl
      | cons c cs => simp only; rw [ih]

theorem updateKeys_self (new : Path κ) (ks : List (LogKey κ)) (l : Dict (LogKey κ) ε) (hk : ∀ k ∈ ks, k ∈ l.keys) :
    ∃ l', updateKeys new new ks l = .ok l' ∧ ∀ k, l'.get? k = l.get? k := by
  induction ks generalizing l with
  | nil => exact ⟨l, rfl, fun _ => rfl⟩
  | cons k ks ih =>
    obtain ⟨v, hv⟩ := Dict.get?_isSome.2 (hk k (by simp))
    have hr : k.replace new new = k := by
      cases k with
      | common n => rfl
      | run p => simp only [LogKey.replace, replaceComps_self]
    have hg : ∀ k', ((l.del k).set k v).get? k' = l.get? k' := by
      intro k'
      rw [Dict.get?_set, Dict.get?_del]
      by_cases h : k = k'
      · subst h; simp [hv]
      · simp [h]
    obtain ⟨l', h1, h2⟩ := ih ((l.del k).set k v) (fun k' hk' => by
      rw [mem_keys_iff, hg, ← mem_keys_iff]; exact hk k' (by simp [hk']))
    refine ⟨l', ?_, fun k' => (h2 k').trans (hg k')⟩
    simp only [updateKeys, logMv, hr, hv]
    exact h1

/-- **C49, the part that holds**: renaming a project to a free name in an existing directory succeeds, and the
whole tree, with every run, is found under the new root and no longer under the old one. -/
theorem c49_rename_moves_partial {P : Paths κ} {s : State κ ε} (h : Reachable P s) (new : Path κ) (force : Bool)
    (hnew : s.fs.get? new = none) (hroot : isDir s.fs P.root) (hpar : isDir s.fs new.dropLast)
    (h1 : ¬ P.root <+: new) (h2 : ¬ new <+: P.root) :
    ∃ s', rename P s new force = .ok ({ P with root := new }, s') ∧
      (∀ r, s'.fs.get? (new ++ r) = s.fs.get? (P.root ++ r) ∧ s'.fs.get? (P.root ++ r) = none) ∧
      (∀ q, ¬ P.root <+: q → ¬ new <+: q → s'.fs.get? q = s.fs.get? q) := by
  obtain ⟨_, l, hl, _⟩ := reachable_inv h
  obtain ⟨l', hu, _⟩ := updateKeys_self new l.keys l (fun k hk => hk)
  have hg := fun q => get?_renameDir s.fs P.root new q h2 h1
  refine ⟨⟨renameDir s.fs P.root new, some l'⟩, ?_, fun r => ⟨?_, ?_⟩, fun q hq hq' => ?_⟩
  · unfold rename
    rw [if_neg (by simpa using hnew), if_neg, hl]
    · dsimp only; unfold updateDirectory; rw [hu]
    · rw [not_or, not_or, under_iff, not_not, not_not]; exact ⟨h1, hroot, hpar⟩
  · change Dict.get? (renameDir s.fs P.root new) _ = _
    rw [hg, if_pos (List.prefix_append _ _), List.drop_left]
  · change Dict.get? (renameDir s.fs P.root new) _ = _
    rw [hg, if_neg, if_pos (List.prefix_append _ _)]
    intro h
    rcases List.prefix_or_prefix_of_prefix h (List.prefix_append _ r) with h | h
    · exact h2 h
    · exact h1 h
  · change Dict.get? (renameDir s.fs P.root new) _ = _
    rw [hg, if_neg hq', if_neg hq]

/-- An existing target is refused, also with `force`. -/
theorem c49_rename_refused (P : Paths κ) (s : State κ ε) (new : Path κ) (force : Bool)
    (hnew : s.fs.get? new ≠ none) : ∃ e, rename P s new force = .error e := by
  unfold rename
  rw [if_pos hnew]
  cases force
  · exact ⟨_, rfl⟩
  · exact ⟨_, rfl⟩

/-- **C49 is false of the code**: after every successful rename of a project the log is what it was, so each of
its runs is logged at a path that no longer exists, and no run is logged at its new location. -/
theorem c49_rename_leaves_log {P P' : Paths κ} {s s' : State κ ε} (h : Reachable P s) (new : Path κ) (force : Bool)
    (h2 : ¬ new <+: P.root) (hr : rename P s new force = .ok (P', s')) :
    ∃ l l', s.log = some l ∧ s'.log = some l' ∧ (∀ k, l'.get? k = l.get? k) ∧
      (∀ p, LogKey.run p ∈ l'.keys → s'.fs.get? p = none) ∧
      (∀ d ∈ P'.listing, ∀ n, LogKey.run (d ++ [n]) ∉ l'.keys) := by
  obtain ⟨_, l, hl, hlog⟩ := reachable_inv h
  obtain ⟨l', hu, hu'⟩ := updateKeys_self new l.keys l (fun k hk => hk)
  unfold rename at hr
  split at hr
  · split at hr <;> cases hr
  · split at hr
    · cases hr
    · rename_i hn hos
      rw [not_or, not_or, under_iff] at hos
      rw [hl] at hr
      dsimp only at hr
      unfold updateDirectory at hr
      rw [hu] at hr
      cases hr
      refine ⟨l, l', hl, rfl, hu', fun p hp => ?_, fun d hd n hp => ?_⟩
      · rw [mem_keys_iff, hu', ← mem_keys_iff] at hp
        obtain ⟨_, d, hd, n, rfl⟩ := hlog p hp
        have hpre : P.root <+: d ++ [n] := (listing_under hd).trans (List.prefix_append _ _)
        change Dict.get? (renameDir s.fs P.root new) _ = _
        rw [get?_renameDir _ _ _ _ h2 hos.1, if_neg, if_pos hpre]
        intro h
        rcases List.prefix_or_prefix_of_prefix h hpre with h | h
        · exact h2 h
        · exact hos.1 h
      · rw [mem_keys_iff, hu', ← mem_keys_iff] at hp
        obtain ⟨_, d', hd', n', e⟩ := hlog _ hp
        have hp1 : P.root <+: d ++ [n] := e ▸ (listing_under hd').trans (List.prefix_append _ _)
        have hp2 : new <+: d ++ [n] := (listing_under hd).trans (List.prefix_append _ _)
        rcases List.prefix_or_prefix_of_prefix hp1 hp2 with h | h
        · exact hos.1 h
        · exact h2 h

/-- As a consequence, renaming any run of a renamed project raises `LogKeyError` after having moved its
directory. -/
theorem c49_mv_after_rename_raises {P P' : Paths κ} {s s' : State κ ε} (h : Reachable P s) (new : Path κ)
    (force : Bool) (h2 : ¬ new <+: P.root) (hr : rename P s new force = .ok (P', s')) (a b : κ) (hab : a ≠ b)
    (bs : List κ) (es : Bool) (d : Path κ) (ds : List (Path κ)) (hds : P'.rundirs bs = d :: ds)
    (hdir : isDir s'.fs d) (ha : isDir s'.fs (d ++ [a])) (hb : s'.fs.get? (d ++ [b]) = none) :
    (exec P' s' (.mv [a] [b] bs es)).exc = some .logKey ∧
    (exec P' s' (.mv [a] [b] bs es)).final.fs = renameDir s'.fs (d ++ [a]) (d ++ [b]) := by
  obtain ⟨_, l', _, hl', _, _, hno⟩ := c49_rename_leaves_log h new force h2 hr
  have hd : d ∈ P'.listing := rundirs_sub (bs := bs) (by rw [hds]; simp)
  have hg : l'.get? (.run (d ++ [a])) = none := Dict.get?_eq_none.2 (hno d hd a)
  have hex : mvOne (!es) s' (d ++ [a], d ++ [b]) =
      ⟨[{ s' with fs := renameDir s'.fs (d ++ [a]) (d ++ [b]) }],
        { s' with fs := renameDir s'.fs (d ++ [a]) (d ++ [b]) }, some .logKey⟩ := by
    unfold mvOne
    dsimp only
    rw [if_neg (by unfold isDir at ha; rw [ha]; simp), if_neg (by simpa using ha), if_neg (by simpa using hb), if_neg]
    · rw [hl']; dsimp only; rw [hg]
    · rw [not_or, under_iff, not_not]
      refine ⟨fun h => hab ?_, ?_⟩
      · simpa using entry_prefix hd hd h
      · rw [List.dropLast_concat]; exact hdir
  simp only [exec, hds, List.map_cons, loop, hex]
  exact ⟨trivial, trivial⟩

/-! ## Concrete cases -/

section Examples

/-- A project at `/0` with branches 5 and 6 and run directories `/0/5/1` and `/0/6/1`. -/
def demoP : Paths Nat := ⟨[0], [5, 6], 1⟩

def okOut : Path Nat → Outcome Nat Nat := fun _ => ⟨[([7], .file)], some 0, 9⟩

/-- `run` in both branches, `mv` in branch 5, and a failing `run`. -/
def demoS : State Nat Nat :=
  let s₀ := newProject demoP [] [(3, 4)]
  let s₁ := (exec demoP s₀ (.run [2] [] true okOut)).final
  let s₂ := (exec demoP s₁ (.mv [2] [8] [5] true)).final
  (exec demoP s₂ (.run [2] [] false (fun _ => ⟨[], some 1, 9⟩))).final

example : Reachable demoP demoS := by
  refine .step _ (.step _ (.step _ (.start [] [(3, 4)] (fun q _ => rfl)) ?_) ?_) ?_ <;> simp [Cmd.Plain]

example : demoS.log = some [(.common 3, 4), (.run [0, 6, 1, 2], 9), (.run [0, 5, 1, 8], 9)] := by decide
example : isDir demoS.fs [0, 5, 1, 8] ∧ demoS.fs.get? [0, 5, 1, 8, 7] = some .file ∧
    isDir demoS.fs [0, 5, 1, 2] ∧ demoS.fs.get? [0, 5, 1, 2, 7] = none := by decide
example : ReachableOk demoP (exec demoP (newProject demoP [] [(3, 4)]) (.run [2] [] true okOut)).final :=
  .step _ (.start [] [(3, 4)] (fun q _ => rfl)) (by simp [Cmd.Plain]) (fun p => rfl)
example : (reset demoP demoS true).final.log = some [(.common 3, 4)] ∧
    ((reset demoP demoS true).final.fs.map Prod.fst) = [[], [0], [0, 5], [0, 5, 1], [0, 6], [0, 6, 1]] := by decide
/-- The hypotheses of `c48_mv_crash_dangling`. -/
example : demoP.rundirs [6] = [[0, 6, 1]] ∧ (∃ l, demoS.log = some l ∧ LogKey.run [0, 6, 1, 2] ∈ l.keys) ∧
    demoS.fs.get? [0, 6, 1, 4] = none := ⟨by decide, ⟨_, rfl, by decide⟩, by decide⟩
/-- The hypotheses of the theorems of C49. -/
example : demoS.fs.get? [10] = none ∧ isDir demoS.fs demoP.root ∧ isDir demoS.fs ([10] : Path Nat).dropLast ∧
    ¬ demoP.root <+: [10] ∧ ¬ [10] <+: demoP.root := by decide

/-- The hypotheses of `c46_run_effect`: no file lies on the way to a run directory, and the target is new. -/
example : ∀ d ∈ demoP.listing, ∀ q, q <+: d → demoS.fs.get? q ≠ some .file := by
  have h : ∀ d ∈ demoP.listing, ∀ q ∈ d.inits, demoS.fs.get? q ≠ some .file := by decide
  exact fun d hd q hq => h d hd q ((List.mem_inits _ _).2 hq)
example : demoS.fs.get? ([0, 5, 1] ++ [11]) = none ∧ [0, 5, 1] ∈ demoP.rundirs [5] := by decide
/-- The hypotheses of `c47_mv_effect` and of `c47_other_branches`. -/
example : let s := (exec demoP (newProject demoP [] [(3, 4)]) (.run [2] [] true okOut)).final
    [0, 5, 1] ∈ demoP.rundirs [5] ∧ isDir s.fs [0, 5, 1, 2] ∧ s.fs.get? [0, 5, 1, 8] = none := by decide
example : demoP.branches ≠ [] ∧ 6 ∉ [5] ∧ demoP.root ++ [6] <+: [0, 6, 1, 2] := by decide

/-- **C46 is false of the code for nested names**: after `run('2')`, `run('2/3')`, `rm('2')` the log still
lists `2/3`, which does not exist. -/
theorem c46_nested_name_dangles :
    let P : Paths Nat := ⟨[0], [], 1⟩
    let s₁ := (exec P (newProject P [] []) (.run [2] [] true okOut)).final
    let s₂ := (exec P s₁ (.run [2, 3] [] true okOut)).final
    let s₃ := (exec P s₂ (.rm (.glob (· = [2])) [] true)).final
    s₃.log = some [(.run [0, 1, 2, 3], 9)] ∧ s₃.fs.get? [0, 1, 2, 3] = none := by decide

/-- **C46 is false of the code for the pattern `**`**, which also matches the run directory itself: after
`run('2')`, `rm('**')` the log still lists `2`, which does not exist. -/
theorem c46_recursive_pattern_dangles :
    let P : Paths Nat := ⟨[0], [], 1⟩
    let s₁ := (exec P (newProject P [] []) (.run [2] [] true okOut)).final
    let s₂ := (exec P s₁ (.rm (.glob (fun _ => true)) [] false)).final
    s₂.log = some [(.run [0, 1, 2], 9)] ∧ s₂.fs.get? [0, 1, 2] = none ∧ s₂.fs.get? [0, 1] = none := by decide

end Examples

end Eprem.Project
