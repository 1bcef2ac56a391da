import Verif.Model.Paths

/-!
# C117: files and programs are found where the documentation says
-/

namespace Eprem.Paths

variable {P : Type}

/-- The file is in the directory written `p`. -/
def Holds (d : Disk P) (file p : P) : Prop :=
  d.isDir (d.resolve p) = true ∧ d.isThere (d.join (d.resolve p) file) = true

/-- **C117**: `fullpath(path)` is the resolved path, whether it exists or not; with `strict=True` it must exist. -/
theorem c117_fullpath (d : Disk P) (p : P) :
    fullpath d p false = .ok (d.resolve p) ∧
    (d.isThere (d.resolve p) = true → fullpath d p true = .ok (d.resolve p)) ∧
    (d.isThere (d.resolve p) = false → fullpath d p true = .error (.missing p)) := by
  refine ⟨rfl, fun h => ?_, fun h => ?_⟩ <;> simp [fullpath, h]

theorem searchIn_skip (d : Disk P) (file : P) (before rest : List P)
    (h : ∀ p ∈ before, d.isThere (d.resolve p) = true ∧ ¬ Holds d file p) :
    searchIn d file (before ++ rest) = searchIn d file rest := by
  induction before with
  | nil => rfl
  | cons p ps ih =>
    obtain ⟨h1, h2⟩ := h p (by simp)
    have h3 : (d.isDir (d.resolve p) && d.isThere (d.join (d.resolve p) file)) = false := by
      by_contra hc
      simp only [Bool.not_eq_false, Bool.and_eq_true] at hc
      exact h2 hc
    rw [List.cons_append, searchIn]
    simp only [fullpath, h1, Bool.not_true, Bool.and_false, Bool.false_eq_true, if_false, h3]
    exact ih (fun q hq => h q (by simp [hq]))

/-- **C117.** `search` returns the file in the first of the given directories, or
else in the working directory, that holds it, when the directories before it exist. -/
theorem c117_search_partial (d : Disk P) (file p : P) (paths before after : List P)
    (hsplit : paths ++ [d.cwd] = before ++ p :: after) (hp : Holds d file p)
    (hthere : d.isThere (d.resolve p) = true)
    (hbefore : ∀ q ∈ before, d.isThere (d.resolve q) = true ∧ ¬ Holds d file q) :
    search d file paths = .ok (some (d.join (d.resolve p) file)) := by
  unfold search
  rw [hsplit, searchIn_skip d file before _ hbefore, searchIn]
  simp [fullpath, hthere, hp.1, hp.2]

/-- **C117.** `search` returns nothing when every directory exists and none holds the
file. -/
theorem c117_search_none (d : Disk P) (file : P) (paths : List P)
    (h : ∀ q ∈ paths ++ [d.cwd], d.isThere (d.resolve q) = true ∧ ¬ Holds d file q) :
    search d file paths = .ok none := by
  have := searchIn_skip d file (paths ++ [d.cwd]) [] h
  rw [List.append_nil] at this
  exact this

/-- **C117.** Whatever `search` finds is an existing file of one of the directories. -/
theorem c117_search_sound (d : Disk P) (file r : P) (paths : List P) (h : search d file paths = .ok (some r)) :
    ∃ p ∈ paths ++ [d.cwd], Holds d file p ∧ r = d.join (d.resolve p) file := by
  unfold search at h
  generalize paths ++ [d.cwd] = l at h
  induction l with
  | nil => simp [searchIn] at h
  | cons p ps ih =>
    rw [searchIn] at h
    cases hf : fullpath d p true with
    | error e => rw [hf] at h; simp at h
    | ok path =>
      have hpath : path = d.resolve p := by
        unfold fullpath at hf
        split at hf
        · simp at hf
        · simpa using hf.symm
      subst hpath
      rw [hf] at h
      simp only at h
      split at h
      · rename_i hc
        simp only [Bool.and_eq_true] at hc
        simp only [Except.ok.injEq, Option.some.injEq] at h
        exact ⟨p, by simp, hc, h.symm⟩
      · obtain ⟨q, hq, h'⟩ := ih h
        exact ⟨q, by simp [hq], h'⟩

/-- **C117 (violated).** A directory that does not exist makes `search` raise even when
a later directory holds the file. -/
theorem c117_missing (d : Disk P) (file p : P) (paths before after : List P)
    (hsplit : paths ++ [d.cwd] = before ++ p :: after) (hp : d.isThere (d.resolve p) = false)
    (hbefore : ∀ q ∈ before, d.isThere (d.resolve q) = true ∧ ¬ Holds d file q) :
    search d file paths = .error (.missing p) := by
  unfold search
  rw [hsplit, searchIn_skip d file before _ hbefore, searchIn]
  simp [fullpath, hp]

/-- Numbers as paths: 1 is a directory that holds the file 10 (as 11), 2 does not
exist, 3 is the working directory, 100 is a program on the search path. -/
def sampleDisk : Disk Nat where
  resolve p := p
  real p := p
  isThere p := p == 1 || p == 3 || p == 11 || p == 100
  isDir p := p == 1 || p == 3
  isFile p := p == 11
  join p q := p + q
  cwd := 3
  which n := if n = 7 then some 100 else none

example : fullpath sampleDisk 2 true = .error (.missing 2) ∧ fullpath sampleDisk 2 false = .ok 2 ∧
    fullpath sampleDisk 11 true = .ok 11 := by decide

example : search sampleDisk 10 [3, 1] = .ok (some 11) :=
  c117_search_partial sampleDisk 10 1 [3, 1] [3] [3] rfl ⟨rfl, rfl⟩ rfl (by
    intro q hq
    simp at hq
    subst hq
    exact ⟨rfl, fun h => absurd h.2 (by decide)⟩)

/-- The directories are searched in the order given until one holds the file. -/
def SearchesAll : Prop :=
  ∀ (P : Type) (d : Disk P) (file p : P) (paths : List P), p ∈ paths → Holds d file p →
    ∃ r, search d file paths = .ok (some r)

theorem c117_not_search : ¬ SearchesAll := by
  intro h
  obtain ⟨r, hr⟩ := h Nat sampleDisk 10 1 [2, 1] (by simp) ⟨rfl, rfl⟩
  have := c117_missing sampleDisk 10 2 [2, 1] [] [1, 3] rfl rfl (by simp)
  rw [hr] at this
  simp at this

/-- **C117.** `find_file_by_template` gives the first template whose file exists in the
directory, and raises when the directory does not exist. -/
theorem c117_template (d : Disk P) (before after : List (P → P)) (t : P → P) (name dir : P) :
    (d.isThere (d.resolve dir) = false →
      findByTemplate d (before ++ t :: after) name dir = .error (.missing dir)) ∧
    (d.isThere (d.resolve dir) = true →
      (∀ u ∈ before, d.isThere (d.join (d.resolve dir) (u name)) = false) →
      d.isThere (d.join (d.resolve dir) (t name)) = true →
      findByTemplate d (before ++ t :: after) name dir = .ok (some (d.join (d.resolve dir) (t name)))) := by
  refine ⟨fun h => by simp [findByTemplate, fullpath, h], fun h hb ht => ?_⟩
  simp only [findByTemplate, fullpath, h, Bool.not_true, Bool.and_false, Bool.false_eq_true, if_false]
  have : (List.map (fun t => d.join (d.resolve dir) (t name)) before).find? d.isThere = none := by
    rw [List.find?_eq_none]
    intro x hx
    obtain ⟨u, hu, rfl⟩ := List.mem_map.1 hx
    rw [hb u hu]; simp
  rw [List.map_append, List.find?_append, this, List.map_cons, List.find?_cons, ht]
  rfl

example : findByTemplate sampleDisk [fun n => n + 1, fun n => n] 10 1 = .ok (some 11) :=
  (c117_template sampleDisk [fun n => n + 1] [] (fun n => n) 10 1).2 rfl (by simp [sampleDisk]) rfl

/-! ### programs -/

/-- **C117.** A program is the one named in the environment, if that exists; without
one in the environment it is the branch's own, if that exists; otherwise it is the
one on the system's search path. -/
theorem c117_locate (d : Disk P) (name path e : P) :
    (d.isThere (d.resolve (d.real e)) = true → locate d name path (some e) = .ok (d.resolve (d.real e))) ∧
    (d.isThere (d.resolve (d.real (d.join path name))) = true →
      locate d name path none = .ok (d.resolve (d.real (d.join path name)))) ∧
    (d.isThere (d.resolve (d.real (d.join path name))) = false → ∀ p, d.which name = some p →
      locate d name path none = .ok p) := by
  refine ⟨fun h => ?_, fun h => ?_, fun h p hp => ?_⟩ <;>
    simp_all [locate, normalize]

example : locate sampleDisk 10 1 none = .ok 11 := (c117_locate sampleDisk 10 1 0).2.1 rfl
example : locate sampleDisk 7 1 none = .ok 100 := (c117_locate sampleDisk 7 1 0).2.2 rfl 100 rfl

/-- **C117 (violated).** When the environment names a program that does not exist, the
branch's own is not tried, even if it exists. -/
theorem c117_skips_own (d : Disk P) (name path e : P) (h : d.isThere (d.resolve (d.real e)) = false) :
    (∀ p, d.which name = some p → locate d name path (some e) = .ok p) ∧
    (d.which name = none → locate d name path (some e) = .error .typeError) := by
  constructor
  · intro p hp; simp [locate, normalize, h, hp]
  · intro hp; simp [locate, normalize, h, hp]

/-- **C117 (violated).** A program that is found nowhere raises `TypeError`, instead of
leaving the name for the system to look up. -/
theorem c117_nowhere (d : Disk P) (name path : P) (h : d.isThere (d.resolve (d.real (d.join path name))) = false)
    (hw : d.which name = none) : locate d name path none = .error .typeError := by
  simp [locate, normalize, h, hw]

/-- Some program is used: from the environment, the branch, or the system. -/
def LocatesAlways : Prop :=
  ∀ (P : Type) (d : Disk P) (name path : P) (env : Option P), ∃ p, locate d name path env = .ok p

theorem c117_not_locate : ¬ LocatesAlways := by
  intro h
  obtain ⟨p, hp⟩ := h Nat sampleDisk 20 1 none
  rw [c117_nowhere sampleDisk 20 1 rfl rfl] at hp
  simp at hp

/-- The program of the branch is used when the environment has none that exists. -/
def UsesOwn : Prop :=
  ∀ (P : Type) (d : Disk P) (name path : P) (env : Option P),
    (∀ e, env = some e → d.isThere (d.resolve (d.real e)) = false) →
    d.isThere (d.resolve (d.real (d.join path name))) = true →
    locate d name path env = .ok (d.resolve (d.real (d.join path name)))

theorem c117_not_own : ¬ UsesOwn := by
  intro h
  have h1 := h Nat sampleDisk 10 1 (some 2) (by intro e he; simp at he; subst he; rfl) rfl
  rw [(c117_skips_own sampleDisk 10 1 2 rfl).2 rfl] at h1
  simp at h1

/-! ### runs -/

/-- **C117.** The configuration of a run is the project's own input file of that name;
without one, it is the given path, which must exist. -/
theorem c117_config (d : Disk P) (n : Names P) (root config : P) :
    (d.isFile (d.join (d.join root n.inputs) config) = true →
      runConfig d n root config = .ok (d.join (d.join root n.inputs) config)) ∧
    (d.isFile (d.join (d.join root n.inputs) config) = false → d.isThere (d.resolve config) = true →
      runConfig d n root config = .ok (d.resolve config)) ∧
    (d.isFile (d.join (d.join root n.inputs) config) = false → d.isThere (d.resolve config) = false →
      runConfig d n root config = .error (.missing config)) := by
  refine ⟨fun h => ?_, fun h h' => ?_, fun h h' => ?_⟩ <;> simp [runConfig, fullpath, *]

/-- **C117.** A run starts exactly when its configuration and both programs are
found, and then uses these; a configuration that is not found leaves nothing behind. -/
theorem c117_run (d : Disk P) (n : Names P) (root branch config : P) (env : P → Option P) (r : Run P) :
    ((startRun d n root branch config env).result = .ok r ↔
      runConfig d n root config = .ok r.config ∧ locate d n.mpirun branch (env n.mpirun) = .ok r.mpirun ∧
        locate d n.eprem branch (env n.eprem) = .ok r.eprem) ∧
    (∀ e, runConfig d n root config = .error e → (startRun d n root branch config env).copied = none) := by
  unfold startRun
  cases h1 : runConfig d n root config with
  | error e => simp
  | ok c =>
    cases h2 : locate d n.mpirun branch (env n.mpirun) with
    | error e => simp
    | ok m =>
      cases h3 : locate d n.eprem branch (env n.eprem) with
      | error e => simp
      | ok x =>
        cases r
        simp

/-- A run that does not start leaves nothing in the project. -/
def LeavesNothing : Prop :=
  ∀ (P : Type) (d : Disk P) (n : Names P) (root branch config : P) (env : P → Option P) (e : Exc P),
    (startRun d n root branch config env).result = .error e →
    (startRun d n root branch config env).copied = none

/-- **C117 (violated).** When a program is not found, the configuration has already been
copied into the new run directory, which stays. -/
theorem c117_leaves (d : Disk P) (n : Names P) (root branch config : P) (env : P → Option P) (c : P) (e : Exc P)
    (hc : runConfig d n root config = .ok c) (hm : locate d n.mpirun branch (env n.mpirun) = .error e) :
    (startRun d n root branch config env).result = .error e ∧
    (startRun d n root branch config env).copied = some c := by
  simp [startRun, hc, hm]

theorem c117_not_leaves : ¬ LeavesNothing := by
  intro h
  have hl := c117_leaves sampleDisk ⟨20, 20, 20⟩ 1 1 11 (fun _ => none) 11 .typeError rfl rfl
  have := h Nat sampleDisk ⟨20, 20, 20⟩ 1 1 11 (fun _ => none) .typeError hl.1
  rw [hl.2] at this
  simp at this

example : (startRun sampleDisk ⟨20, 7, 10⟩ 1 1 11 (fun _ => none)).result = .ok ⟨11, 100, 11⟩ :=
  (c117_run sampleDisk ⟨20, 7, 10⟩ 1 1 11 (fun _ => none) ⟨11, 100, 11⟩).1.2 ⟨rfl, rfl, rfl⟩

end Eprem.Paths
