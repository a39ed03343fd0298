import Mathlib.Data.List.Basic
import Mathlib.Data.List.Nodup
import Mathlib.Data.Finset.Card
import Verif.Np

/-!
# Executables: results directories and configuration (C126)

Model of `hermespy/core/executable.py`: `default_results_dir` on a file system that other executions and other programs
modify at the same time, and the configuration of results directory, verbosity, console mode and style.  A file system is
a list of paths with their kinds; nothing but creation of entries is modelled, since executables remove nothing.
-/

namespace Verif.Exe

/-! ### The file system -/

/-- What a path refers to.  Links to directories and files count as these, links to nothing are dangling. -/
inductive Kind where
  | dir
  | file
  | dangling
  deriving DecidableEq

/-- Paths below the working directory, component by component. -/
abbrev Path := List String

abbrev Fs := List (Path × Kind)

/-- The kind of a path; the working directory exists. -/
def look (fs : Fs) (p : Path) : Option Kind :=
  if p = [] then some .dir else (fs.find? fun (e : Path × Kind) => e.1 = p).map Prod.snd

/-- `os.path.exists`, which follows links. -/
def pathExists (fs : Fs) (p : Path) : Bool := look fs p == some .dir || look fs p == some .file

/-- `os.path.isdir`. -/
def isDir (fs : Fs) (p : Path) : Bool := look fs p == some .dir

/-- Errors of the operating system and of the executable. -/
inductive Fault where
  | fileExists
  | notFound
  | notDirectory
  | value
  | key
  deriving DecidableEq

/-- `os.mkdir`. -/
def mkdir (fs : Fs) (p : Path) : Except Fault Fs :=
  if look fs p ≠ none then .error .fileExists
  else match look fs p.dropLast with
    | some .dir => .ok (fs ++ [(p, .dir)])
    | some .file => .error .notDirectory
    | _ => .error .notFound

/-- `os.makedirs(…, 511, True)`, called at `core/executable.py` 194: missing parents are created first, and an existing
directory is no error. -/
def makedirs (fs : Fs) (done : Path) : Path → Except Fault Fs
  | [] => .ok fs
  | [c] => match mkdir fs (done ++ [c]) with
    | .ok fs' => .ok fs'
    | .error e => if isDir fs (done ++ [c]) then .ok fs else .error e
  | c :: rest =>
    if pathExists fs (done ++ [c]) then makedirs fs (done ++ [c]) rest
    else match mkdir fs (done ++ [c]) with
      | .ok fs' => makedirs fs' (done ++ [c]) rest
      | .error .fileExists => makedirs fs (done ++ [c]) rest
      | .error e => .error e

/-! ### Default results directories -/

/-- `base_directory`, `core/executable.py` 187-191; names of experiments have no separators. -/
def base (experiment : Option String) : Path := "results" :: experiment.toList

/-- `"{:03d}".format(index)`. -/
def pad3 (i : ℕ) : String := String.ofList (List.replicate (3 - (Nat.toDigits 10 i).length) '0' ++ Nat.toDigits 10 i)

/-- `results_dir` of one index, `core/executable.py` 206 and 209. -/
def dated (b : Path) (today : String) (i : ℕ) : Path := b ++ [today ++ "_" ++ pad3 i]

/-- Where an execution is inside of `default_results_dir`: before the check of the loop at line 207, before line 212,
after returning, or after an exception. -/
inductive Pc where
  | probe (i : ℕ)
  | make (i : ℕ)
  | done (p : Path)
  | failed (f : Fault)
  deriving DecidableEq

/-- One step of an execution which writes to `b` on day `today`, `core/executable.py` 206-214: checking whether a
directory exists and creating it are separate calls of the operating system. -/
def step (b : Path) (today : String) (fs : Fs) : Pc → Fs × Pc
  | .probe i => (fs, if pathExists fs (dated b today i) then .probe (i + 1) else .make i)
  | .make i => match mkdir fs (dated b today i) with
    | .ok fs' => (fs', .done (dated b today i))
    | .error e => (fs, .failed e)
  | .done p => (fs, .done p)
  | .failed e => (fs, .failed e)

/-- `default_results_dir` without interruption, `core/executable.py` 166-214, with `fuel` turns of the loop. -/
def search (b : Path) (today : String) (fs : Fs) : ℕ → ℕ → Fs × Pc
  | 0, i => (fs, .probe i)
  | fuel + 1, i => if pathExists fs (dated b today i) then search b today fs fuel (i + 1)
    else step b today fs (.make i)

/-- `default_results_dir`, `core/executable.py` 166-214; the loop ends after at most one turn more than there are entries
(`C126_fresh`). -/
def defaultResultsDir (fs : Fs) (today : String) (experiment : Option String) (overwrite : Bool) :
    Except Fault (Fs × Path) :=
  match makedirs fs [] (base experiment) with
  | .error e => .error e
  | .ok fs' =>
    if overwrite then .ok (fs', base experiment)
    else match search (base experiment) today fs' (fs'.length + 1) 0 with
      | (fs'', .done p) => .ok (fs'', p)
      | (_, .failed e) => .error e
      | _ => .error .key

/-! ### Concurrent executions -/

/-- Executions, each with its base directory and day. -/
structure World (n : ℕ) where
  fs : Fs
  pc : Fin n → Pc

/-- What happens next: a step of an execution, or another program creating an entry that was not there. -/
inductive Event (n : ℕ) where
  | run (k : Fin n)
  | create (p : Path) (k : Kind)

def World.next {n : ℕ} (cfg : Fin n → Path × String) (w : World n) : Event n → World n
  | .run k => ⟨(step (cfg k).1 (cfg k).2 w.fs (w.pc k)).1,
      fun j => if j = k then (step (cfg k).1 (cfg k).2 w.fs (w.pc k)).2 else w.pc j⟩
  | .create p k => if look w.fs p = none then ⟨w.fs ++ [(p, k)], w.pc⟩ else w

def World.runs {n : ℕ} (cfg : Fin n → Path × String) (w : World n) (es : List (Event n)) : World n :=
  es.foldl (World.next cfg) w

/-! ### Configuration -/

/-- The setter of `results_dir`, `core/executable.py` 107-128. -/
def setResultsDir (fs : Fs) : Option Path → Except Fault (Option Path)
  | none => .ok none
  | some p => if pathExists fs p = false then .error .value else if isDir fs p = false then .error .value else .ok (some p)

/-- The members of `Verbosity`, `core/definitions.py` 28-44. -/
inductive Verbosity where
  | all
  | info
  | warning
  | error
  | none
  deriving DecidableEq

/-- `Verbosity[name]`. -/
def Verbosity.ofName (s : String) : Except Fault Verbosity :=
  if s = "ALL" then .ok .all else if s = "INFO" then .ok .info else if s = "WARNING" then .ok .warning
  else if s = "ERROR" then .ok .error else if s = "NONE" then .ok .none else .error .key

/-- The constructor's conversion, `core/executable.py` 75. -/
def initVerbosity (s : String) : Except Fault Verbosity := Verbosity.ofName s

/-- The setter, `core/executable.py` 140-153, with Python's `str.upper` as a parameter. -/
def setVerbosity (upper : String → String) (s : String) : Except Fault Verbosity := Verbosity.ofName (upper s)

/-- The style of the class, `core/executable.py` 38, and the attribute of one executable, which hides it. -/
structure Style where
  cls : String
  own : Option String

/-- The getter of `style`, `core/executable.py` 216-226. -/
def Style.get (s : Style) : String := s.own.getD s.cls

/-- The setter of `style`, `core/executable.py` 228-240, for the available styles. -/
def Style.set (available : List String) (s : Style) (v : String) : Except Fault Style :=
  if v ∈ available then .ok { s with own := some v } else .error .value

/-- The style of `style_context`, `core/executable.py` 254-268, a static method. -/
def Style.context (s : Style) : String := s.cls

/-! ### Names -/

theorem pad3_injective : Function.Injective pad3 := by
  intro i j h
  unfold pad3 at h
  have h' := String.ofList_injective h
  have v : ∀ k, Nat.ofDigitChars 10 (List.replicate (3 - (Nat.toDigits 10 k).length) '0' ++ Nat.toDigits 10 k) 0 = k := by
    intro k
    rw [Nat.ofDigitChars_append, Nat.ofDigitChars_replicate_zero, Nat.mul_zero, Nat.ofDigitChars_ten_toDigits]
  rw [← v i, ← v j, h']

theorem dated_injective (b : Path) (today : String) : Function.Injective (dated b today) := by
  intro i j h
  unfold dated at h
  have h1 := List.append_cancel_left h
  simp only [List.cons.injEq, and_true] at h1
  apply pad3_injective
  have h2 := congrArg String.toList h1
  simp only [String.toList_append, List.append_assoc] at h2
  have h3 := List.append_cancel_left (List.append_cancel_left h2)
  exact String.toList_injective h3

theorem dated_ne_nil (b : Path) (today : String) (i : ℕ) : dated b today i ≠ [] := by simp [dated]

/-! ### Entries -/

theorem look_append_of_some (fs : Fs) (e : Path × Kind) (p : Path) (k : Kind) (h : look fs p = some k) :
    look (fs ++ [e]) p = some k := by
  unfold look at h ⊢
  split at h
  · rw [if_pos (by assumption)]; exact h
  · rw [if_neg (by assumption)]
    rw [Option.map_eq_some_iff] at h ⊢
    obtain ⟨a, ha, hk⟩ := h
    refine ⟨a, ?_, hk⟩
    rw [List.find?_append, ha]; rfl

theorem look_append_self (fs : Fs) (p : Path) (k : Kind) (h : look fs p = none) : look (fs ++ [(p, k)]) p = some k := by
  unfold look at h ⊢
  split at h
  · simp at h
  · rw [if_neg (by assumption)]
    rw [Option.map_eq_none_iff] at h
    rw [List.find?_append, h]
    simp

theorem look_append_ne (fs : Fs) (p q : Path) (k : Kind) (h : q ≠ p) : look (fs ++ [(p, k)]) q = look fs q := by
  unfold look
  split
  · rfl
  · rw [List.find?_append]
    have : [(p, k)].find? (fun (e : Path × Kind) => e.1 = q) = none := by
      simp [Ne.symm h]
    rw [this, Option.or_none]

theorem mkdir_ok (fs fs' : Fs) (p : Path) (h : mkdir fs p = .ok fs') :
    look fs p = none ∧ fs' = fs ++ [(p, .dir)] := by
  unfold mkdir at h
  by_cases hl : look fs p ≠ none
  · rw [if_pos hl] at h; cases h
  · rw [if_neg hl] at h
    rw [not_not] at hl
    refine ⟨hl, ?_⟩
    split at h
    · cases h; rfl
    · cases h
    · cases h

/-- Entries which are there stay as they are. -/
def Keeps (fs fs' : Fs) : Prop := ∀ p k, look fs p = some k → look fs' p = some k

theorem Keeps.refl (fs : Fs) : Keeps fs fs := fun _ _ h => h

theorem Keeps.trans {a b c : Fs} (h : Keeps a b) (h' : Keeps b c) : Keeps a c := fun p k e => h' p k (h p k e)

theorem mkdir_keeps (fs fs' : Fs) (p : Path) (h : mkdir fs p = .ok fs') : Keeps fs fs' := by
  obtain ⟨-, rfl⟩ := mkdir_ok _ _ _ h
  exact fun q k hq => look_append_of_some _ _ _ _ hq

theorem step_keeps (b : Path) (t : String) (fs : Fs) (pc : Pc) : Keeps fs (step b t fs pc).1 := by
  cases pc with
  | probe i => exact Keeps.refl _
  | done p => exact Keeps.refl _
  | failed e => exact Keeps.refl _
  | make i =>
    simp only [step]
    split
    · rename_i fs' h; exact mkdir_keeps _ _ _ h
    · exact Keeps.refl _

theorem next_keeps {n : ℕ} (cfg : Fin n → Path × String) (w : World n) (e : Event n) : Keeps w.fs (w.next cfg e).fs := by
  cases e with
  | run k => exact step_keeps _ _ _ _
  | create p k =>
    unfold World.next
    dsimp only
    split
    · exact fun q k hq => look_append_of_some _ _ _ _ hq
    · exact Keeps.refl _

theorem runs_keeps {n : ℕ} (cfg : Fin n → Path × String) (es : List (Event n)) (w : World n) :
    Keeps w.fs (w.runs cfg es).fs := by
  induction es generalizing w with
  | nil => exact Keeps.refl _
  | cons e es ih => exact (next_keeps cfg w e).trans (ih _)

/-- Invariant of concurrent executions: what was returned exists, was not there at the beginning, and is pairwise
different. -/
structure Inv {n : ℕ} (start : Fs) (w : World n) : Prop where
  exist : ∀ k p, w.pc k = .done p → look w.fs p = some .dir
  fresh : ∀ k p, w.pc k = .done p → look start p = none
  apart : ∀ j k p, w.pc j = .done p → w.pc k = .done p → j = k

theorem inv_next {n : ℕ} (cfg : Fin n → Path × String) (start : Fs) (w : World n) (hs : Keeps start w.fs)
    (h : Inv start w) (e : Event n) : Inv start (w.next cfg e) := by
  have hk := next_keeps cfg w e
  cases e with
  | create p k =>
    have epc : (w.next cfg (.create p k)).pc = w.pc := by
      unfold World.next; dsimp only; split <;> rfl
    exact ⟨fun j q hq => hk _ _ (h.exist j q (by rw [← epc]; exact hq)), fun j q hq => h.fresh j q (by rw [← epc]; exact hq),
      fun i j q hi hj => h.apart i j q (by rw [← epc]; exact hi) (by rw [← epc]; exact hj)⟩
  | run k =>
    -- what the step of `k` returned newly was absent before
    have new : ∀ p, (step (cfg k).1 (cfg k).2 w.fs (w.pc k)).2 = .done p → w.pc k ≠ .done p →
        look w.fs p = none ∧ look (step (cfg k).1 (cfg k).2 w.fs (w.pc k)).1 p = some .dir := by
      intro p hp hne
      cases hpc : w.pc k with
      | probe i => rw [hpc] at hp; simp only [step] at hp; split at hp <;> cases hp
      | done q => rw [hpc] at hp hne; simp only [step] at hp; exact absurd hp hne
      | failed f => rw [hpc] at hp; simp only [step] at hp; cases hp
      | make i =>
        rw [hpc] at hp
        cases hm : mkdir w.fs (dated (cfg k).1 (cfg k).2 i) with
        | error f => simp only [step, hm] at hp; cases hp
        | ok fs' =>
          simp only [step, hm] at hp ⊢
          cases hp
          obtain ⟨h1, rfl⟩ := mkdir_ok _ _ _ hm
          exact ⟨h1, look_append_self _ _ _ h1⟩
    have pcs : ∀ j, (w.next cfg (.run k)).pc j = if j = k then (step (cfg k).1 (cfg k).2 w.fs (w.pc k)).2 else w.pc j :=
      fun _ => rfl
    -- everything returned afterwards was returned before, or is new and belongs to `k`
    have split' : ∀ j p, (w.next cfg (.run k)).pc j = .done p → w.pc j = .done p ∨
        (j = k ∧ look w.fs p = none ∧ look (w.next cfg (.run k)).fs p = some .dir) := by
      intro j p hj
      rw [pcs] at hj
      by_cases hjk : j = k
      · subst hjk
        rw [if_pos rfl] at hj
        by_cases hold : w.pc j = .done p
        · exact Or.inl hold
        · exact Or.inr ⟨rfl, new p hj hold⟩
      · rw [if_neg hjk] at hj; exact Or.inl hj
    refine ⟨fun j p hj => ?_, fun j p hj => ?_, fun i j p hi hj => ?_⟩
    · rcases split' j p hj with h1 | ⟨-, -, h3⟩
      · exact hk _ _ (h.exist j p h1)
      · exact h3
    · rcases split' j p hj with h1 | ⟨-, h2, -⟩
      · exact h.fresh j p h1
      · cases hl : look start p with
        | none => rfl
        | some q => rw [hs p q hl] at h2; cases h2
    · rcases split' i p hi with h1 | ⟨rfl, h2, -⟩
      · rcases split' j p hj with h1' | ⟨rfl, h2', -⟩
        · exact h.apart i j p h1 h1'
        · rw [h.exist i p h1] at h2'; cases h2'
      · rcases split' j p hj with h1' | ⟨rfl, -, -⟩
        · rw [h.exist j p h1'] at h2; cases h2
        · rfl

theorem inv_runs {n : ℕ} (cfg : Fin n → Path × String) (start : Fs) (es : List (Event n)) (w : World n)
    (hs : Keeps start w.fs) (h : Inv start w) : Inv start (w.runs cfg es) := by
  induction es generalizing w with
  | nil => exact h
  | cons e es ih => exact ih _ (hs.trans (next_keeps cfg w e)) (inv_next cfg start w hs h e)

/-- C126, exclusiveness: whatever executions of any base directories and days run at the same time, in whatever order their
calls of the operating system are executed and whatever other programs create meanwhile: directories returned to two
executions are different, were not there at the beginning, are directories, and all entries that were there stay. -/
theorem C126_exclusive {n : ℕ} (cfg : Fin n → Path × String) (fs : Fs) (es : List (Event n)) :
    (∀ j k p, (World.runs cfg ⟨fs, fun _ => .probe 0⟩ es).pc j = .done p →
      (World.runs cfg ⟨fs, fun _ => .probe 0⟩ es).pc k = .done p → j = k) ∧
    (∀ k p, (World.runs cfg ⟨fs, fun _ => .probe 0⟩ es).pc k = .done p →
      look fs p = none ∧ look (World.runs cfg ⟨fs, fun _ => .probe 0⟩ es).fs p = some .dir) ∧
    Keeps fs (World.runs cfg ⟨fs, fun _ => .probe 0⟩ es).fs := by
  have h := inv_runs cfg fs es ⟨fs, fun _ => .probe 0⟩ (Keeps.refl _)
    (Inv.mk (fun _ _ hk => nomatch hk) (fun _ _ hk => nomatch hk) (fun _ _ _ hj => nomatch hj))
  exact ⟨h.apart, fun k p hk => ⟨h.fresh k p hk, h.exist k p hk⟩,
    runs_keeps cfg es ⟨fs, fun _ => .probe 0⟩⟩

/-- C126 is false of concurrent executions: of two that check before either creates, the second raises `FileExistsError`
instead of taking the next index. -/
theorem C126_race_fails (b : Path) (today : String) (fs : Fs) (hb : look fs b = some .dir)
    (h0 : look fs (dated b today 0) = none) :
    ∃ es : List (Event 2), (World.runs (fun _ => (b, today)) ⟨fs, fun _ => .probe 0⟩ es).pc 0 = .done (dated b today 0) ∧
      (World.runs (fun _ => (b, today)) ⟨fs, fun _ => .probe 0⟩ es).pc 1 = .failed .fileExists := by
  have hp : pathExists fs (dated b today 0) = false := by simp [pathExists, h0]
  have hd : (dated b today 0).dropLast = b := by simp [dated]
  have hm : mkdir fs (dated b today 0) = .ok (fs ++ [(dated b today 0, .dir)]) := by
    unfold mkdir
    rw [if_neg (by rw [h0]; simp), hd, hb]
  have hm2 : mkdir (fs ++ [(dated b today 0, .dir)]) (dated b today 0) = .error .fileExists := by
    unfold mkdir
    rw [if_pos (by rw [look_append_self _ _ _ h0]; simp)]
  refine ⟨[.run 0, .run 1, .run 0, .run 1], ?_, ?_⟩
  · simp [World.runs, World.next, step, hp, hm]
  · simp [World.runs, World.next, step, hp, hm, hm2]

/-- C126, progress: an execution that nobody interferes with tries one index after the other and creates the directory of
the first one that is free, whatever other executions wait for. -/
theorem C126_progress {n : ℕ} (cfg : Fin n → Path × String) (fs : Fs) (pc : Fin n → Pc) (k : Fin n) (i d : ℕ)
    (hk : pc k = .probe i) (hfree : look fs (dated (cfg k).1 (cfg k).2 (i + d)) = none)
    (hb : look fs (cfg k).1 = some .dir)
    (hbusy : ∀ m, i ≤ m → m < i + d → pathExists fs (dated (cfg k).1 (cfg k).2 m) = true) :
    (World.runs cfg ⟨fs, pc⟩ (List.replicate (d + 2) (.run k))).pc k = .done (dated (cfg k).1 (cfg k).2 (i + d)) := by
  induction d generalizing i pc with
  | zero =>
    rw [Nat.add_zero] at hfree ⊢
    have hp : pathExists fs (dated (cfg k).1 (cfg k).2 i) = false := by simp [pathExists, hfree]
    have hd : (dated (cfg k).1 (cfg k).2 i).dropLast = (cfg k).1 := by simp [dated]
    have hm : mkdir fs (dated (cfg k).1 (cfg k).2 i) = .ok (fs ++ [(dated (cfg k).1 (cfg k).2 i, .dir)]) := by
      unfold mkdir
      rw [if_neg (by rw [hfree]; simp), hd, hb]
    simp [List.replicate, World.runs, World.next, step, hk, hp, hm]
  | succ d ih =>
    have hp := hbusy i (le_refl _) (by omega)
    rw [show d + 1 + 2 = (d + 2) + 1 by omega, List.replicate_succ]
    have hn : World.next cfg ⟨fs, pc⟩ (.run k) = ⟨fs, fun j => if j = k then .probe (i + 1) else pc j⟩ := by
      unfold World.next
      simp only [hk, step, hp, if_true]
    show (World.runs cfg (World.next cfg ⟨fs, pc⟩ (.run k)) _).pc k = _
    rw [hn, show i + (d + 1) = i + 1 + d by omega]
    exact ih (fun j => if j = k then .probe (i + 1) else pc j) (i + 1) (by simp)
      (by rw [show i + 1 + d = i + (d + 1) by omega]; exact hfree)
      (fun m h1 h2 => hbusy m (by omega) (by omega))

example : (World.runs (n := 1) (fun _ => (["results"], "2026-01-01"))
    ⟨[(["results"], .dir), (["results", "2026-01-01_000"], .dir)], fun _ => .probe 0⟩
    (List.replicate 3 (.run 0))).pc 0 = .done ["results", "2026-01-01_001"] := by
  decide +kernel

/-! ### One execution -/

theorem search_spec (b : Path) (today : String) (fs : Fs) (i fuel : ℕ) (j : ℕ) (hj : i ≤ j) (hjf : j < i + fuel)
    (hfree : pathExists fs (dated b today j) = false) (hbusy : ∀ m, i ≤ m → m < j → pathExists fs (dated b today m) = true) :
    search b today fs fuel i = step b today fs (.make j) := by
  induction fuel generalizing i with
  | zero => omega
  | succ fuel ih =>
    unfold search
    by_cases hij : i = j
    · subst hij
      rw [if_neg (by simp [hfree])]
    · rw [if_pos (hbusy i (le_refl _) (by omega))]
      exact ih (i + 1) (by omega) (by omega) (fun m h1 h2 => hbusy m (by omega) h2)

theorem mem_of_exists (fs : Fs) (p : Path) (hp : p ≠ []) (h : pathExists fs p = true) : p ∈ fs.map Prod.fst := by
  unfold pathExists look at h
  rw [if_neg hp] at h
  cases hf : fs.find? (fun (e : Path × Kind) => e.1 = p) with
  | none => rw [hf] at h; simp at h
  | some e =>
    have h1 := List.find?_some hf
    simp at h1
    rw [List.mem_map]
    exact ⟨e, List.mem_of_find?_eq_some hf, h1⟩

theorem exists_free (b : Path) (today : String) (fs : Fs) :
    ∃ j, j ≤ fs.length ∧ pathExists fs (dated b today j) = false ∧ ∀ m, m < j → pathExists fs (dated b today m) = true := by
  have hex : ∃ j, pathExists fs (dated b today j) = false := by
    by_contra hall
    push Not at hall
    have hsub : (List.range (fs.length + 1)).map (dated b today) ⊆ fs.map Prod.fst := by
      intro p hp
      rw [List.mem_map] at hp
      obtain ⟨j, -, rfl⟩ := hp
      exact mem_of_exists fs _ (dated_ne_nil _ _ _) (by simpa using hall j)
    have hn : ((List.range (fs.length + 1)).map (dated b today)).Nodup :=
      List.Nodup.map (dated_injective b today) List.nodup_range
    have := (List.subperm_of_subset hn hsub).length_le
    simp at this
  refine ⟨Nat.find hex, ?_, Nat.find_spec hex, fun m hm => by simpa using Nat.find_min hex hm⟩
  by_contra hc
  push Not at hc
  have hsub : (List.range (fs.length + 1)).map (dated b today) ⊆ fs.map Prod.fst := by
    intro p hp
    rw [List.mem_map] at hp
    obtain ⟨j, hj, rfl⟩ := hp
    rw [List.mem_range] at hj
    exact mem_of_exists fs _ (dated_ne_nil _ _ _) (by simpa using Nat.find_min hex (m := j) (by omega))
  have hn : ((List.range (fs.length + 1)).map (dated b today)).Nodup :=
    List.Nodup.map (dated_injective b today) List.nodup_range
  have := (List.subperm_of_subset hn hsub).length_le
  simp at this

theorem makedirs_keeps (rest : Path) : ∀ (fs : Fs) (done : Path) (fs' : Fs), makedirs fs done rest = .ok fs' → Keeps fs fs' := by
  induction rest with
  | nil => intro fs done fs' h; unfold makedirs at h; cases h; exact Keeps.refl _
  | cons c rest ih =>
    intro fs done fs' h
    cases rest with
    | nil =>
      unfold makedirs at h
      cases hm : mkdir fs (done ++ [c]) with
      | ok f => rw [hm] at h; cases h; exact mkdir_keeps _ _ _ hm
      | error e =>
        rw [hm] at h
        dsimp only at h
        split at h
        · cases h; exact Keeps.refl _
        · cases h
    | cons d rest =>
      unfold makedirs at h
      split at h
      · exact ih _ _ _ h
      · cases hm : mkdir fs (done ++ [c]) with
        | ok f => rw [hm] at h; exact (mkdir_keeps _ _ _ hm).trans (ih _ _ _ h)
        | error e =>
          rw [hm] at h
          cases e with
          | fileExists => exact ih _ _ _ h
          | notFound => cases h
          | notDirectory => cases h
          | value => cases h
          | key => cases h

theorem makedirs_isDir (rest : Path) : ∀ (fs : Fs) (done : Path) (fs' : Fs), rest ≠ [] → makedirs fs done rest = .ok fs' →
    look fs' (done ++ rest) = some .dir := by
  induction rest with
  | nil => intro fs done fs' h; exact absurd rfl h
  | cons c rest ih =>
    intro fs done fs' _ h
    cases rest with
    | nil =>
      unfold makedirs at h
      cases hm : mkdir fs (done ++ [c]) with
      | ok f =>
        rw [hm] at h; cases h
        obtain ⟨h1, rfl⟩ := mkdir_ok _ _ _ hm
        exact look_append_self _ _ _ h1
      | error e =>
        rw [hm] at h
        dsimp only at h
        split at h
        · rename_i hd
          cases h
          simpa [isDir] using hd
        · cases h
    | cons d rest =>
      have e : done ++ c :: d :: rest = (done ++ [c]) ++ d :: rest := by simp
      rw [e]
      unfold makedirs at h
      split at h
      · exact ih _ _ _ (by simp) h
      · cases hm : mkdir fs (done ++ [c]) with
        | ok f => rw [hm] at h; exact ih _ _ _ (by simp) h
        | error e =>
          rw [hm] at h
          cases e with
          | fileExists => exact ih _ _ _ (by simp) h
          | notFound => cases h
          | notDirectory => cases h
          | value => cases h
          | key => cases h

/-- C126, one execution: if the base directory can be created and no link of the day dangles, a directory of the lowest
free index is created and returned, which was not there before; it is inside of the base directory and carries the day;
nothing that was there is changed; and the search ends. -/
theorem C126_fresh (fs fs' : Fs) (today : String) (ex : Option String) (hm : makedirs fs [] (base ex) = .ok fs')
    (hd : ∀ i, look fs' (dated (base ex) today i) ≠ some .dangling) :
    ∃ fs'' i, defaultResultsDir fs today ex false = .ok (fs'', dated (base ex) today i) ∧
      look fs' (dated (base ex) today i) = none ∧ look fs (dated (base ex) today i) = none ∧
      look fs'' (dated (base ex) today i) = some .dir ∧ Keeps fs fs'' ∧
      ∀ m, m < i → pathExists fs' (dated (base ex) today m) = true := by
  obtain ⟨j, hj, hfree, hbusy⟩ := exists_free (base ex) today fs'
  have hs := search_spec (base ex) today fs' 0 (fs'.length + 1) j (by omega) (by omega) hfree (fun m _ h => hbusy m h)
  have hnone : look fs' (dated (base ex) today j) = none := by
    have h2 := hd j
    unfold pathExists at hfree
    cases hl : look fs' (dated (base ex) today j) with
    | none => rfl
    | some k =>
      rw [hl] at hfree h2
      cases k with
      | dir => simp at hfree
      | file => simp at hfree
      | dangling => exact absurd rfl h2
  have hb : look fs' (base ex) = some .dir := by
    have := makedirs_isDir _ _ _ _ (by simp [base]) hm
    simpa using this
  have hmk : mkdir fs' (dated (base ex) today j) = .ok (fs' ++ [(dated (base ex) today j, .dir)]) := by
    unfold mkdir
    rw [if_neg (by rw [hnone]; simp), show (dated (base ex) today j).dropLast = base ex by simp [dated], hb]
  refine ⟨fs' ++ [(dated (base ex) today j, .dir)], j, ?_, hnone, ?_, look_append_self _ _ _ hnone,
    (makedirs_keeps _ _ _ _ hm).trans (mkdir_keeps _ _ _ hmk), hbusy⟩
  · unfold defaultResultsDir
    rw [hm]
    dsimp only
    rw [hs]
    simp [step, hmk]
  · cases hl : look fs (dated (base ex) today j) with
    | none => rfl
    | some k => rw [makedirs_keeps _ _ _ _ hm _ _ hl] at hnone; cases hnone

/-- C126 is false of links to nothing: they do not exist for the search, but cannot be created. -/
theorem C126_dangling_fails (fs fs' : Fs) (today : String) (ex : Option String) (hm : makedirs fs [] (base ex) = .ok fs')
    (i : ℕ) (hd : look fs' (dated (base ex) today i) = some .dangling)
    (hbusy : ∀ m, m < i → pathExists fs' (dated (base ex) today m) = true) :
    defaultResultsDir fs today ex false = .error .fileExists := by
  have hfree : pathExists fs' (dated (base ex) today i) = false := by simp [pathExists, hd]
  obtain ⟨j, hj, hfree', hbusy'⟩ := exists_free (base ex) today fs'
  have hij : i = j := by
    rcases lt_trichotomy i j with h | h | h
    · rw [hbusy' i h] at hfree; cases hfree
    · exact h
    · rw [hbusy j h] at hfree'; cases hfree'
  subst hij
  have hs := search_spec (base ex) today fs' 0 (fs'.length + 1) i (by omega) (by omega) hfree (fun m _ h => hbusy m h)
  have hmk : mkdir fs' (dated (base ex) today i) = .error .fileExists := by
    unfold mkdir; rw [if_pos (by rw [hd]; simp)]
  unfold defaultResultsDir
  rw [hm]
  dsimp only
  rw [hs]
  simp [step, hmk]

/-- C126 is false of overwriting: the directory returned is the base directory itself, in which everything that was there is
still there; and it is the same for all executions. -/
theorem C126_overwrite_fails (fs fs' : Fs) (today : String) (ex : Option String)
    (hm : makedirs fs [] (base ex) = .ok fs') :
    defaultResultsDir fs today ex true = .ok (fs', base ex) ∧ Keeps fs fs' ∧
      ∀ p k, look fs (base ex ++ p) = some k → look fs' (base ex ++ p) = some k := by
  refine ⟨?_, makedirs_keeps _ _ _ _ hm, fun p k h => makedirs_keeps _ _ _ _ hm _ _ h⟩
  unfold defaultResultsDir
  rw [hm]
  simp

/-- C126: two executions one after the other, of the same day and experiment, get different directories. -/
theorem C126_successive (fs fs' f1 f2 : Fs) (today : String) (ex : Option String) (p q : Path)
    (h1 : defaultResultsDir fs today ex false = .ok (f1, p)) (hk : Keeps f1 fs')
    (h2 : defaultResultsDir fs' today ex false = .ok (f2, q)) : p ≠ q := by
  have run : ∀ (g g' : Fs) (r : Path), defaultResultsDir g today ex false = .ok (g', r) →
      look g r = none ∧ look g' r = some .dir := by
    intro g g' r h
    unfold defaultResultsDir at h
    cases hm : makedirs g [] (base ex) with
    | error e => rw [hm] at h; cases h
    | ok m =>
      rw [hm] at h
      dsimp only at h
      rw [if_neg (by simp)] at h
      obtain ⟨j, hj, hfree, hbusy⟩ := exists_free (base ex) today m
      rw [search_spec (base ex) today m 0 (m.length + 1) j (by omega) (by omega) hfree (fun k _ h => hbusy k h)] at h
      cases hmk : mkdir m (dated (base ex) today j) with
      | error e => simp [step, hmk] at h
      | ok m' =>
        simp [step, hmk] at h
        obtain ⟨rfl, rfl⟩ := h
        obtain ⟨a, rfl⟩ := mkdir_ok _ _ _ hmk
        refine ⟨?_, look_append_self _ _ _ a⟩
        cases hl : look g (dated (base ex) today j) with
        | none => rfl
        | some k => rw [makedirs_keeps _ _ _ _ hm _ _ hl] at a; cases a
  intro e
  have a := (run _ _ _ h1).2
  have b := (run _ _ _ h2).1
  rw [← e, hk _ _ a] at b
  cases b

/-! ### Configuration: theorems -/

/-- C126: a results directory is accepted exactly if it is a directory. -/
theorem C126_results_dir (fs : Fs) (p : Path) :
    (look fs p = some .dir → setResultsDir fs (some p) = .ok (some p)) ∧
    (look fs p ≠ some .dir → setResultsDir fs (some p) = .error .value) := by
  constructor
  · intro h
    simp [setResultsDir, pathExists, isDir, h]
  · intro h
    have hd : isDir fs p = false := by simpa [isDir] using h
    unfold setResultsDir
    dsimp only
    rw [if_pos hd, ite_self]

/-- C126: the constructor accepts exactly the names of the verbosities, each for its own. -/
theorem C126_verbosity (s : String) (v : Verbosity) : initVerbosity s = .ok v ↔
    (s, v) ∈ [("ALL", Verbosity.all), ("INFO", .info), ("WARNING", .warning), ("ERROR", .error), ("NONE", .none)] := by
  simp only [List.mem_cons, List.not_mem_nil, or_false, Prod.mk.injEq]
  unfold initVerbosity Verbosity.ofName
  constructor
  · intro h
    split_ifs at h <;> cases h <;> simp_all
  · rintro (⟨rfl, rfl⟩ | ⟨rfl, rfl⟩ | ⟨rfl, rfl⟩ | ⟨rfl, rfl⟩ | ⟨rfl, rfl⟩) <;> rfl

example : initVerbosity "ERROR" = .ok .error := by decide +kernel

/-- C126: verbosities accepted by the constructor are accepted by the setter, with the same meaning. -/
theorem C126_verbosity_partial (upper : String → String)
    (hu : ∀ s ∈ ["ALL", "INFO", "WARNING", "ERROR", "NONE"], upper s = s) (s : String) (v : Verbosity)
    (h : initVerbosity s = .ok v) : setVerbosity upper s = .ok v := by
  have hs : s ∈ ["ALL", "INFO", "WARNING", "ERROR", "NONE"] := by
    by_contra hc
    simp only [List.mem_cons, List.not_mem_nil, or_false, not_or] at hc
    obtain ⟨a, b, c, d, e⟩ := hc
    unfold initVerbosity Verbosity.ofName at h
    rw [if_neg a, if_neg b, if_neg c, if_neg d, if_neg e] at h
    cases h
  unfold setVerbosity
  rw [hu s hs]; exact h

/-- C126 is false of verbosities: names in lower case are accepted by the setter, not by the constructor. -/
theorem C126_verbosity_fails (upper : String → String) (hu : upper "all" = "ALL") :
    setVerbosity upper "all" = .ok .all ∧ initVerbosity "all" = .error .key := by
  constructor
  · unfold setVerbosity Verbosity.ofName; rw [hu, if_pos rfl]
  · unfold initVerbosity Verbosity.ofName
    rw [if_neg (by decide), if_neg (by decide), if_neg (by decide), if_neg (by decide), if_neg (by decide)]

/-- C126 is false of styles: whatever styles are set, and although the getter returns the last of them, results are plotted
in the style of the class. -/
theorem C126_style_fails (available : List String) (s : Style) (vs : List String) (v : String)
    (h : ∀ u ∈ vs ++ [v], u ∈ available) :
    ∃ s', (vs ++ [v]).foldlM (Style.set available) s = .ok s' ∧ s'.get = v ∧ s'.context = s.cls := by
  induction vs generalizing s with
  | nil =>
    refine ⟨{ s with own := some v }, ?_, rfl, rfl⟩
    show (Style.set available s v >>= fun s' => Except.ok s') = _
    unfold Style.set
    rw [if_pos (h v (by simp))]; rfl
  | cons u vs ih =>
    obtain ⟨s', h1, h2, h3⟩ := ih { s with own := some u } (fun x hx => h x (by simp at hx ⊢; tauto))
    refine ⟨s', ?_, h2, h3⟩
    show (Style.set available s u >>= fun s' => (vs ++ [v]).foldlM (Style.set available) s') = _
    unfold Style.set at h1 ⊢
    rw [if_pos (h u (by simp))]
    exact h1

/-! ### Non-vacuity -/

example : pad3 7 = "007" ∧ pad3 42 = "042" ∧ pad3 1234 = "1234" := by decide +kernel

/-- An empty working directory. -/
example : defaultResultsDir [] "2026-01-01" (some "test") false =
    .ok ([(["results"], .dir), (["results", "test"], .dir), (["results", "test", "2026-01-01_000"], .dir)],
      ["results", "test", "2026-01-01_000"]) := by decide +kernel

/-- Three earlier executions of which the second was removed. -/
example : (defaultResultsDir [(["results"], .dir), (["results", "2026-01-01_000"], .dir), (["results", "2026-01-01_002"], .file)]
    "2026-01-01" none false).map Prod.snd = .ok ["results", "2026-01-01_001"] := by decide +kernel

/-- Two executions in parallel, one after the other. -/
example : (World.runs (n := 2) (fun _ => (["results"], "2026-01-01")) ⟨[(["results"], .dir)], fun _ => .probe 0⟩
    [.run 0, .run 0, .create ["results", "2026-01-01_001"] .file, .run 1, .run 1, .run 1, .run 1]).pc 1 =
      .done ["results", "2026-01-01_002"] := by decide +kernel

example : look [(["results"], .dir)] ["results"] = some .dir ∧ look [(["results"], .dir)] (dated ["results"] "d" 0) = none := by
  decide +kernel

end Verif.Exe
