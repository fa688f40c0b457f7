import Verif.Top.ConfigProps

/-! Concrete cases for C76, and the crash points from which the library does not recover. -/

namespace Trane.ConfigDir

open Trane.Store (Str)

/-- A way to write a truth value. -/
def sampleFormat : Format Bool where
  write b := if b then ['{', '1', '}'] else ['{', '0', '}']
  read t := if t = ['{', '1', '}'] ∨ t = ['{', '1', '}', '\n'] then some true
    else if t = ['{', '0', '}'] ∨ t = ['{', '0', '}', '\n'] then some false else none
  read_write := by decide
  read_line := by decide
  read_cut := by
    intro p n h
    have : n < 3 := by cases p <;> exact h
    revert n p
    have key : ∀ (n : Fin 3) (p : Bool), (if (if p then ['{', '1', '}'] else ['{', '0', '}']).take n.1 =
          ['{', '1', '}'] ∨ (if p then ['{', '1', '}'] else ['{', '0', '}']).take n.1 =
          ['{', '1', '}', '\n'] then some true
        else if (if p then ['{', '1', '}'] else ['{', '0', '}']).take n.1 = ['{', '0', '}'] ∨
          (if p then ['{', '1', '}'] else ['{', '0', '}']).take n.1 = ['{', '0', '}', '\n']
          then some false else none) = none := by decide
    intro p n _ h
    exact key ⟨n, h⟩ p

/-- A disk with a library directory and a course in it. -/
def sampleFS : FS := fun p =>
  if p = [] then some .dir
  else if p = [['c']] then some .dir
  else if p = [['c'], ['m']] then some (.file ['x'])
  else none

/-- The first opening succeeds, keeps the course and stores the default preferences. -/
example :
    let r := openPreferences sampleFormat true [] ⟨sampleFS, 5, 0⟩
    r.2 = some true ∧ r.1.fs [['c'], ['m']] = some (.file ['x']) ∧
    isDir r.1.fs (filtersDir []) = true ∧ r.1.left = 0 := by decide +kernel

/-- Storing other preferences succeeds, and opening gives them. -/
example :
    let r := openPreferences sampleFormat true [] ⟨sampleFS, 5, 0⟩
    let s := setPreferences sampleFormat [] false ⟨r.1.fs, 2, 0⟩
    s.2 = true ∧ (openPreferences sampleFormat true [] ⟨s.1.fs, 0, 0⟩).2 = some false := by
  decide +kernel

/-- An interrupted opening that has not come to the preferences file, as in `open_recovers_partial`. -/
example :
    let r := initConfigDirectory (sampleFormat.write true ++ ['\n']) [] ⟨sampleFS, 2, 0⟩
    r.2 = false ∧ isDir r.1.fs (filtersDir []) = true ∧ r.1.fs (sessionsDir []) = none ∧
    r.1.fs (prefsFile []) = sampleFS (prefsFile []) := by decide +kernel

/-- **C76 fails for a crash during the first opening.**  If the process is killed after the preferences
file was created and before its text was written, the library cannot be opened any more: every later
opening, whatever happens during it, changes nothing and returns an error. -/
theorem interrupted_opening_blocks {P : Type} (F : Format P) (dflt : P) (h : F.write dflt ≠ []) :
    ∃ d : Disk, ∀ left cut : Nat,
      (openPreferences F dflt [] d).2 = none ∧
      (openPreferences F dflt [] ⟨d.fs, 5, 0⟩).2 = some dflt ∧
      (openPreferences F dflt [] ⟨(openPreferences F dflt [] d).1.fs, left, cut⟩).2 = none ∧
      (openPreferences F dflt [] ⟨(openPreferences F dflt [] d).1.fs, left, cut⟩).1.fs =
        (openPreferences F dflt [] d).1.fs := by
  refine ⟨⟨sampleFS, 4, 0⟩, fun left cut => ?_⟩
  have hf : (openPreferences F dflt [] ⟨sampleFS, 4, 0⟩).1.fs (prefsFile []) = some (.file []) := rfl
  have hr : Ready [] (openPreferences F dflt [] ⟨sampleFS, 4, 0⟩).1.fs :=
    ⟨rfl, rfl, rfl, rfl, [], hf⟩
  have hread : F.read [] = none := by
    have := F.read_cut dflt 0 (List.length_pos_iff.2 h)
    rwa [List.take_zero] at this
  have ho := ready_open (t := F.write dflt ++ ['\n'])
    (d := ⟨(openPreferences F dflt [] ⟨sampleFS, 4, 0⟩).1.fs, left, cut⟩) hr
  refine ⟨rfl, ?_, ?_, ?_⟩
  · rw [open_reads_preferences F dflt [] ⟨sampleFS, 5, 0⟩ rfl]
    exact if_pos rfl
  · rw [open_reads_preferences F dflt [] _ (by rw [ho]), if_neg]
    · unfold getPreferences
      dsimp only
      rw [hf]
      exact hread
    · dsimp only
      rw [hf]; simp
  · show (initConfigDirectory _ _ _).1.fs = _
    rw [ho]

/-- **C76 fails for a crash while preferences are stored.**  If the process is killed after the file was
emptied and before its text was written, the old preferences are lost and the library cannot be
opened. -/
theorem interrupted_storing_loses {P : Type} (F : Format P) (dflt old new : P)
    (h : F.write new ≠ []) :
    ∃ d : Disk, ∀ left cut : Nat,
      getPreferences F [] d.fs = some old ∧
      (openPreferences F dflt [] ⟨d.fs, left, cut⟩).2 = some old ∧
      (openPreferences F dflt [] ⟨(setPreferences F [] new d).1.fs, left, cut⟩).2 = none := by
  let fs : FS := Function.update (initConfigDirectory [] [] ⟨sampleFS, 5, 0⟩).1.fs (prefsFile [])
    (some (.file (F.write old)))
  refine ⟨⟨fs, 1, 0⟩, fun left cut => ?_⟩
  have g : getPreferences F [] fs = some old := by
    show F.read (F.write old) = some old
    exact F.read_write old
  have hr : Ready [] fs := ⟨rfl, rfl, rfl, rfl, _, rfl⟩
  have hf : (setPreferences F [] new ⟨fs, 1, 0⟩).1.fs (prefsFile []) = some (.file []) := rfl
  have hr' : Ready [] (setPreferences F [] new ⟨fs, 1, 0⟩).1.fs := ⟨rfl, rfl, rfl, rfl, [], hf⟩
  have hread : F.read [] = none := by
    have := F.read_cut new 0 (List.length_pos_iff.2 h)
    rwa [List.take_zero] at this
  refine ⟨g, ?_, ?_⟩
  · rw [open_reads_preferences F dflt [] _ (by rw [ready_open (d := ⟨fs, left, cut⟩) hr]), if_neg]
    · exact g
    · show ¬ (some _ = none); simp
  · rw [open_reads_preferences F dflt [] _ (by
      rw [ready_open (d := ⟨(setPreferences F [] new ⟨fs, 1, 0⟩).1.fs, left, cut⟩) hr']), if_neg]
    · unfold getPreferences
      dsimp only
      rw [hf]
      exact hread
    · dsimp only
      rw [hf]; simp

end Trane.ConfigDir
