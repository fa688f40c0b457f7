import Verif.Library.Sample

/-!
# C67: ignoring directories
-/

namespace Trane.Library
open Trane.Store Trane.Filters Trane.Graph

variable {α γ : Type}

/-- The disk without the course manifests below the given directories (paths from the root). -/
def Disk.without (d : Disk α γ) (dirs : List Path) : Disk α γ :=
  { d with walk := fun dir => (d.walk dir).filter (fun p =>
      !(dir = [] && p.getLast? = some courseFile && dirs.any (fun i => i.isPrefixOf p))) }

/-- **C67.**  With an absolute root and relative ignored paths, opening the library gives the same
result as opening, without the preference, the disk from which the course manifests below the ignored
directories were removed. -/
theorem ignored_as_if_absent (d : Disk α γ) (ig : List FPath) (hroot : d.root.abs = true)
    (hrel : ∀ i ∈ ig, i.abs = false) (o : KeyOrder Str) (fuel : Nat) :
    openLibrary o fuel d ig =
      openLibrary o fuel (d.without (ig.map (fun i => noDots i.comps))) [] := by
  have hcf : courseFiles d ig = courseFiles (d.without (ig.map (fun i => noDots i.comps))) [] := by
    unfold courseFiles Disk.without
    simp only [List.filter_filter]
    apply List.filter_congr
    intro p _
    have e : (ignoredPaths d ig).any (fun i => (entryPath d p).startsWith i) =
        ig.any (fun i => (noDots i.comps).isPrefixOf p) := by
      unfold ignoredPaths
      rw [List.any_map]
      apply Bool.eq_iff_iff.2
      simp only [List.any_eq_true, Function.comp]
      refine ⟨fun ⟨i, hi, h⟩ => ⟨i, hi, ?_⟩, fun ⟨i, hi, h⟩ => ⟨i, hi, ?_⟩⟩
      · simp only [FPath.startsWith, entryPath, FPath.absolute, hroot, FPath.push, hrel i hi] at h
        simpa [List.isPrefixOf_iff_prefix, List.prefix_append_right_inj, hroot] using h
      · simp only [FPath.startsWith, entryPath, FPath.absolute, hroot, FPath.push, hrel i hi]
        simpa [List.isPrefixOf_iff_prefix, List.prefix_append_right_inj, hroot] using h
    rw [e, List.any_map]
    simp only [ignoredPaths, List.map_nil, List.any_nil, Function.comp_def, decide_true,
      Bool.true_and, Bool.not_false, Bool.and_true]
    by_cases h1 : 2 ≤ p.length <;> by_cases h2 : p.getLast? = some courseFile <;> simp [h1, h2]
  have hfa : ∀ dir name, name ≠ courseFile →
      filesAt (d.without (ig.map (fun i => noDots i.comps))) dir name = filesAt d dir name := by
    intro dir name hn
    unfold filesAt Disk.without
    rw [List.filter_filter]
    apply List.filter_congr
    intro p _
    by_cases h2 : p.getLast? = some name
    · have : ¬ p.getLast? = some courseFile := by rw [h2]; simpa using hn
      simp [this]
    · simp [h2]
  have ne1 : lessonFile ≠ courseFile := by decide +kernel
  have ne2 : exerciseFile ≠ courseFile := by decide +kernel
  have hpc : ∀ dir m, processCourse (d.without (ig.map (fun i => noDots i.comps))) dir m =
      processCourse d dir m := by
    intro dir m
    unfold processCourse
    have hl : ∀ c, openLesson (d.without (ig.map (fun i => noDots i.comps))) c = openLesson d c := by
      intro c
      funext p
      unfold openLesson processLesson
      simp only [hfa _ _ ne2]
      rfl
    simp only [hfa _ _ ne1, hl]
    rfl
  unfold openLibrary openCourses
  rw [hcf]
  simp only [hpc]
  rfl

/-- The sample meets the hypotheses, and the directory `o` matters there. -/
example : sampleDisk.root.abs = true ∧
    courseFiles sampleDisk [⟨false, [['o']]⟩] ≠ courseFiles sampleDisk [] := by decide +kernel

/-- Ignoring the directory of a lesson has no effect: the preference only concerns courses. -/
example : (((openLibrary (idOrder Str) 100 sampleDisk [⟨false, [['a'], ['1']]⟩]).join).map
    (·.getLessonIds ['a'])) = some (some [['a', '1'], ['a', '2']]) := by decide +kernel

end Trane.Library
