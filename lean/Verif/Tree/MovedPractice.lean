import Verif.Tree.MovedProps
import Verif.Tree.WholeSample

/-!
# C101: practising in a library that was moved
-/

namespace Trane.Tree
open Trane.Store (Str)
open Trane.Library
open Trane.TopLevel
open Trane.Assets (isAbsolute join)
open Trane.Json (Generator UserPreferences)

variable {F : Type} {M M' : Machine F} {r r' : Path}

theorem both_map_eq {β δ ε : Type} {R : β → δ → Prop} {f : β → ε} {g : δ → ε} (h : ∀ x y, R x y → g y = f x)
    {o : Option β} {o' : Option δ} (hb : Both R o o') : o'.map g = o.map f := by
  cases o <;> cases o'
  · rfl
  · exact hb.elim
  · exact hb.elim
  · simp only [Option.map_some, h _ _ hb]

/-- **C101, practice.**  An object that opened the library and went through some calls is in the state that an object is
in that opened the library in its new place, with the data that were stored, and went through the same calls; and it
serves the same requests there.  So all batches, scores and errors are the same. -/
theorem moved_practice (h : Moved M M' r r') (hi : StaysInside M) (X : Outside)
    (hig : ∀ ig, Ignores M ig → ∀ i ∈ ig, isAbsolute i = false) {prefs : UserPreferences} {lib : Lib Rest Generator}
    {b : Base ℚ} {calls : List (Call ℚ)} {t : TopLevel.Top ℚ} (hr : RunningOn M X prefs lib b calls t) :
    ∃ lib', SameLibrary (SamePlace M M' r r') lib lib' ∧ RunningOn M' X prefs lib' b calls t ∧
      ∀ q, Serves lib b t q → Serves lib' b t q := by
  have hI : Ignores M prefs.ignoredPaths := by
    obtain ⟨r0, h1, text, v, h2, h3, h4, h5⟩ := hr.prefers
    exact ⟨r0, text, v, prefs, h1, h2, h3, h4, h5, rfl⟩
  obtain ⟨lib', hl, hlike⟩ := loads_like (disks_moved h hi X prefs.ignoredPaths (hig _ hI)) hr.loads
  have hs := sameLibrary_of_like hlike
  refine ⟨lib', hs, ⟨hr.fair, ?_, hl, ?_, hr.stays, hr.unedited⟩, ?_⟩
  · have := hr.prefers
    rw [prefers_iff] at this ⊢
    rw [configContents_moved h]
    exact this
  · obtain ⟨g0, clock, earlier, h1, h2, h3⟩ := hr.opened
    rw [← hs.graph] at h2 h3
    exact ⟨g0, clock, earlier, h1, h2, h3⟩
  · intro q hq
    refine ⟨hq.reads, hq.urgency, fun u => ?_, fun u => ?_, fun u => ?_, hq.dflt⟩
    · rw [hq.course]
      exact (both_map_eq (fun x y hxy => by rw [hxy.2.2.2.2.1]) (hs.course u)).symm
    · rw [hq.lesson]
      exact (both_map_eq (fun x y hxy => by rw [hxy.2.2.2.2.2.1]) (hs.lesson u)).symm
    · rw [hq.exercise]
      have := hs.exercise u
      cases h1 : lib.getExerciseManifest u <;> cases h2 : lib'.getExerciseManifest u <;> simp only [h1, h2] at this ⊢ <;>
        first | rfl | exact this.elim

end Trane.Tree
