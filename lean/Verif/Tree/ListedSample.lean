import Verif.Tree.Listed
import Verif.Tree.GenSample

/-!
# C103: files listed in another order, on examples
-/

namespace Trane.Tree
open Trane.Store (Str)
open Trane.Library
open Trane.Json (Generator)
open Trane.Gen

/-- Everything comes the other way round. -/
def backwards (M : Machine Unit) : Machine Unit := M.listing List.reverse List.reverse_perm

/-- Hash maps too. -/
def plainBackwards : Outside := { plain with exerciseOrder := List.reverse, lessonOrder := List.reverse, literacyOrder := List.reverse }

theorem plainBackwards_fair : plainBackwards.Fair := ⟨List.reverse_perm, List.reverse_perm, List.reverse_perm⟩

theorem plain_same : SameProgram plain plainBackwards := ⟨rfl, rfl, rfl, rfl⟩

theorem cards_backwards_open : Opens ((backwards cards).real plainBackwards) (opened ((backwards cards).real plainBackwards) []) :=
  opens_of (by decide +kernel) (by decide +kernel)

/-- The hypotheses of the theorems can be met, and the lists that are read do differ. -/
example : ((backwards cards).real plainBackwards).walk [] ≠ (cards.real plain).walk [] ∧
    AnswerAlike (opened (cards.real plain) []) (opened ((backwards cards).real plainBackwards) []) :=
  ⟨by decide +kernel,
   listing_same_answers cards plain_fair plainBackwards_fair plain_same cards_open cards_backwards_open⟩

example : ∃ lib, Opens ((backwards words).real plainBackwards) lib :=
  (listing_opens_iff words plain_fair plainBackwards_fair plain_same).1 ⟨_, words_open⟩

/-! ### The order of the values of a metadata key -/

/-- A transcription course with a track of an artist and one of another. -/
def twoArtists : Machine Unit := machineOf
  [ (["l".toList, ".trane".toList, "user_preferences.json".toList], "{}".toList),
    (["l".toList, "t".toList, courseFile],
      "{\"id\": \"t\", \"generator_config\": {\"Transcription\": {\"passage_directory\": \"p\"}}}".toList),
    (["l".toList, "t".toList, "p".toList, "one.json".toList],
      "{\"asset\": {\"Track\": {\"short_id\": \"s\", \"track_name\": \"N\", \"artist_name\": \"A\"}}, \"intervals\": {}}".toList),
    (["l".toList, "t".toList, "p".toList, "two.json".toList],
      "{\"asset\": {\"Track\": {\"short_id\": \"r\", \"track_name\": \"M\", \"artist_name\": \"B\"}}, \"intervals\": {}}".toList) ]
  (by unfold GoodTree; decide +kernel)

theorem twoArtists_open : Opens (twoArtists.real plain) (opened (twoArtists.real plain) []) :=
  opens_of (by decide +kernel) (by decide +kernel)

theorem twoArtists_backwards_open : Opens ((backwards twoArtists).real plain) (opened ((backwards twoArtists).real plain) []) :=
  opens_of (by decide +kernel) (by decide +kernel)

/-- The artists of a transcription course are listed in the order in which the files of the passages are, so the manifest
of the course can change from one opening to the next with the files unchanged. -/
theorem metadata_order_differs : ∃ (M M' : Machine Unit) (lib lib' : Lib Rest Generator), M' = backwards M ∧ Opens (M.real plain) lib ∧
    Opens (M'.real plain) lib' ∧ lib'.getCourseManifest "t".toList ≠ lib.getCourseManifest "t".toList ∧
    ((lib.getCourseManifest "t".toList).bind (·.metadata)).bind (fun m => m.find "transcription_artist".toList) = some ["A".toList, "B".toList] ∧
    ((lib'.getCourseManifest "t".toList).bind (·.metadata)).bind (fun m => m.find "transcription_artist".toList) = some ["B".toList, "A".toList] := by
  have e1 : (((opened (twoArtists.real plain) []).getCourseManifest "t".toList).bind (·.metadata)).bind
      (fun m => m.find "transcription_artist".toList) = some ["A".toList, "B".toList] := by decide +kernel
  have e2 : (((opened ((backwards twoArtists).real plain) []).getCourseManifest "t".toList).bind (·.metadata)).bind
      (fun m => m.find "transcription_artist".toList) = some ["B".toList, "A".toList] := by decide +kernel
  refine ⟨twoArtists, _, _, _, rfl, twoArtists_open, twoArtists_backwards_open, ?_, e1, e2⟩
  intro h
  rw [h, e1] at e2
  exact absurd e2 (by decide +kernel)

end Trane.Tree
