import Verif.Data.Filter

/-!
# The project's own tests of filters and study sessions, replayed on the model

/repo/src/data/filter.rs:388-1208.  These are tests of the model, not theorems about it: each `example`
makes the calls of one `#[test]` of the code on the model and checks the assertions of that test.  No
claim rests on them.
-/

namespace Trane.Conform.Filters

open Trane.Filters
open Trane.Store (Str)

/-- `to_string`. -/
def u (s : String) : Str := s.toList

/-- The metadata of the courses in the tests. -/
def courseMeta : Metadata :=
  [(u "key1", [u "value1", u "value2"]), (u "key2", [u "value3", u "value4"])]

/-- The metadata of the lessons in the tests. -/
def lessonMeta : Metadata :=
  [(u "key3", [u "value5", u "value6"]), (u "key4", [u "value7", u "value8"])]

/-- `KeyValueFilter::CourseFilter`. -/
def cf (k v : String) (t : FilterType) : KVFilter := .course (u k) (u v) t
/-- `KeyValueFilter::LessonFilter`. -/
def lf (k v : String) (t : FilterType) : KVFilter := .lesson (u k) (u v) t

/-- `apply_course_filter_to_course`. -/
example : (cf "key1" "value1" .incl).applyToCourse courseMeta = true ∧
    (cf "key1" "value1" .excl).applyToCourse courseMeta = false := by decide +kernel

/-- `apply_lesson_filter_to_course`. -/
example : (lf "key1" "value1" .incl).applyToCourse courseMeta = false ∧
    (lf "key1" "value1" .excl).applyToCourse courseMeta = false := by decide +kernel

/-- `apply_course_filter_to_course_no_match`. -/
example : (cf "key10" "value1" .incl).applyToCourse courseMeta = false ∧
    (cf "key10" "value1" .excl).applyToCourse courseMeta = true := by decide +kernel

/-- `apply_course_filter_to_lesson`. -/
example : (cf "key1" "value1" .incl).applyToLesson courseMeta lessonMeta = true ∧
    (cf "key1" "value1" .excl).applyToLesson courseMeta lessonMeta = false := by decide +kernel

/-- `apply_lesson_filter_to_lesson`. -/
example : (lf "key3" "value5" .incl).applyToLesson courseMeta lessonMeta = true ∧
    (lf "key3" "value5" .excl).applyToLesson courseMeta lessonMeta = false := by decide +kernel

/-- `apply_course_filter_to_lesson_no_match`. -/
example : (cf "key3" "value1" .incl).applyToLesson courseMeta lessonMeta = false ∧
    (cf "key3" "value1" .excl).applyToLesson courseMeta lessonMeta = true := by decide +kernel

/-- `apply_lesson_filter_to_lesson_no_match`. -/
example : (lf "key2" "value5" .incl).applyToLesson courseMeta lessonMeta = false ∧
    (lf "key2" "value5" .excl).applyToLesson courseMeta lessonMeta = true := by decide +kernel

/-- `apply_combined_all_filter_to_course`. -/
example : (KVFilter.combined .all [cf "key1" "value1" .incl, cf "key2" "value4" .incl]).applyToCourse
    courseMeta = true := by decide +kernel

/-- `apply_combined_all_filter_with_lesson_filter_to_course`. -/
example : (KVFilter.combined .all [cf "key1" "value1" .incl, cf "key2" "value4" .incl,
    lf "key3" "value5" .incl]).applyToCourse courseMeta = false := by decide +kernel

/-- `apply_combined_all_filter_with_combined_filter_to_course`. -/
example : (KVFilter.combined .all [cf "key1" "value1" .incl, cf "key2" "value4" .incl,
    .combined .all [cf "key1" "value2" .incl]]).applyToCourse courseMeta = true := by decide +kernel

/-- `apply_combined_all_filter_to_course_no_match`. -/
example : (KVFilter.combined .all [cf "key1" "value1" .incl, cf "key2" "value5" .incl]).applyToCourse
    courseMeta = false := by decide +kernel

/-- `apply_combined_any_filter_to_course`. -/
example : (KVFilter.combined .any [cf "key1" "value1" .incl, cf "key2" "value5" .incl]).applyToCourse
    courseMeta = true := by decide +kernel

/-- `apply_combined_any_filter_to_course_no_match`. -/
example : (KVFilter.combined .any [cf "key1" "value3" .incl, cf "key2" "value5" .incl]).applyToCourse
    courseMeta = false := by decide +kernel

/-- `apply_combined_any_filter_with_combined_filter_to_course`. -/
example : (KVFilter.combined .any [cf "key1" "value1" .incl, cf "key2" "value4" .incl,
    .combined .all [cf "key1" "value2" .incl]]).applyToCourse courseMeta = false := by decide +kernel

/-- `apply_combined_all_filter_to_lesson`. -/
example : (KVFilter.combined .all [cf "key1" "value1" .incl, lf "key3" "value6" .incl]).applyToLesson
    courseMeta lessonMeta = true := by decide +kernel

/-- `apply_combined_all_filter_to_lesson_no_match`. -/
example : (KVFilter.combined .all [cf "key1" "value8" .incl, lf "key3" "value6" .incl]).applyToLesson
    courseMeta lessonMeta = false := by decide +kernel

/-- `apply_combined_any_filter_to_lesson`. -/
example : (KVFilter.combined .any [cf "key1" "value1" .incl, lf "key3" "value1" .incl]).applyToLesson
    courseMeta lessonMeta = true := by decide +kernel

/-- `apply_combined_any_filter_to_lesson_no_match`. -/
example : (KVFilter.combined .any [cf "key1" "value8" .incl, lf "key3" "value2" .incl]).applyToLesson
    courseMeta lessonMeta = false := by decide +kernel

/-- The parts of `get_session_part`. -/
def parts : List (SessionPart Str) :=
  [.savedFilter (u "1") 1, .savedFilter (u "2") 1, .savedFilter (u "3") 1]

/-- `get_session_part`, for any start of the session and builds with and without overflow checks. -/
example (checked : Bool) (start : Int) :
    getPart checked ([] : List (SessionPart Str)) start start = some (.noFilter 0) ∧
    getPart checked parts start (start - 60) = some (.savedFilter (u "1") 1) ∧
    getPart checked parts start start = some (.savedFilter (u "1") 1) ∧
    getPart checked parts start (start + 60) = some (.savedFilter (u "2") 1) ∧
    getPart checked parts start (start + 120) = some (.savedFilter (u "3") 1) ∧
    getPart checked parts start (start + 30 * 60) = some (.savedFilter (u "3") 1) := by
  have e0 : start - 60 - start = -60 := by omega
  have e1 : start - start = 0 := by omega
  have e2 : start + 60 - start = 60 := by omega
  have e3 : start + 120 - start = 120 := by omega
  have e4 : start + 30 * 60 - start = 1800 := by omega
  simp only [getPart, parts, e0, e1, e2, e3, e4]
  cases checked <;> exact ⟨trivial, rfl, rfl, rfl, rfl, rfl⟩

end Trane.Conform.Filters
