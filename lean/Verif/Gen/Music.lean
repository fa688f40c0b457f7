import Verif.Gen.Ids

/-!
# Model of the music piece generator (/repo/src/data/course_generator/music_piece.rs)

The text of the exercise (`generate_exercise_asset`, lines 38-66) and the names of the manifests play
no part in the properties: they are the opaque values `lessonRest` and `asset start end`. -/

namespace Trane.Gen.Music
open Trane.Store Trane.Library Trane.Gen

/-- /repo/src/data/course_generator/music_piece.rs:73-88 `MusicPassage`.  The hash map of sub-passages
is the list of its entries in iteration order. -/
inductive Passage
  | mk (start stop : Str) (subs : List (Nat × Passage))

namespace Passage
/-- /repo/src/data/course_generator/music_piece.rs:73-88. -/
def start : Passage → Str | mk s _ _ => s
/-- /repo/src/data/course_generator/music_piece.rs:73-88. -/
def stop : Passage → Str | mk _ e _ => e
/-- /repo/src/data/course_generator/music_piece.rs:73-88. -/
def subs : Passage → List (Nat × Passage) | mk _ _ s => s
end Passage

variable {α γ : Type}

/-- /repo/src/data/course_generator/music_piece.rs:92-99 `generate_lesson_id`. -/
def lessonId (course : Str) (path : List Nat) : Str := tagged course (path.map dec)

/-- /repo/src/data/course_generator/music_piece.rs:134-145: the lesson manifest of a passage. -/
def lessonOf (course : Str) (lessonRest : α) (path : List Nat) (subs : List (Nat × Passage)) :
    LessonM α :=
  { id := lessonId course path
    courseId := course
    deps := subs.map (fun s => lessonId course (path ++ [s.1]))
    enc := []
    sup := []
    metadata := none
    rest := lessonRest }

/-- /repo/src/data/course_generator/music_piece.rs:146-154: the exercise manifest of a passage. -/
def exerciseOf (course : Str) (asset : Str → Str → α) (path : List Nat) (start stop : Str) :
    ExerciseM α :=
  { id := lessonId course path ++ "::exercise".toList
    lessonId := lessonId course path
    courseId := course
    rest := asset start stop }

mutual
/-- /repo/src/data/course_generator/music_piece.rs:111-158 `generate_lesson_helper`. -/
def helper (course : Str) (lessonRest : α) (asset : Str → Str → α) (path : List Nat) :
    Passage → List (LessonM α × List (ExerciseM α))
  | .mk start stop subs => helperSubs course lessonRest asset path subs ++
      [(lessonOf course lessonRest path subs, [exerciseOf course asset path start stop])]
/-- The loop over the sub-passages in /repo/src/data/course_generator/music_piece.rs:118-131. -/
def helperSubs (course : Str) (lessonRest : α) (asset : Str → Str → α) (path : List Nat) :
    List (Nat × Passage) → List (LessonM α × List (ExerciseM α))
  | [] => []
  | (i, p) :: rest => helper course lessonRest asset (path ++ [i]) p ++
      helperSubs course lessonRest asset path rest
end

/-- `generate_lessons` /repo/src/data/course_generator/music_piece.rs:162-169 and `generate_manifests` lines 186-201. -/
def generate (lessonRest : α) (asset : Str → Str → α) (p : Passage) (c : CourseM α γ) :
    Generated α :=
  { lessons := helper c.id lessonRest asset [0] p, metadata := none, instructions := none }

end Trane.Gen.Music
