import Verif.Gen.BuilderCourse

/-!
# C73: a sample course, and what the builders do not guarantee
-/

namespace Trane.Gen.Builder
open Trane.Store Trane.Library Trane.Gen Trane.Filters Trane.Gen.Knowledge

/-- A way of reading files: only as text. -/
def asText (t : Str) : Content := { md := some t }

theorem plain_asset {n : Str}
    (h : classify n = none ∨ classify n = some .instr ∨ classify n = some .material) :
    ∀ k : File, n = k.fileName → k = .instr ∨ k = .material := by
  intro k hk
  by_cases ht : Taken k
  · exfalso
    have : n = File.fileName .name ∨ n = File.fileName .descr := by
      rcases ht with rfl | rfl
      · exact Or.inl (hk.trans (by decide +kernel))
      · exact Or.inr (hk.trans (by decide +kernel))
    rcases this with rfl | rfl
    · exact absurd h (by decide +kernel)
    · exact absurd h (by decide +kernel)
  · rw [(classify_iff n k).2 ⟨hk, ht⟩] at h
    rcases h with h | h | h
    · cases h
    · injection h with h; exact Or.inl h
    · injection h with h; exact Or.inr h

/-- A course with two lessons. -/
def sample : SimpleCourse Str Nat :=
  { manifest := sampleCourse
    enc := [("other".toList, 1)]
    lessons :=
      [ { shortId := "basics".toList
          exercises := [ { shortId := "q1".toList, front := ["1 +".toList, "1?".toList],
                           back := ["2".toList] },
                         { shortId := "q2".toList, front := ["Say 3".toList] } ]
          additional := [ ⟨"lesson.instructions.md".toList, "Count.".toList⟩,
                          ⟨"notes.txt".toList, "n".toList⟩ ] },
        { shortId := "more".toList
          deps := ["basics".toList, "other".toList]
          exercises := [ { shortId := "q1".toList, front := ["2 + 2?".toList] } ] } ] }

/-- A directory with an older version of one of the lessons. -/
def sampleRoot : CourseDir Str Nat :=
  { dirs := [("more.lesson".toList, [("q0.front.md".toList, asText "old".toList)]), ("images".toList, [])] }

theorem sample_tidy : ∀ l ∈ sample.lessons, SimpleTidy l := by
  intro l hl
  unfold sample at hl
  simp only [List.mem_cons, List.not_mem_nil, or_false] at hl
  rcases hl with rfl | rfl
  · refine ⟨by decide +kernel, by decide +kernel, ?_⟩
    intro a ha
    simp only [List.mem_cons, List.not_mem_nil, or_false] at ha
    rcases ha with rfl | rfl
    · exact plain_asset (by decide +kernel)
    · exact plain_asset (by decide +kernel)
  · refine ⟨by decide +kernel, by decide +kernel, ?_⟩
    intro a ha
    cases ha

theorem sample_valid : ValidIds sample := by unfold ValidIds; decide +kernel

theorem sample_names : ∀ l ∈ sample.lessons, ∀ n ∈ fileNames l, PlainName n := by
  unfold PlainName; decide +kernel

theorem sample_builds : (buildSimple asText sampleRoot sample).2 = true :=
  (builds_iff_partial sampleRoot sample sample_names).2 ⟨sample_valid, by decide +kernel⟩

theorem sample_stale (s : Str) (h : ∃ d, sampleRoot.dirs.find (s ++ ".lesson".toList) = some d) :
    ∃ l ∈ sample.lessons, l.shortId = s := by
  obtain ⟨d, h⟩ := h
  unfold sampleRoot at h
  unfold AMap.find at h
  split at h
  · rename_i he
    refine ⟨_, List.mem_cons_of_mem _ List.mem_cons_self, ?_⟩
    exact List.append_cancel_right (bs := ".lesson".toList)
      ((show "more".toList ++ ".lesson".toList = "more.lesson".toList by decide +kernel).trans he)
  · unfold AMap.find at h
    split at h
    · rename_i he
      have h3 : (s ++ ".lesson".toList).getLast? = "images".toList.getLast? := congrArg List.getLast? he.symm
      have h4 : ".lesson".toList.getLast? = some 'n' := rfl
      rw [List.getLast?_append, h4, Option.some_or] at h3
      exact absurd h3 (by decide +kernel)
    · cases h

theorem sample_sane : Sane sampleRoot.dirs := by
  refine ⟨by decide +kernel, ?_⟩
  intro n d h
  have := AMap.mem_of_find h
  unfold sampleRoot at this
  simp only [List.mem_cons, List.not_mem_nil, or_false, Prod.mk.injEq] at this
  rcases this with ⟨_, rfl⟩ | ⟨_, rfl⟩ <;> decide +kernel

/-- The hypotheses of `simple_round_trip` hold for the sample. -/
example : ∃ m g, (buildSimple asText sampleRoot sample).1.manifest = some m ∧
    generate sampleRest true id id (listing (buildSimple asText sampleRoot sample).1) m = some g ∧
    m.enc = [("other".toList, 1)] ∧
    ∃ ls, ls.Perm sample.lessons ∧ List.Forall₂ (fun l y =>
      SimpleLessonBuilt sampleRest true "kb".toList ["basics".toList, "more".toList] l y.1 y.2)
        ls g.lessons := by
  obtain ⟨m, g, h1, h2, h3, _, _, h4⟩ := simple_round_trip (parse := asText) (fun _ => rfl) sampleRest true
    id id (fun _ => .refl _) (fun _ => .refl _) sampleRoot _ sample_sane sample sample_tidy
    (fun s h _ => sample_stale s h) (Prod.ext rfl sample_builds :
      buildSimple asText sampleRoot sample = ((buildSimple asText sampleRoot sample).1, true))
  refine ⟨m, g, h1, h3, ?_, h4⟩
  rw [h2]
  rfl

/-- What is generated: the stale exercise `q0` is gone. -/
example : (generate sampleRest true id id (listing (buildSimple asText sampleRoot sample).1) sampleCourse).map
    (fun g => g.lessons.map (fun x => (x.1.id, x.1.deps, x.2.map (·.id)))) =
    some [("kb::more".toList, ["kb::basics".toList, "other".toList], ["kb::more::q1".toList]),
      ("kb::basics".toList, [], ["kb::basics::q1".toList, "kb::basics::q2".toList])] := by
  decide +kernel

/-- Two lessons with the same short id are rejected before anything is written. -/
example : ¬ ValidIds { sample with lessons := sample.lessons ++ sample.lessons } := by
  unfold ValidIds; decide +kernel

/-- The hypotheses of `course_round_trip` hold for a builder that uses every property file. -/
def fullLesson : LessonB :=
  { shortId := "full".toList, deps := ["a".toList], enc := [("b".toList, 1/2)], sup := ["c".toList]
    name := some "Full".toList, descr := some "All of it".toList, metadata := some []
    defaultType := some "Declarative".toList
    exercises := [ { shortId := "q".toList, name := some "Q".toList, descr := some "d".toList
                     type := some "Procedural".toList
                     assets := [⟨"q.front.md".toList, "?".toList⟩, ⟨"q.back.md".toList, "!".toList⟩] } ]
    assets := [⟨"lesson.material.md".toList, "m".toList⟩] }

theorem full_tidy : Tidy fullLesson := by
  refine ⟨by decide +kernel, ?_, by decide +kernel, ?_⟩
  · intro a ha
    unfold fullLesson at ha
    rw [List.mem_singleton] at ha
    subst ha
    exact plain_asset (by decide +kernel)
  · intro e he
    unfold fullLesson at he
    rw [List.mem_singleton] at he
    subst he
    refine ⟨by decide +kernel, by decide +kernel, ⟨"?".toList, some "!".toList, ?_⟩, ?_⟩
    · unfold FlashCard; decide +kernel
    · intro h; exact absurd h (by decide +kernel)

example : ∃ d g, (buildCourse asText false [fullLesson] sampleCourse).1 = some d ∧
    generate sampleRest true id id (listing d) sampleCourse = some g ∧
    ∃ ls, ls.Perm [fullLesson] ∧ List.Forall₂ (fun l y =>
      LessonBuilt sampleRest true "kb".toList ["full".toList] l y.1 y.2) ls g.lessons := by
  obtain ⟨d, g, h1, _, h3, _, _, h4⟩ := course_round_trip (parse := asText) (fun _ => rfl) sampleRest true
    id id (fun _ => .refl _) (fun _ => .refl _) false [fullLesson] sampleCourse (by decide +kernel)
    (fun l hl => by rw [List.mem_singleton] at hl; subst hl; exact full_tidy)
    (buildCourse asText false [fullLesson] sampleCourse).1
    (Prod.ext rfl (by decide +kernel))
  exact ⟨d, g, h1, h3, h4⟩

/-! ### What is not guaranteed -/

/-- The ids of the lessons and exercises that are generated. -/
def generatedIds (c : CourseDir Str Nat) : Option (List (Str × List Str)) :=
  (generate sampleRest false id id (listing c) sampleCourse).map
    (fun g => g.lessons.map (fun x => (x.1.id, x.2.map (·.id))))

/-- The sample without its second lesson. -/
def shorter : SimpleCourse Str Nat := { sample with lessons := sample.lessons.take 1 }

/-- **C73 fails for removed lessons**: a lesson dropped from the configuration stays in the course after
building again. -/
theorem removed_lesson_stays :
    (buildSimple asText (buildSimple asText {} sample).1 shorter).2 = true ∧
    generatedIds (buildSimple asText (buildSimple asText {} sample).1 shorter).1 =
      some [("kb::basics".toList, ["kb::basics::q1".toList, "kb::basics::q2".toList]),
        ("kb::more".toList, ["kb::more::q1".toList])] := by decide +kernel

/-- A course whose only lesson has an exercise and a further file of the same name. -/
def clashing : SimpleCourse Str Nat :=
  { manifest := sampleCourse
    lessons := [ { shortId := "more".toList
                   exercises := [ { shortId := "q1".toList, front := ["?".toList] } ]
                   additional := [⟨"q1.front.md".toList, "!".toList⟩] } ] }

/-- **A failed build loses what was there**: the directory of a lesson is removed before it is known
whether the new one can be written. -/
theorem failed_build_loses_files :
    (buildSimple asText sampleRoot clashing).2 = false ∧
    (sampleRoot.dirs.find "more.lesson".toList).map AMap.keys = some ["q0.front.md".toList] ∧
    ((buildSimple asText sampleRoot clashing).1.dirs.find "more.lesson".toList).map AMap.keys =
      some ["q1.front.md".toList] := by decide +kernel

/-- A course with a slash in the short id of an exercise. -/
def slashed : SimpleCourse Str Nat :=
  { manifest := sampleCourse
    lessons := [ { shortId := "l".toList
                   exercises := [ { shortId := "a/b".toList, front := ["?".toList] } ] } ] }

/-- **Exercises with a slash in their short id are lost**: building succeeds and the course has no such
exercise. -/
theorem slash_exercise_lost : (buildSimple asText {} slashed).2 = true ∧
    generatedIds (buildSimple asText {} slashed).1 = some [("kb::l".toList, [])] := by decide +kernel

/-- A course whose further files include the dependencies of its lesson. -/
def overriding : SimpleCourse Str Nat :=
  { manifest := sampleCourse
    lessons := [ { shortId := "l".toList, deps := ["a".toList]
                   additional := [⟨"lesson.dependencies.json".toList, "[\"b\"]".toList⟩] } ] }

/-- **A property file replaces a further file of the same name**, without an error. -/
theorem property_replaces_file : (buildSimple asText {} overriding).2 = true ∧
    (((buildSimple asText {} overriding).1.dirs.find "l.lesson".toList).bind
      (fun d => d.find "lesson.dependencies.json".toList)).map (fun ct => (ct.md, ct.ids)) =
      some (none, some ["a".toList]) := by decide +kernel

/-- An exercise with a front only. -/
def frontOnly (x : Str) (name : Option Str := none) : ExerciseB :=
  { shortId := x, name := name, assets := [⟨x ++ ".front.md".toList, "?".toList⟩] }

/-- Two lessons with the same short id. -/
def twins : List LessonB :=
  [ { shortId := "l".toList, exercises := [frontOnly "a".toList] },
    { shortId := "l".toList, exercises := [frontOnly "b".toList] } ]

/-- **Lessons with the same short id are merged** by the general builder, which checks nothing. -/
theorem same_id_merges : (buildCourse asText false twins sampleCourse).2 = true ∧
    (buildCourse asText false twins sampleCourse).1.bind generatedIds =
      some [("kb::l".toList, ["kb::l::a".toList, "kb::l::b".toList])] := by decide +kernel

/-- A lesson with an exercise called `lesson`. -/
def confused : List LessonB :=
  [ { shortId := "l".toList, exercises := [frontOnly "lesson".toList (some "Ex".toList)] } ]

/-- **The name of an exercise called `lesson` becomes the name of the lesson.** -/
theorem lesson_exercise_names_lesson :
    (generate sampleRest false id id
      (listing ((buildCourse asText false confused sampleCourse).1.getD {})) sampleCourse).map
        (fun g => g.lessons.map (fun x => (x.1.rest, x.2.map (·.rest)))) =
    some [("Ex".toList, ["Exercise lesson".toList])] := by decide +kernel

end Trane.Gen.Builder
