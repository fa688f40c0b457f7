import Verif.Graph.DotProps

/-! Concrete drawings: the theorems of C75 are not vacuous, and what the drawings leave out. -/

namespace Trane.Graph

open Trane.Store (Str)

def dotA : Str := ['a']
def dotB : Str := ['b']
def dotL : Str := ['l']
def dotM : Str := ['m']

/-- Course `a` with lessons `l` and `m`, where `m` depends on `l`; course `b` depends on `a` and has
no lessons. -/
def dotSample : List (Op Str) :=
  [.addCourse dotB, .addCourse dotA, .addLesson dotM dotA, .addDependencies dotM .lesson [dotL],
   .addLesson dotL dotA, .addDependencies dotB .course [dotA], .updateStartingLessons]

example : generateDotGraph (run dotSample) false =
    ("digraph dependent_graph {\n    \"a\" [color=red, style=filled]\n    \"a\" -> \"b\"\n" ++
     "    \"a\" -> \"l\"\n    \"l\" [color=blue, style=filled]\n    \"l\" -> \"m\"\n" ++
     "    \"m\" [color=blue, style=filled]\n}\n").toList := by decide +kernel

example : generateDotGraph (run dotSample) true =
    "digraph dependent_graph {\n    \"a\" [color=red, style=filled]\n    \"a\" -> \"b\"\n}\n".toList := by
  decide +kernel

/-- The reading theorem applies to it. -/
example : ∀ x ∈ allLines (run dotSample) false, x.Plain := by
  have e : allLines (run dotSample) false =
      [.course dotA, .arrow dotA dotB, .arrow dotA dotL, .lesson dotL, .arrow dotL dotM,
       .lesson dotM] := by decide +kernel
  rw [e]
  simp [DotLine.Plain, dotA, dotB, dotL, dotM]

/-- The same graph built in another order gives the same answers. -/
example : generateDotGraph (run dotSample) false = generateDotGraph (run
    [.addLesson dotL dotA, .addLesson dotM dotA, .addCourse dotB,
     .addDependencies dotB .course [dotA], .addDependencies dotM .lesson [dotL],
     .updateStartingLessons]) false := by decide +kernel

/-- Course `b` without lessons, on which the course `a` depends. -/
def dotLonely : List (Op Str) :=
  [.addCourse dotB, .addCourse dotA, .addLesson dotL dotA, .addDependencies dotA .course [dotB],
   .updateStartingLessons]

/-- **C75, full statement fails.** A course without lessons gets no node, and the arrows to its
dependents are missing, although the graph reports them. -/
theorem course_without_lessons_not_drawn :
    (run dotLonely).getUnitType dotB = some .course ∧ HasDependent (run dotLonely) dotB dotA ∧
    ∃ lines, Shows (generateDotGraph (run dotLonely) false) lines ∧
      DotLine.course dotB ∉ lines ∧ DotLine.arrow dotB dotA ∉ lines := by
  refine ⟨by decide +kernel, ⟨[dotA], by decide +kernel, by decide⟩,
    allLines (run dotLonely) false, shows_allLines _ _, ?_⟩
  have e : allLines (run dotLonely) false =
      [.course dotA, .arrow dotA dotL, .lesson dotL] := by decide +kernel
  rw [e]
  decide

/-- An arrow is written twice if a starting lesson names its course as a dependency. -/
theorem arrow_written_twice : ∃ (ops : List (Op Str)) (lines : List DotLine),
    Shows (generateDotGraph (run ops) false) lines ∧ lines.count (.arrow dotA dotL) = 2 :=
  ⟨[.addLesson dotL dotA, .addDependencies dotL .lesson [dotA], .updateStartingLessons], _,
    shows_allLines _ _, by decide +kernel⟩

/-- An id with double quotes in it. -/
def dotQuotes : Str := "a\" [color=red, style=filled]\n    \"b".toList

/-- Ids are not escaped: two graphs with different courses have the same drawing. -/
theorem quotes_not_escaped : ∃ ops ops' : List (Op Str),
    generateDotGraph (run ops) true = generateDotGraph (run ops') true ∧
    HasLessons (run ops) dotA ∧ ¬ HasLessons (run ops') dotA := by
  refine ⟨[.addLesson dotL dotA, .addLesson dotM dotB], [.addLesson dotL dotQuotes],
    by decide +kernel, ⟨dotL, [dotL], by decide +kernel, by decide⟩, ?_⟩
  rintro ⟨l, s, h, -⟩
  have : (run [.addLesson dotL dotQuotes]).getCourseLessons dotA = none := by decide +kernel
  rw [this] at h; cases h

end Trane.Graph
