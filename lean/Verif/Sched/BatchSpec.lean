import Verif.Sched.Batch
import Verif.Sched.SearchProps
import Verif.Sched.KnockerProps
import Verif.Sched.CandidateFilterProps
import Verif.Sched.ShufflerProps

/-! # Vocabulary for the batch properties -/

namespace Trane.Batch
open Trane.Search
open Trane.CandidateFilter (IsSampler)

variable {ι : Type} [DecidableEq ι]

/-! ### Vocabulary -/

/-- The random choices do what the library functions promise: shuffles permute, samples take the requested
number of elements (or all, if there are fewer), each at most once, the set iterations list each lesson and
course of the candidates once, and course ids are compared by a total order. -/
structure IsChoices (ch : Choices ι) : Prop where
  rnds : ∀ i, IsRnd (ch.rnds i)
  pick : IsSampler ch.pick
  sample : ∀ n xs, (ch.sample n xs).Subperm xs ∧ (ch.sample n xs).length = min n xs.length
  shuffle : ∀ i l, (ch.shuffle i l).Perm l
  order : Shuffler.IsOrder ch.le
  starts : ∀ cs, Knocker.StartsOf cs (ch.starts cs)
  starts' : ∀ cs, Knocker.StartsOf cs (ch.starts' cs)

/-- The exercise, its lesson or the course of its lesson is blacklisted. -/
def Blacklisted (e : Env ι) (x : ι) : Prop :=
  e.black x = true ∨ ∃ l, e.graph.getExerciseLesson x = some l ∧
    (e.black l = true ∨ ∃ c, e.graph.getLessonCourse l = some c ∧ e.black c = true)

end Trane.Batch
