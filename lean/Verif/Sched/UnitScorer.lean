import Verif.Graph.Model
import Mathlib.Algebra.Order.Field.Basic
import Mathlib.Data.List.ReduceOption

/-!
# Unit scores and their caches

Models `/repo/src/scheduler/unit_scorer.rs` and the parts of `/repo/src/scheduler/data.rs` it uses.

* Numbers (`f32`) are elements of an arbitrary ordered field `R`.
* The stored data of an exercise (its trials and deltas) and of a unit (its rewards) are elements of
  abstract types `T` and `W`; `compute` is the pure part of `get_exercise_score`: it turns the stored
  data of the exercise, of its lesson and of its course into a score at time `now`.  (`ScoreInstance.lean`
  gives `compute` for the scorers of the repository.)
* `get_exercise_score` returns `Err` only if the trials are not sorted by time; trials come from the
  database sorted (C13), so exercise scores are total here.
* The recursion through superseding units need not terminate, so functions take fuel: `none` means
  that the fuel ran out (in Rust: the stack overflows if no fuel suffices).
* Blacklist queries never fail (C10), so `unwrap_or(false)` is dropped.
-/

namespace Trane.UnitScorer

/-- `CachedScore`, /repo/src/scheduler/unit_scorer.rs:22-35. -/
structure ExRec (R : Type) where
  score : R
  urgency : R
  velocity : Option R
  trials : Nat
  deriving DecidableEq

/-- What scores are computed from: the graph, the blacklist, the stored data, the clock and the options
(`SchedulerData`, /repo/src/scheduler/data.rs:20-61).  `dflt` is `Ustr::default()`. -/
structure World (ι R T W : Type) where
  graph : Graph ι
  black : ι → Bool
  stats : ι → T
  rewards : ι → W
  now : Int
  compute : ι → Int → T → W → W → ExRec R
  supScore : R
  dflt : ι

variable {ι R T W : Type} [DecidableEq ι] [Field R] [LinearOrder R]

namespace World

/-- The computation in `get_exercise_score`, /repo/src/scheduler/unit_scorer.rs:190-246: the rewards
come from the lesson of the exercise and from the course of that lesson. -/
def exRec (w : World ι R T W) (e : ι) : ExRec R :=
  let lesson := (w.graph.getExerciseLesson e).getD w.dflt
  let course := (w.graph.getLessonCourse lesson).getD w.dflt
  w.compute e w.now (w.stats e) (w.rewards lesson) (w.rewards course)

/-- `all_valid_exercises_in_lesson`, /repo/src/scheduler/data.rs:342-361. -/
def validInLesson (w : World ι R T W) (l : ι) : List ι :=
  if w.black l then []
  else if w.black ((w.graph.getLessonCourse l).getD w.dflt) then []
  else ((w.graph.getLessonExercises l).getD []).filter (fun e => !w.black e)

/-- `all_valid_exercises`, /repo/src/scheduler/data.rs:365-399. -/
def allValid (w : World ι R T W) (u : ι) : List ι :=
  match w.graph.getUnitType u with
  | none => []
  | some .exercise => if w.black u then [] else [u]
  | some .lesson => w.validInLesson u
  | some .course =>
    if w.black u then []
    else ((w.graph.getCourseLessons u).getD []).flatMap (fun l => w.validInLesson l)

end World

/-- The mean of a list, `sum / len as f32`. As in /repo/src/scheduler/unit_scorer.rs:511-512. -/
def mean (xs : List R) : R := xs.sum / (xs.length : R)

/-- `iter().filter(..)` with an effectful predicate. As in /repo/src/scheduler/unit_scorer.rs:321-336. -/
def keepM {m : Type → Type} [Monad m] {α : Type} (p : α → m Bool) : List α → m (List α)
  | [] => pure []
  | x :: xs => do
    let b ← p x
    let ys ← keepM p xs
    return if b then x :: ys else ys

/-! ### Scores computed from scratch (the specification) -/

/-- `all_valid_exercises_have_scores`, /repo/src/scheduler/unit_scorer.rs:321-336, without caches. -/
def seenP (w : World ι R T W) (u : ι) : Bool :=
  (w.allValid u).all (fun e => decide ((w.exRec e).score > 0))

/-- `is_superseded`, /repo/src/scheduler/unit_scorer.rs:340-359, without caches; `f` computes the score
of a unit. -/
def supersededP (w : World ι R T W) (f : ι → Option (Option R)) (u : ι) (ids : List ι) :
    Option Bool :=
  if ids.isEmpty then some false
  else if !seenP w u then some false
  else do
    let vs ← ids.mapM f
    return vs.reduceOption.all (fun s => decide (s ≥ w.supScore))

/-- `replace_superseding`, /repo/src/scheduler/unit_scorer.rs:363-381, without caches. -/
def replaceP (w : World ι R T W) (f : ι → Option (Option R)) : Nat → List ι → Option (List ι)
  | 0, _ => none
  | n + 1, ids => ids.foldlM (init := []) (fun acc id =>
      match w.graph.getSupersededBy id with
      | some s => do
        let b ← supersededP w f id s
        if b then
          let r ← replaceP w f n s
          return extendSet acc r
        else return acc.insert id
      | none => some (acc.insert id))

/-- The superseding check of lessons and courses, /repo/src/scheduler/unit_scorer.rs:407-414 and 471-478,
without caches. -/
def checkP (w : World ι R T W) (f : ι → Option (Option R)) (n : Nat) (u : ι) : Option Bool :=
  match w.graph.getSupersededBy u with
  | none => some false
  | some ids => do
    let ids' ← replaceP w f n ids
    supersededP w f u ids'

/-- The average in `get_lesson_score`, /repo/src/scheduler/unit_scorer.rs:417-447. -/
def lessonMean (w : World ι R T W) (l : ι) : Option R :=
  match w.graph.getLessonExercises l with
  | none => none
  | some es =>
    let valid := es.filter (fun e => !w.black e)
    if valid.isEmpty then none else some (mean (valid.map (fun e => (w.exRec e).score)))

/-- `get_lesson_score`, /repo/src/scheduler/unit_scorer.rs:391-453, without caches. -/
def lessonP (w : World ι R T W) (f : ι → Option (Option R)) (n : Nat) (l : ι) :
    Option (Option R) :=
  if w.black l then some none
  else do
    let b ← checkP w f n l
    if b then return none else return lessonMean w l

/-- `get_course_score`, /repo/src/scheduler/unit_scorer.rs:456-522, without caches. -/
def courseP (w : World ι R T W) (f : ι → Option (Option R)) (n : Nat) (c : ι) :
    Option (Option R) :=
  if w.black c then some none
  else do
    let b ← checkP w f n c
    if b then return none
    else
      match w.graph.getCourseLessons c with
      | none => return none
      | some ls =>
        let vs ← ls.mapM (lessonP w f n)
        let valid := vs.reduceOption
        if valid.isEmpty then return none else return some (mean valid)

/-- `get_unit_score`, /repo/src/scheduler/unit_scorer.rs:527-540, without caches; a unit without type
(an `Err` there) has no score. -/
def scoreP (w : World ι R T W) : Nat → ι → Option (Option R)
  | 0, _ => none
  | n + 1, u =>
    match w.graph.getUnitType u with
    | none => some none
    | some .exercise => some (some (w.exRec u).score)
    | some .lesson => lessonP w (scoreP w n) n u
    | some .course => courseP w (scoreP w n) n u

/-- `get_lesson_num_trials`, /repo/src/scheduler/unit_scorer.rs:543-580, without caches. -/
def lessonTrialsP (w : World ι R T W) (l : ι) : Option R :=
  match w.graph.getLessonExercises l with
  | none => none
  | some es =>
    let valid := es.filter (fun e => !w.black e)
    if valid.isEmpty then none
    else some (mean (valid.map (fun e => ((w.exRec e).trials : R))))

/-- `get_course_num_trials`, /repo/src/scheduler/unit_scorer.rs:583-627, without caches. -/
def courseTrialsP (w : World ι R T W) (n : Nat) (c : ι) : Option (Option R) := do
  let ls ← keepM (fun l => do
    let b ← checkP w (scoreP w n) n l
    return !w.black l && !b) ((w.graph.getCourseLessons c).getD [])
  let vs := (ls.map (lessonTrialsP w)).reduceOption
  if vs.isEmpty then return none else return some (mean vs)

/-! ### The code with its caches -/

/-- The five caches of `UnitScorer`, /repo/src/scheduler/unit_scorer.rs:39-54. -/
structure Caches (ι R : Type) where
  ex : AMap ι (ExRec R) := []
  les : AMap ι (Option R) := []
  cou : AMap ι (Option R) := []
  lesT : AMap ι (Option R) := []
  couT : AMap ι (Option R) := []

/-- Computations that read and write the caches and may run out of fuel. /repo/src/scheduler/unit_scorer.rs:39-54. -/
abbrev M (ι R : Type) := StateT (Caches ι R) Option

/-- `get_exercise_score`, /repo/src/scheduler/unit_scorer.rs:179-247: cached, or computed and cached. -/
def exC (w : World ι R T W) (e : ι) : M ι R (ExRec R) := fun c =>
  match c.ex.find e with
  | some r => some (r, c)
  | none => some (w.exRec e, { c with ex := c.ex.put e (w.exRec e) })

/-- `all_valid_exercises_have_scores`, /repo/src/scheduler/unit_scorer.rs:321-336. -/
def seenC (w : World ι R T W) (u : ι) : M ι R Bool := do
  let rs ← (w.allValid u).mapM (exC w)
  return rs.all (fun r => decide (r.score > 0))

/-- `is_superseded`, /repo/src/scheduler/unit_scorer.rs:340-359. -/
def supersededC (w : World ι R T W) (f : ι → M ι R (Option R)) (u : ι) (ids : List ι) :
    M ι R Bool :=
  if ids.isEmpty then return false
  else do
    let b ← seenC w u
    if !b then return false
    else
      let vs ← ids.mapM f
      return vs.reduceOption.all (fun s => decide (s ≥ w.supScore))

/-- `replace_superseding`, /repo/src/scheduler/unit_scorer.rs:363-381. -/
def replaceC (w : World ι R T W) (f : ι → M ι R (Option R)) : Nat → List ι → M ι R (List ι)
  | 0, _ => fun _ => none
  | n + 1, ids => ids.foldlM (init := []) (fun acc id =>
      match w.graph.getSupersededBy id with
      | some s => do
        let b ← supersededC w f id s
        if b then
          let r ← replaceC w f n s
          return extendSet acc r
        else return acc.insert id
      | none => return acc.insert id)

/-- `get_superseding_recursive` followed by `is_superseded`,
/repo/src/scheduler/unit_scorer.rs:385-388, 407-414 and 471-478. -/
def checkC (w : World ι R T W) (f : ι → M ι R (Option R)) (n : Nat) (u : ι) : M ι R Bool :=
  match w.graph.getSupersededBy u with
  | none => return false
  | some ids => do
    let ids' ← replaceC w f n ids
    supersededC w f u ids'

/-- Stores a value in the lesson cache and returns it. /repo/src/scheduler/unit_scorer.rs:449-452. -/
def storeLes (l : ι) (v : Option R) : M ι R (Option R) := fun c =>
  some (v, { c with les := c.les.put l v })

/-- Stores a value in the course cache and returns it. /repo/src/scheduler/unit_scorer.rs:518-521. -/
def storeCou (u : ι) (v : Option R) : M ι R (Option R) := fun c =>
  some (v, { c with cou := c.cou.put u v })

/-- The average in `get_lesson_score`, /repo/src/scheduler/unit_scorer.rs:417-447. -/
def lessonMeanC (w : World ι R T W) (l : ι) : M ι R (Option R) :=
  match w.graph.getLessonExercises l with
  | none => return none
  | some es =>
    let valid := es.filter (fun e => !w.black e)
    if valid.isEmpty then return none
    else do
      let rs ← valid.mapM (exC w)
      return some (mean (rs.map (fun r => r.score)))

/-- `get_lesson_score` after the cache lookup, /repo/src/scheduler/unit_scorer.rs:398-453. -/
def lessonBody (w : World ι R T W) (f : ι → M ι R (Option R)) (n : Nat) (l : ι) :
    M ι R (Option R) :=
  if w.black l then storeLes l none
  else do
    let b ← checkC w f n l
    if b then storeLes l none
    else
      let v ← lessonMeanC w l
      storeLes l v

/-- `get_lesson_score`, /repo/src/scheduler/unit_scorer.rs:391-453. -/
def lessonC (w : World ι R T W) (f : ι → M ι R (Option R)) (n : Nat) (l : ι) :
    M ι R (Option R) := fun c =>
  match c.les.find l with
  | some v => some (v, c)
  | none => lessonBody w f n l c

/-- `get_course_score` after the cache lookup, /repo/src/scheduler/unit_scorer.rs:463-522.  When no lesson
has a score the function returns early and nothing is cached. -/
def courseBody (w : World ι R T W) (f : ι → M ι R (Option R)) (n : Nat) (u : ι) :
    M ι R (Option R) :=
  if w.black u then storeCou u none
  else do
    let b ← checkC w f n u
    if b then storeCou u none
    else
      match w.graph.getCourseLessons u with
      | none => storeCou u none
      | some ls =>
        let vs ← ls.mapM (lessonC w f n)
        let valid := vs.reduceOption
        if valid.isEmpty then return none else storeCou u (some (mean valid))

/-- `get_course_score`, /repo/src/scheduler/unit_scorer.rs:456-522. -/
def courseC (w : World ι R T W) (f : ι → M ι R (Option R)) (n : Nat) (u : ι) :
    M ι R (Option R) := fun c =>
  match c.cou.find u with
  | some v => some (v, c)
  | none => courseBody w f n u c

/-- `get_unit_score`, /repo/src/scheduler/unit_scorer.rs:527-540.  A unit without type (an `Err` there)
has no score. -/
def scoreC (w : World ι R T W) : Nat → ι → M ι R (Option R)
  | 0, _ => fun _ => none
  | n + 1, u =>
    match w.graph.getUnitType u with
    | none => return none
    | some .exercise => do
      let r ← exC w u
      return some r.score
    | some .lesson => lessonC w (scoreC w n) n u
    | some .course => courseC w (scoreC w n) n u

/-- Stores a value in the cache of lesson trials and returns it. /repo/src/scheduler/unit_scorer.rs:576-579. -/
def storeLesT (l : ι) (v : Option R) : M ι R (Option R) := fun c =>
  some (v, { c with lesT := c.lesT.put l v })

/-- Stores a value in the cache of course trials and returns it. /repo/src/scheduler/unit_scorer.rs:623-626. -/
def storeCouT (u : ι) (v : Option R) : M ι R (Option R) := fun c =>
  some (v, { c with couT := c.couT.put u v })

/-- `get_lesson_num_trials` after the cache lookup, /repo/src/scheduler/unit_scorer.rs:549-580. -/
def lessonTrialsBody (w : World ι R T W) (l : ι) : M ι R (Option R) :=
  match w.graph.getLessonExercises l with
  | none => return none
  | some es => do
    let rs ← (es.filter (fun e => !w.black e)).mapM (exC w)
    storeLesT l (if rs.isEmpty then none else some (mean (rs.map (fun r => (r.trials : R)))))

/-- `get_lesson_num_trials`, /repo/src/scheduler/unit_scorer.rs:543-580. -/
def lessonTrialsC (w : World ι R T W) (l : ι) : M ι R (Option R) := fun c =>
  match c.lesT.find l with
  | some v => some (v, c)
  | none => lessonTrialsBody w l c

/-- `get_course_num_trials` after the cache lookup, /repo/src/scheduler/unit_scorer.rs:589-627. -/
def courseTrialsBody (w : World ι R T W) (n : Nat) (u : ι) : M ι R (Option R) := do
  let ls ← keepM (fun l => do
    let b ← checkC w (scoreC w n) n l
    return !w.black l && !b) ((w.graph.getCourseLessons u).getD [])
  let vs ← ls.mapM (lessonTrialsC w)
  storeCouT u (if vs.reduceOption.isEmpty then none else some (mean vs.reduceOption))

/-- `get_course_num_trials`, /repo/src/scheduler/unit_scorer.rs:583-627. -/
def courseTrialsC (w : World ι R T W) (n : Nat) (u : ι) : M ι R (Option R) := fun c =>
  match c.couT.find u with
  | some v => some (v, c)
  | none => courseTrialsBody w n u c

/-! ### Invalidation -/

/-- `cache.remove(&k)` for each `k` of a list. As in /repo/src/scheduler/unit_scorer.rs:103-147. -/
def delAll {ν : Type} (m : AMap ι ν) (ks : List ι) : AMap ι ν := ks.foldl (fun m k => m.del k) m

/-- `invalidate_cached_score`, /repo/src/scheduler/unit_scorer.rs:101-155. -/
def invalidate (g : Graph ι) (c : Caches ι R) (u : ι) : Caches ι R :=
  let c : Caches ι R :=
    { ex := c.ex.del u, les := c.les.del u, cou := c.cou.del u, lesT := c.lesT.del u,
      couT := c.couT.del u }
  match g.getUnitType u with
  | some .exercise =>
    match g.getExerciseLesson u with
    | none => c
    | some l =>
      let c := { c with les := c.les.del l, lesT := c.lesT.del l }
      match g.getLessonCourse l with
      | none => c
      | some co => { c with cou := c.cou.del co, couT := c.couT.del co }
  | some .lesson =>
    let c := match g.getLessonCourse u with
      | none => c
      | some co => { c with cou := c.cou.del co, couT := c.couT.del co }
    { c with ex := delAll c.ex ((g.getLessonExercises u).getD []) }
  | some .course =>
    let ls := (g.getCourseLessons u).getD []
    { c with
      les := delAll c.les ls
      lesT := delAll c.lesT ls
      ex := delAll c.ex (ls.flatMap (fun l => (g.getLessonExercises l).getD [])) }
  | none => c

/-- `invalidate_cached_scores_with_prefix`, /repo/src/scheduler/unit_scorer.rs:158-176; `hasPrefix` is
`unit_id.starts_with(prefix)`. -/
def invalidatePrefix (hasPrefix : ι → Bool) (c : Caches ι R) : Caches ι R where
  ex := c.ex.filter (fun e => !hasPrefix e.1)
  les := c.les.filter (fun e => !hasPrefix e.1)
  cou := c.cou.filter (fun e => !hasPrefix e.1)
  lesT := c.lesT.filter (fun e => !hasPrefix e.1)
  couT := c.couT.filter (fun e => !hasPrefix e.1)

end Trane.UnitScorer
