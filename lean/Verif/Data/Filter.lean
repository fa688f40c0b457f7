import Verif.Base
import Verif.Store.Like

/-!
# Metadata filters and study sessions

Models the filter part of `/repo/src/data/filter.rs`.
-/

namespace Trane.Filters
open Trane.Store (Str)

/-- `FilterOp`, /repo/src/data/filter.rs:21-27. -/
inductive FilterOp | all | any
  deriving DecidableEq

/-- `FilterType`, /repo/src/data/filter.rs:31-37. -/
inductive FilterType | incl | excl
  deriving DecidableEq

/-- `BTreeMap<String, Vec<String>>`; a missing metadata section is the empty map. /repo/src/data.rs:211 and 413. -/
abbrev Metadata := AMap Str (List Str)

/-- `KeyValueFilter`, /repo/src/data/filter.rs:41-74. -/
inductive KVFilter
  | course (key value : Str) (t : FilterType)
  | lesson (key value : Str) (t : FilterType)
  | combined (op : FilterOp) (filters : List KVFilter)

/-- `matches!(f, KeyValueFilter::CourseFilter { .. })`, /repo/src/data/filter.rs:118. -/
def KVFilter.isCourse : KVFilter → Bool
  | .course _ _ _ => true
  | _ => false

/-- `passes_filter`, /repo/src/data/filter.rs:79-92. -/
def passesFilter (m : Metadata) (key value : Str) (t : FilterType) : Bool :=
  let contains := match AMap.find m key with
    | none => false
    | some values => values.any (fun v => v = value)
  match t with
  | .incl => contains
  | .excl => !contains

mutual
/-- `apply_to_course`, /repo/src/data/filter.rs:95-156. -/
def KVFilter.applyToCourse (cm : Metadata) : KVFilter → Bool
  | .course key value t => passesFilter cm key value t
  | .lesson _ _ _ => false
  | .combined op filters =>
    let courseResult := match op with
      | .all => allCourse cm true filters
      | .any => anyCourse cm true filters
    let otherResult := match op with
      | .all => allCourse cm false filters
      | .any => anyCourse cm false filters
    if filters.all KVFilter.isCourse then courseResult
    else match op with
      | .all => courseResult && otherResult
      | .any => false
/-- `….filter(…).all(|f| f.apply_to_course(…))` over the course filters (`pick = true`) or the other
filters (`pick = false`), /repo/src/data/filter.rs:115-141. -/
def allCourse (cm : Metadata) (pick : Bool) : List KVFilter → Bool
  | [] => true
  | f :: fs => (if f.isCourse == pick then f.applyToCourse cm else true) && allCourse cm pick fs
/-- The same with `any`. /repo/src/data/filter.rs:95-157. -/
def anyCourse (cm : Metadata) (pick : Bool) : List KVFilter → Bool
  | [] => false
  | f :: fs => (if f.isCourse == pick then f.applyToCourse cm else false) || anyCourse cm pick fs
end

mutual
/-- `apply_to_lesson`, /repo/src/data/filter.rs:160-198. -/
def KVFilter.applyToLesson (cm lm : Metadata) : KVFilter → Bool
  | .course key value t => passesFilter cm key value t
  | .lesson key value t => passesFilter lm key value t
  | .combined .all filters => allLesson cm lm filters
  | .combined .any filters => anyLesson cm lm filters
/-- `filters.iter().all(|f| f.apply_to_lesson(…))`. /repo/src/data/filter.rs:160-200. -/
def allLesson (cm lm : Metadata) : List KVFilter → Bool
  | [] => true
  | f :: fs => f.applyToLesson cm lm && allLesson cm lm fs
/-- `filters.iter().any(|f| f.apply_to_lesson(…))`. /repo/src/data/filter.rs:160-200. -/
def anyLesson (cm lm : Metadata) : List KVFilter → Bool
  | [] => false
  | f :: fs => f.applyToLesson cm lm || anyLesson cm lm fs
end

/-! ### Unit filters -/

/-- `UnitFilter`, /repo/src/data/filter.rs:203-235. -/
inductive UnitFilter (ι : Type)
  | courses (ids : List ι)
  | lessons (ids : List ι)
  | metadata (filter : KVFilter)
  | reviewList
  | dependents (ids : List ι)
  | dependencies (ids : List ι) (depth : Nat)

/-! ### Study sessions -/

/-- `SessionPart`, /repo/src/data/filter.rs:280-303. -/
inductive SessionPart (ι : Type)
  | unitFilter (filter : UnitFilter ι) (duration : Nat)
  | savedFilter (id : Str) (duration : Nat)
  | noFilter (duration : Nat)

/-- `SessionPart::duration`, /repo/src/data/filter.rs:308-314. -/
def SessionPart.duration {ι : Type} : SessionPart ι → Nat
  | .unitFilter _ d => d
  | .savedFilter _ d => d
  | .noFilter d => d

/-- The range of `u32`. /repo/src/data/filter.rs:287. -/
def u32Size : Nat := 2 ^ 32

/-- The loop in /repo/src/data/filter.rs:362-370.  `checked` says whether the build has overflow
checks: `none` is the panic of the `u32` addition; without checks the sum wraps around. -/
def findPart {ι : Type} (checked : Bool) (minutes : Nat) (last : SessionPart ι) :
    Nat → List (SessionPart ι) → Option (SessionPart ι)
  | _, [] => some last
  | len, p :: ps =>
    if checked && decide (u32Size ≤ len + p.duration) then none
    else
      let len := (len + p.duration) % u32Size
      if minutes < len then some p else findPart checked minutes last len ps

/-- `get_part`, /repo/src/data/filter.rs:348-372.  Times are in seconds; `num_minutes` truncates
toward zero; `as u32` reduces modulo 2³². -/
def getPart {ι : Type} (checked : Bool) (parts : List (SessionPart ι)) (start time : Int) :
    Option (SessionPart ι) :=
  match parts with
  | [] => some (.noFilter 0)
  | first :: rest =>
    let minutes := (time - start).tdiv 60
    if minutes < 0 then some first
    else findPart checked (minutes.toNat % u32Size) (rest.getLastD first) 0 (first :: rest)

/-- `get_session_filter`, /repo/src/scheduler/data.rs:325-338; `none` is the error for a missing saved
filter. -/
def sessionFilter {ι : Type} (saved : Str → Option (UnitFilter ι)) :
    SessionPart ι → Option (Option (UnitFilter ι))
  | .noFilter _ => some none
  | .unitFilter f _ => some (some f)
  | .savedFilter id _ => (saved id).map some

end Trane.Filters
