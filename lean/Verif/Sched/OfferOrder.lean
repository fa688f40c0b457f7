import Verif.Sched.SearchProps
import Verif.Library.Shuffle

/-!
# C106: what a search can offer depends on the relations between the units, not on the order of the sets
-/

namespace Trane.Search
open Trane.Graph
open Trane.Filters (KVFilter UnitFilter Metadata)
open Trane.Library (Both)

variable {ι : Type} [DecidableEq ι]

/-! ### Specification -/

/-- The two graphs have the same units, with the same contents and dependencies. -/
structure SameUnits (g g' : Graph ι) : Prop where
  type : ∀ u, g'.getUnitType u = g.getUnitType u
  lessonCourse : ∀ l, g'.getLessonCourse l = g.getLessonCourse l
  exerciseLesson : ∀ x, g'.getExerciseLesson x = g.getExerciseLesson x
  startsWith : ∀ c l, CourseStartsWith g' c l ↔ CourseStartsWith g c l
  dependsOn : ∀ u d, DependsOn g' u d ↔ DependsOn g u d
  sinks : ∀ u, u ∈ g'.getDependencySinks ↔ u ∈ g.getDependencySinks

/-- The same metadata, the values of each key in any order. -/
def SameMeta (m m' : Metadata) : Prop := ∀ k, Both List.Perm (m.find k) (m'.find k)

/-- Two searches are made on the same material: the same units, metadata, blacklist and options, and the same answers
about the scores of the units of the library. -/
structure SameMaterial (e e' : Env ι) : Prop where
  units : SameUnits e.graph e'.graph
  courseMeta : ∀ u, Both SameMeta (e.courseMeta u) (e'.courseMeta u)
  lessonMeta : ∀ u, Both SameMeta (e.lessonMeta u) (e'.lessonMeta u)
  black : ∀ u, e'.black u = e.black u
  opts : e'.opts = e.opts
  score : ∀ u, Known e.graph u → e'.score u = e.score u
  trials : ∀ u, e'.trials u = e.trials u
  superseded : ∀ u, e'.superseded u = e.superseded u

/-- The result of a search stays below the limits: fewer candidates than ten times the batch size, and fewer lessons in
progress than the maximum. -/
structure BelowLimits (e : Env ι) (cs : List (Candidate ι)) : Prop where
  candidates : cs.length < 10 * e.opts.batchSize
  lessons : ∀ ls : List ι, ls.Nodup →
    (∀ l ∈ ls, (∃ c ∈ cs, c.lesson = l) ∧ ∃ a, LessonAverage e l a ∧ a ≤ e.opts.targetWindow.hi) →
    ls.length < e.opts.maxLessonsInProgress

/-! ### Lemmas -/

theorem sameUnits_symm {g g' : Graph ι} (h : SameUnits g g') : SameUnits g' g where
  type u := (h.type u).symm
  lessonCourse u := (h.lessonCourse u).symm
  exerciseLesson u := (h.exerciseLesson u).symm
  startsWith c l := (h.startsWith c l).symm
  dependsOn c l := (h.dependsOn c l).symm
  sinks u := (h.sinks u).symm

theorem sameUnits_known {g g' : Graph ι} (h : SameUnits g g') (u : ι) : Known g' u ↔ Known g u := by
  unfold Known; rw [h.type]

theorem sameMeta_symm {m m' : Metadata} (h : SameMeta m m') : SameMeta m' m := by
  intro k
  have := h k
  revert this
  cases m.find k <;> cases m'.find k <;> simp [Both]
  exact List.Perm.symm

theorem bothMeta_symm {m m' : Option Metadata} (h : Both SameMeta m m') : Both SameMeta m' m := by
  revert h
  cases m <;> cases m' <;> simp [Both]
  exact sameMeta_symm

theorem SameMaterial.symm {e e' : Env ι} (h : SameMaterial e e') : SameMaterial e' e where
  units := sameUnits_symm h.units
  courseMeta u := bothMeta_symm (h.courseMeta u)
  lessonMeta u := bothMeta_symm (h.lessonMeta u)
  black u := (h.black u).symm
  opts := h.opts.symm
  score u hu := (h.score u ((sameUnits_known h.units u).1 hu)).symm
  trials u := (h.trials u).symm
  superseded u := (h.superseded u).symm

theorem passesFilter_same {m m' : Metadata} (h : SameMeta m m') (k v : Store.Str) (t : Filters.FilterType) :
    Filters.passesFilter m' k v t = Filters.passesFilter m k v t := by
  unfold Filters.passesFilter
  have := h k
  revert this
  cases hm : AMap.find m k <;> cases hm' : AMap.find m' k <;> simp only [Both]
  · simp
  · simp
  · simp
  · intro hp
    have hany : ∀ (p : Store.Str → Bool) {xs ys : List Store.Str}, xs.Perm ys → ys.any p = xs.any p := by
      intro p xs ys hp
      rw [Bool.eq_iff_iff, List.any_eq_true, List.any_eq_true]
      exact ⟨fun ⟨x, hx, h⟩ => ⟨x, hp.mem_iff.2 hx, h⟩, fun ⟨x, hx, h⟩ => ⟨x, hp.mem_iff.1 hx, h⟩⟩
    rw [hany _ hp]

mutual
theorem applyToLesson_same {cm cm' lm lm' : Metadata} (hc : SameMeta cm cm') (hl : SameMeta lm lm') :
    ∀ f : KVFilter, f.applyToLesson cm' lm' = f.applyToLesson cm lm
  | .course k v t => by simp only [KVFilter.applyToLesson, passesFilter_same hc]
  | .lesson k v t => by simp only [KVFilter.applyToLesson, passesFilter_same hl]
  | .combined .all fs => by simp only [KVFilter.applyToLesson, allLesson_same hc hl fs]
  | .combined .any fs => by simp only [KVFilter.applyToLesson, anyLesson_same hc hl fs]
theorem allLesson_same {cm cm' lm lm' : Metadata} (hc : SameMeta cm cm') (hl : SameMeta lm lm') :
    ∀ fs : List KVFilter, Filters.allLesson cm' lm' fs = Filters.allLesson cm lm fs
  | [] => rfl
  | f :: fs => by simp only [Filters.allLesson, applyToLesson_same hc hl f, allLesson_same hc hl fs]
theorem anyLesson_same {cm cm' lm lm' : Metadata} (hc : SameMeta cm cm') (hl : SameMeta lm lm') :
    ∀ fs : List KVFilter, Filters.anyLesson cm' lm' fs = Filters.anyLesson cm lm fs
  | [] => rfl
  | f :: fs => by simp only [Filters.anyLesson, applyToLesson_same hc hl f, anyLesson_same hc hl fs]
end

mutual
theorem applyToCourse_same {cm cm' : Metadata} (hc : SameMeta cm cm') :
    ∀ f : KVFilter, f.applyToCourse cm' = f.applyToCourse cm
  | .course k v t => by simp only [KVFilter.applyToCourse, passesFilter_same hc]
  | .lesson k v t => by simp only [KVFilter.applyToCourse]
  | .combined op fs => by
    cases op <;> simp only [KVFilter.applyToCourse, allCourse_same hc true fs, allCourse_same hc false fs,
      anyCourse_same hc true fs, anyCourse_same hc false fs]
theorem allCourse_same {cm cm' : Metadata} (hc : SameMeta cm cm') (b : Bool) :
    ∀ fs : List KVFilter, Filters.allCourse cm' b fs = Filters.allCourse cm b fs
  | [] => rfl
  | f :: fs => by simp only [Filters.allCourse, applyToCourse_same hc f, allCourse_same hc b fs]
theorem anyCourse_same {cm cm' : Metadata} (hc : SameMeta cm cm') (b : Bool) :
    ∀ fs : List KVFilter, Filters.anyCourse cm' b fs = Filters.anyCourse cm b fs
  | [] => rfl
  | f :: fs => by simp only [Filters.anyCourse, applyToCourse_same hc f, anyCourse_same hc b fs]
end

section
variable {e e' : Env ι} (h : SameMaterial e e') (he : Sane e) (he' : Sane e')
include h

theorem same_isCourse (u : ι) : IsCourse e' u ↔ IsCourse e u := by unfold IsCourse; rw [h.units.type]
theorem same_isLesson (u : ι) : IsLesson e' u ↔ IsLesson e u := by unfold IsLesson; rw [h.units.type]

omit [DecidableEq ι] h in
theorem bothMeta_some {m m' : Option Metadata} (hb : Both SameMeta m m') {x : Metadata} (hx : m = some x) :
    ∃ y, m' = some y ∧ SameMeta x y := by
  subst hx
  cases m' with
  | none => exact hb.elim
  | some y => exact ⟨y, rfl, hb⟩

theorem accepts_mono (mf : Option KVFilter) (u : ι) (ha : Accepts e mf u) : Accepts e' mf u := by
  cases mf with
  | none => trivial
  | some f =>
    rcases ha with ⟨h1, m, h2, h3⟩ | ⟨h1, c, cm, lm, h2, h3, h4, h5⟩
    · obtain ⟨m', hm', hs⟩ := bothMeta_some (h.courseMeta u) h2
      exact .inl ⟨(same_isCourse h u).2 h1, m', hm', by rw [applyToCourse_same hs]; exact h3⟩
    · obtain ⟨cm', hc', hsc⟩ := bothMeta_some (h.courseMeta c) h3
      obtain ⟨lm', hl', hsl⟩ := bothMeta_some (h.lessonMeta u) h4
      exact .inr ⟨(same_isLesson h u).2 h1, c, cm', lm', by rw [h.units.lessonCourse]; exact h2, hc', hl',
        by rw [applyToLesson_same hsc hsl]; exact h5⟩

theorem same_accepts (mf : Option KVFilter) (u : ι) : Accepts e' mf u ↔ Accepts e mf u :=
  ⟨accepts_mono h.symm mf u, accepts_mono h mf u⟩

include he he'

theorem same_hasLesson (c l : ι) : CourseHasLesson e'.graph c l ↔ CourseHasLesson e.graph c l := by
  rw [he.wf.lesson, he'.wf.lesson, h.units.lessonCourse]

theorem same_hasExercise (l x : ι) : LessonHasExercise e'.graph l x ↔ LessonHasExercise e.graph l x := by
  rw [he.wf.exercise, he'.wf.exercise, h.units.exerciseLesson]

theorem same_lastAccepted (mf : Option KVFilter) (c l : ι) : LastAccepted e' mf c l ↔ LastAccepted e mf c l := by
  unfold LastAccepted
  simp only [same_hasLesson h he he', same_accepts h, h.units.dependsOn]

omit he he' in
theorem gates_mono (hx : ∀ c l, CourseHasLesson e'.graph c l ↔ CourseHasLesson e.graph c l) (mf : Option KVFilter)
    {d t : ι} (hg : Gates e mf d t) : Gates e' mf d t := by
  have hla : ∀ c l, LastAccepted e' mf c l ↔ LastAccepted e mf c l := by
    intro c l
    unfold LastAccepted
    simp only [hx, same_accepts h, h.units.dependsOn]
  induction hg with
  | self h1 => exact .self ((same_accepts h mf _).2 h1)
  | lastLesson h1 h2 h3 =>
    exact .lastLesson (by rw [same_accepts h]; exact h1) ((same_isCourse h _).2 h2) ((hla _ _).2 h3)
  | throughCourse h1 h2 h3 h4 _ ih =>
    exact .throughCourse (by rw [same_accepts h]; exact h1) ((same_isCourse h _).2 h2)
      (fun l hl => h3 l ((hla _ _).1 hl)) ((h.units.dependsOn _ _).2 h4) ih
  | throughLesson h1 h2 h3 _ ih =>
    exact .throughLesson (by rw [same_accepts h]; exact h1) ((same_isLesson h _).2 h2) ((h.units.dependsOn _ _).2 h3) ih
  | throughStart h1 h2 h3 h4 _ ih =>
    exact .throughStart (by rw [same_accepts h]; exact h1) ((same_isLesson h _).2 h2) ((h.units.startsWith _ _).2 h3)
      ((h.units.dependsOn _ _).2 h4) ih

theorem same_gates (mf : Option KVFilter) (d t : ι) : Gates e' mf d t ↔ Gates e mf d t :=
  ⟨gates_mono h.symm (fun c l => (same_hasLesson h he he' c l).symm) mf, gates_mono h (same_hasLesson h he he') mf⟩

omit he' in
theorem satisfied_of_unknown {t : ι} (ht : ¬ Known e.graph t) : Satisfied e t := by
  have : e.graph.getUnitType t = none := by
    cases hh : e.graph.getUnitType t with
    | none => rfl
    | some ty => exact (ht ⟨ty, hh⟩).elim
  rcases he.unknownScore t this with h1 | h1
  · exact .inr (.inr (.inr (.inl h1)))
  · exact .inr (.inr (.inr (.inr (.inl h1))))

theorem same_satisfied (t : ι) : Satisfied e' t ↔ Satisfied e t := by
  by_cases hk : Known e.graph t
  · unfold Satisfied
    simp only [h.black, h.units.lessonCourse, h.superseded, h.score t hk, h.trials, h.opts]
  · exact ⟨fun _ => satisfied_of_unknown h he hk,
      fun _ => satisfied_of_unknown h.symm he' (by rw [sameUnits_known h.units]; exact hk)⟩

theorem same_unlocked (mf : Option KVFilter) (u : ι) : Unlocked e' mf u ↔ Unlocked e mf u := by
  unfold Unlocked
  simp only [h.units.dependsOn, same_gates h he he', same_satisfied h he he']

theorem same_offers (l x : ι) : Offers e' l x ↔ Offers e l x := by
  unfold Offers
  simp only [same_hasExercise h he he', h.black, h.units.lessonCourse]

omit he he' in
theorem same_lessonSkipped (mf : Option KVFilter) (l : ι) : LessonSkipped e' mf l ↔ LessonSkipped e mf l := by
  unfold LessonSkipped
  simp only [h.black, same_accepts h, h.superseded, h.units.lessonCourse]

omit he he' in
theorem same_courseSkipped (mf : Option KVFilter) (l : ι) : CourseSkipped e' mf l ↔ CourseSkipped e mf l := by
  unfold CourseSkipped
  simp only [h.black, same_accepts h, h.superseded]

omit he' in
theorem offers_known {l x : ι} (ho : Offers e l x) : Known e.graph x :=
  ⟨.exercise, (he.wf.tyE x l ((he.wf.exercise l x).1 ho.1)).1⟩

theorem same_lessonAverage (l : ι) (a : ℚ) : LessonAverage e' l a ↔ LessonAverage e l a := by
  unfold LessonAverage
  simp only [same_offers h he he']
  refine exists_congr fun xs => and_congr_right fun _ => and_congr_right fun _ => and_congr_right fun hx => ?_
  have : xs.map (fun x => ((e'.score x).getD none).getD 0) = xs.map (fun x => ((e.score x).getD none).getD 0) :=
    List.map_congr_left (fun x hm => by rw [h.score x (offers_known h he ((hx x).1 hm))])
  rw [this]

theorem same_lessonPassed (l : ι) : LessonPassed e' l ↔ LessonPassed e l := by
  unfold LessonPassed
  simp only [same_offers h he he', same_lessonAverage h he he', h.trials, h.opts]

theorem same_lessonSize (l : ι) (n : Nat) : LessonSize e' l n ↔ LessonSize e l n := by
  unfold LessonSize
  simp only [same_offers h he he']

omit he he' in
theorem same_inScope (sc : Scope ι) (l : ι) : InScope e' sc l ↔ InScope e sc l := by
  cases sc with
  | library => exact Iff.rfl
  | courses cs => unfold InScope; simp only [h.units.lessonCourse]

theorem reached_mono (mf : Option KVFilter) (sc : Scope ι) {init init' : ι → Prop} (hi : ∀ u, init u → init' u) {u : ι}
    (hr : Reached e mf sc init u) : Reached e' mf sc init' u := by
  induction hr with
  | init h1 => exact .init (hi _ h1)
  | start h1 _ h2 h3 h4 ih =>
    exact .start h1 ih ((same_isCourse h _).2 h2) ((h.units.startsWith _ _).2 h3) ((same_unlocked h he he' mf _).2 h4)
  | past _ h2 h3 h4 h5 h6 ih =>
    exact .past ih ((same_isLesson h _).2 h2) ((same_inScope h _ _).2 h3)
      (h4.imp (same_lessonSkipped h mf _).2 (same_lessonPassed h he he' _).2) ((h.units.dependsOn _ _).2 h5)
      ((same_unlocked h he he' mf _).2 h6)
  | pastCourse h1 _ h2 h3 h4 h5 ih =>
    exact .pastCourse h1 ih ((same_isCourse h _).2 h2) ((same_courseSkipped h mf _).2 h3) ((h.units.dependsOn _ _).2 h4)
      ((same_unlocked h he he' mf _).2 h5)
  | allLessons h1 h2 h3 _ ih =>
    obtain ⟨l, hl⟩ := h3
    exact .allLessons h1 ((same_isCourse h _).2 h2) ⟨l, (same_hasLesson h he he' _ _).2 hl⟩
      (fun l hl => ih l ((same_hasLesson h he he' _ _).1 hl))
  | pastFinished h1 _ h2 _ h4 h5 ih1 ih2 =>
    exact .pastFinished h1 ih1 ((same_isCourse h _).2 h2) (fun l hl => ih2 l ((same_hasLesson h he he' _ _).1 hl))
      ((h.units.dependsOn _ _).2 h4) ((same_unlocked h he he' mf _).2 h5)

omit he he' in
theorem same_startingUnit (u : ι) : StartingUnit e' u ↔ StartingUnit e u := by
  unfold StartingUnit
  simp only [sameUnits_known h.units, h.units.sinks, h.units.dependsOn]

theorem same_initialUnit (mf : Option KVFilter) (u : ι) : InitialUnit e' mf u ↔ InitialUnit e mf u := by
  unfold InitialUnit
  simp only [same_startingUnit h, h.units.startsWith, same_unlocked h he he']

omit he he' in
theorem atDepth_mono {n : Nat} {u t : ι} (hd : AtDepth e n u t) : AtDepth e' n u t := by
  induction hd with
  | here => exact .here
  | leaf h1 => exact .leaf (by simp only [h.units.dependsOn]; exact h1)
  | step h1 _ ih => exact .step ((h.units.dependsOn _ _).2 h1) ih

/-- A filter stands for the same search. -/
theorem same_searchOf {f : Option (UnitFilter ι)} {mf sc init} (hs : SearchOf e f = some (mf, sc, init)) :
    ∃ init', SearchOf e' f = some (mf, sc, init') ∧ ∀ u, init' u ↔ init u := by
  match f, hs with
  | none, hs => cases hs; exact ⟨_, rfl, same_initialUnit h he he' none⟩
  | some (.metadata k), hs => cases hs; exact ⟨_, rfl, same_initialUnit h he he' (some k)⟩
  | some (.courses cs), hs =>
    cases hs
    exact ⟨_, rfl, fun u => by simp only [h.units.startsWith]⟩
  | some (.dependents ids), hs => cases hs; exact ⟨_, rfl, fun u => Iff.rfl⟩
  | some (.dependencies ids n), hs =>
    cases hs
    refine ⟨_, rfl, fun t => ?_⟩
    refine exists_congr fun u => and_congr_right fun _ => and_congr ⟨atDepth_mono h.symm, atDepth_mono h⟩
      (sameUnits_known h.units t)

end

end Trane.Search
