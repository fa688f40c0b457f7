import Verif.Sched.ProgressSpec
import Mathlib.Data.Finset.Card
import Mathlib.Data.Finset.Dedup

/-!
# C105: whatever is locked waits for something that is on offer
-/

namespace Trane.Search
open Trane.Graph
open Relation (TransGen ReflTransGen)

variable {ι : Type} [DecidableEq ι] {e : Env ι}

theorem before_known (he : Sane e) {u v : ι} (h : Before e u v) : Known e.graph v := by
  cases h with
  | dep _ h => exact h
  | course _ _ h => exact h
  | lesson h => exact ⟨_, (he.wf.tyL _ _ ((he.wf.lesson _ _).1 h)).1⟩

open Classical in
theorem before_rank (he : Sane e) (h : ¬ HasCycle (Before e)) :
    ∃ rk : ι → Nat, ∀ u v, Before e u v → rk v < rk u := by
  refine ⟨fun u => (e.graph.types.keys.toFinset.filter (fun x => TransGen (Before e) u x)).card, ?_⟩
  intro u s hus
  apply Finset.card_lt_card
  rw [Finset.ssubset_iff_of_subset]
  · refine ⟨s, ?_, ?_⟩
    · rw [Finset.mem_filter, List.mem_toFinset]
      exact ⟨(AMap.mem_keys_iff _ _).2 (before_known he hus), .single hus⟩
    · rw [Finset.mem_filter]
      rintro ⟨_, hs⟩
      exact h ⟨s, hs⟩
  · intro x hx
    rw [Finset.mem_filter] at hx ⊢
    exact ⟨hx.1, .head hus hx.2⟩

/-- What is shown of every unit: the student has access to it and it holds nothing back; for a lesson the
search goes past it, for a course all its lessons are accessible. -/
structure Done (e : Env ι) (u : ι) : Prop where
  acc : Open e u
  sat : Satisfied e u
  past : IsLesson e u → LessonSkipped e none u ∨ LessonPassed e u
  fin : IsCourse e u → ∀ l, CourseHasLesson e.graph u l → Open e l

theorem satisfied_unknown (he : Sane e) {u : ι} (h : ¬ Known e.graph u) : Satisfied e u := by
  have : e.graph.getUnitType u = none := by
    cases hu : e.graph.getUnitType u with
    | none => rfl
    | some t => exact absurd ⟨t, hu⟩ h
  rcases he.unknownScore u this with h | h
  · exact .inr (.inr (.inr (.inl h)))
  · exact .inr (.inr (.inr (.inr (.inl h))))

theorem gates_none {d t : ι} (h : Gates e none d t) : t = d := by
  cases h with
  | self _ => rfl
  | lastLesson h => exact absurd trivial h
  | throughCourse h => exact absurd trivial h
  | throughLesson h => exact absurd trivial h
  | throughStart h => exact absurd trivial h

theorem unlocked_of (he : Sane e) {u : ι} (h : ∀ d, DependsOn e.graph u d → Known e.graph d → Done e d) :
    Unlocked e none u := by
  intro d hd t ht
  rw [gates_none ht]
  by_cases hk : Known e.graph d
  · exact (h d hd hk).sat
  · exact satisfied_unknown he hk

/-- Past a unit that is done one gets to an unlocked unit depending on it. -/
theorem done_next (ho : Orderly e) {u d : ι} (hd : DependsOn e.graph u d) (hk : Known e.graph d)
    (h : Done e d) (hu : Unlocked e none u) : Open e u := by
  obtain ⟨ty, hty⟩ := hk
  cases ty with
  | exercise => exact absurd hty (ho.noExercise u d hd)
  | lesson => exact .past h.acc hty trivial (h.past hty) hd hu
  | course => exact .pastFinished rfl h.acc hty (h.fin hty) hd hu

theorem lesson_done (he : Sane e) (hs : NothingStranded e) (hm : EmptyHoldsNothing e) {l : ι}
    (hl : IsLesson e l) (ha : Open e l) (hn : ¬ ToLearn e l) : Done e l := by
  have hnc : IsCourse e l → False := by
    intro h
    rw [IsCourse, show e.graph.getUnitType l = some .lesson from hl] at h
    simp at h
  by_cases hk : LessonSkipped e none l
  · refine ⟨ha, ?_, fun _ => .inl hk, fun h => (hnc h).elim⟩
    rcases hk with h | h | h | ⟨c, hc, h⟩
    · exact .inl h
    · exact absurd trivial h
    · exact .inr (.inr (.inl h))
    · exact hs c l ((he.wf.lesson c l).2 hc) h
  · by_cases hx : ∃ x, Offers e l x
    · have : Satisfied e l ∧ LessonPassed e l := by
        by_contra hc
        exact hn ⟨hl, ha, hk, hx, not_and_or.1 hc⟩
      exact ⟨ha, this.1, fun _ => .inr this.2, fun h => (hnc h).elim⟩
    · have hx' : ∀ x, ¬ Offers e l x := fun x hx2 => hx ⟨x, hx2⟩
      exact ⟨ha, hm l hl hx', fun _ => .inr (.inl hx'), fun h => (hnc h).elim⟩

theorem all_done (he : Sane e) (ho : Orderly e) (hc : CourseFollows e) (hs : NothingStranded e)
    (hm : EmptyHoldsNothing e) (rk : ι → Nat) (hrk : ∀ u v, Before e u v → rk v < rk u) :
    ∀ n u, rk u < n → IsLesson e u ∨ IsCourse e u →
      (∀ l, ReflTransGen (Before e) u l → ¬ ToLearn e l) → Done e u := by
  intro n
  induction n with
  | zero => intro u h; omega
  | succ n ih =>
    intro u hu hty hno
    -- everything before `u` is done
    have prev : ∀ v, Before e u v → IsLesson e v ∨ IsCourse e v → Done e v := fun v hv htv =>
      ih v (by have := hrk u v hv; omega) htv (fun l hl => hno l (.head hv hl))
    have deps : ∀ w, (∀ d, DependsOn e.graph w d → Known e.graph d → Before e u d) →
        ∀ d, DependsOn e.graph w d → Known e.graph d → Done e d := by
      intro w hw d hd hk
      refine prev d (hw d hd hk) ?_
      obtain ⟨ty, hty⟩ := hk
      cases ty with
      | exercise => exact absurd hty (ho.noExercise w d hd)
      | lesson => exact .inl hty
      | course => exact .inr hty
    have own := deps u (fun d hd hk => .dep hd hk)
    have hunl : Unlocked e none u := unlocked_of he own
    rcases hty with hl | hcrs
    · -- a lesson
      refine lesson_done he hs hm hl ?_ (hno u .refl)
      obtain ⟨c, hcl⟩ := he.lessonHasCourse u hl
      have hin : CourseHasLesson e.graph c u := (he.wf.lesson c u).2 hcl
      have hcc : IsCourse e c := (he.wf.tyL _ _ hcl).2
      rcases ho.chain c u hin with hst | ⟨l', hl', hd⟩
      · have cdeps := deps c (fun d hd hk => .course hst hd hk)
        have cunl : Unlocked e none c := unlocked_of he cdeps
        by_cases hk : ∃ d, DependsOn e.graph c d ∧ Known e.graph d
        · obtain ⟨d, hd, hk⟩ := hk
          exact .start rfl (done_next ho hd hk (cdeps d hd hk) cunl) hcc hst hunl
        · have hk' : ∀ d, DependsOn e.graph c d → ¬ Known e.graph d := fun d hd hk2 => hk ⟨d, hd, hk2⟩
          rcases ho.starts c hcc hk' with h | ⟨_, h⟩
          · exact .init ⟨c, h, .inl ⟨hst, hunl⟩⟩
          · obtain ⟨d, hd, hk⟩ := h u hst
            exact done_next ho hd hk (own d hd hk) hunl
      · have hk : Known e.graph l' := ⟨_, (he.wf.tyL _ _ ((he.wf.lesson _ _).1 hl')).1⟩
        exact done_next ho hd hk (own l' hd hk) hunl
    · -- a course
      have less : ∀ l, CourseHasLesson e.graph u l → Done e l := fun l hl =>
        prev l (.lesson hl) (.inl (he.wf.tyL _ _ ((he.wf.lesson _ _).1 hl)).1)
      refine ⟨?_, hc u hcrs (fun l hl => (less l hl).sat), fun h => ?_, fun _ l hl => (less l hl).acc⟩
      · by_cases hex : ∃ l, CourseHasLesson e.graph u l
        · exact .allLessons rfl hcrs hex (fun l hl => (less l hl).acc)
        · by_cases hk : ∃ d, DependsOn e.graph u d ∧ Known e.graph d
          · obtain ⟨d, hd, hk⟩ := hk
            exact done_next ho hd hk (own d hd hk) hunl
          · have hk' : ∀ d, DependsOn e.graph u d → ¬ Known e.graph d := fun d hd hk2 => hk ⟨d, hd, hk2⟩
            rcases ho.starts u hcrs hk' with h | ⟨h, _⟩
            · exact .init ⟨u, h, .inr ⟨rfl, fun l hl => absurd ⟨l, he.wf.startingSub u l hl⟩ hex⟩⟩
            · exact absurd h hex
      · rw [IsLesson, show e.graph.getUnitType u = some .course from hcrs] at h
        simp at h

/-- **C105.**  Whatever is locked waits for something on offer: for every lesson or course that the student
has no access to there is a lesson that comes before it, that the student has access to, and that offers
exercises and is not yet mastered. -/
theorem locked_waits_for_offer_partial (he : Sane e) (ho : Orderly e) (hc : CourseFollows e)
    (hs : NothingStranded e) (hm : EmptyHoldsNothing e) {u : ι} (hu : IsLesson e u ∨ IsCourse e u)
    (hl : ¬ Open e u) : ∃ l, TransGen (Before e) u l ∧ ToLearn e l := by
  by_contra hno
  obtain ⟨rk, hrk⟩ := before_rank he ho.noLoop
  refine hl (all_done he ho hc hs hm rk hrk (rk u + 1) u (by omega) hu ?_).acc
  intro l hul hl'
  rcases Relation.reflTransGen_iff_eq_or_transGen.1 hul with rfl | h
  · exact hl hl'.2.1
  · exact hno ⟨l, h, hl'⟩

/-- **C105.**  A student who has mastered every lesson on offer has access to the whole library. -/
theorem mastery_opens_everything_partial (he : Sane e) (ho : Orderly e) (hc : CourseFollows e)
    (hs : NothingStranded e) (hm : EmptyHoldsNothing e) (h : ∀ l, ¬ ToLearn e l) (u : ι)
    (hu : IsLesson e u ∨ IsCourse e u) : Open e u := by
  by_contra hn
  obtain ⟨l, _, hl⟩ := locked_waits_for_offer_partial he ho hc hs hm hu hn
  exact h l hl

end Trane.Search
