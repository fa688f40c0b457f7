import Verif.Top.SeparateLemmas
import Verif.Top.Sample

/-!
# C113: what is practised in one part of the library does not touch the scores of a separate part
-/

namespace Trane.TopLevel
open Trane.Store
open Trane.UnitScorer

variable {R : Type} [Field R] [LinearOrder R]

theorem answers_of {D : Str → Prop} {α : Type} {P : α → Prop} {m m' : M Str R α} (h : Follows D P m m') {c c' : Caches Str R}
    (hc : CachesOn D c c') (v : α) : (∃ d, m' c' = some (v, d)) ↔ ∃ d, m c = some (v, d) := by
  rcases h c c' hc with ⟨e, e'⟩ | ⟨a, d, d', e, e', -⟩
  · rw [e, e']
  · rw [e, e']; simp

/-- Objects that agree on the units of `D` give the same answers about them. -/
theorem beside_answers {b : Base R} (hV : Blind b.sortV) (hW : Blind b.sortW) {D : Str → Prop} (he : D []) {t t' : Top R}
    (hb : Beside b D t t') :
    ∀ u, D u → (∀ v, GetsScore b t' u v ↔ GetsScore b t u v) ∧ (∀ v, GetsTrials b t' u v ↔ GetsTrials b t u v) ∧
      (∀ v, GetsSuperseded b t' u v ↔ GetsSuperseded b t u v) ∧
      (∀ n, t'.trials.get b.sortV u n = t.trials.get b.sortV u n) ∧ (∀ n, t'.deltas.get b.sortV u n = t.deltas.get b.sortV u n) ∧
      (∀ n, t'.rewards.table.get b.sortW u n = t.rewards.table.get b.sortW u n) ∧
      t'.blacklist.blacklisted u = t.blacklist.blacklisted u := by
  have hwo := beside_world hV hW he hb
  have hap : Apart (t.sys.world (t.config b)).graph D := hb.apart
  have hf : ∀ n v, D v → Follows D (fun _ => True) (scoreC (t.sys.world (t.config b)) n v) (scoreC (t'.sys.world (t'.config b)) n v) :=
    fun n v hv => fol_score hap hwo n hv
  intro u hu
  refine ⟨fun v => ?_, fun v => ?_, fun v => ?_, fun n => hb.trials.get b.sortV hV hu n, fun n => hb.deltas.get b.sortV hV hu n,
    fun n => hb.rewards.get b.sortW hW hu n, hb.blacklist.asked u hu⟩
  · unfold GetsScore Answers
    exact exists_congr fun n => answers_of (hf n u hu) hb.caches v
  · unfold GetsTrials
    rw [hb.graph]
    cases t.graph.getUnitType u with
    | none => exact Iff.rfl
    | some k =>
      cases k with
      | exercise => exact Iff.rfl
      | lesson => exact answers_of (fol_lessonTrials hap hwo hu) hb.caches v
      | course => exact exists_congr fun n => answers_of (fol_courseTrials hap hwo n hu) hb.caches v
  · unfold GetsSuperseded AnswersSuperseded
    exact exists_congr fun n => answers_of (fol_check hap hwo (fun w hw => hf n w hw) n hu) hb.caches v

/-- **C113.** `D` is a part of the library that nothing connects with the rest.  Make any calls, and then the same calls without
those about units outside `D`: no grades of other exercises, no blacklisting of other units, other batches.  Every unit of `D`
has the same score, number of trials and superseding, the same stored grades, changes and rewards, and the same place on the
blacklist. -/
theorem separate_parts (b : Base R) (hV : Blind b.sortV) (hW : Blind b.sortW) (g : Graph Str) (clock : Int) {D : Str → Prop}
    [DecidablePred D] (ha : Apart g D) (he : D []) {h h' : List (Call R)} (hw : Without D h h') {t t' : Top R}
    (et : t = runs b (fresh g clock) h) (et' : t' = runs b (fresh g clock) h') (hc : Completes b (fresh g clock) h)
    (hc' : Completes b (fresh g clock) h') :
    ∀ u, D u → (∀ v, GetsScore b t' u v ↔ GetsScore b t u v) ∧ (∀ v, GetsTrials b t' u v ↔ GetsTrials b t u v) ∧
      (∀ v, GetsSuperseded b t' u v ↔ GetsSuperseded b t u v) ∧
      (∀ n, t'.trials.get b.sortV u n = t.trials.get b.sortV u n) ∧ (∀ n, t'.deltas.get b.sortV u n = t.deltas.get b.sortV u n) ∧
      (∀ n, t'.rewards.table.get b.sortW u n = t.rewards.table.get b.sortW u n) ∧
      t'.blacklist.blacklisted u = t.blacklist.blacklisted u := by
  have hs := sound_fresh b g clock
  obtain ⟨hb, -⟩ := beside_runs hV hW he hw (beside_refl hs ha) hs hc hc'
  rw [← et, ← et'] at hb
  exact beside_answers hV hW he hb

/-- **C113.** The next call about units of `D`, or about the object as a whole, reports success or failure alike. -/
theorem separate_results (b : Base R) (hV : Blind b.sortV) (hW : Blind b.sortW) (g : Graph Str) (clock : Int) {D : Str → Prop}
    [DecidablePred D] (ha : Apart g D) (he : D []) {h h' : List (Call R)} (hw : Without D h h') (hc : Completes b (fresh g clock) h)
    (hc' : Completes b (fresh g clock) h') {c : Call R} (hk : Stays D c) :
    (step b (runs b (fresh g clock) h') c).2 = (step b (runs b (fresh g clock) h) c).2 := by
  have hs := sound_fresh b g clock
  obtain ⟨hb, -⟩ := beside_runs hV hW he hw (beside_refl hs ha) hs hc hc'
  exact (beside_kept hV hW he hb hk).2

/-! ### Samples -/

/-- Entry by entry. -/
theorem apart_of_maps {g : Graph Str} {D : Str → Prop} (h1 : ∀ e ∈ g.exerciseLesson, (D e.1 ↔ D e.2))
    (h2 : ∀ e ∈ g.lessonCourse, (D e.1 ↔ D e.2)) (h3 : ∀ e ∈ g.lessonExercises, ∀ x ∈ e.2, (D x ↔ D e.1))
    (h4 : ∀ e ∈ g.courseLessons, ∀ x ∈ e.2, (D x ↔ D e.1)) (h5 : ∀ e ∈ g.supBy, ∀ x ∈ e.2, (D x ↔ D e.1))
    (he : g.enc.isEmpty = false) (he' : g.encBy.isEmpty = false) (h6 : ∀ e ∈ g.enc, ∀ p ∈ e.2, (D p.1 ↔ D e.1))
    (h7 : ∀ e ∈ g.encBy, ∀ p ∈ e.2, (D p.1 ↔ D e.1)) : Apart g D where
  lesson := fun _ _ e => h1 _ (AMap.mem_of_find e)
  course := fun _ _ e => h2 _ (AMap.mem_of_find e)
  exercises := fun _ _ e x hx => h3 _ (AMap.mem_of_find e) x hx
  lessons := fun _ _ e x hx => h4 _ (AMap.mem_of_find e) x hx
  superseding := fun _ _ e x hx => h5 _ (AMap.mem_of_find e) x hx
  encompassing := by
    rintro good u v w ⟨l, hl, hm⟩
    cases good with
    | true =>
      simp only [if_true, Graph.getEncompasses, he, Bool.false_eq_true, if_false] at hl
      exact h6 _ (AMap.mem_of_find hl) _ hm
    | false =>
      simp only [Bool.false_eq_true, if_false, Graph.getEncompassedBy, he'] at hl
      exact h7 _ (AMap.mem_of_find hl) _ hm

/-- Course `c` (lesson `l`, exercise `e`) and course `k`, which depends on `c` (lessons `m` and `n`, exercises `d` and `f`; `m`
encompasses `n`, and if `joined`, also `l`). -/
def twoCourses (joined : Bool) : Graph Str := Graph.run [.addCourse ['c'], .addDependencies ['c'] .course [], .addLesson ['l'] ['c'],
  .addDependencies ['l'] .lesson [], .addExercise ['e'] ['l'], .addCourse ['k'], .addDependencies ['k'] .course [['c']],
  .addLesson ['m'] ['k'], .addDependencies ['m'] .lesson [], .addExercise ['d'] ['m'], .addLesson ['n'] ['k'],
  .addDependencies ['n'] .lesson [], .addExercise ['f'] ['n'],
  .addEncompassed ['m'] [] (if joined then [(['n'], 1), (['l'], 1)] else [(['n'], 1)]), .updateStartingLessons]

/-- The units of course `c`, and the empty id. -/
def firstCourse (u : Str) : Prop := u ∈ [[], ['c'], ['l'], ['e']]

instance : DecidablePred firstCourse := fun u => inferInstanceAs (Decidable (u ∈ [[], ['c'], ['l'], ['e']]))

/-- The courses are apart, although one depends on the other. -/
theorem courses_apart : Apart (twoCourses false) firstCourse ∧ (twoCourses false).getDependencies ['k'] = some [['c']] := by
  refine ⟨apart_of_maps ?_ ?_ ?_ ?_ ?_ ?_ ?_ ?_ ?_, ?_⟩ <;> decide +kernel

/-- Practice in both courses, with a batch in between. -/
def bothCourses : List (Call ℚ) := [.scoreExercise ['d'] .five 10 9 id {}, .scoreExercise ['e'] .three 20 9 id {},
  .addToBlacklist ['n'] false, .getBatch { sampleRequest with asks := [.score ['l'] 9, .score ['k'] 9, .lessonTrials ['m']] },
  .removeScores ['m'] (some 0), .scoreExercise ['d'] .two 30 9 id {}, .wait 50, .getUnitScore ['k'] 9, .scoreExercise ['e'] .four 40 9 id {}]

/-- Practice in course `c` only. -/
def oneCourse : List (Call ℚ) := [.scoreExercise ['e'] .three 20 9 id {},
  .getBatch { sampleRequest with asks := [.score ['l'] 9] }, .wait 50, .scoreExercise ['e'] .four 40 9 id {}]

/-- Batches of histories with one batch. -/
theorem completes_one {b : Base ℚ} {t : Top ℚ} {h1 h2 : List (Call ℚ)} {q : Request} (hn1 : ∀ c ∈ h1, ∀ q', c ≠ Call.getBatch q')
    (hn2 : ∀ c ∈ h2, ∀ q', c ≠ Call.getBatch q') (hq : ((runs b t h1).batch q).isSome) : Completes b t (h1 ++ .getBatch q :: h2) := by
  intro k1 q' k2 e
  have key : ∀ (h1 k1 : List (Call ℚ)), (∀ c ∈ h1, ∀ q', c ≠ Call.getBatch q') → h1 ++ Call.getBatch q :: h2 = k1 ++ Call.getBatch q' :: k2 →
      k1 = h1 ∧ q' = q := by
    intro h1
    induction h1 with
    | nil =>
      intro k1 _ e
      cases k1 with
      | nil => cases e; exact ⟨rfl, rfl⟩
      | cons c k1 =>
        simp only [List.nil_append, List.cons_append, List.cons.injEq] at e
        exact absurd rfl (hn2 (.getBatch q') (by rw [e.2]; simp) q')
    | cons c h1 ih =>
      intro k1 hn e
      cases k1 with
      | nil =>
        simp only [List.nil_append, List.cons_append, List.cons.injEq] at e
        exact absurd e.1 (hn c (by simp) q')
      | cons c' k1 =>
        simp only [List.cons_append, List.cons.injEq] at e
        obtain ⟨a, b⟩ := ih k1 (fun c hc => hn c (by simp [hc])) e.2
        exact ⟨by rw [a, e.1], b⟩
  obtain ⟨rfl, rfl⟩ := key h1 k1 hn1 e
  exact hq

/-- The hypotheses hold. -/
theorem courses_without : Without firstCourse bothCourses oneCourse := by
  refine .left_out _ ⟨by decide, fun _ => .refl _⟩ (.kept _ ⟨by decide, fun _ => .refl _⟩ (.left_out _ (by decide : ¬ firstCourse ['n'])
    (.batch _ _ ?_ (.left_out _ ?_ (.left_out _ ⟨by decide, fun _ => .refl _⟩ (.kept _ trivial (.left_out _ (by decide : ¬ firstCourse ['k'])
    (.kept _ ⟨by decide, fun _ => .refl _⟩ .nil))))))))
  · rfl
  · intro u hu
    have : u ∈ [[], ['c'], ['l'], ['e']] := hu
    simp only [List.mem_cons, List.not_mem_nil, or_false] at this
    rcases this with rfl | rfl | rfl | rfl <;> decide

theorem courses_complete : Completes sampleBase (fresh (twoCourses false) 0) bothCourses ∧
    Completes sampleBase (fresh (twoCourses false) 0) oneCourse := by
  constructor
  · refine completes_one (h1 := bothCourses.take 3) (h2 := bothCourses.drop 4) ?_ ?_ ?_
    · intro c hc q' e; subst e; simp [bothCourses] at hc
    · intro c hc q' e; subst e; simp [bothCourses] at hc
    · decide +kernel
  · refine completes_one (h1 := oneCourse.take 1) (h2 := oneCourse.drop 2) ?_ ?_ ?_
    · intro c hc q' e; subst e; simp [oneCourse] at hc
    · intro c hc q' e; subst e; simp [oneCourse] at hc
    · decide +kernel

/-- So the score of course `c` is the same in both, and it is 4.1. -/
example : GetsScore sampleBase (runs sampleBase (fresh (twoCourses false) 0) bothCourses) ['c'] (some (41 / 10)) := by
  have h := separate_parts sampleBase (Rewards.blind_insSort _) (Rewards.blind_insSort _) (twoCourses false) 0 courses_apart.1
    (by decide) courses_without rfl rfl courses_complete.1 courses_complete.2 ['c'] (by decide)
  refine (h.1 _).1 ?_
  have : (scoreC ((runs sampleBase (fresh (twoCourses false) 0) oneCourse).sys.world
    ((runs sampleBase (fresh (twoCourses false) 0) oneCourse).config sampleBase)) 9 ['c']
    (runs sampleBase (fresh (twoCourses false) 0) oneCourse).caches).map Prod.fst = some (some (41 / 10)) := by decide +kernel
  obtain ⟨⟨v, c'⟩, e1, e2⟩ := Option.map_eq_some_iff.1 this
  cases e2
  exact ⟨9, c', e1⟩

/-- If a lesson of the other course encompasses a lesson of `c`, practice over there does change the score of `c`. -/
theorem joined_parts_interfere :
    let t := runs sampleBase (fresh (twoCourses true) 0) [.scoreExercise ['d'] .five 10 9 id {}, .scoreExercise ['e'] .three 20 9 id {}]
    let t' := runs sampleBase (fresh (twoCourses true) 0) [.scoreExercise ['e'] .three 20 9 id {}]
    (scoreC (t.sys.world (t.config sampleBase)) 9 ['c'] t.caches).map Prod.fst = some (some (77 / 25)) ∧
    (scoreC (t'.sys.world (t'.config sampleBase)) 9 ['c'] t'.caches).map Prod.fst = some (some 3) := by
  decide +kernel

end Trane.TopLevel
