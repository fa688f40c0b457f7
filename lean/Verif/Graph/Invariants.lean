import Verif.Graph.Lemmas
import Mathlib.Tactic.Tauto

/-! Invariants of the graph over all histories (helper lemmas for the property theorems). -/

namespace Trane.Graph
variable {ι : Type} [DecidableEq ι]

/-- Case analysis on a step by the fields it changes. -/
theorem step_addDependencies (g : Graph ι) (u t) (ds : List ι) :
    (g.step (.addDependencies u t ds)).1 = g ∨
    (g.verifyDependencies u t ds = true ∧ (g.step (.addDependencies u t ds)).1 =
      { g with
          sinks := (g.updateDependencySinks u ds).sinks
          deps := g.deps.upd u [] (fun s => extendSet s ds)
          dependents := ds.foldl (fun m d => m.upd d [] (fun s => s.insert u)) g.dependents }) := by
  cases h : g.verifyDependencies u t ds with
  | true => right; simp [step, addDependencies_ok _ _ _ _ h]
  | false => left; simp [step, addDependencies_err _ _ _ _ h]

def DepInv (g : Graph ι) : Prop := ∀ u d, Rel g.deps u d ↔ Rel g.dependents d u

theorem depInv_step (g : Graph ι) (o : Op ι) (h : DepInv g) : DepInv (g.step o).1 := by
  cases o with
  | addCourse c =>
    rcases addCourse_cases g c with ⟨_, e⟩ | ⟨_, e⟩ <;> simp only [step, e] <;> exact h
  | addLesson l c =>
    rcases addLesson_cases g l c with ⟨_, e⟩ | ⟨_, _, e⟩ | ⟨_, _, _, e⟩ <;>
      simp only [step, e] <;> exact h
  | addExercise l c =>
    rcases addExercise_cases g l c with ⟨_, e⟩ | ⟨_, _, e⟩ | ⟨_, _, _, e⟩ <;>
      simp only [step, e] <;> exact h
  | addDependencies u t ds =>
    rcases step_addDependencies g u t ds with e | ⟨_, e⟩
    · rw [e]; exact h
    · rw [e]
      intro a b
      simp only [rel_upd_extend, rel_fold_insert, h a b]
      tauto
  | addEncompassed u ds es =>
    rcases addEncompassed_cases g u ds es with ⟨_, e⟩ | ⟨_, e⟩ <;> simp only [step, e] <;> exact h
  | setEncompassingEqualsDependency => exact h
  | addSuperseded u ss =>
    simp only [step, addSuperseded_eq]; split <;> exact h
  | updateStartingLessons =>
    obtain ⟨s, st, e⟩ := updateStartingLessons_frame g
    simp only [step, e]; exact h

def SupInv (g : Graph ι) : Prop := ∀ u d, Rel g.sup u d ↔ Rel g.supBy d u

theorem supInv_step (g : Graph ι) (o : Op ι) (h : SupInv g) : SupInv (g.step o).1 := by
  cases o with
  | addCourse c =>
    rcases addCourse_cases g c with ⟨_, e⟩ | ⟨_, e⟩ <;> simp only [step, e] <;> exact h
  | addLesson l c =>
    rcases addLesson_cases g l c with ⟨_, e⟩ | ⟨_, _, e⟩ | ⟨_, _, _, e⟩ <;>
      simp only [step, e] <;> exact h
  | addExercise l c =>
    rcases addExercise_cases g l c with ⟨_, e⟩ | ⟨_, _, e⟩ | ⟨_, _, _, e⟩ <;>
      simp only [step, e] <;> exact h
  | addDependencies u t ds =>
    rcases step_addDependencies g u t ds with e | ⟨_, e⟩ <;> rw [e] <;> exact h
  | addEncompassed u ds es =>
    rcases addEncompassed_cases g u ds es with ⟨_, e⟩ | ⟨_, e⟩ <;> simp only [step, e] <;> exact h
  | setEncompassingEqualsDependency => exact h
  | addSuperseded u ss =>
    simp only [step, addSuperseded_eq]
    split
    · exact h
    · intro a b
      simp only [rel_upd_extend, rel_fold_insert, h a b]
      tauto
  | updateStartingLessons =>
    obtain ⟨s, st, e⟩ := updateStartingLessons_frame g
    simp only [step, e]; exact h

/-- Containment agrees, and contained units are typed. -/
structure ContInv (g : Graph ι) : Prop where
  lesson : ∀ c l, Rel g.courseLessons c l ↔ g.lessonCourse.find l = some c
  exercise : ∀ l e, Rel g.lessonExercises l e ↔ g.exerciseLesson.find e = some l
  tyL : ∀ l c, g.lessonCourse.find l = some c →
    g.types.find l = some .lesson ∧ g.types.find c = some .course
  tyE : ∀ e l, g.exerciseLesson.find e = some l →
    g.types.find e = some .exercise ∧ g.types.find l = some .lesson

/-- Types are only added. -/
theorem types_mono_step (g : Graph ι) (o : Op ι) (u : ι) (t : UnitType)
    (h : g.types.find u = some t) : (g.step o).1.types.find u = some t := by
  cases o with
  | addCourse c =>
    rcases addCourse_cases g c with ⟨_, e⟩ | ⟨hn, e⟩ <;> simp only [step, e]
    · exact h
    · rw [AMap.find_put_ne]; exact h
      rintro rfl; simp [hn] at h
  | addLesson l c =>
    rcases addLesson_cases g l c with ⟨_, e⟩ | ⟨hn, _, e⟩ | ⟨hn, ty, hty, e⟩ <;>
      simp only [step, e]
    · exact h
    · rw [AMap.find_put_ne]; exact h
      rintro rfl; simp [hn] at h
    · have hl : l ≠ u := by rintro rfl; simp [hn] at h
      rcases hty with ⟨rfl, hc⟩ | ⟨rfl, hc⟩
      · by_cases hcu : c = u
        · subst hcu; rw [AMap.find_put_ne _ _ hl, h] at hc; simp at hc
        · rw [AMap.find_put_ne _ _ hcu, AMap.find_put_ne _ _ hl]; exact h
      · rw [AMap.find_put_ne _ _ hl]; exact h
  | addExercise l c =>
    rcases addExercise_cases g l c with ⟨_, e⟩ | ⟨hn, _, e⟩ | ⟨hn, ty, hty, e⟩ <;>
      simp only [step, e]
    · exact h
    · rw [AMap.find_put_ne]; exact h
      rintro rfl; simp [hn] at h
    · have hl : l ≠ u := by rintro rfl; simp [hn] at h
      rcases hty with ⟨rfl, hc⟩ | ⟨rfl, hc⟩
      · by_cases hcu : c = u
        · subst hcu; rw [AMap.find_put_ne _ _ hl, h] at hc; simp at hc
        · rw [AMap.find_put_ne _ _ hcu, AMap.find_put_ne _ _ hl]; exact h
      · rw [AMap.find_put_ne _ _ hl]; exact h
  | addDependencies u t ds =>
    rcases step_addDependencies g u t ds with e | ⟨_, e⟩ <;> rw [e] <;> exact h
  | addEncompassed u ds es =>
    rcases addEncompassed_cases g u ds es with ⟨_, e⟩ | ⟨_, e⟩ <;> simp only [step, e] <;> exact h
  | setEncompassingEqualsDependency => exact h
  | addSuperseded u ss =>
    simp only [step, addSuperseded_eq]; split <;> exact h
  | updateStartingLessons =>
    obtain ⟨s, st, e⟩ := updateStartingLessons_frame g
    simp only [step, e]; exact h

theorem contInv_step (g : Graph ι) (o : Op ι) (h : ContInv g) : ContInv (g.step o).1 := by
  have hm := types_mono_step g o
  cases o with
  | addCourse c =>
    rcases addCourse_cases g c with ⟨_, e⟩ | ⟨hn, e⟩
    · simp only [step, e]; exact h
    · simp only [step, e] at hm ⊢
      exact ⟨h.lesson, h.exercise,
        fun l c hl => ⟨hm _ _ (h.tyL l c hl).1, hm _ _ (h.tyL l c hl).2⟩,
        fun l c hl => ⟨hm _ _ (h.tyE l c hl).1, hm _ _ (h.tyE l c hl).2⟩⟩
  | addLesson l c =>
    rcases addLesson_cases g l c with ⟨_, e⟩ | ⟨hn, _, e⟩ | ⟨hn, ty, hty, e⟩
    · simp only [step, e]; exact h
    · simp only [step, e] at hm ⊢
      exact ⟨h.lesson, h.exercise,
        fun l c hl => ⟨hm _ _ (h.tyL l c hl).1, hm _ _ (h.tyL l c hl).2⟩,
        fun l c hl => ⟨hm _ _ (h.tyE l c hl).1, hm _ _ (h.tyE l c hl).2⟩⟩
    · simp only [step, e] at hm ⊢
      have hlc : g.lessonCourse.find l = none := by
        cases hf : g.lessonCourse.find l with
        | none => rfl
        | some c' => have := (h.tyL l c' hf).1; simp [hn] at this
      have htl : ty.find l = some .lesson ∧ ty.find c = some .course := by
        rcases hty with ⟨rfl, hc⟩ | ⟨rfl, hc⟩
        · have : c ≠ l := by rintro rfl; simp at hc
          exact ⟨by rw [AMap.find_put_ne _ _ this]; simp, by simp⟩
        · exact ⟨by simp, hc⟩
      refine ⟨?_, h.exercise, ?_, fun l c hl => ⟨hm _ _ (h.tyE l c hl).1, hm _ _ (h.tyE l c hl).2⟩⟩
      · intro c' l'
        simp only [rel_upd_insert, AMap.find_put, h.lesson]
        by_cases hl : l = l'
        · subst hl; simp [hlc, eq_comm]
        · simp [hl, Ne.symm hl]
      · intro l' c' hl'
        rw [AMap.find_put] at hl'
        split at hl'
        · rename_i hll; subst hll; injection hl' with hl'; subst hl'; exact htl
        · exact ⟨hm _ _ (h.tyL _ _ hl').1, hm _ _ (h.tyL _ _ hl').2⟩
  | addExercise l c =>
    rcases addExercise_cases g l c with ⟨_, e⟩ | ⟨hn, _, e⟩ | ⟨hn, ty, hty, e⟩
    · simp only [step, e]; exact h
    · simp only [step, e] at hm ⊢
      exact ⟨h.lesson, h.exercise,
        fun l c hl => ⟨hm _ _ (h.tyL l c hl).1, hm _ _ (h.tyL l c hl).2⟩,
        fun l c hl => ⟨hm _ _ (h.tyE l c hl).1, hm _ _ (h.tyE l c hl).2⟩⟩
    · simp only [step, e] at hm ⊢
      have hlc : g.exerciseLesson.find l = none := by
        cases hf : g.exerciseLesson.find l with
        | none => rfl
        | some c' => have := (h.tyE l c' hf).1; simp [hn] at this
      have htl : ty.find l = some .exercise ∧ ty.find c = some .lesson := by
        rcases hty with ⟨rfl, hc⟩ | ⟨rfl, hc⟩
        · have : c ≠ l := by rintro rfl; simp at hc
          exact ⟨by rw [AMap.find_put_ne _ _ this]; simp, by simp⟩
        · exact ⟨by simp, hc⟩
      refine ⟨h.lesson, ?_, fun l c hl => ⟨hm _ _ (h.tyL l c hl).1, hm _ _ (h.tyL l c hl).2⟩, ?_⟩
      · intro c' l'
        simp only [rel_upd_insert, AMap.find_put, h.exercise]
        by_cases hl : l = l'
        · subst hl; simp [hlc, eq_comm]
        · simp [hl, Ne.symm hl]
      · intro l' c' hl'
        rw [AMap.find_put] at hl'
        split at hl'
        · rename_i hll; subst hll; injection hl' with hl'; subst hl'; exact htl
        · exact ⟨hm _ _ (h.tyE _ _ hl').1, hm _ _ (h.tyE _ _ hl').2⟩
  | addDependencies u t ds =>
    rcases step_addDependencies g u t ds with e | ⟨_, e⟩ <;> rw [e]
    · exact h
    · exact ⟨h.lesson, h.exercise, h.tyL, h.tyE⟩
  | addEncompassed u ds es =>
    rcases addEncompassed_cases g u ds es with ⟨_, e⟩ | ⟨_, e⟩ <;> simp only [step, e]
    · exact h
    · exact ⟨h.lesson, h.exercise, h.tyL, h.tyE⟩
  | setEncompassingEqualsDependency => exact ⟨h.lesson, h.exercise, h.tyL, h.tyE⟩
  | addSuperseded u ss =>
    simp only [step, addSuperseded_eq]; split
    · exact h
    · exact ⟨h.lesson, h.exercise, h.tyL, h.tyE⟩
  | updateStartingLessons =>
    obtain ⟨s, st, e⟩ := updateStartingLessons_frame g
    simp only [step, e]; exact ⟨h.lesson, h.exercise, h.tyL, h.tyE⟩

/-- Dependency entries: no self dependency, the depending unit is typed, sets are duplicate free. -/
structure DepShape (g : Graph ι) : Prop where
  noSelf : ∀ u, ¬ Rel g.deps u u
  typed : ∀ u s, g.deps.find u = some s → ∃ t, g.types.find u = some t
  nodupD : ∀ u s, g.deps.find u = some s → s.Nodup
  nodupT : ∀ u s, g.dependents.find u = some s → s.Nodup

theorem fold_insert_nodup (m : AMap ι (List ι)) (ks : List ι) (x : ι)
    (h : ∀ u s, m.find u = some s → s.Nodup) :
    ∀ u s, (ks.foldl (fun m k => m.upd k [] (fun s => s.insert x)) m).find u = some s →
      s.Nodup := by
  induction ks generalizing m with
  | nil => exact h
  | cons k ks ih =>
    apply ih
    intro u s hs
    rw [AMap.find_upd] at hs
    split at hs
    · injection hs with hs; subst hs
      apply nodup_insert'
      cases hk : m.find k with
      | none => simp
      | some s => exact h _ _ hk
    · exact h _ _ hs

theorem verifyDependencies_iff (g : Graph ι) (u : ι) (t : UnitType) (ds : List ι) :
    g.verifyDependencies u t ds = true ↔
      t ≠ .exercise ∧ u ∉ ds ∧ ∃ t, g.types.find u = some t := by
  simp only [verifyDependencies, Bool.and_eq_true, decide_eq_true_eq, List.all_eq_true,
    Option.isSome_iff_exists, and_assoc]
  refine and_congr Iff.rfl (and_congr ?_ Iff.rfl)
  constructor
  · intro h hu; exact h u hu rfl
  · intro h d hd hdu; subst hdu; exact h hd

theorem depShape_step (g : Graph ι) (o : Op ι) (h : DepShape g) : DepShape (g.step o).1 := by
  have hm := types_mono_step g o
  have key : ∀ g', g'.deps = g.deps → g'.dependents = g.dependents →
      (∀ u t, g.types.find u = some t → g'.types.find u = some t) → DepShape g' := by
    intro g' e1 e2 e3
    refine ⟨?_, ?_, ?_, ?_⟩
    · rw [e1]; exact h.noSelf
    · rw [e1]; intro u s hs; obtain ⟨t, ht⟩ := h.typed u s hs; exact ⟨t, e3 _ _ ht⟩
    · rw [e1]; exact h.nodupD
    · rw [e2]; exact h.nodupT
  cases o with
  | addCourse c =>
    rcases addCourse_cases g c with ⟨_, e⟩ | ⟨_, e⟩ <;> simp only [step, e] at hm ⊢ <;>
      exact key _ rfl rfl hm
  | addLesson l c =>
    rcases addLesson_cases g l c with ⟨_, e⟩ | ⟨_, _, e⟩ | ⟨_, _, _, e⟩ <;>
      simp only [step, e] at hm ⊢ <;> exact key _ rfl rfl hm
  | addExercise l c =>
    rcases addExercise_cases g l c with ⟨_, e⟩ | ⟨_, _, e⟩ | ⟨_, _, _, e⟩ <;>
      simp only [step, e] at hm ⊢ <;> exact key _ rfl rfl hm
  | addDependencies u t ds =>
    rcases step_addDependencies g u t ds with e | ⟨hv, e⟩
    · rw [e]; exact h
    · rw [e]
      rw [verifyDependencies_iff] at hv
      refine ⟨?_, ?_, ?_, fold_insert_nodup _ _ _ h.nodupT⟩
      · intro v hv'
        rw [rel_upd_extend] at hv'
        rcases hv' with hv' | ⟨rfl, hv'⟩
        · exact h.noSelf v hv'
        · exact hv.2.1 hv'
      · intro v s hs
        rw [AMap.find_upd] at hs
        split at hs
        · rename_i huv; subst huv; exact hv.2.2
        · exact h.typed v s hs
      · intro v s hs
        rw [AMap.find_upd] at hs
        split at hs
        · injection hs with hs; subst hs
          apply nodup_extendSet
          cases hk : g.deps.find u with
          | none => simp
          | some s => exact h.nodupD _ _ hk
        · exact h.nodupD v s hs
  | addEncompassed u ds es =>
    rcases addEncompassed_cases g u ds es with ⟨_, e⟩ | ⟨_, e⟩ <;> simp only [step, e] at hm ⊢ <;>
      exact key _ rfl rfl hm
  | setEncompassingEqualsDependency => exact key _ rfl rfl hm
  | addSuperseded u ss =>
    simp only [step, addSuperseded_eq] at hm ⊢; split
    · exact h
    · exact key _ rfl rfl (fun _ _ h => h)
  | updateStartingLessons =>
    obtain ⟨s, st, e⟩ := updateStartingLessons_frame g
    simp only [step, e] at hm ⊢; exact key _ rfl rfl hm

/-! ### Encompassing -/

/-- Number of `(v, w)` in the entry of `u`. -/
def cnt (m : AMap ι (List (ι × ℚ))) (u : ι) (a : ι × ℚ) : Nat :=
  ((m.find u).getD []).count a

theorem cnt_fold (m : AMap ι (List (ι × ℚ))) (es : List (ι × ℚ)) (u v u' : ι) (w : ℚ) :
    cnt (es.foldl (fun m e => m.upd e.1 [] (fun l => l ++ [(u, e.2)])) m) v (u', w) =
      cnt m v (u', w) + if u = u' then es.count (v, w) else 0 := by
  induction es generalizing m with
  | nil => simp
  | cons e es ih =>
    rw [List.foldl_cons, ih]
    obtain ⟨x, y⟩ := e
    simp only [cnt, AMap.find_upd]
    by_cases hu : u = u'
    · subst hu
      simp only [if_true, List.count_cons]
      by_cases hx : x = v
      · subst hx
        by_cases hy : y = w
        · subst hy; simp; omega
        · simp [hy]
      · simp [hx]
    · simp only [hu, if_false, Nat.add_zero]
      split
      · subst_vars; simp [hu]
      · rfl

structure EncInv (g : Graph ι) : Prop where
  cnt : ∀ u v w, cnt g.enc u (v, w) = cnt g.encBy v (u, w)
  range : ∀ u v w, Rel g.enc u (v, w) → 0 ≤ w ∧ w ≤ 1
  some_enc : g.encBy ≠ [] → g.enc ≠ []

theorem upd_ne_nil {ν : Type} (m : AMap ι ν) (k : ι) (d : ν) (f : ν → ν) : m.upd k d f ≠ [] := by
  intro h
  have := AMap.find_upd m k d f k
  rw [h] at this
  simp at this

theorem mem_fullEncompassed (ds : List ι) (es : List (ι × ℚ)) (v : ι) (w : ℚ) :
    (v, w) ∈ fullEncompassed ds es ↔
      (v, w) ∈ es ∨ (w = 1 ∧ v ∈ ds ∧ ∀ w', (v, w') ∉ es) := by
  simp only [fullEncompassed, List.mem_append, List.mem_map, List.mem_filter,
    Bool.not_eq_true', List.any_eq_false, decide_eq_true_eq, Prod.mk.injEq, Prod.forall]
  refine or_congr Iff.rfl ?_
  constructor
  · rintro ⟨a, ⟨h1, h2⟩, rfl, rfl⟩
    exact ⟨rfl, h1, fun w' hw => h2 _ _ hw rfl⟩
  · rintro ⟨rfl, h1, h2⟩
    exact ⟨v, ⟨h1, fun a b hab hav => h2 b (hav ▸ hab)⟩, rfl, rfl⟩

theorem encInv_step (g : Graph ι) (o : Op ι) (h : EncInv g) : EncInv (g.step o).1 := by
  have key : ∀ g', g'.enc = g.enc → g'.encBy = g.encBy → EncInv g' := by
    intro g' e1 e2
    refine ⟨?_, ?_, ?_⟩
    · rw [e1, e2]; exact h.cnt
    · rw [e1]; exact h.range
    · rw [e1, e2]; exact h.some_enc
  cases o with
  | addCourse c =>
    rcases addCourse_cases g c with ⟨_, e⟩ | ⟨_, e⟩ <;> simp only [step, e] <;> exact key _ rfl rfl
  | addLesson l c =>
    rcases addLesson_cases g l c with ⟨_, e⟩ | ⟨_, _, e⟩ | ⟨_, _, _, e⟩ <;>
      simp only [step, e] <;> exact key _ rfl rfl
  | addExercise l c =>
    rcases addExercise_cases g l c with ⟨_, e⟩ | ⟨_, _, e⟩ | ⟨_, _, _, e⟩ <;>
      simp only [step, e] <;> exact key _ rfl rfl
  | addDependencies u t ds =>
    rcases step_addDependencies g u t ds with e | ⟨_, e⟩ <;> rw [e] <;> exact key _ rfl rfl
  | addEncompassed u ds es =>
    rcases addEncompassed_cases g u ds es with ⟨_, e⟩ | ⟨hr, e⟩ <;> simp only [step, e]
    · exact h
    · refine ⟨?_, ?_, ?_⟩
      · intro a b w
        simp only [cnt_fold]
        simp only [cnt, AMap.find_upd]
        have := h.cnt a b w
        simp only [cnt] at this
        by_cases hu : u = a
        · subst hu; simp [this]
        · simp [hu, this]
      · intro a b w hab
        rw [rel_upd] at hab
        split at hab
        · rename_i hua
          subst hua
          rw [List.mem_append] at hab
          rcases hab with hab | hab
          · exact h.range u b w (by rw [rel_iff_getD]; exact hab)
          · rw [mem_fullEncompassed] at hab
            rcases hab with hab | ⟨rfl, -⟩
            · exact hr _ hab
            · exact ⟨by decide +kernel, by decide +kernel⟩
        · exact h.range a b w hab
      · intro _; exact upd_ne_nil g.enc u [] (fun l => l ++ fullEncompassed ds es)
  | setEncompassingEqualsDependency =>
    exact ⟨fun _ _ _ => rfl, fun u v w h => (not_rel_nil _ _ h).elim, fun h => (h rfl).elim⟩
  | addSuperseded u ss =>
    simp only [step, addSuperseded_eq]; split <;> exact key _ rfl rfl
  | updateStartingLessons =>
    obtain ⟨s, st, e⟩ := updateStartingLessons_frame g
    simp only [step, e]; exact key _ rfl rfl

/-! ### Starting lessons -/

theorem mem_startingOf (g : Graph ι) (ls : List ι) (l : ι) :
    l ∈ g.startingOf ls ↔ l ∈ ls ∧ ∀ d, Rel g.deps l d → d ∉ ls := by
  simp only [startingOf, List.mem_filter, getDependencies, Rel]
  refine and_congr Iff.rfl ?_
  cases h : g.deps.find l with
  | none => simp
  | some ds =>
    simp only [List.all_eq_true, decide_eq_true_eq, Option.some.injEq]
    constructor
    · rintro h d ⟨_, rfl, hd⟩ hl; exact h d hl hd
    · intro h x hx hd; exact h x ⟨_, rfl, hd⟩ hx

theorem startingOf_congr (g g' : Graph ι) (h : g.deps = g'.deps) (ls : List ι) :
    g.startingOf ls = g'.startingOf ls := by
  simp only [startingOf, getDependencies, h]

theorem hasStartingDeps_congr (g g' : Graph ι) (h : g.deps = g'.deps) (h' : g.types = g'.types)
    (ls : List ι) : g.hasStartingDeps ls = g'.hasStartingDeps ls := by
  simp only [hasStartingDeps, getDependencies, getUnitType, h, h']

theorem updateStarting_fold (g : Graph ι) (cs : List ι) :
    (∀ c, (cs.foldl updateStartingOne g).startingLessons.find c =
      if c ∈ cs then some (g.startingOf ((g.courseLessons.find c).getD []))
      else g.startingLessons.find c) ∧
    (∀ u, u ∈ (cs.foldl updateStartingOne g).sinks ↔ u ∈ g.sinks ∧
      ¬ (u ∈ cs ∧ g.hasStartingDeps (g.startingOf ((g.courseLessons.find u).getD [])) = true)) := by
  induction cs generalizing g with
  | nil => simp
  | cons c cs ih =>
    obtain ⟨i1, i2⟩ := ih (g.updateStartingOne c)
    simp only [List.foldl_cons]
    constructor
    · intro c'
      rw [i1 c']
      simp only [List.mem_cons]
      by_cases h : c' ∈ cs
      · simp only [h, or_true, if_true]; rfl
      · simp only [h, or_false, if_false]
        by_cases h2 : c' = c
        · subst h2; simp [updateStartingOne]
        · simp [updateStartingOne, h2, AMap.find_put, Ne.symm h2]
    · intro u
      rw [i2 u]
      have e1 : (g.updateStartingOne c).startingOf
          (((g.updateStartingOne c).courseLessons.find u).getD []) =
          g.startingOf ((g.courseLessons.find u).getD []) := rfl
      have e2 : ∀ ls, (g.updateStartingOne c).hasStartingDeps ls = g.hasStartingDeps ls :=
        fun _ => rfl
      rw [e1, e2]
      have e3 : u ∈ (g.updateStartingOne c).sinks ↔ u ∈ g.sinks ∧
          ¬ (u = c ∧ g.hasStartingDeps (g.startingOf ((g.courseLessons.find u).getD [])) = true) := by
        simp only [updateStartingOne]
        by_cases hu : u = c
        · subst hu
          split
          · rename_i hh; simp [hh.1, hh.2]
          · rename_i hh
            constructor
            · intro hs; exact ⟨hs, fun h => hh ⟨hs, h.2⟩⟩
            · exact fun h => h.1
        · split <;> simp [hu]
      rw [e3]
      simp only [List.mem_cons]
      constructor
      · rintro ⟨⟨h1, h2⟩, h3⟩
        refine ⟨h1, ?_⟩
        rintro ⟨h4 | h4, h5⟩
        · exact h2 ⟨h4, h5⟩
        · exact h3 ⟨h4, h5⟩
      · rintro ⟨h1, h2⟩
        exact ⟨⟨h1, fun h => h2 ⟨Or.inl h.1, h.2⟩⟩, fun h => h2 ⟨Or.inr h.1, h.2⟩⟩

/-! ### Sinks -/

theorem mem_touchSink (g : Graph ι) (u : ι) (ds : List ι) (v : ι) :
    v ∈ (g.touchSink u ds).sinks ↔
      if v = u then ((∀ d, ¬ Rel g.deps u d) ∧ ds = [] ∧ g.lessonCourse.find u = none)
      else v ∈ g.sinks := by
  have hempty : ((g.deps.find u).getD []).isEmpty = true ↔ ∀ d, ¬ Rel g.deps u d := by
    simp only [rel_iff_getD]
    rw [List.isEmpty_iff, List.eq_nil_iff_forall_not_mem]
  by_cases hv : v = u
  · subst hv
    simp only [if_true, ← hempty]
    change _ ↔ _ ∧ _ ∧ g.getLessonCourse v = none
    simp only [touchSink]
    by_cases h1 : (((g.deps.find v).getD []).isEmpty && ds.isEmpty) = true
    · have h1' := h1
      simp only [Bool.and_eq_true, List.isEmpty_iff] at h1'
      cases hc : g.getLessonCourse v <;> simp [h1'.1, h1'.2]
    · have h1' : ¬ (((g.deps.find v).getD []).isEmpty = true ∧ ds = []) := by
        rintro ⟨a, b⟩; apply h1; simp [a, b]
      have : ∀ q : Prop, ¬ (((g.deps.find v).getD []).isEmpty = true ∧ ds = [] ∧ q) :=
        fun q h => h1' ⟨h.1, h.2.1⟩
      rw [if_neg h1]
      simp only [this, iff_false]
      split <;> simp
  · simp only [hv, if_false]
    simp only [touchSink]
    split <;> split <;> simp [hv]

theorem foldl_touch_sinks (g : Graph ι) (ds : List ι) (v : ι) :
    v ∈ (ds.foldl (fun g d => g.touchSink d []) g).sinks ↔
      if v ∈ ds then ((∀ d, ¬ Rel g.deps v d) ∧ g.lessonCourse.find v = none)
      else v ∈ g.sinks := by
  induction ds generalizing g with
  | nil => simp
  | cons d ds ih =>
    rw [List.foldl_cons, ih]
    obtain ⟨s, hs⟩ := touchSink_frame g d []
    have e1 : (g.touchSink d []).deps = g.deps := rfl
    have e2 : (g.touchSink d []).lessonCourse = g.lessonCourse := rfl
    rw [e1, e2, mem_touchSink]
    by_cases h1 : v ∈ ds
    · simp [h1]
    · by_cases h2 : v = d
      · subst h2; simp [h1]
      · simp [h1, h2]

theorem mem_updateDependencySinks (g : Graph ι) (u : ι) (ds : List ι) (hu : u ∉ ds) (v : ι) :
    v ∈ (g.updateDependencySinks u ds).sinks ↔
      if v = u then ((∀ d, ¬ Rel g.deps u d) ∧ ds = [] ∧ g.lessonCourse.find u = none)
      else if v ∈ ds then ((∀ d, ¬ Rel g.deps v d) ∧ g.lessonCourse.find v = none)
      else v ∈ g.sinks := by
  rw [updateDependencySinks, foldl_touch_sinks]
  have e1 : (g.touchSink u ds).deps = g.deps := rfl
  have e2 : (g.touchSink u ds).lessonCourse = g.lessonCourse := rfl
  rw [e1, e2, mem_touchSink]
  by_cases h1 : v = u
  · subst h1; simp [hu]
  · simp [h1]

end Trane.Graph
