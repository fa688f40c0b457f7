import Verif.Graph.Spec
import Verif.Graph.Invariants

/-! Helper lemmas for the agreement of the two encompassing queries. -/

namespace Trane.Graph
variable {ι : Type} [DecidableEq ι]

theorem encompassing_agrees_of_maps (ops : List (Op ι))
    (h : (run ops).enc.isEmpty = (run ops).encBy.isEmpty) : EncompassingAgrees (run ops) := by
  intro u v w
  have hE : EncInv (run ops) := run_induction
    ⟨fun _ _ _ => rfl, fun u v w h => (not_rel_nil _ _ h).elim, fun h => (h rfl).elim⟩
    encInv_step ops
  have hD : DepInv (run ops) :=
    run_induction (fun u d => by simp [empty, Rel]) depInv_step ops
  have hS : DepShape (run ops) := run_induction
    ⟨fun u => by simp [empty, Rel], by simp [empty], by simp [empty], by simp [empty]⟩
    depShape_step ops
  have cntmap : ∀ (s : List ι) (x : ι), s.Nodup →
      (s.map (fun d => ((d, 1) : ι × ℚ))).count (x, w) = if x ∈ s ∧ w = 1 then 1 else 0 := by
    intro s x hs
    have hn : (s.map (fun d => ((d, 1) : ι × ℚ))).Nodup := by
      refine List.Pairwise.map _ ?_ hs
      intro a b hab hc; injection hc with hc; exact hab hc
    rw [hn.count]
    congr 1
    simp [eq_comm]
  unfold encompassCount encompassedByCount getEncompasses getEncompassedBy
  cases he : (run ops).enc.isEmpty with
  | true =>
    rw [h] at he
    rw [if_pos rfl, if_pos he]
    have hd := hD u v
    unfold Rel at hd
    unfold getDependencies getDependents
    cases h1 : (run ops).deps.find u with
    | none =>
      cases h2 : (run ops).dependents.find v with
      | none => rfl
      | some s =>
        simp only [Option.map_none, Option.map_some]
        rw [cntmap s u (hS.nodupT _ _ h2), if_neg]
        rintro ⟨hm, -⟩
        obtain ⟨_, h3, _⟩ := hd.2 ⟨s, h2, hm⟩
        simp [h1] at h3
    | some s =>
      cases h2 : (run ops).dependents.find v with
      | none =>
        simp only [Option.map_none, Option.map_some]
        rw [cntmap s v (hS.nodupD _ _ h1), if_neg]
        rintro ⟨hm, -⟩
        obtain ⟨_, h3, _⟩ := hd.1 ⟨s, h1, hm⟩
        simp [h2] at h3
      | some s' =>
        simp only [Option.map_some]
        rw [cntmap s v (hS.nodupD _ _ h1), cntmap s' u (hS.nodupT _ _ h2)]
        simp only [h1, h2, Option.some.injEq, exists_eq_left'] at hd
        simp [hd]
  | false =>
    rw [h] at he
    rw [if_neg (by simp), if_neg (by simp [he])]
    have hc := hE.cnt u v w
    simp only [cnt] at hc
    cases h1 : (run ops).enc.find u <;> cases h2 : (run ops).encBy.find v <;>
      simp_all

/-- Helper: with no `add_encompassed` since the maps were empty, they are empty. -/
theorem enc_stays_empty (g : Graph ι) (s : List (Op ι)) (h0 : g.enc = [] ∧ g.encBy = [])
    (h : ∀ u ds es, Op.addEncompassed u ds es ∉ s) :
    (runFrom g s).enc = [] ∧ (runFrom g s).encBy = [] := by
  induction s generalizing g with
  | nil => exact h0
  | cons o s ih =>
    refine ih (g.step o).1 ?_ (fun u ds es hm => h u ds es (List.mem_cons_of_mem _ hm))
    cases o with
    | addCourse c =>
      rcases addCourse_cases g c with ⟨_, e⟩ | ⟨_, e⟩ <;> simp only [step, e] <;> exact h0
    | addLesson l c =>
      rcases addLesson_cases g l c with ⟨_, e⟩ | ⟨_, _, e⟩ | ⟨_, _, _, e⟩ <;>
        simp only [step, e] <;> exact h0
    | addExercise l c =>
      rcases addExercise_cases g l c with ⟨_, e⟩ | ⟨_, _, e⟩ | ⟨_, _, _, e⟩ <;>
        simp only [step, e] <;> exact h0
    | addDependencies w t ds =>
      rcases step_addDependencies g w t ds with e | ⟨_, e⟩ <;> rw [e] <;> exact h0
    | addEncompassed w ds es => exact (h w ds es (by simp)).elim
    | setEncompassingEqualsDependency => exact ⟨rfl, rfl⟩
    | addSuperseded w ss =>
      simp only [step, addSuperseded_eq]; split <;> exact h0
    | updateStartingLessons =>
      obtain ⟨s, st, e⟩ := updateStartingLessons_frame g
      simp only [step, e]; exact h0

theorem fold_encBy_ne_nil (m : AMap ι (List (ι × ℚ))) (es : List (ι × ℚ)) (u : ι)
    (h : m ≠ [] ∨ es ≠ []) :
    es.foldl (fun m e => m.upd e.1 [] (fun l => l ++ [(u, e.2)])) m ≠ [] := by
  induction es generalizing m with
  | nil => simpa using h
  | cons e es ih => exact ih _ (Or.inl (upd_ne_nil _ _ _ _))

/-- Helper: an accepted call naming a unit makes the reverse map non-empty. -/
theorem encBy_of_accepted (g : Graph ι) (u : ι) (ds : List ι) (es : List (ι × ℚ))
    (hr : ∀ e ∈ es, 0 ≤ e.2 ∧ e.2 ≤ 1) (hne : ds ≠ [] ∨ es ≠ []) :
    (g.step (.addEncompassed u ds es)).1.encBy ≠ [] := by
  rcases addEncompassed_cases g u ds es with ⟨hn, e⟩ | ⟨_, e⟩
  · exact (hn hr).elim
  · simp only [step, e]
    refine fold_encBy_ne_nil _ _ _ (Or.inr ?_)
    intro hf
    unfold fullEncompassed at hf
    rw [List.append_eq_nil_iff] at hf
    obtain ⟨rfl, hf⟩ := hf
    have : ds = [] := by simpa [List.filter_eq_self.2] using hf
    simp [this] at hne

/-- Helper: without a reset the reverse map stays non-empty. -/
theorem encBy_stays_nonempty (g : Graph ι) (s : List (Op ι)) (h0 : g.encBy ≠ [])
    (h : Op.setEncompassingEqualsDependency ∉ s) : (runFrom g s).encBy ≠ [] := by
  induction s generalizing g with
  | nil => exact h0
  | cons o s ih =>
    rw [List.mem_cons, not_or] at h
    refine ih (g.step o).1 ?_ h.2
    cases o with
    | addCourse c =>
      rcases addCourse_cases g c with ⟨_, e⟩ | ⟨_, e⟩ <;> simp only [step, e] <;> exact h0
    | addLesson l c =>
      rcases addLesson_cases g l c with ⟨_, e⟩ | ⟨_, _, e⟩ | ⟨_, _, _, e⟩ <;>
        simp only [step, e] <;> exact h0
    | addExercise l c =>
      rcases addExercise_cases g l c with ⟨_, e⟩ | ⟨_, _, e⟩ | ⟨_, _, _, e⟩ <;>
        simp only [step, e] <;> exact h0
    | addDependencies w t ds =>
      rcases step_addDependencies g w t ds with e | ⟨_, e⟩ <;> rw [e] <;> exact h0
    | addEncompassed w ds es =>
      rcases addEncompassed_cases g w ds es with ⟨_, e⟩ | ⟨_, e⟩ <;> simp only [step, e]
      · exact h0
      · exact fold_encBy_ne_nil _ _ _ (Or.inl h0)
    | setEncompassingEqualsDependency => exact (h.1 rfl).elim
    | addSuperseded w ss =>
      simp only [step, addSuperseded_eq]; split <;> exact h0
    | updateStartingLessons =>
      obtain ⟨s, st, e⟩ := updateStartingLessons_frame g
      simp only [step, e]; exact h0

end Trane.Graph
