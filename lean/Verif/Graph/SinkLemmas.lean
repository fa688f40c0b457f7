import Verif.Graph.Invariants

/-! Invariants of the dependency sinks (helper lemmas for the property theorem on sinks). -/

namespace Trane.Graph
variable {ι : Type} [DecidableEq ι]

/-- Has an entry in either direction of the dependency relation. -/
def Touched (g : Graph ι) (u : ι) : Prop :=
  (∃ s, g.deps.find u = some s) ∨ (∃ s, g.dependents.find u = some s)

structure SinkInv (g : Graph ι) : Prop where
  sound : ∀ u, u ∈ g.sinks → Touched g u ∧ ∀ d, ¬ Rel g.deps u d
  complete : ∀ u, Touched g u → (∀ d, ¬ Rel g.deps u d) → g.lessonCourse.find u = none →
    u ∈ g.sinks
  noStart : g.startingLessons = []

theorem sinkInv_step (g : Graph ι) (o : Op ι) (ho : o ≠ .updateStartingLessons) (h : SinkInv g) :
    SinkInv (g.step o).1 := by
  have key : ∀ g' : Graph ι, g'.deps = g.deps → g'.dependents = g.dependents →
      g'.sinks = g.sinks → g'.startingLessons = g.startingLessons →
      (∀ u, g'.lessonCourse.find u = none → g.lessonCourse.find u = none) → SinkInv g' := by
    intro g' e1 e2 e3 e4 e5
    refine ⟨?_, ?_, ?_⟩
    · unfold Touched; rw [e1, e2, e3]; exact h.sound
    · unfold Touched; rw [e1, e2, e3]; exact fun u a b c => h.complete u a b (e5 u c)
    · rw [e4]; exact h.noStart
  cases o with
  | addCourse c =>
    rcases addCourse_cases g c with ⟨_, e⟩ | ⟨_, e⟩ <;> simp only [step, e] <;>
      exact key _ rfl rfl rfl rfl (fun _ h => h)
  | addLesson l c =>
    rcases addLesson_cases g l c with ⟨_, e⟩ | ⟨_, _, e⟩ | ⟨_, _, _, e⟩ <;> simp only [step, e]
    · exact h
    · exact key _ rfl rfl rfl rfl (fun _ h => h)
    · refine key _ rfl rfl rfl rfl ?_
      intro u hu
      simp only [AMap.find_put] at hu
      split at hu
      · simp at hu
      · exact hu
  | addExercise l c =>
    rcases addExercise_cases g l c with ⟨_, e⟩ | ⟨_, _, e⟩ | ⟨_, _, _, e⟩ <;>
      simp only [step, e] <;> exact key _ rfl rfl rfl rfl (fun _ h => h)
  | addDependencies u t ds =>
    rcases step_addDependencies g u t ds with e | ⟨hv, e⟩
    · rw [e]; exact h
    · rw [e]
      rw [verifyDependencies_iff] at hv
      have hu := hv.2.1
      have hdep : ∀ v, (∃ s, (ds.foldl (fun m d => m.upd d [] (fun s => s.insert u))
          g.dependents).find v = some s) ↔ (∃ s, g.dependents.find v = some s) ∨ v ∈ ds := by
        intro v
        have := keys_fold_upd g.dependents ds id [] (fun _ s => s.insert u) v
        simpa using this
      have hkey : ∀ v, (∃ s, (g.deps.upd u [] (fun s => extendSet s ds)).find v = some s) ↔
          (∃ s, g.deps.find v = some s) ∨ v = u := by
        intro v
        rw [AMap.find_upd]
        by_cases huv : u = v
        · simp [huv]
        · simp [huv, Ne.symm huv]
      refine ⟨?_, ?_, h.noStart⟩
      · intro v hvs
        simp only [Touched, hdep, hkey, rel_upd_extend]
        simp only [mem_updateDependencySinks g u ds hu] at hvs
        split at hvs
        · rename_i hvu; subst hvu
          obtain ⟨h1, h2, -⟩ := hvs
          refine ⟨Or.inl (Or.inr rfl), ?_⟩
          subst h2
          rintro d (hd | ⟨-, hd⟩)
          · exact h1 d hd
          · simp at hd
        · rename_i hvu
          split at hvs
          · rename_i hvd
            refine ⟨Or.inr (Or.inr hvd), ?_⟩
            rintro d (hd | ⟨hd, -⟩)
            · exact hvs.1 d hd
            · exact hvu hd
          · obtain ⟨h1, h2⟩ := h.sound v hvs
            refine ⟨h1.imp Or.inl Or.inl, ?_⟩
            rintro d (hd | ⟨hd, -⟩)
            · exact h2 d hd
            · exact hvu hd
      · intro v ht hd hc
        simp only [Touched, hdep, hkey, rel_upd_extend] at ht hd
        simp only [mem_updateDependencySinks g u ds hu]
        by_cases hvu : v = u
        · subst hvu
          rw [if_pos rfl]
          refine ⟨fun d h => hd d (Or.inl h), ?_, hc⟩
          rw [List.eq_nil_iff_forall_not_mem]
          exact fun d hdd => hd d (Or.inr ⟨rfl, hdd⟩)
        · rw [if_neg hvu]
          have hd' : ∀ d, ¬ Rel g.deps v d := fun d h => hd d (Or.inl h)
          split
          · exact ⟨hd', hc⟩
          · rename_i hvd
            refine h.complete v ?_ hd' hc
            rcases ht with (a | a) | (a | a)
            · exact Or.inl a
            · exact (hvu a).elim
            · exact Or.inr a
            · exact (hvd a).elim
  | addEncompassed u ds es =>
    rcases addEncompassed_cases g u ds es with ⟨_, e⟩ | ⟨_, e⟩ <;> simp only [step, e] <;>
      exact key _ rfl rfl rfl rfl (fun _ h => h)
  | setEncompassingEqualsDependency => exact key _ rfl rfl rfl rfl (fun _ h => h)
  | addSuperseded u ss =>
    simp only [step, addSuperseded_eq]; split <;> exact key _ rfl rfl rfl rfl (fun _ h => h)
  | updateStartingLessons => exact (ho rfl).elim

theorem sinkInv_run (ops : List (Op ι)) (h : .updateStartingLessons ∉ ops) :
    SinkInv (run ops) := by
  suffices H : ∀ g : Graph ι, SinkInv g → SinkInv (runFrom g ops) by
    apply H
    refine ⟨fun u hu => ?_, fun u hu => ?_, rfl⟩
    · simp [empty] at hu
    · rcases hu with ⟨s, hs⟩ | ⟨s, hs⟩ <;> simp [empty] at hs
  induction ops with
  | nil => exact fun g h => h
  | cons o ops ih =>
    intro g hg
    rw [List.mem_cons, not_or] at h
    exact ih h.2 _ (sinkInv_step g o (Ne.symm h.1) hg)

/-- Every lesson in the sinks with a course still has an acceptable `add_dependencies` ahead. -/
def Pending (g : Graph ι) (s : List (Op ι)) : Prop :=
  ∀ u c, u ∈ g.sinks → g.lessonCourse.find u = some c →
    ∃ t ds, .addDependencies u t ds ∈ s ∧ t ≠ .exercise ∧ u ∉ ds

theorem pending_step (g : Graph ι) (hg : ContInv g) (o : Op ι) (s : List (Op ι))
    (hd : ∀ l c, o = .addLesson l c → ∃ t ds, .addDependencies l t ds ∈ s ∧ t ≠ .exercise ∧ l ∉ ds)
    (h : Pending g (o :: s)) : Pending (g.step o).1 s := by
  have key : (∀ u t ds, o ≠ .addDependencies u t ds) → ∀ g' : Graph ι,
      (∀ u, u ∈ g'.sinks → u ∈ g.sinks) → g'.lessonCourse = g.lessonCourse → Pending g' s := by
    intro ho g' e1 e2 u c hu hc
    rw [e2] at hc
    obtain ⟨t, ds, h1, h2⟩ := h u c (e1 u hu) hc
    rcases List.mem_cons.1 h1 with h1 | h1
    · exact (ho u t ds h1.symm).elim
    · exact ⟨t, ds, h1, h2⟩
  cases o with
  | addCourse c =>
    rcases addCourse_cases g c with ⟨_, e⟩ | ⟨_, e⟩ <;> simp only [step, e] <;>
      exact key (by simp) _ (fun _ h => h) rfl
  | addLesson l c =>
    rcases addLesson_cases g l c with ⟨_, e⟩ | ⟨_, _, e⟩ | ⟨_, _, _, e⟩ <;> simp only [step, e]
    · exact key (by simp) _ (fun _ h => h) rfl
    · exact key (by simp) _ (fun _ h => h) rfl
    · intro u c' hu hc
      simp only [AMap.find_put] at hc
      split at hc
      · rename_i hlu; subst hlu; exact hd l c rfl
      · obtain ⟨t, ds, h1, h2⟩ := h u c' hu hc
        exact ⟨t, ds, by simpa using h1, h2⟩
  | addExercise l c =>
    rcases addExercise_cases g l c with ⟨_, e⟩ | ⟨_, _, e⟩ | ⟨_, _, _, e⟩ <;>
      simp only [step, e] <;> exact key (by simp) _ (fun _ h => h) rfl
  | addDependencies u t ds =>
    rcases hv : g.verifyDependencies u t ds with _ | _
    · have hf : ¬ (g.verifyDependencies u t ds = true) := by simp [hv]
      simp only [step, addDependencies_err _ _ _ _ hv]
      intro v c hvs hvc
      obtain ⟨t', ds', h1, h2, h3⟩ := h v c hvs hvc
      rcases List.mem_cons.1 h1 with h1 | h1
      · injection h1 with a b c'
        subst a b c'
        exact (hf ((verifyDependencies_iff _ _ _ _).2 ⟨h2, h3, _, (hg.tyL _ _ hvc).1⟩)).elim
      · exact ⟨t', ds', h1, h2, h3⟩
    · simp only [step, addDependencies_ok _ _ _ _ hv]
      rw [verifyDependencies_iff] at hv
      intro v c hvs hvc
      simp only [mem_updateDependencySinks g u ds hv.2.1] at hvs
      simp only at hvc
      split at hvs
      · rename_i hvu; subst hvu; simp [hvc] at hvs
      · rename_i hvu
        split at hvs
        · simp [hvc] at hvs
        · obtain ⟨t', ds', h1, h2, h3⟩ := h v c hvs hvc
          rcases List.mem_cons.1 h1 with h1 | h1
          · injection h1 with a b c'; exact (hvu a).elim
          · exact ⟨t', ds', h1, h2, h3⟩
  | addEncompassed u ds es =>
    rcases addEncompassed_cases g u ds es with ⟨_, e⟩ | ⟨_, e⟩ <;> simp only [step, e] <;>
      exact key (by simp) _ (fun _ h => h) rfl
  | setEncompassingEqualsDependency => exact key (by simp) _ (fun _ h => h) rfl
  | addSuperseded u ss =>
    simp only [step, addSuperseded_eq]; split <;> exact key (by simp) _ (fun _ h => h) rfl
  | updateStartingLessons =>
    refine key (by simp) _ ?_ ?_
    · intro u hu
      exact ((updateStarting_fold g g.courseLessons.keys).2 u).1 hu |>.1
    · obtain ⟨s, st, e⟩ := updateStartingLessons_frame g
      simp only [step, e]

theorem contInv_empty : ContInv (empty : Graph ι) := by
  constructor <;> simp [empty, Rel]

theorem contInv_run (ops : List (Op ι)) : ContInv (run ops) :=
  run_induction contInv_empty contInv_step ops

theorem pending_run (ops : List (Op ι))
    (hd : ∀ p l c s, ops = p ++ .addLesson l c :: s →
      ∃ t ds, .addDependencies l t ds ∈ s ∧ t ≠ .exercise ∧ l ∉ ds) :
    Pending (run ops) [] := by
  suffices H : ∀ g : Graph ι, ContInv g → Pending g ops → Pending (runFrom g ops) [] by
    apply H _ contInv_empty
    intro u c hu
    simp [empty] at hu
  induction ops with
  | nil => exact fun g _ h => h
  | cons o ops ih =>
    intro g hg hp
    refine ih ?_ _ (contInv_step g o hg) (pending_step g hg o ops ?_ hp)
    · intro p l c s hs
      exact hd (o :: p) l c s (by simp [hs])
    · rintro l c rfl
      exact hd [] l c ops rfl

end Trane.Graph
