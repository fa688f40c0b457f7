import Verif.Graph.WellFormed

/-! After any history of calls no map of the graph has a key twice and no set an element twice. -/

namespace Trane.Graph
variable {ι : Type} [DecidableEq ι]

/-- Keys are unique and the sets have no repeated elements. -/
def SetMapOk (m : AMap ι (List ι)) : Prop :=
  m.keys.Nodup ∧ ∀ k s, m.find k = some s → s.Nodup

structure MapsOk (g : Graph ι) : Prop where
  types : g.types.keys.Nodup
  courseLessons : SetMapOk g.courseLessons
  startingLessons : SetMapOk g.startingLessons
  lessonCourse : g.lessonCourse.keys.Nodup
  lessonExercises : SetMapOk g.lessonExercises
  exerciseLesson : g.exerciseLesson.keys.Nodup
  deps : SetMapOk g.deps
  dependents : SetMapOk g.dependents
  sinks : g.sinks.Nodup
  enc : g.enc.keys.Nodup
  encBy : g.encBy.keys.Nodup
  sup : SetMapOk g.sup
  supBy : SetMapOk g.supBy

theorem nodup_keys_upd {κ ν : Type} [DecidableEq κ] (m : AMap κ ν) (k : κ) (d : ν) (f : ν → ν)
    (h : m.keys.Nodup) : (m.upd k d f).keys.Nodup := AMap.nodup_keys_put _ _ _ h

theorem setMapOk_put (m : AMap ι (List ι)) (k : ι) (s : List ι) (h : SetMapOk m) (hs : s.Nodup) :
    SetMapOk (m.put k s) := by
  refine ⟨AMap.nodup_keys_put _ _ _ h.1, fun k' s' e => ?_⟩
  rw [AMap.find_put] at e
  split at e
  · cases e; exact hs
  · exact h.2 _ _ e

theorem setMapOk_getD (m : AMap ι (List ι)) (k : ι) (h : SetMapOk m) :
    ((m.find k).getD []).Nodup := by
  cases e : m.find k with
  | none => simp
  | some s => exact h.2 _ _ e

theorem setMapOk_insert (m : AMap ι (List ι)) (k x : ι) (h : SetMapOk m) :
    SetMapOk (m.upd k [] (fun s => s.insert x)) :=
  setMapOk_put _ _ _ h (nodup_insert' _ (setMapOk_getD m k h))

theorem setMapOk_extend (m : AMap ι (List ι)) (k : ι) (xs : List ι) (h : SetMapOk m) :
    SetMapOk (m.upd k [] (fun s => extendSet s xs)) :=
  setMapOk_put _ _ _ h (nodup_extendSet _ _ (setMapOk_getD m k h))

theorem setMapOk_fold (m : AMap ι (List ι)) (ks : List ι) (x : ι) (h : SetMapOk m) :
    SetMapOk (ks.foldl (fun m k => m.upd k [] (fun s => s.insert x)) m) := by
  induction ks generalizing m with
  | nil => exact h
  | cons k ks ih => exact ih _ (setMapOk_insert m k x h)

theorem nodup_touchSink (g : Graph ι) (u : ι) (ds : List ι) (h : g.sinks.Nodup) :
    (g.touchSink u ds).sinks.Nodup := by
  unfold touchSink
  dsimp only
  have a : (if (((g.deps.find u).getD []).isEmpty && ds.isEmpty) = true then g.sinks.insert u
      else g.sinks.filter (fun x => x ≠ u)).Nodup := by
    split
    · exact nodup_insert' _ h
    · exact h.filter _
  split
  · exact a.filter _
  · exact a

theorem nodup_updateSinks (g : Graph ι) (u : ι) (ds : List ι) (h : g.sinks.Nodup) :
    (g.updateDependencySinks u ds).sinks.Nodup := by
  unfold updateDependencySinks
  have key : ∀ (xs : List ι) (g : Graph ι), g.sinks.Nodup →
      (xs.foldl (fun g d => g.touchSink d []) g).sinks.Nodup := by
    intro xs
    induction xs with
    | nil => exact fun g h => h
    | cons x xs ih => exact fun g h => ih _ (nodup_touchSink g x [] h)
  exact key _ _ (nodup_touchSink g u ds h)

theorem encBy_fold_keys (l : List (ι × ℚ)) (u : ι) (m : AMap ι (List (ι × ℚ))) (h : m.keys.Nodup) :
    (l.foldl (fun m e => m.upd e.1 [] (fun l => l ++ [(u, e.2)])) m).keys.Nodup := by
  induction l generalizing m with
  | nil => exact h
  | cons e l ih => exact ih _ (nodup_keys_upd _ _ _ _ h)

theorem starting_fold_ok (cs : List ι) (g : Graph ι) (hc : SetMapOk g.courseLessons)
    (hs : SetMapOk g.startingLessons) (hk : g.sinks.Nodup) :
    SetMapOk (cs.foldl updateStartingOne g).startingLessons ∧
      (cs.foldl updateStartingOne g).sinks.Nodup := by
  induction cs generalizing g with
  | nil => exact ⟨hs, hk⟩
  | cons c cs ih =>
    refine ih (g.updateStartingOne c) hc ?_ ?_
    · exact setMapOk_put _ _ _ hs ((setMapOk_getD _ c hc).filter _)
    · unfold updateStartingOne
      dsimp only
      split
      · exact hk.filter _
      · exact hk

theorem mapsOk_step (g : Graph ι) (o : Op ι) (h : MapsOk g) : MapsOk (g.step o).1 := by
  cases o with
  | addCourse c =>
    rcases addCourse_cases g c with ⟨_, e⟩ | ⟨_, e⟩ <;> simp only [step, e]
    · exact h
    · exact { h with types := AMap.nodup_keys_put _ _ _ h.types }
  | addLesson l c =>
    rcases addLesson_cases g l c with ⟨_, e⟩ | ⟨_, _, e⟩ | ⟨_, ty, hty, e⟩ <;> simp only [step, e]
    · exact h
    · exact { h with types := AMap.nodup_keys_put _ _ _ h.types }
    · refine { h with
        types := ?_
        lessonCourse := AMap.nodup_keys_put _ _ _ h.lessonCourse
        courseLessons := setMapOk_insert _ _ _ h.courseLessons }
      rcases hty with ⟨rfl, _⟩ | ⟨rfl, _⟩
      · exact AMap.nodup_keys_put _ _ _ (AMap.nodup_keys_put _ _ _ h.types)
      · exact AMap.nodup_keys_put _ _ _ h.types
  | addExercise l c =>
    rcases addExercise_cases g l c with ⟨_, e⟩ | ⟨_, _, e⟩ | ⟨_, ty, hty, e⟩ <;> simp only [step, e]
    · exact h
    · exact { h with types := AMap.nodup_keys_put _ _ _ h.types }
    · refine { h with
        types := ?_
        exerciseLesson := AMap.nodup_keys_put _ _ _ h.exerciseLesson
        lessonExercises := setMapOk_insert _ _ _ h.lessonExercises }
      rcases hty with ⟨rfl, _⟩ | ⟨rfl, _⟩
      · exact AMap.nodup_keys_put _ _ _ (AMap.nodup_keys_put _ _ _ h.types)
      · exact AMap.nodup_keys_put _ _ _ h.types
  | addDependencies u t ds =>
    rcases step_addDependencies g u t ds with e | ⟨_, e⟩ <;> rw [e]
    · exact h
    · exact { h with
        sinks := nodup_updateSinks g u ds h.sinks
        deps := setMapOk_extend _ _ _ h.deps
        dependents := setMapOk_fold _ _ _ h.dependents }
  | addEncompassed u ds es =>
    rcases addEncompassed_cases g u ds es with ⟨_, e⟩ | ⟨_, e⟩ <;> simp only [step, e]
    · exact h
    · exact { h with
        enc := nodup_keys_upd g.enc u [] (fun l => l ++ fullEncompassed ds es) h.enc
        encBy := encBy_fold_keys _ _ _ h.encBy }
  | setEncompassingEqualsDependency =>
    exact { h with enc := by simp [step, setEncompassingEqualsDependency, AMap.keys],
                   encBy := by simp [step, setEncompassingEqualsDependency, AMap.keys] }
  | addSuperseded u ss =>
    simp only [step, addSuperseded_eq]; split
    · exact h
    · exact { h with
        sup := setMapOk_extend _ _ _ h.sup
        supBy := setMapOk_fold _ _ _ h.supBy }
  | updateStartingLessons =>
    obtain ⟨a, b⟩ := starting_fold_ok g.courseLessons.keys g h.courseLessons h.startingLessons h.sinks
    obtain ⟨s, st, e⟩ := updateStartingLessons_frame g
    have e1 : (g.courseLessons.keys.foldl updateStartingOne g) = { g with sinks := s, startingLessons := st } := e
    rw [e1] at a b
    simp only [step, e]
    exact { h with startingLessons := a, sinks := b }

theorem mapsOk_run (ops : List (Op ι)) : MapsOk (run ops) :=
  run_induction (by
    constructor <;> simp [empty, AMap.keys, SetMapOk]) mapsOk_step ops

end Trane.Graph
