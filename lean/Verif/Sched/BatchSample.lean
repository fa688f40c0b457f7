import Verif.Sched.BatchLemmas

/-! Concrete choices and libraries on which the hypotheses of the batch theorems are shown to hold. -/

namespace Trane.Batch
open Trane.Search
open Trane.Graph
open Trane.Filters (UnitFilter)

section
variable {ι : Type} [DecidableEq ι]

/-- No shuffling and every sample takes the first elements. -/
def firstOf (le : ι → ι → Bool) : Choices ι where
  rnds := plain
  starts := fun cs => extendSet [] (cs.map Candidate.lesson ++ cs.map Candidate.course)
  starts' := fun cs => extendSet [] (cs.map Candidate.lesson ++ cs.map Candidate.course)
  pick := CandidateFilter.takeFirst
  sample := fun n xs => xs.take n
  shuffle := fun _ l => l
  draw := fun _ => 0
  le := le

theorem firstOf_ok {le : ι → ι → Bool} (h : Shuffler.IsOrder le) : IsChoices (firstOf le) where
  rnds := plain_isRnd
  pick := CandidateFilter.takeFirst_sampler
  sample := fun n xs => ⟨(List.take_sublist n xs).subperm, by simp [firstOf]⟩
  shuffle := fun _ l => List.Perm.refl l
  order := h
  starts := fun cs => ⟨nodup_extendSet _ _ List.nodup_nil, fun u => by
    simp only [firstOf, mem_extendSet, List.mem_append, List.mem_map]
    constructor
    · rintro (h | ⟨c, hc, rfl⟩ | ⟨c, hc, rfl⟩)
      · simp at h
      · exact ⟨c, hc, Or.inl rfl⟩
      · exact ⟨c, hc, Or.inr rfl⟩
    · rintro ⟨c, hc, rfl | rfl⟩
      · exact Or.inr (Or.inl ⟨c, hc, rfl⟩)
      · exact Or.inr (Or.inr ⟨c, hc, rfl⟩)⟩
  starts' := fun cs => ⟨nodup_extendSet _ _ List.nodup_nil, fun u => by
    simp only [firstOf, mem_extendSet, List.mem_append, List.mem_map]
    constructor
    · rintro (h | ⟨c, hc, rfl⟩ | ⟨c, hc, rfl⟩)
      · simp at h
      · exact ⟨c, hc, Or.inl rfl⟩
      · exact ⟨c, hc, Or.inr rfl⟩
    · rintro ⟨c, hc, rfl | rfl⟩
      · exact Or.inr (Or.inl ⟨c, hc, rfl⟩)
      · exact Or.inr (Or.inr ⟨c, hc, rfl⟩)⟩

/-- The lessons and courses of the candidates. -/
def startsOf (cs : List (Candidate ι)) : List ι :=
  extendSet [] (cs.map Candidate.lesson ++ cs.map Candidate.course)

/-- The exercises of the batch before the final shuffle. -/
def drafted (e : Env ι) (options : SchedulerOptions) (fuel : Nat) (entries : List ι) (s : Session ι)
    (f : Option (UnitFilter ι)) : Option (List ι) :=
  match Search.initialCandidates e plain fuel entries f with
  | none => none
  | some none => none
  | some (some cs) =>
    (Knocker.knockOut e.graph fuel (startsOf cs) (startsOf cs) cs).map fun r =>
      let filtered := CandidateFilter.filterCandidates CandidateFilter.takeFirst options (successRate s) r
      (filtered ++ (relearnCandidates e options (fun n xs => xs.take n) (cleanPile e s.pile)).filter
        (fun c => !filtered.any (fun c' => decide (c'.exercise = c.exercise)))).map Candidate.exercise

theorem getBatch_firstOf {le : ι → ι → Bool} (ho : Shuffler.IsOrder le) {e : Env ι} {options : SchedulerOptions} {fuel : Nat} {entries : List ι}
    {s : Session ι} {f : Option (UnitFilter ι)} {ys : List ι}
    (h : drafted e options fuel entries s f = some ys) :
    ∃ xs, xs.Perm ys ∧ getBatch e options (firstOf le) fuel entries s f = some
      (if ys.all e.hasExercise then
        ({ s with pile := cleanPile e s.pile, freq := countBatch s.freq xs }, some xs)
       else ({ s with pile := cleanPile e s.pile }, none)) := by
  unfold drafted at h
  split at h
  · cases h
  · cases h
  rename_i cs hcs
  rw [Option.map_eq_some_iff] at h
  obtain ⟨r, hr, rfl⟩ := h
  dsimp only
  refine ⟨_, (Shuffler.shuffle_spec (firstOf le).le (firstOf_ok ho).order (firstOf le).shuffle
    (firstOf_ok ho).shuffle (firstOf le).draw e.opts _).1.map Candidate.exercise, ?_⟩
  unfold getBatch
  have hcs' : Search.initialCandidates e (firstOf le).rnds fuel entries f = some (some cs) := hcs
  rw [hcs']
  dsimp only
  unfold finalCandidates
  rw [show Knocker.knockOut e.graph fuel ((firstOf le).starts cs) ((firstOf le).starts' cs) cs = some r from hr]
  rw [← ((Shuffler.shuffle_spec (firstOf le).le (firstOf_ok ho).order (firstOf le).shuffle
    (firstOf_ok ho).shuffle (firstOf le).draw e.opts _).1.map Candidate.exercise).all_eq (f := e.hasExercise)]
  rfl

end

/-- No shuffling and every sample takes the first elements. -/
def firstChoices : Choices Nat := firstOf (fun a b => decide (a ≤ b))

theorem natOrder : Shuffler.IsOrder (fun a b : Nat => decide (a ≤ b)) :=
  ⟨fun a b c h1 h2 => by simp at *; omega, fun a b => by simp; omega, fun a b h1 h2 => by simp at *; omega⟩

theorem firstChoices_ok : IsChoices firstChoices := firstOf_ok natOrder

theorem getBatch_drafted {e : Env Nat} {options : SchedulerOptions} {fuel : Nat} {entries : List Nat}
    {s : Session Nat} {f : Option (UnitFilter Nat)} {ys : List Nat}
    (h : drafted e options fuel entries s f = some ys) :
    ∃ xs, xs.Perm ys ∧ getBatch e options firstChoices fuel entries s f = some
      (if ys.all e.hasExercise then
        ({ s with pile := cleanPile e s.pile, freq := countBatch s.freq xs }, some xs)
       else ({ s with pile := cleanPile e s.pile }, none)) := getBatch_firstOf natOrder h

/-- Course 1 has ten lessons, each of which covers lesson 30 of course 2; course 2 covers these lessons. -/
def coveringOps : List (Op Nat) :=
  [.addCourse 1, .addDependencies 1 .course []] ++
  (List.range 10).flatMap (fun i => [.addLesson (11 + i) 1, .addDependencies (11 + i) .lesson [],
    .addEncompassed (11 + i) [] [(30, 1)], .addExercise (110 + i) (11 + i)]) ++
  [.addCourse 2, .addDependencies 2 .course [],
   .addEncompassed 2 [] ((List.range 10).map (fun i => (11 + i, 1))),
   .addLesson 30 2, .addDependencies 30 .lesson [], .addExercise 300 30, .updateStartingLessons]

set_option maxRecDepth 8000 in
theorem coveringOps_course (l : Nat) (h : (run coveringOps).getUnitType l = some .lesson) :
    ∃ c, (run coveringOps).getLessonCourse l = some c := by
  have hm : l ∈ (run coveringOps).types.keys := (AMap.mem_keys_iff _ _).2 ⟨_, h⟩
  have : ∀ x ∈ (run coveringOps).types.keys, (run coveringOps).getUnitType x = some .lesson →
      ((run coveringOps).getLessonCourse x).isSome = true := by decide +kernel
  exact Option.isSome_iff_exists.1 (this l hm h)

/-- Everything in that library has the best score. -/
def covering : Env Nat := libraryOf coveringOps (fun _ => 5) (fun _ => 5) (fun _ => false)

theorem covering_sane : Sane covering := libraryOf_sane _ _ _ _ (by decide +kernel) coveringOps_course

end Trane.Batch
