import Verif.Top.Whole
import Verif.Sched.OverlayTerm

/-!
# C86: a request can be served

`Serves` asks that scores, trials and superseded units be what the unit scorer answers.  Here: for every object on a
library whose manifests have no cycle of superseding and containment there is such a request, with any filter, any
random choices and any counts of earlier presentations.
-/

namespace Trane.TopLevel
open Trane.Store
open Trane.Graph
open Trane.Library (Disk Lib FPath Loads GeneratesProper DiskCourse DiskExercise DiskLesson)
open Trane.UnitScorer (exC DependsOnScoreOf queries_answered_partial)

variable {α γ : Type}

/-- By the manifests, the unit `s` supersedes the unit `u` or is a lesson of the course `u`. -/
def OnDiskOver (d : Disk α γ) (ig : List FPath) (u s : Str) : Prop :=
  (∃ m, (∃ dir gen, DiskCourse d ig dir m gen) ∧ m.id = s ∧ u ∈ m.sup) ∨
  (∃ m, DiskLesson d ig m ∧ m.id = s ∧ (u ∈ m.sup ∨ m.courseId = u))

section
variable {d : Disk α γ} {ig : List FPath} {lib : Lib α γ} {b : Base ℚ} {h : List (Call ℚ)} {t : Top ℚ}

theorem library_run (hg : GeneratesProper d) (hl : Loads d ig lib) : ∃ ops, lib.graph = run ops := by
  obtain ⟨cs, s, flag, _, _, _, rfl, _⟩ := Library.loads_inv hg hl
  exact ⟨_, rfl⟩

/-- The steps of the score queries are those of the manifests. -/
theorem steps_on_disk (hr : Running d ig lib b h t) (u s : Str) :
    DependsOnScoreOf (t.sys.world (t.config b)) u s ↔ OnDiskOver d ig u s := by
  obtain ⟨ops, hops⟩ := library_run hr.proper hr.loads
  have hs : SupersededBy lib.graph u s ↔ Supersedes lib.graph s u := by
    rw [hops]; exact (superseded_by_inverse_of_supersedes ops s u).symm
  have hw : CourseHasLesson lib.graph u s ↔ lib.graph.getLessonCourse s = some u := by
    rw [hops]; exact (wf_run ops).lesson u s
  have e : DependsOnScoreOf (t.sys.world (t.config b)) u s ↔
      SupersededBy lib.graph u s ∨ CourseHasLesson lib.graph u s := by
    rw [← hr.graph]; rfl
  rw [e, hs, hw, (Library.library_relations hr.proper hr.loads s u 0).2.1,
    (Library.library_parents hr.proper hr.loads).1 s u]
  have hm := Library.library_manifests hr.proper hr.loads s
  unfold OnDiskOver Library.Lib.Lists
  constructor
  · rintro (⟨ds, es, ss, ⟨m, h1, -, -, rfl⟩ | ⟨m, h1, -, -, rfl⟩, h2⟩ | ⟨m, h1, h2⟩)
    · exact .inl ⟨m, ((hm.1 m).1 h1).1, ((hm.1 m).1 h1).2, h2⟩
    · exact .inr ⟨m, ((hm.2.1 m).1 h1).1, ((hm.2.1 m).1 h1).2, .inl h2⟩
    · exact .inr ⟨m, ((hm.2.1 m).1 h1).1, ((hm.2.1 m).1 h1).2, .inr h2⟩
  · rintro (⟨m, h1, h2, h3⟩ | ⟨m, h1, h2, h3 | h3⟩)
    · exact .inl ⟨_, _, _, .inl ⟨m, (hm.1 m).2 ⟨h1, h2⟩, rfl, rfl, rfl⟩, h3⟩
    · exact .inl ⟨_, _, _, .inr ⟨m, (hm.2.1 m).2 ⟨h1, h2⟩, rfl, rfl, rfl⟩, h3⟩
    · exact .inr ⟨m, (hm.2.1 m).2 ⟨h1, h2⟩, h3⟩

open Classical in
/-- **C86.** If the manifests have no cycle of superseding and containment, every request can be served. -/
theorem serves_exists (hr : Running d ig lib b h t) (hc : ¬ HasCycle (OnDiskOver d ig)) (q : Request) :
    ∃ env, env.frequency = q.env.frequency ∧ Serves lib b t { q with env := env } := by
  have hc' : ¬ HasCycle (DependsOnScoreOf (t.sys.world (t.config b))) := by
    rintro ⟨u, hu⟩
    exact hc ⟨u, Relation.TransGen.mono (fun u s => (steps_on_disk hr u s).1) _ _ hu⟩
  have ha := queries_answered_partial (t.sys.world (t.config b)) t.caches hc'
  choose sc hsc using fun u => (ha u).1
  choose su hsu using fun u => (ha u).2.1
  choose ct hct using fun u => (ha u).2.2.1
  choose lt hlt using fun u => (ha u).2.2.2
  have hex : ∀ x, ∃ r c', exC (t.sys.world (t.config b)) x t.caches = some (r, c') := by
    intro x
    unfold exC
    split <;> exact ⟨_, _, rfl⟩
  choose r cx hr' using hex
  refine ⟨{ q.env with
    score := fun u => if t.graph.getUnitType u = none then none else some (sc u)
    trials := fun u => match t.graph.getUnitType u with
      | some .course => ct u
      | some .lesson => lt u
      | _ => none
    superseded := su
    urgency := fun x => some (r x).urgency
    velocity := fun x => some (r x).velocity
    courseMeta := fun u => (lib.getCourseManifest u).map (fun m => m.metadata.getD [])
    lessonMeta := fun u => (lib.getLessonManifest u).map (fun m => m.metadata.getD [])
    hasExercise := fun u => (lib.getExerciseManifest u).isSome
    dflt := [] }, rfl, ⟨?_, ?_, ?_, ?_⟩, ?_, ?_, ?_, ?_, ?_⟩
  · intro u v hv
    dsimp only at hv
    split at hv
    · cases hv
    · cases hv; exact hsc u
  · intro u hu
    dsimp only
    rw [if_neg hu]
    simp
  · intro u
    unfold GetsTrials
    dsimp only
    cases hu : t.graph.getUnitType u with
    | none => rfl
    | some k =>
      cases k with
      | course => exact hct u
      | lesson => exact hlt u
      | exercise => rfl
  · exact hsu
  · exact fun x => ⟨r x, cx x, hr' x, rfl, rfl⟩
  · exact fun u => rfl
  · exact fun u => rfl
  · exact fun u => rfl
  · rfl

end

end Trane.TopLevel
