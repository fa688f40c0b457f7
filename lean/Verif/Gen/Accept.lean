import Verif.Library.LoadLemmas

/-! When a single generated course forms a library. -/

namespace Trane.Gen
open Trane.Store Trane.Library Trane.Graph

variable {α γ : Type}

/-- A relation in which nothing leads to `c` and every other edge lowers a rank has no cycle. -/
theorem no_cycle_of_rank {ι : Type} (R : ι → ι → Prop) (c : ι) (rank : ι → Nat)
    (h1 : ∀ u, ¬ R u c) (h2 : ∀ u v, u ≠ c → R u v → rank v < rank u) : ¬ HasCycle R := by
  rintro ⟨u, hu⟩
  have hc : ∀ v, Relation.TransGen R v c → False := by
    intro v hv
    cases hv with
    | single h => exact h1 _ h
    | tail _ h => exact h1 _ h
  have hne : u ≠ c := by rintro rfl; exact hc _ hu
  have key : ∀ v, Relation.TransGen R u v → v ≠ c ∧ rank v < rank u := by
    intro v hv
    induction hv with
    | single h => exact ⟨fun e => h1 _ (e ▸ h), h2 _ _ hne h⟩
    | tail _ h ih => exact ⟨fun e => h1 _ (e ▸ h), lt_trans (h2 _ _ ih.1 h) ih.2⟩
  exact absurd (key u hu).2 (lt_irrefl _)

/-- A course whose lessons have no superseded units and are ordered by a rank is acceptable on its
own, if the course does not refer to itself and all weights are valid. -/
theorem acceptable_single (c : CourseM α γ) (ls : List (LessonM α × List (ExerciseM α)))
    (hn : (unitIds [(⟨c, ls⟩ : Opened α γ)]).Nodup)
    (rank srank : Str → Nat)
    (hdep : ∀ x ∈ ls, ∀ v, v ∈ x.1.deps ∨ (∃ w, (v, w) ∈ x.1.enc) → v ≠ c.id ∧ rank v < rank x.1.id)
    (hsup : ∀ x ∈ ls, ∀ v ∈ x.1.sup, v ≠ c.id ∧ srank v < srank x.1.id)
    (hw : ∀ x ∈ ls, ∀ e ∈ x.1.enc, 0 ≤ e.2 ∧ e.2 ≤ 1)
    (hc : c.id ∉ c.deps ∧ (∀ w, (c.id, w) ∉ c.enc) ∧ c.id ∉ c.sup)
    (hcw : ∀ e ∈ c.enc, 0 ≤ e.2 ∧ e.2 ≤ 1) :
    Acceptable [(⟨c, ls⟩ : Opened α γ)] := by
  have hdec : ∀ u ds es ss, Declares [(⟨c, ls⟩ : Opened α γ)] u ds es ss →
      (u = c.id ∧ ds = c.deps ∧ es = c.enc ∧ ss = c.sup) ∨
      (∃ x ∈ ls, u = x.1.id ∧ ds = x.1.deps ∧ es = x.1.enc ∧ ss = x.1.sup) := by
    rintro u ds es ss (⟨m, ⟨o, ho, rfl⟩, rfl, rfl, rfl, rfl⟩ | ⟨m, ⟨o, ho, x, hx, rfl⟩, rfl, rfl, rfl, rfl⟩)
    · rw [List.mem_singleton] at ho; subst ho; exact Or.inl ⟨rfl, rfl, rfl, rfl⟩
    · rw [List.mem_singleton] at ho; subst ho; exact Or.inr ⟨x, hx, rfl, rfl, rfl, rfl⟩
  refine ⟨hn, ?_, ?_, ?_, ?_, ?_⟩
  · rintro u ⟨ds, es, ss, h, hm⟩
    rcases hdec _ _ _ _ h with ⟨rfl, rfl, _, _⟩ | ⟨x, hx, rfl, rfl, _, _⟩
    · exact hc.1 hm
    · exact lt_irrefl _ (hdep x hx _ (Or.inl hm)).2
  · intro u ds es ss h e he
    rcases hdec _ _ _ _ h with ⟨_, _, rfl, _⟩ | ⟨x, hx, _, _, rfl, _⟩
    · exact hcw e he
    · exact hw x hx e he
  · refine no_cycle_of_rank _ c.id rank ?_ ?_
    · rintro u ⟨ds, es, ss, h, hm⟩
      rcases hdec _ _ _ _ h with ⟨rfl, rfl, _, _⟩ | ⟨x, hx, rfl, rfl, _, _⟩
      · exact hc.1 hm
      · exact (hdep x hx _ (Or.inl hm)).1 rfl
    · rintro u v hu ⟨ds, es, ss, h, hm⟩
      rcases hdec _ _ _ _ h with ⟨rfl, rfl, _, _⟩ | ⟨x, hx, rfl, rfl, _, _⟩
      · exact (hu rfl).elim
      · exact (hdep x hx _ (Or.inl hm)).2
  · refine no_cycle_of_rank _ c.id srank ?_ ?_
    · rintro u ⟨ds, es, ss, h, hm⟩
      rcases hdec _ _ _ _ h with ⟨rfl, _, _, rfl⟩ | ⟨x, hx, rfl, _, _, rfl⟩
      · exact hc.2.2 hm
      · exact (hsup x hx _ hm).1 rfl
    · rintro u v hu ⟨ds, es, ss, h, hm⟩
      rcases hdec _ _ _ _ h with ⟨rfl, _, _, rfl⟩ | ⟨x, hx, rfl, _, _, rfl⟩
      · exact (hu rfl).elim
      · exact (hsup x hx _ hm).2
  · refine no_cycle_of_rank _ c.id rank ?_ ?_
    · rintro u ⟨ds, es, ss, h, hm⟩
      rcases hdec _ _ _ _ h with ⟨rfl, rfl, rfl, _⟩ | ⟨x, hx, rfl, rfl, rfl, _⟩
      · rcases hm with hm | ⟨w, hm⟩
        · exact hc.1 hm
        · exact hc.2.1 w hm
      · exact (hdep x hx _ hm).1 rfl
    · rintro u v hu ⟨ds, es, ss, h, hm⟩
      rcases hdec _ _ _ _ h with ⟨rfl, _, _, _⟩ | ⟨x, hx, rfl, rfl, rfl, _⟩
      · exact (hu rfl).elim
      · exact (hdep x hx _ hm).2

/-- Some lesson with id `u` has `v` among its `f`. -/
def LessonRel (ls : List (LessonM α × List (ExerciseM α))) (f : LessonM α → Str → Prop) (u v : Str) :
    Prop := ∃ x ∈ ls, x.1.id = u ∧ f x.1 v

theorem no_cycle_above {ι : Type} (R S : ι → ι → Prop) (c : ι) (h1 : ∀ u, ¬ R u c)
    (h2 : ∀ u v, u ≠ c → R u v → S u v) (hS : ¬ HasCycle S) : ¬ HasCycle R := by
  rintro ⟨u, hu⟩
  have hc : ∀ v, Relation.TransGen R v c → False := by
    intro v hv
    cases hv with
    | single h => exact h1 _ h
    | tail _ h => exact h1 _ h
  have hne : u ≠ c := by rintro rfl; exact hc _ hu
  have key : ∀ v, Relation.TransGen R u v → v ≠ c ∧ Relation.TransGen S u v := by
    intro v hv
    induction hv with
    | single h => exact ⟨fun e => h1 _ (e ▸ h), .single (h2 _ _ hne h)⟩
    | tail _ h ih => exact ⟨fun e => h1 _ (e ▸ h), ih.2.tail (h2 _ _ ih.1 h)⟩
  exact hS ⟨u, (key u hu).2⟩

/-- A course is acceptable on its own if its ids are distinct, the lessons have no cycles among
themselves, nothing refers to the course and all weights are valid. -/
theorem acceptable_course (c : CourseM α γ) (ls : List (LessonM α × List (ExerciseM α)))
    (hn : (unitIds [(⟨c, ls⟩ : Opened α γ)]).Nodup)
    (hself : ∀ x ∈ ls, c.id ∉ x.1.deps ∧ (∀ w, (c.id, w) ∉ x.1.enc) ∧ c.id ∉ x.1.sup)
    (hdep : ¬ HasCycle (LessonRel ls (fun l v => v ∈ l.deps)))
    (henc : ¬ HasCycle (LessonRel ls (fun l v => v ∈ l.deps ∨ ∃ w, (v, w) ∈ l.enc)))
    (hsup : ¬ HasCycle (LessonRel ls (fun l v => v ∈ l.sup)))
    (hw : ∀ x ∈ ls, ∀ e ∈ x.1.enc, 0 ≤ e.2 ∧ e.2 ≤ 1)
    (hc : c.id ∉ c.deps ∧ (∀ w, (c.id, w) ∉ c.enc) ∧ c.id ∉ c.sup)
    (hcw : ∀ e ∈ c.enc, 0 ≤ e.2 ∧ e.2 ≤ 1) :
    Acceptable [(⟨c, ls⟩ : Opened α γ)] := by
  have hdec : ∀ u ds es ss, Declares [(⟨c, ls⟩ : Opened α γ)] u ds es ss →
      (u = c.id ∧ ds = c.deps ∧ es = c.enc ∧ ss = c.sup) ∨
      (∃ x ∈ ls, u = x.1.id ∧ ds = x.1.deps ∧ es = x.1.enc ∧ ss = x.1.sup) := by
    rintro u ds es ss (⟨m, ⟨o, ho, rfl⟩, rfl, rfl, rfl, rfl⟩ | ⟨m, ⟨o, ho, x, hx, rfl⟩, rfl, rfl, rfl, rfl⟩)
    · rw [List.mem_singleton] at ho; subst ho; exact Or.inl ⟨rfl, rfl, rfl, rfl⟩
    · rw [List.mem_singleton] at ho; subst ho; exact Or.inr ⟨x, hx, rfl, rfl, rfl, rfl⟩
  refine ⟨hn, ?_, ?_, ?_, ?_, ?_⟩
  · rintro u ⟨ds, es, ss, h, hm⟩
    rcases hdec _ _ _ _ h with ⟨rfl, rfl, _, _⟩ | ⟨x, hx, rfl, rfl, _, _⟩
    · exact hc.1 hm
    · exact hdep ⟨_, .single ⟨x, hx, rfl, hm⟩⟩
  · intro u ds es ss h e he
    rcases hdec _ _ _ _ h with ⟨_, _, rfl, _⟩ | ⟨x, hx, _, _, rfl, _⟩
    · exact hcw e he
    · exact hw x hx e he
  · refine no_cycle_above _ _ c.id ?_ ?_ hdep
    · rintro u ⟨ds, es, ss, h, hm⟩
      rcases hdec _ _ _ _ h with ⟨rfl, rfl, _, _⟩ | ⟨x, hx, rfl, rfl, _, _⟩
      · exact hc.1 hm
      · exact (hself x hx).1 hm
    · rintro u v hu ⟨ds, es, ss, h, hm⟩
      rcases hdec _ _ _ _ h with ⟨rfl, rfl, _, _⟩ | ⟨x, hx, rfl, rfl, _, _⟩
      · exact (hu rfl).elim
      · exact ⟨x, hx, rfl, hm⟩
  · refine no_cycle_above _ _ c.id ?_ ?_ hsup
    · rintro u ⟨ds, es, ss, h, hm⟩
      rcases hdec _ _ _ _ h with ⟨rfl, _, _, rfl⟩ | ⟨x, hx, rfl, _, _, rfl⟩
      · exact hc.2.2 hm
      · exact (hself x hx).2.2 hm
    · rintro u v hu ⟨ds, es, ss, h, hm⟩
      rcases hdec _ _ _ _ h with ⟨rfl, _, _, rfl⟩ | ⟨x, hx, rfl, _, _, rfl⟩
      · exact (hu rfl).elim
      · exact ⟨x, hx, rfl, hm⟩
  · refine no_cycle_above _ _ c.id ?_ ?_ henc
    · rintro u ⟨ds, es, ss, h, hm⟩
      rcases hdec _ _ _ _ h with ⟨rfl, rfl, rfl, _⟩ | ⟨x, hx, rfl, rfl, rfl, _⟩
      · rcases hm with hm | ⟨w, hm⟩
        · exact hc.1 hm
        · exact hc.2.1 w hm
      · rcases hm with hm | ⟨w, hm⟩
        · exact (hself x hx).1 hm
        · exact (hself x hx).2.1 w hm
    · rintro u v hu ⟨ds, es, ss, h, hm⟩
      rcases hdec _ _ _ _ h with ⟨rfl, _, _, _⟩ | ⟨x, hx, rfl, rfl, rfl, _⟩
      · exact (hu rfl).elim
      · exact ⟨x, hx, rfl, hm⟩

end Trane.Gen
