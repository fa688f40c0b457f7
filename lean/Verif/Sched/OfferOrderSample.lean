import Verif.Sched.OfferOrderProps
import Verif.Sched.SearchSample

/-! C106: a case that meets the hypotheses, and what the limits do. -/

namespace Trane.Search
open Trane.Graph

/-- All lists the other way round. -/
def backwards : Nat → Rnd := fun _ _ _ l => l.reverse

theorem backwards_isRnd (i : Nat) : IsRnd (backwards i) := fun _ _ l => List.reverse_perm l

/-- The sample library with at most one lesson in progress. -/
def single : Env Nat := { fresh with opts := { SchedulerOptions.default with maxLessonsInProgress := 1 } }

theorem single_sane : Sane single := ⟨fresh_sane.wf, fresh_sane.course, fresh_sane.lesson, fresh_sane.exercise,
  fresh_sane.lessonHasCourse, fresh_sane.dfltUnknown, fresh_sane.dfltBlack, fresh_sane.dfltSuperseded,
  fresh_sane.unknownScore⟩

theorem sameMaterial_refl (e : Env Nat) : SameMaterial e e where
  units := ⟨fun _ => rfl, fun _ => rfl, fun _ => rfl, fun _ _ => Iff.rfl, fun _ _ => Iff.rfl, fun _ => Iff.rfl⟩
  courseMeta u := by
    cases e.courseMeta u with
    | none => trivial
    | some m => intro k; cases m.find k with
      | none => trivial
      | some x => exact List.Perm.refl _
  lessonMeta u := by
    cases e.lessonMeta u with
    | none => trivial
    | some m => intro k; cases m.find k with
      | none => trivial
      | some x => exact List.Perm.refl _
  black _ := rfl
  opts := rfl
  score _ _ := rfl
  trials _ := rfl
  superseded _ := rfl

/-- **C106, why the limits are left out.**  When the maximum number of lessons in progress is reached, the lessons that
are offered depend on the random choices of the search. -/
theorem limits_leave_a_choice : ∃ (e : Env Nat) (cs cs' : List (Candidate Nat)), Sane e ∧
    initialCandidates e plain 60 [] none = some (some cs) ∧ initialCandidates e backwards 60 [] none = some (some cs') ∧
    (cs.filter (fun c => c.lesson = 10)).length = 2 ∧ (cs'.filter (fun c => c.lesson = 10)).length = 0 := by
  have h : ∀ o : Option (Option (List (Candidate Nat))), (o.join.map fun cs => (cs.filter (fun c => c.lesson = 10)).length) = some 2 ∨
      (o.join.map fun cs => (cs.filter (fun c => c.lesson = 10)).length) = some 0 → ∃ cs, o = some (some cs) := by
    rintro (_ | _ | cs) h <;> simp at h ⊢
  have h1 : ((initialCandidates single plain 60 [] none).join.map
    fun cs => (cs.filter (fun c => c.lesson = 10)).length) = some 2 := by decide +kernel
  have h2 : ((initialCandidates single backwards 60 [] none).join.map
    fun cs => (cs.filter (fun c => c.lesson = 10)).length) = some 0 := by decide +kernel
  obtain ⟨cs, hc⟩ := h _ (.inl h1)
  obtain ⟨cs', hc'⟩ := h _ (.inr h2)
  rw [hc] at h1
  rw [hc'] at h2
  exact ⟨single, cs, cs', single_sane, hc, hc', Option.some.inj h1, Option.some.inj h2⟩

/-- Without the limit both searches take the two exercises of lesson 10. -/
example : ∃ cs cs', initialCandidates fresh plain 60 [] none = some (some cs) ∧
    initialCandidates fresh backwards 60 [] none = some (some cs') ∧ BelowLimits fresh cs ∧ BelowLimits fresh cs' ∧
    (cs.filter (fun c => c.lesson = 10)).length = 2 ∧ ∀ l,
    (cs'.filter (fun c => c.lesson = l)).length = (cs.filter (fun c => c.lesson = l)).length := by
  have h : ∀ o : Option (Option (List (Candidate Nat))),
      (o.join.map fun cs => (cs.filter (fun c => c.lesson = 10)).length) = some 2 → ∃ cs, o = some (some cs) := by
    rintro (_ | _ | cs) h <;> simp at h ⊢
  have h1 : ((initialCandidates fresh plain 60 [] none).join.map
    fun cs => (cs.filter (fun c => c.lesson = 10)).length) = some 2 := by decide +kernel
  have h2 : ((initialCandidates fresh backwards 60 [] none).join.map
    fun cs => (cs.filter (fun c => c.lesson = 10)).length) = some 2 := by decide +kernel
  obtain ⟨cs, hc⟩ := h _ h1
  obtain ⟨cs', hc'⟩ := h _ h2
  rw [hc] at h1
  have hl : ∀ l, IsLesson fresh l → l ∈ [10, 11, 20, 30] := by
    intro l hl
    have hm : l ∈ (run sampleOps).types.keys := (AMap.mem_keys_iff _ _).2 ⟨_, hl⟩
    have : ∀ x ∈ (run sampleOps).types.keys, (run sampleOps).getUnitType x = some .lesson → x ∈ [10, 11, 20, 30] := by
      decide +kernel
    exact this l hm hl
  have hx : ∀ l x, LessonHasExercise fresh.graph l x → x ∈ [100, 101, 110, 200, 300] := by
    intro l x hx
    have ht : (run sampleOps).getUnitType x = some .exercise :=
      (fresh_sane.wf.tyE x l ((fresh_sane.wf.exercise l x).1 hx)).1
    have hm : x ∈ (run sampleOps).types.keys := (AMap.mem_keys_iff _ _).2 ⟨_, ht⟩
    have : ∀ x ∈ (run sampleOps).types.keys, (run sampleOps).getUnitType x = some .exercise →
      x ∈ [100, 101, 110, 200, 300] := by decide +kernel
    exact this x hm ht
  have hb := small_below_limits fresh_sane plain_isRnd hc rfl hl hx (by decide +kernel) (by decide +kernel)
  have hb' := small_below_limits fresh_sane backwards_isRnd hc' rfl hl hx (by decide +kernel) (by decide +kernel)
  exact ⟨cs, cs', hc, hc', hb, hb', Option.some.inj h1, order_same_search (sameMaterial_refl fresh) fresh_sane fresh_sane
    plain_isRnd backwards_isRnd hc hc' rfl (by intro ids h; cases h) (by decide +kernel) (by decide +kernel) hb hb'⟩

end Trane.Search
