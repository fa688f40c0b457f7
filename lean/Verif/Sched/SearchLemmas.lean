import Verif.Sched.StepLemmas
import Mathlib.Tactic.Tauto

/-! Helper lemmas: invariants of the search. -/

namespace Trane.Search
open Trane.Filters (KVFilter)
open Trane.Graph

variable {ι : Type} [DecidableEq ι]

/-- The scope of a query. -/
def Query.scope (q : Query ι) : Scope ι := if q.allowCourses then .library else .courses q.courses

theorem inScope_iff {e : Env ι} {q : Query ι} {l c : ι} (hc : e.graph.getLessonCourse l = some c) :
    InScope e q.scope l ↔ ¬ OutOfScope e q l := by
  unfold Query.scope OutOfScope
  rw [courseOf_some e hc]
  cases q.allowCourses with
  | true => simp [InScope]
  | false => simp [InScope, hc]

theorem scope_library {q : Query ι} : q.scope = .library ↔ q.allowCourses = true := by
  unfold Query.scope
  cases q.allowCourses <;> simp

theorem unseen_eq_zero (K vis : List ι) : unseen K vis = 0 ↔ ∀ u ∈ K, u ∈ vis := by
  simp [unseen]

theorem unseen_insert_notMem (K vis : List ι) (u : ι) (hu : u ∉ K) : unseen K (vis.insert u) = unseen K vis := by
  unfold unseen
  congr 1
  apply List.filter_congr
  intro x hx
  have : x ≠ u := fun h => hu (h ▸ hx)
  simp [this]

theorem unseen_insert_mem (K vis : List ι) (hK : K.Nodup) (u : ι) (hu : u ∈ K) (hv : u ∉ vis) :
    unseen K (vis.insert u) = unseen K vis - 1 := by
  unfold unseen
  have : K.filter (fun x => !decide (x ∈ vis.insert u)) =
      (K.filter (fun x => !decide (x ∈ vis))).erase u := by
    rw [(hK.filter _).erase_eq_filter, List.filter_filter]
    apply List.filter_congr
    intro x _
    by_cases h : x = u <;> simp [h]
  rw [this, List.length_erase_of_mem]
  simp [hu, hv]

/-- Everything kept by the iterations; `vis0` is the initially visited set. -/
structure SInv (e : Env ι) (q : Query ι) (init : ι → Prop) (vis0 : List ι) (s : State ι) : Prop where
  seen : ∀ u ∈ vis0, u ∈ s.visited
  stack : ∀ u ∈ s.units, Reached e q.filter q.scope init u
  visited : ∀ u ∈ s.visited, u ∈ vis0 ∨ Reached e q.filter q.scope init u
  pending : q.allowCourses = true → ∀ c, pendingOf e s c = unseen (e.lessons c) s.visited

theorem lesson_of_lessons {e : Env ι} (he : Sane e) {c l : ι} (h : l ∈ e.lessons c) : IsLesson e l :=
  (he.wf.tyL l c ((he.wf.lesson _ _).1 ((mem_lessons e c l).1 h))).1

theorem not_lesson_of_course {e : Env ι} {u : ι} (h : IsCourse e u) : ¬ IsLesson e u := by
  simp only [IsCourse, IsLesson] at *; simp [h]

theorem lessons_nodup {e : Env ι} (he : Sane e) (c : ι) : (e.lessons c).Nodup := by
  unfold Env.lessons
  cases h : e.graph.getCourseLessons c with
  | none => simp
  | some s => exact he.wf.lessonsNodup c s h

theorem pendingOf_put {e : Env ι} {s s' : State ι} {c : ι} {n : Nat} (h : s'.pending = s.pending.put c n) (c' : ι) :
    pendingOf e s' c' = if c = c' then n else pendingOf e s c' := by
  unfold pendingOf
  rw [h, AMap.find_put]
  split <;> rfl

theorem inv_step {e : Env ι} (he : Sane e) {q : Query ι} {init : ι → Prop} {vis0 : List ι}
    (hv0 : q.allowCourses = true → vis0 = []) (s : State ι) (item : Item ι) (rest : List (Item ι)) (s' : State ι)
    (hI : SInv e q init vis0 s) (hs : s.stack = item :: rest)
    (h : Eff e q item.unit { s with stack := rest } s') : SInv e q init vis0 s' := by
  have hu : s.units = item.unit :: rest.map Item.unit := by simp [State.units, hs]
  have hru : Reached e q.filter q.scope init item.unit := hI.stack _ (by rw [hu]; simp)
  have hrest : ∀ u ∈ rest.map Item.unit, Reached e q.filter q.scope init u := fun u hm =>
    hI.stack u (by rw [hu]; simp [hm])
  cases h with
  | nothing _ heq => subst heq; exact ⟨hI.seen, hrest, hI.visited, hI.pending⟩
  | course skip hv ht ha hk hvis hpend hcand hip hst =>
    have hsc := scope_library.2 ha
    have hpu : pendingOf e s item.unit = unseen (e.lessons item.unit) s.visited := hI.pending ha _
    have hvisReached : ∀ u ∈ s.visited, Reached e q.filter q.scope init u := fun u hm => by
      rcases hI.visited u hm with h | h
      · rw [hv0 ha] at h; simp at h
      · exact h
    have hvs : ∀ u, u ∈ s'.visited → u ∈ s.visited ∨ u = item.unit := by
      intro u hm
      rw [hvis] at hm
      split at hm
      · rw [List.mem_insert_iff] at hm; exact hm.symm
      · exact Or.inl hm
    refine ⟨?_, ?_, ?_, ?_⟩
    · intro u hm
      rw [hvis]
      split
      · exact List.mem_insert_of_mem (hI.seen u hm)
      · exact hI.seen u hm
    · intro u hm
      rw [hst.mem_iff, List.mem_append, List.mem_append] at hm
      rcases hm with hm | hm | hm
      · cases skip with
        | false => simp at hm
        | true =>
          simp only [if_true] at hm
          rw [mem_validDependents he] at hm
          have hd := (he.wf.depInv _ _).2 hm.1
          rcases hk.1 rfl with hk | hk
          · exact .pastCourse hsc hru ht hk hd hm.2
          · change pendingOf e s item.unit = 0 at hk
            rw [hpu, unseen_eq_zero] at hk
            exact .pastFinished hsc hru ht (fun l hl => hvisReached l (hk l ((mem_lessons e _ _).2 hl))) hd hm.2
      · rw [mem_validStarting he] at hm
        exact .start hsc hru ht hm.1 hm.2
      · exact hrest u hm
    · intro u hm
      rcases hvs u hm with h | rfl
      · exact hI.visited u h
      · exact Or.inr hru
    · intro _ c
      have h1 : unseen (e.lessons c) s'.visited = unseen (e.lessons c) s.visited := by
        rw [hvis]
        split
        · exact unseen_insert_notMem _ _ _ (fun h => not_lesson_of_course ht (lesson_of_lessons he h))
        · rfl
      rw [h1, pendingOf_put hpend]
      split
      · rename_i hc; subst hc; exact hpu
      · exact hI.pending ha c
  | outside hv ht ho heq =>
    subst heq
    refine ⟨fun u hm => List.mem_insert_of_mem (hI.seen u hm), hrest, ?_, ?_⟩
    · intro u hm
      rcases List.mem_insert_iff.1 hm with rfl | hm
      · exact Or.inr hru
      · exact hI.visited u hm
    · intro ha; rw [ho.1] at ha; simp at ha
  | lesson on c push hv ht hns hc hon hvis hp1 hp2 hpush hcand hst =>
    have hvs : ∀ u, u ∈ s'.visited ↔ u = item.unit ∨ u ∈ s.visited := by
      intro u
      rw [hvis, List.mem_insert_iff]
    have hcl : item.unit ∈ e.lessons c := (mem_lessons e _ _).2 ((he.wf.lesson _ _).2 hc)
    have hun : ∀ c', unseen (e.lessons c') s'.visited =
        if c = c' then unseen (e.lessons c') s.visited - 1 else unseen (e.lessons c') s.visited := by
      intro c'
      rw [hvis]
      split
      · rename_i heq; subst heq
        exact unseen_insert_mem _ _ (lessons_nodup he _) _ hcl hv
      · rename_i hne
        apply unseen_insert_notMem
        intro h
        have := (he.wf.lesson _ _).1 ((mem_lessons e _ _).1 h)
        rw [hc] at this
        injection this with this
        exact hne this
    have hvis' : ∀ u ∈ s'.visited, u ∈ vis0 ∨ Reached e q.filter q.scope init u := by
      intro u hm
      rcases (hvs u).1 hm with rfl | hm
      · exact Or.inr hru
      · exact hI.visited u hm
    refine ⟨fun u hm => (hvs u).2 (Or.inr (hI.seen u hm)), ?_, hvis', ?_⟩
    · intro u hm
      rw [hst.mem_iff, List.mem_append, List.mem_append] at hm
      rcases hm with hm | hm | hm
      · cases on with
        | false => simp at hm
        | true =>
          simp only [if_true] at hm
          rw [mem_validDependents he] at hm
          exact .past hru ht ((inScope_iff hc).2 hns) (hon.1 rfl) ((he.wf.depInv _ _).2 hm.1) hm.2
      · rw [hpush] at hm
        split at hm
        · rename_i hcond
          simp only [List.mem_singleton] at hm
          subst hm
          have hz := hun u
          rw [if_pos rfl] at hz
          have hpc : pendingOf e s u = unseen (e.lessons u) s.visited := hI.pending hcond.1 u
          have : pendingOf e s u - 1 = 0 := hcond.2
          rw [hpc] at this
          rw [this, unseen_eq_zero] at hz
          refine .allLessons (scope_library.2 hcond.1) (he.wf.tyL _ _ hc).2 ⟨_, (mem_lessons e _ _).1 hcl⟩ ?_
          intro l hl
          rcases hvis' l (hz l ((mem_lessons e _ _).2 hl)) with h | h
          · rw [hv0 hcond.1] at h; simp at h
          · exact h
        · simp at hm
      · exact hrest u hm
    · intro ha c'
      rw [pendingOf_put (hp1 ha), hun]
      split
      · rename_i heq; subst heq
        have : pendingOf e s c = unseen (e.lessons c) s.visited := hI.pending ha c
        change pendingOf e s c - 1 = _
        rw [this]
      · exact hI.pending ha c'

/-! ### Completeness -/

/-- The unit is dealt with or waiting; `E` are the courses entered so far. -/
def Acc (e : Env ι) (q : Query ι) (E : List ι) (s : State ι) (u : ι) : Prop :=
  u ∈ s.units ∨ u ∈ s.visited ∨ (IsCourse e u ∧ (q.allowCourses = false ∨ u ∈ E)) ∨
    (¬ IsCourse e u ∧ ¬ IsLesson e u)

structure CInv (e : Env ι) (q : Query ι) (init : ι → Prop) (vis0 : List ι) (E : List ι) (s : State ι) :
    Prop where
  init : ∀ u, init u → Acc e q E s u
  start : q.allowCourses = true → ∀ c ∈ E, ∀ l ∈ e.validStarting q.filter c, Acc e q E s l
  skip : q.allowCourses = true → ∀ c ∈ E, IsCourse e c → CourseSkipped e q.filter c → c ∈ s.visited
  done : q.allowCourses = true → ∀ c, IsCourse e c → (e.lessons c ≠ [] ∨ c ∈ E) →
    (∀ l ∈ e.lessons c, l ∈ s.visited) → c ∈ s.visited ∨ c ∈ s.units
  pastCourse : q.allowCourses = true → ∀ c ∈ s.visited, IsCourse e c →
    ∀ u ∈ e.validDependents q.filter c, Acc e q E s u
  past : ∀ l ∈ s.visited, l ∉ vis0 → IsLesson e l → ¬ OutOfScope e q l → GoesOn e q l →
    ∀ u ∈ e.validDependents q.filter l, Acc e q E s u
  entered : q.allowCourses = true → ∀ c ∈ s.visited, IsCourse e c → c ∈ E

theorem cinv_step {e : Env ι} (he : Sane e) {q : Query ι} {init : ι → Prop} {vis0 : List ι} {E : List ι}
    (s : State ι) (item : Item ι) (rest : List (Item ι)) (s' : State ι)
    (hI : SInv e q init vis0 s) (hC : CInv e q init vis0 E s) (hs : s.stack = item :: rest)
    (h : Eff e q item.unit { s with stack := rest } s') : ∃ E', CInv e q init vis0 E' s' := by
  have hu : s.units = item.unit :: rest.map Item.unit := by simp [State.units, hs]
  cases h with
  | nothing hno heq =>
    subst heq
    refine ⟨E, ?_⟩
    have hacc : ∀ u, Acc e q E s u → Acc e q E { s with stack := rest } u := by
      rintro u (h | h | h | h)
      · rw [hu, List.mem_cons] at h
        rcases h with rfl | h
        · rcases hno with hno | hno
          · exact Or.inr (Or.inl hno)
          · by_cases hc : IsCourse e item.unit
            · refine Or.inr (Or.inr (Or.inl ⟨hc, Or.inl ?_⟩))
              have := fun h => hno.2 ⟨hc, h⟩
              simpa using this
            · exact Or.inr (Or.inr (Or.inr ⟨hc, hno.1⟩))
        · exact Or.inl h
      · exact Or.inr (Or.inl h)
      · exact Or.inr (Or.inr (Or.inl h))
      · exact Or.inr (Or.inr (Or.inr h))
    refine ⟨fun u hi => hacc u (hC.init u hi), fun ha c hc l hl => hacc l (hC.start ha c hc l hl), hC.skip, ?_,
      fun ha c hc hcc u hd => hacc u (hC.pastCourse ha c hc hcc u hd),
      fun l h1 h2 h3 h4 h5 u h6 => hacc u (hC.past l h1 h2 h3 h4 h5 u h6), hC.entered⟩
    intro ha c hc hE hall
    rcases hC.done ha c hc hE hall with h | h
    · exact Or.inl h
    · rw [hu, List.mem_cons] at h
      rcases h with rfl | h
      · rcases hno with hno | hno
        · exact Or.inl hno
        · exact absurd ⟨hc, ha⟩ hno.2
      · exact Or.inr h
  | course skip hv ht ha hk hvis hpend hcand hip hst =>
    refine ⟨item.unit :: E, ?_⟩
    have hmono : ∀ u ∈ s.visited, u ∈ s'.visited := by
      intro u hm
      rw [hvis]
      split
      · exact List.mem_insert_of_mem hm
      · exact hm
    have hvs : ∀ u, u ∈ s'.visited → u ∈ s.visited ∨ (u = item.unit ∧ skip = true) := by
      intro u hm
      rw [hvis] at hm
      split at hm
      · rename_i hsk
        rcases List.mem_insert_iff.1 hm with h | h
        · exact Or.inr ⟨h, hsk⟩
        · exact Or.inl h
      · exact Or.inl hm
    have hstm : ∀ u, u ∈ s'.units ↔ u ∈ (if skip = true then e.validDependents q.filter item.unit else []) ∨
        u ∈ e.validStarting q.filter item.unit ∨ u ∈ rest.map Item.unit := by
      intro u
      rw [hst.mem_iff, List.mem_append, List.mem_append]
      rfl
    have hacc : ∀ u, Acc e q E s u → Acc e q (item.unit :: E) s' u := by
      rintro u (h | h | h | h)
      · rw [hu, List.mem_cons] at h
        rcases h with rfl | h
        · exact Or.inr (Or.inr (Or.inl ⟨ht, Or.inr (by simp)⟩))
        · exact Or.inl ((hstm u).2 (Or.inr (Or.inr h)))
      · exact Or.inr (Or.inl (hmono u h))
      · exact Or.inr (Or.inr (Or.inl ⟨h.1, h.2.imp id (fun h => by simp [h])⟩))
      · exact Or.inr (Or.inr (Or.inr h))
    have hlv : ∀ c, (∀ l ∈ e.lessons c, l ∈ s'.visited) → ∀ l ∈ e.lessons c, l ∈ s.visited := by
      intro c hall l hl
      rcases hvs l (hall l hl) with h | ⟨rfl, _⟩
      · exact h
      · exact absurd (lesson_of_lessons he hl) (not_lesson_of_course ht)
    refine ⟨fun u hi => hacc u (hC.init u hi), ?_, ?_, ?_, ?_, ?_, ?_⟩
    · intro _ c hc l hl
      rcases List.mem_cons.1 hc with rfl | hc
      · exact Or.inl ((hstm l).2 (Or.inr (Or.inl hl)))
      · exact hacc l (hC.start ha c hc l hl)
    · intro _ c hc hcc hsk
      rcases List.mem_cons.1 hc with rfl | hc
      · rw [hvis, if_pos (hk.2 (Or.inl hsk))]
        simp
      · exact hmono c (hC.skip ha c hc hcc hsk)
    · intro _ c hc hE hall
      by_cases hcu : c = item.unit
      · subst hcu
        left
        have h0 : pendingOf e s item.unit = 0 := by
          rw [hI.pending ha, unseen_eq_zero]
          exact hlv _ hall
        rw [hvis, if_pos (hk.2 (Or.inr h0))]
        simp
      · have hE' : e.lessons c ≠ [] ∨ c ∈ E := hE.imp id (fun h => by simpa [hcu] using h)
        rcases hC.done ha c hc hE' (hlv c hall) with h | h
        · exact Or.inl (hmono c h)
        · rw [hu, List.mem_cons] at h
          exact Or.inr ((hstm c).2 (Or.inr (Or.inr (h.resolve_left hcu))))
    · intro _ c hc hcc u hd
      rcases hvs c hc with h | ⟨rfl, hsk⟩
      · exact hacc u (hC.pastCourse ha c h hcc u hd)
      · exact Or.inl ((hstm u).2 (Or.inl (by rw [if_pos hsk]; exact hd)))
    · intro l h1 h2 h3 h4 h5 u h6
      rcases hvs l h1 with h | ⟨rfl, hsk⟩
      · exact hacc u (hC.past l h h2 h3 h4 h5 u h6)
      · exact absurd h3 (not_lesson_of_course ht)
    · intro _ c hc hcc
      rcases hvs c hc with h | ⟨rfl, _⟩
      · exact List.mem_cons_of_mem _ (hC.entered ha c h hcc)
      · simp
  | outside hv ht ho heq =>
    subst heq
    refine ⟨E, ?_⟩
    have hna : ¬ q.allowCourses = true := by rw [ho.1]; simp
    have hacc : ∀ u, Acc e q E s u →
        Acc e q E { s with stack := rest, visited := s.visited.insert item.unit } u := by
      rintro u (h | h | h | h)
      · rw [hu, List.mem_cons] at h
        rcases h with rfl | h
        · exact Or.inr (Or.inl (by simp))
        · exact Or.inl h
      · exact Or.inr (Or.inl (List.mem_insert_of_mem h))
      · exact Or.inr (Or.inr (Or.inl h))
      · exact Or.inr (Or.inr (Or.inr h))
    refine ⟨fun u hi => hacc u (hC.init u hi), fun ha => absurd ha hna, fun ha => absurd ha hna,
      fun ha => absurd ha hna, fun ha => absurd ha hna, ?_, fun ha => absurd ha hna⟩
    intro l h1 h2 h3 h4 h5 u h6
    rcases List.mem_insert_iff.1 h1 with rfl | h
    · exact absurd ho h4
    · exact hacc u (hC.past l h h2 h3 h4 h5 u h6)
  | lesson on c push hv ht hns hc hon hvis hp1 hp2 hpush hcand hst =>
    refine ⟨E, ?_⟩
    have hvs : ∀ u, u ∈ s'.visited ↔ u = item.unit ∨ u ∈ s.visited := by
      intro u
      rw [hvis, List.mem_insert_iff]
    have hstm : ∀ u, u ∈ s'.units ↔ u ∈ (if on = true then e.validDependents q.filter item.unit else []) ∨
        u ∈ push ∨ u ∈ rest.map Item.unit := by
      intro u
      rw [hst.mem_iff, List.mem_append, List.mem_append]
      rfl
    have hacc : ∀ u, Acc e q E s u → Acc e q E s' u := by
      rintro u (h | h | h | h)
      · rw [hu, List.mem_cons] at h
        rcases h with rfl | h
        · exact Or.inr (Or.inl ((hvs _).2 (Or.inl rfl)))
        · exact Or.inl ((hstm u).2 (Or.inr (Or.inr h)))
      · exact Or.inr (Or.inl ((hvs u).2 (Or.inr h)))
      · exact Or.inr (Or.inr (Or.inl h))
      · exact Or.inr (Or.inr (Or.inr h))
    have hcne : ∀ c', IsCourse e c' → c' ≠ item.unit := by
      rintro c' hc' rfl
      exact not_lesson_of_course hc' ht
    refine ⟨fun u hi => hacc u (hC.init u hi), fun ha c hc l hl => hacc l (hC.start ha c hc l hl),
      fun ha c hc hcc hsk => (hvs c).2 (Or.inr (hC.skip ha c hc hcc hsk)), ?_, ?_, ?_, ?_⟩
    · intro ha c' hc' hE hall
      by_cases hm : item.unit ∈ e.lessons c'
      · have hcc : c' = c := by
          have := (he.wf.lesson _ _).1 ((mem_lessons e _ _).1 hm)
          rw [hc] at this
          injection this with this
          exact this.symm
        subst hcc
        right
        apply (hstm c').2
        right; left
        have h0 : pendingOf e s c' - 1 = 0 := by
          rw [hI.pending ha]
          rw [← unseen_insert_mem _ _ (lessons_nodup he _) _ hm hv, unseen_eq_zero, ← hvis]
          exact hall
        rw [hpush, if_pos ⟨ha, h0⟩]
        simp
      · have hall' : ∀ l ∈ e.lessons c', l ∈ s.visited := by
          intro l hl
          rcases (hvs l).1 (hall l hl) with rfl | h
          · exact absurd hl hm
          · exact h
        rcases hC.done ha c' hc' hE hall' with h | h
        · exact Or.inl ((hvs c').2 (Or.inr h))
        · rw [hu, List.mem_cons] at h
          exact Or.inr ((hstm c').2 (Or.inr (Or.inr (h.resolve_left (hcne c' hc')))))
    · intro ha c' hc' hcc u hd
      rcases (hvs c').1 hc' with h | h
      · exact absurd h (hcne c' hcc)
      · exact hacc u (hC.pastCourse ha c' h hcc u hd)
    · intro l h1 h2 h3 h4 h5 u h6
      rcases (hvs l).1 h1 with rfl | h
      · exact Or.inl ((hstm u).2 (Or.inl (by rw [if_pos (hon.2 h5)]; exact h6)))
      · exact hacc u (hC.past l h h2 h3 h4 h5 u h6)
    · intro ha c' hc' hcc
      rcases (hvs c').1 hc' with h | h
      · exact absurd h (hcne c' hcc)
      · exact hC.entered ha c' h hcc

/-- With an empty stack everything within reach has been dealt with. -/
theorem reached_acc {e : Env ι} (he : Sane e) {q : Query ι} {init : ι → Prop} {vis0 : List ι} {E : List ι}
    {s : State ι} (hC : CInv e q init vis0 E s) (hs : s.units = []) (hv0 : ∀ u ∈ vis0, ¬ IsLesson e u)
    (u : ι) (h : Reached e q.filter q.scope init u) : Acc e q E s u := by
  have lessonVis : ∀ l, IsLesson e l → Acc e q E s l → l ∈ s.visited := by
    rintro l hl (h | h | h | h)
    · rw [hs] at h; simp at h
    · exact h
    · exact absurd hl (not_lesson_of_course h.1)
    · exact absurd hl h.2
  have courseEnt : q.allowCourses = true → ∀ c, IsCourse e c → Acc e q E s c → c ∈ E := by
    rintro ha c hc (h | h | h | h)
    · rw [hs] at h; simp at h
    · exact hC.entered ha c h hc
    · exact h.2.resolve_left (by simp [ha])
    · exact absurd hc h.1
  have finished : q.allowCourses = true → ∀ c, IsCourse e c → (e.lessons c ≠ [] ∨ c ∈ E) →
      (∀ l, CourseHasLesson e.graph c l → Acc e q E s l) → c ∈ s.visited := by
    intro ha c hc hE hall
    have := hC.done ha c hc hE (fun l hl => lessonVis l (lesson_of_lessons he hl)
      (hall l ((mem_lessons e _ _).1 hl)))
    rw [hs] at this
    exact this.resolve_right (by simp)
  induction h with
  | init hi => exact hC.init _ hi
  | start hsc _ hc hst hu ih =>
    have ha := scope_library.1 hsc
    exact hC.start ha _ (courseEnt ha _ hc ih) _ ((mem_validStarting he _ _ _).2 ⟨hst, hu⟩)
  | @past l u _ hl hin hgo hd hun ih =>
    have hv := lessonVis _ hl ih
    obtain ⟨c, hc⟩ := he.lessonHasCourse _ hl
    exact hC.past _ hv (fun h => hv0 _ h hl) hl ((inScope_iff hc).1 hin) hgo _
      ((mem_validDependents he _ _ _).2 ⟨(he.wf.depInv _ _).1 hd, hun⟩)
  | pastCourse hsc _ hc hsk hd hun ih =>
    have ha := scope_library.1 hsc
    exact hC.pastCourse ha _ (hC.skip ha _ (courseEnt ha _ hc ih) hc hsk) hc _
      ((mem_validDependents he _ _ _).2 ⟨(he.wf.depInv _ _).1 hd, hun⟩)
  | @allLessons c hsc hc hne _ ih =>
    have ha := scope_library.1 hsc
    refine Or.inr (Or.inl (finished ha _ hc (Or.inl ?_) ih))
    obtain ⟨l, hl⟩ := hne
    intro h0
    rw [← mem_lessons, h0] at hl
    simp at hl
  | @pastFinished c u hsc _ hc _ hd hun ih1 ih2 =>
    have ha := scope_library.1 hsc
    exact hC.pastCourse ha _ (finished ha _ hc (Or.inr (courseEnt ha _ hc ih1)) ih2) hc _
      ((mem_validDependents he _ _ _).2 ⟨(he.wf.depInv _ _).1 hd, hun⟩)

/-! ### Candidates -/

/-- The candidates of one lesson. -/
def ofLesson (cs : List (Candidate ι)) (l : ι) : List (Candidate ι) := cs.filter (fun c => c.lesson = l)

structure KInv (e : Env ι) (q : Query ι) (init : ι → Prop) (vis0 : List ι) (s : State ι) : Prop where
  lesson : ∀ c ∈ s.candidates, c.lesson ∈ s.visited ∧ IsLesson e c.lesson ∧
    Reached e q.filter q.scope init c.lesson ∧ ¬ OutOfScope e q c.lesson ∧ ¬ LessonSkipped e q.filter c.lesson
  fields : ∀ c ∈ s.candidates, IsCandidate e c.lesson c ∧ Offers e c.lesson c.exercise ∧
    (c.deadEnd = true ↔ ¬ LessonPassed e c.lesson)
  nodup : (s.candidates.map Candidate.exercise).Nodup
  progVis : ∀ l ∈ s.inProgress, l ∈ s.visited
  progNodup : s.inProgress.Nodup
  progCap : s.inProgress.length ≤ e.opts.maxLessonsInProgress
  progIs : ∀ l ∈ s.inProgress, (∃ c ∈ s.candidates, c.lesson = l) ∧
    ∃ a, LessonAverage e l a ∧ a ≤ e.opts.targetWindow.hi
  progAll : ∀ c ∈ s.candidates, ∀ a, LessonAverage e c.lesson a → a ≤ e.opts.targetWindow.hi →
    c.lesson ∈ s.inProgress
  contrib : ∀ l ∈ s.visited, l ∉ vis0 → IsLesson e l → ¬ OutOfScope e q l → ¬ LessonSkipped e q.filter l →
    ∃ cs a dead, Contribution e l cs a ∧ (ofLesson s.candidates l = cs.map (fun c => { c with deadEnd := dead }) ∨
      (ofLesson s.candidates l = [] ∧ cs ≠ [] ∧ a ≤ e.opts.targetWindow.hi ∧ l ∉ s.inProgress ∧
        e.opts.maxLessonsInProgress ≤ s.inProgress.length))

theorem avg_of_nonempty {e : Env ι} {l : ι} {cs : List (Candidate ι)} {a : ℚ} (h : Contribution e l cs a)
    (hne : cs ≠ []) : LessonAverage e l a := by
  obtain ⟨c, hc⟩ := List.exists_mem_of_ne_nil _ hne
  exact h.avg ⟨_, h.offered c hc⟩

theorem kinv_congr {e : Env ι} {q : Query ι} {init : ι → Prop} {vis0 : List ι} {s s' : State ι}
    (hK : KInv e q init vis0 s) (h1 : s'.candidates = s.candidates) (h2 : s'.inProgress = s.inProgress)
    (h3 : ∀ u ∈ s.visited, u ∈ s'.visited)
    (h4 : ∀ u ∈ s'.visited, u ∉ s.visited → u ∉ vis0 → IsLesson e u → ¬ OutOfScope e q u →
      ¬ LessonSkipped e q.filter u → ∃ cs a dead, Contribution e u cs a ∧
        (ofLesson s.candidates u = cs.map (fun c => { c with deadEnd := dead }) ∨
      (ofLesson s.candidates u = [] ∧ cs ≠ [] ∧ a ≤ e.opts.targetWindow.hi ∧ u ∉ s.inProgress ∧
        e.opts.maxLessonsInProgress ≤ s.inProgress.length))) : KInv e q init vis0 s' := by
  refine ⟨?_, ?_, ?_, ?_, ?_, ?_, ?_, ?_, ?_⟩
  · rw [h1]; exact fun c hc => ⟨h3 _ (hK.lesson c hc).1, (hK.lesson c hc).2⟩
  · rw [h1]; exact hK.fields
  · rw [h1]; exact hK.nodup
  · rw [h2]; exact fun l hl => h3 _ (hK.progVis l hl)
  · rw [h2]; exact hK.progNodup
  · rw [h2]; exact hK.progCap
  · rw [h2, h1]; exact hK.progIs
  · rw [h2, h1]; exact hK.progAll
  · rw [h1, h2]
    intro l hl
    by_cases hv : l ∈ s.visited
    · exact hK.contrib l hv
    · exact h4 l hl hv

theorem ofLesson_append_ne (cs ds : List (Candidate ι)) (l : ι) (h : ∀ d ∈ ds, d.lesson ≠ l) :
    ofLesson (cs ++ ds) l = ofLesson cs l := by
  unfold ofLesson
  rw [List.filter_append]
  have : ds.filter (fun c => decide (c.lesson = l)) = [] := by
    rw [List.filter_eq_nil_iff]
    intro d hd
    simp [h d hd]
  rw [this, List.append_nil]

theorem ofLesson_new (cs ds : List (Candidate ι)) (l : ι) (h : ∀ d ∈ ds, d.lesson = l)
    (h' : ∀ c ∈ cs, c.lesson ≠ l) : ofLesson (cs ++ ds) l = ds := by
  unfold ofLesson
  rw [List.filter_append]
  have h1 : cs.filter (fun c => decide (c.lesson = l)) = [] := by
    rw [List.filter_eq_nil_iff]
    intro d hd
    simp [h' d hd]
  have h2 : ds.filter (fun c => decide (c.lesson = l)) = ds := by
    rw [List.filter_eq_self]
    intro d hd
    simp [h d hd]
  rw [h1, h2, List.nil_append]

/-- Adding the candidates of a newly visited lesson. -/
theorem kinv_add {e : Env ι} (he : Sane e) {q : Query ι} {init : ι → Prop} {vis0 : List ι} {s s' : State ι}
    (hK : KInv e q init vis0 s) {l : ι} (hv : l ∉ s.visited) (hvis : s'.visited = s.visited.insert l)
    (hl : IsLesson e l) (hr : Reached e q.filter q.scope init l) (ho : ¬ OutOfScope e q l)
    (hns : ¬ LessonSkipped e q.filter l) {cs : List (Candidate ι)} {a : ℚ} {dead : Bool}
    (hc : Contribution e l cs a) (hne : cs ≠ []) (hd : dead = true ↔ ¬ LessonPassed e l)
    (hcand : s'.candidates = s.candidates ++ cs.map (fun c => { c with deadEnd := dead }))
    (hp : (s'.inProgress = s.inProgress.insert l ∧ a ≤ e.opts.targetWindow.hi ∧
        s.inProgress.length < e.opts.maxLessonsInProgress) ∨
      (s'.inProgress = s.inProgress ∧ ¬ a ≤ e.opts.targetWindow.hi)) : KInv e q init vis0 s' := by
  have hvs : ∀ u, u ∈ s'.visited ↔ u = l ∨ u ∈ s.visited := by
    intro u
    rw [hvis, List.mem_insert_iff]
  have hnew : ∀ d ∈ cs.map (fun c : Candidate ι => { c with deadEnd := dead }),
      d.lesson = l ∧ d.deadEnd = dead ∧ IsCandidate e l d ∧ Offers e l d.exercise := by
    intro d hd'
    rw [List.mem_map] at hd'
    obtain ⟨c, hcm, rfl⟩ := hd'
    have := hc.fields c hcm
    exact ⟨this.lesson, rfl, ⟨this.lesson, this.course, this.score, this.urgency, this.velocity, this.frequency⟩,
      hc.offered c hcm⟩
  have hold : ∀ c ∈ s.candidates, c.lesson ≠ l := by
    rintro c hcm rfl
    exact hv (hK.lesson c hcm).1
  have hpm : ∀ x ∈ s.inProgress, x ∈ s'.inProgress := by
    intro x hx
    rcases hp with hp | hp
    · rw [hp.1]; exact List.mem_insert_of_mem hx
    · rw [hp.1]; exact hx
  have hpm' : ∀ x ∈ s'.inProgress, x ∈ s.inProgress ∨ (x = l ∧ a ≤ e.opts.targetWindow.hi) := by
    intro x hx
    rcases hp with hp | hp
    · rw [hp.1, List.mem_insert_iff] at hx
      rcases hx with hx | hx
      · exact Or.inr ⟨hx, hp.2.1⟩
      · exact Or.inl hx
    · rw [hp.1] at hx; exact Or.inl hx
  have havg := avg_of_nonempty hc hne
  refine ⟨?_, ?_, ?_, ?_, ?_, ?_, ?_, ?_, ?_⟩
  · intro c hcm
    rw [hcand, List.mem_append] at hcm
    rcases hcm with hcm | hcm
    · have := hK.lesson c hcm
      exact ⟨(hvs _).2 (Or.inr this.1), this.2⟩
    · rw [(hnew c hcm).1]
      exact ⟨(hvs _).2 (Or.inl rfl), hl, hr, ho, hns⟩
  · intro c hcm
    rw [hcand, List.mem_append] at hcm
    rcases hcm with hcm | hcm
    · exact hK.fields c hcm
    · obtain ⟨h1, h2, h3, h4⟩ := hnew c hcm
      rw [h1, h2]
      exact ⟨h3, h4, hd⟩
  · rw [hcand, List.map_append, List.map_map, List.nodup_append]
    have hfun : (Candidate.exercise ∘ fun c : Candidate ι => { c with deadEnd := dead }) = Candidate.exercise := rfl
    rw [hfun]
    refine ⟨hK.nodup, hc.nodup, ?_⟩
    intro x hx y hy hxy
    subst hxy
    rw [List.mem_map] at hx hy
    obtain ⟨c, hcm, rfl⟩ := hx
    obtain ⟨d, hdm, hde⟩ := hy
    have h1 := (he.wf.exercise _ _).1 (hK.fields c hcm).2.1.1
    have h2 := (he.wf.exercise _ _).1 (hc.offered d hdm).1
    rw [hde, h1] at h2
    injection h2 with h2
    exact hold c hcm h2
  · intro x hx
    rcases hpm' x hx with h | h
    · exact (hvs x).2 (Or.inr (hK.progVis x h))
    · exact (hvs x).2 (Or.inl h.1)
  · rcases hp with hp | hp
    · rw [hp.1]; exact nodup_insert' _ hK.progNodup
    · rw [hp.1]; exact hK.progNodup
  · rcases hp with hp | hp
    · rw [hp.1, List.insert_of_not_mem (fun h => hv (hK.progVis l h)), List.length_cons]
      omega
    · rw [hp.1]; exact hK.progCap
  · intro x hx
    rcases hpm' x hx with h | ⟨rfl, ha⟩
    · obtain ⟨⟨c, hcm, hcl⟩, h2⟩ := hK.progIs x h
      exact ⟨⟨c, by rw [hcand]; simp [hcm], hcl⟩, h2⟩
    · obtain ⟨c, hcm⟩ := List.exists_mem_of_ne_nil _ hne
      have hm : { c with deadEnd := dead } ∈ cs.map (fun c : Candidate ι => { c with deadEnd := dead }) :=
        List.mem_map_of_mem hcm
      exact ⟨⟨_, by rw [hcand, List.mem_append]; exact Or.inr hm, (hnew _ hm).1⟩, a, havg, ha⟩
  · intro c hcm b hb hle
    rw [hcand, List.mem_append] at hcm
    rcases hcm with hcm | hcm
    · exact hpm _ (hK.progAll c hcm b hb hle)
    · rw [(hnew c hcm).1] at hb ⊢
      have hab := lessonAverage_unique hb havg
      subst hab
      rcases hp with hp | hp
      · rw [hp.1]; simp
      · exact absurd hle hp.2
  · intro x hx h0 h1 h2 h3
    rcases (hvs x).1 hx with rfl | hxv
    · refine ⟨cs, a, dead, hc, Or.inl ?_⟩
      rw [hcand]
      exact ofLesson_new _ _ _ (fun d hd' => (hnew d hd').1) hold
    · have hxl : x ≠ l := fun h => hv (h ▸ hxv)
      obtain ⟨cs', a', dead', hc', hh⟩ := hK.contrib x hxv h0 h1 h2 h3
      have hof : ofLesson s'.candidates x = ofLesson s.candidates x := by
        rw [hcand]
        exact ofLesson_append_ne _ _ _ (fun d hd' => by rw [(hnew d hd').1]; exact Ne.symm hxl)
      refine ⟨cs', a', dead', hc', ?_⟩
      rw [hof]
      rcases hh with hh | ⟨g1, g2, g3, g4, g5⟩
      · exact Or.inl hh
      · refine Or.inr ⟨g1, g2, g3, ?_, ?_⟩
        · intro h
          rcases hpm' x h with h | h
          · exact g4 h
          · exact hxl h.1
        · rcases hp with hp | hp
          · rw [hp.1]
            exact le_trans g5 (List.length_le_length_insert)
          · rw [hp.1]; exact g5

theorem kinv_step {e : Env ι} (he : Sane e) {q : Query ι} {init : ι → Prop} {vis0 : List ι}
    (s : State ι) (item : Item ι) (rest : List (Item ι)) (s' : State ι)
    (hI : SInv e q init vis0 s) (hK : KInv e q init vis0 s) (hs : s.stack = item :: rest)
    (h : Eff e q item.unit { s with stack := rest } s') : KInv e q init vis0 s' := by
  have hu : s.units = item.unit :: rest.map Item.unit := by simp [State.units, hs]
  have hru : Reached e q.filter q.scope init item.unit := hI.stack _ (by rw [hu]; simp)
  cases h with
  | nothing _ heq =>
    subst heq
    exact kinv_congr hK rfl rfl (fun _ h => h) (fun u h h' => absurd h h')
  | course skip hv ht ha hk hvis hpend hcand hip hst =>
    refine kinv_congr hK hcand hip ?_ ?_
    · intro u hm
      rw [hvis]
      split
      · exact List.mem_insert_of_mem hm
      · exact hm
    · intro u hm hn _ hl
      rw [hvis] at hm
      split at hm
      · rcases List.mem_insert_iff.1 hm with rfl | hm
        · exact absurd hl (not_lesson_of_course ht)
        · exact absurd hm hn
      · exact absurd hm hn
  | outside hv ht ho heq =>
    subst heq
    refine kinv_congr hK rfl rfl (fun u h => List.mem_insert_of_mem h) ?_
    intro u hm hn _ _ ho'
    rcases List.mem_insert_iff.1 hm with rfl | hm
    · exact absurd ho ho'
    · exact absurd hm hn
  | lesson on c push hv ht hns hc hon hvis hp1 hp2 hpush hcand hst =>
    have hmono : ∀ u ∈ s.visited, u ∈ s'.visited := fun u hm => by
      rw [hvis]; exact List.mem_insert_of_mem hm
    have honly : ∀ u ∈ s'.visited, u ∉ s.visited → u = item.unit := by
      intro u hm hn
      rw [hvis] at hm
      rcases List.mem_insert_iff.1 hm with h | h
      · exact h
      · exact absurd h hn
    have hnone : ofLesson s.candidates item.unit = [] := by
      unfold ofLesson
      rw [List.filter_eq_nil_iff]
      intro d hd
      simp only [decide_eq_true_eq]
      intro hdl
      exact hv (hdl ▸ (hK.lesson d hd).1)
    cases hcand with
    | skipped hsk h1 h2 =>
      refine kinv_congr hK h1 h2 hmono ?_
      intro u hm hn _ _ _ hns'
      rw [honly u hm hn] at hns'
      exact absurd hsk hns'
    | empty a hnsk hct h1 h2 =>
      refine kinv_congr hK h1 h2 hmono ?_
      intro u hm hn _ _ _ _
      rw [honly u hm hn]
      exact ⟨[], a, true, hct, Or.inl hnone⟩
    | capped cs a hnsk hct hne ha hnp hcap h1 h2 =>
      refine kinv_congr hK h1 h2 hmono ?_
      intro u hm hn _ _ _ _
      rw [honly u hm hn]
      exact ⟨cs, a, true, hct, Or.inr ⟨hnone, hne, ha, hnp, hcap⟩⟩
    | started cs a dead hnsk hct hne hd ha hnp hcap h1 h2 =>
      exact kinv_add he hK hv hvis ht hru hns hnsk hct hne hd h1 (Or.inl ⟨h2, ha, hcap⟩)
    | added cs a dead hnsk hct hne hd hip h1 h2 =>
      refine kinv_add he hK hv hvis ht hru hns hnsk hct hne hd h1 (Or.inr ⟨h2, ?_⟩)
      intro ha
      exact hv (hK.progVis _ (hip ha))

/-! ### All together -/

/-- What is known of the final state of a search. -/
theorem search_result {e : Env ι} (he : Sane e) {rnd : Rnd} (hr : IsRnd rnd) {q : Query ι} {n : Nat}
    {stack : List (Item ι)} {vis0 : List ι} {k : Nat} {s' : State ι}
    (hv0 : q.allowCourses = true → vis0 = []) (hv1 : ∀ u ∈ vis0, ¬ IsLesson e u)
    (h : loop e rnd q n { stack := stack, visited := vis0, rnd := k } = some (some s')) :
    KInv e q (fun u => u ∈ stack.map Item.unit) vis0 s' ∧
    (s'.candidates.length < e.opts.batchSize * maxCandidateFactor →
      ∀ l, IsLesson e l → Reached e q.filter q.scope (fun u => u ∈ stack.map Item.unit) l → l ∈ s'.visited) := by
  set init : ι → Prop := fun u => u ∈ stack.map Item.unit with hinit
  obtain ⟨hsteps, hend⟩ := loop_steps he hr q n _ _ h
  have h0I : SInv e q init vis0 { stack := stack, visited := vis0, rnd := k } := by
    refine ⟨fun _ h => h, fun u hu => .init hu, fun u hu => Or.inl hu, ?_⟩
    intro ha c
    rw [hv0 ha]
    simp [pendingOf, unseen, AMap.find]
  have h0K : KInv e q init vis0 { stack := stack, visited := vis0, rnd := k } := by
    refine ⟨by simp, by simp, by simp, by simp, by simp, by simp, by simp, by simp, ?_⟩
    intro l hl hn
    exact absurd hl hn
  have h0C : CInv e q init vis0 [] { stack := stack, visited := vis0, rnd := k } := by
    refine ⟨fun u hu => Or.inl hu, by simp, by simp, ?_, ?_, ?_, ?_⟩
    · intro ha c hc hE hall
      rw [hv0 ha] at hall
      rcases hE with hE | hE
      · obtain ⟨l, hl⟩ := List.exists_mem_of_ne_nil _ hE
        have := hall l hl
        simp at this
      · simp at hE
    · intro ha c hc
      rw [hv0 ha] at hc
      simp at hc
    · intro l h1 h2
      exact absurd h1 h2
    · intro ha c hc
      rw [hv0 ha] at hc
      simp at hc
  have hall := hsteps.induction (P := fun s => SInv e q init vis0 s ∧ KInv e q init vis0 s ∧
      ∃ E, CInv e q init vis0 E s) (by
    rintro s item rest s' ⟨hI, hK, E, hC⟩ hs hE
    exact ⟨inv_step he hv0 s item rest s' hI hs hE, kinv_step he s item rest s' hI hK hs hE,
      cinv_step he s item rest s' hI hC hs hE⟩) ⟨h0I, h0K, [], h0C⟩
  obtain ⟨hI, hK, E, hC⟩ := hall
  refine ⟨hK, ?_⟩
  intro hlt l hl hreach
  rcases hend with hend | hend
  · have hunits : s'.units = [] := by simp [State.units, hend]
    rcases reached_acc he hC hunits hv1 l hreach with h | h | h | h
    · rw [hunits] at h; simp at h
    · exact h
    · exact absurd hl (not_lesson_of_course h.1)
    · exact absurd hl h.2
  · omega

/-- Properties of the candidates, without assumptions on the initially visited units. -/
theorem search_candidates {e : Env ι} (he : Sane e) {rnd : Rnd} (hr : IsRnd rnd) {q : Query ι} {n : Nat}
    {stack : List (Item ι)} {vis0 : List ι} {k : Nat} {s' : State ι}
    (hv0 : q.allowCourses = true → vis0 = [])
    (h : loop e rnd q n { stack := stack, visited := vis0, rnd := k } = some (some s')) :
    KInv e q (fun u => u ∈ stack.map Item.unit) vis0 s' := by
  set init : ι → Prop := fun u => u ∈ stack.map Item.unit with hinit
  obtain ⟨hsteps, hend⟩ := loop_steps he hr q n _ _ h
  have h0I : SInv e q init vis0 { stack := stack, visited := vis0, rnd := k } := by
    refine ⟨fun _ h => h, fun u hu => .init hu, fun u hu => Or.inl hu, ?_⟩
    intro ha c
    rw [hv0 ha]
    simp [pendingOf, unseen, AMap.find]
  have h0K : KInv e q init vis0 { stack := stack, visited := vis0, rnd := k } := by
    refine ⟨by simp, by simp, by simp, by simp, by simp, by simp, by simp, by simp, ?_⟩
    intro l hl hn
    exact absurd hl hn
  exact (hsteps.induction (P := fun s => SInv e q init vis0 s ∧ KInv e q init vis0 s) (by
    rintro s item rest s' ⟨hI, hK⟩ hs hE
    exact ⟨inv_step he hv0 s item rest s' hI hs hE, kinv_step he s item rest s' hI hK hs hE⟩)
    ⟨h0I, h0K⟩).2

end Trane.Search
