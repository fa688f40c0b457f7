import Verif.Sched.SearchSpec
import Mathlib.Logic.Relation
import Mathlib.Tactic.Linarith

/-! Helper lemmas: the effective dependencies computed by the model are those of the specification. -/

namespace Trane.Search
open Trane.Filters (KVFilter)
open Trane.Graph

variable {ι : Type} [DecidableEq ι]

/-! ### A generic depth-first union -/

/-- The shape of `resolveF`: `own u` are the results at `u`, `next u` the units to go on with. -/
def dfs (own next : ι → List ι) : Nat → ι → List ι → Option (List ι × List ι)
  | 0, _, _ => none
  | n + 1, u, visited =>
    if u ∈ visited then some ([], visited)
    else (next u).foldlM (init := (own u, u :: visited)) (fun p d => do
      let (r, visited) ← dfs own next n d p.2
      return (extendSet p.1 r, visited))

/-- What one call, or a sequence of calls, does. -/
structure DfsOk (own next : ι → List ι) (us : List ι) (r₀ vis r vis' : List ι) : Prop where
  grow : ∀ v ∈ vis, v ∈ vis'
  keep : ∀ t ∈ r₀, t ∈ r
  seen : ∀ u ∈ us, u ∈ vis'
  own_sub : ∀ v ∈ vis', v ∉ vis → ∀ t ∈ own v, t ∈ r
  next_sub : ∀ v ∈ vis', v ∉ vis → ∀ w ∈ next v, w ∈ vis'
  sound : ∀ t ∈ r, t ∈ r₀ ∨ ∃ u ∈ us, ∃ v, Relation.ReflTransGen (fun a b => b ∈ next a) u v ∧ t ∈ own v

theorem dfs_fold_ok (own next : ι → List ι) (f : ι → List ι → Option (List ι × List ι))
    (hf : ∀ d vis r vis', f d vis = some (r, vis') → DfsOk own next [d] [] vis r vis') :
    ∀ (us r₀ vis : List ι) (r vis' : List ι),
      us.foldlM (init := (r₀, vis)) (fun (p : List ι × List ι) d => do
        let (r, visited) ← f d p.2
        return (extendSet p.1 r, visited)) = some (r, vis') →
      DfsOk own next us r₀ vis r vis' := by
  intro us
  induction us with
  | nil =>
    intro r₀ vis r vis' h
    simp only [List.foldlM_nil, Option.pure_def, Option.some.injEq, Prod.mk.injEq] at h
    obtain ⟨rfl, rfl⟩ := h
    exact ⟨fun _ h => h, fun _ h => h, by simp, fun v h h' => absurd h h',
      fun v h h' => absurd h h', fun t h => Or.inl h⟩
  | cons d us ih =>
    intro r₀ vis r vis' h
    rw [List.foldlM_cons, Option.bind_eq_bind, Option.bind_eq_some_iff] at h
    obtain ⟨⟨r1, vis1⟩, h1, h2⟩ := h
    rw [Option.bind_eq_some_iff] at h1
    obtain ⟨⟨rd, visd⟩, h3, h4⟩ := h1
    simp only [Option.pure_def, Option.some.injEq, Prod.mk.injEq] at h4
    obtain ⟨rfl, rfl⟩ := h4
    have a := hf _ _ _ _ h3
    have b := ih _ _ _ _ h2
    refine ⟨fun v hv => b.grow v (a.grow v hv), ?_, ?_, ?_, ?_, ?_⟩
    · intro t ht
      exact b.keep t (by rw [mem_extendSet]; exact Or.inl ht)
    · intro u hu
      rcases List.mem_cons.1 hu with rfl | hu
      · exact b.grow _ (a.seen _ (by simp))
      · exact b.seen u hu
    · intro v hv hn t ht
      by_cases hv1 : v ∈ visd
      · exact b.keep t (by rw [mem_extendSet]; exact Or.inr (a.own_sub v hv1 hn t ht))
      · exact b.own_sub v hv hv1 t ht
    · intro v hv hn w hw
      by_cases hv1 : v ∈ visd
      · exact b.grow w (a.next_sub v hv1 hn w hw)
      · exact b.next_sub v hv hv1 w hw
    · intro t ht
      rcases b.sound t ht with h | ⟨u, hu, v, hr, hv⟩
      · rw [mem_extendSet] at h
        rcases h with h | h
        · exact Or.inl h
        · rcases a.sound t h with h | ⟨u, hu, v, hr, hv⟩
          · simp at h
          · simp only [List.mem_singleton] at hu
            subst hu
            exact Or.inr ⟨u, by simp, v, hr, hv⟩
      · exact Or.inr ⟨u, by simp [hu], v, hr, hv⟩

theorem dfs_ok (own next : ι → List ι) (n : Nat) : ∀ (u : ι) (vis r vis' : List ι),
    dfs own next n u vis = some (r, vis') → DfsOk own next [u] [] vis r vis' := by
  induction n with
  | zero => intro u vis r vis' h; simp [dfs] at h
  | succ n ih =>
    intro u vis r vis' h
    rw [dfs] at h
    split at h
    · rename_i hu
      simp only [Option.some.injEq, Prod.mk.injEq] at h
      obtain ⟨rfl, rfl⟩ := h
      exact ⟨fun _ h => h, by simp, by simpa using hu, fun v h h' => absurd h h',
        fun v h h' => absurd h h', by simp⟩
    · rename_i hu
      have a := dfs_fold_ok own next (dfs own next n) ih _ _ _ _ _ h
      refine ⟨fun v hv => a.grow v (by simp [hv]), by simp, ?_, ?_, ?_, ?_⟩
      · intro v hv
        simp only [List.mem_singleton] at hv
        exact a.grow v (by simp [hv])
      · intro v hv hn t ht
        by_cases hvu : v = u
        · subst hvu; exact a.keep t ht
        · exact a.own_sub v hv (by simp [hvu, hn]) t ht
      · intro v hv hn w hw
        by_cases hvu : v = u
        · subst hvu; exact a.seen w hw
        · exact a.next_sub v hv (by simp [hvu, hn]) w hw
      · intro t ht
        right
        rcases a.sound t ht with h | ⟨w, hw, v, hr, hv⟩
        · exact ⟨u, by simp, u, .refl, h⟩
        · exact ⟨u, by simp, v, .head hw hr, hv⟩

/-- A complete call collects exactly the results of all the units reached. -/
theorem mem_dfs (own next : ι → List ι) (n : Nat) (u : ι) (r vis' : List ι)
    (h : dfs own next n u [] = some (r, vis')) (t : ι) :
    t ∈ r ↔ ∃ v, Relation.ReflTransGen (fun a b => b ∈ next a) u v ∧ t ∈ own v := by
  have a := dfs_ok own next n u [] r vis' h
  constructor
  · intro ht
    rcases a.sound t ht with h | ⟨w, hw, v, hr, hv⟩
    · simp at h
    · simp only [List.mem_singleton] at hw
      subst hw
      exact ⟨v, hr, hv⟩
  · rintro ⟨v, hr, hv⟩
    have : v ∈ vis' := by
      clear hv
      induction hr with
      | refl => exact a.seen u (by simp)
      | tail _ hbc ih => exact a.next_sub _ ih (by simp) _ hbc
    exact a.own_sub v this (by simp) t hv

/-- The number of units of `K` not yet visited. -/
def unseen (K vis : List ι) : Nat := (K.filter (fun u => !decide (u ∈ vis))).length

theorem unseen_le (K : List ι) {vis vis' : List ι} (h : ∀ v ∈ vis, v ∈ vis') :
    unseen K vis' ≤ unseen K vis := by
  apply List.Sublist.length_le
  apply List.monotone_filter_right
  intro u hu
  simp only [Bool.not_eq_true', decide_eq_false_iff_not] at hu ⊢
  exact fun hv => hu (h u hv)

theorem unseen_lt (K : List ι) {vis vis' : List ι} (h : ∀ v ∈ vis, v ∈ vis') {u : ι} (hK : u ∈ K)
    (hu : u ∉ vis) (hu' : u ∈ vis') : unseen K vis' < unseen K vis := by
  have hsub : List.Sublist (K.filter (fun u => !decide (u ∈ vis'))) (K.filter (fun u => !decide (u ∈ vis))) := by
    apply List.monotone_filter_right
    intro u hu
    simp only [Bool.not_eq_true', decide_eq_false_iff_not] at hu ⊢
    exact fun hv => hu (h u hv)
  refine lt_of_le_of_ne hsub.length_le ?_
  intro heq
  have := hsub.eq_of_length heq
  have hm : u ∈ K.filter (fun u => !decide (u ∈ vis)) := by simp [hK, hu]
  rw [← this] at hm
  simp [hu'] at hm

theorem dfs_fold_total (own next : ι → List ι) (n : Nat) (K : List ι)
    (ih : ∀ d vis, unseen K vis < n → ∃ r vis', dfs own next n d vis = some (r, vis')) :
    ∀ (us r₀ vis : List ι), unseen K vis < n → ∃ r vis',
      us.foldlM (init := (r₀, vis)) (fun (p : List ι × List ι) d => do
        let (r, visited) ← dfs own next n d p.2
        return (extendSet p.1 r, visited)) = some (r, vis') := by
  intro us
  induction us with
  | nil => intro r₀ vis _; exact ⟨_, _, rfl⟩
  | cons d us ih' =>
    intro r₀ vis hn
    obtain ⟨r, vis', h⟩ := ih d vis hn
    have a := dfs_ok own next n d vis r vis' h
    obtain ⟨r', vis'', h'⟩ := ih' (extendSet r₀ r) vis' (lt_of_le_of_lt (unseen_le K a.grow) hn)
    refine ⟨r', vis'', ?_⟩
    rw [List.foldlM_cons]
    simp only [h, Option.bind_eq_bind, Option.bind_some, Option.pure_def]
    exact h'

/-- The recursion never needs more depth than the number of units that can be bridged. -/
theorem dfs_total (own next : ι → List ι) (K : List ι) (hK : ∀ u, next u ≠ [] → u ∈ K) (n : Nat) :
    ∀ (u : ι) (vis : List ι), unseen K vis < n → ∃ r vis', dfs own next n u vis = some (r, vis') := by
  induction n with
  | zero => intro u vis h; omega
  | succ n ih =>
    intro u vis h
    rw [dfs]
    split
    · exact ⟨_, _, rfl⟩
    · rename_i hu
      by_cases hn : next u = []
      · rw [hn]; exact ⟨_, _, rfl⟩
      · apply dfs_fold_total own next n K ih
        have := unseen_lt K (vis := vis) (vis' := u :: vis) (fun v hv => by simp [hv]) (hK u hn) hu (by simp)
        omega

/-! ### The instance -/

/-- The results at one unit. -/
def ownOf (e : Env ι) (mf : Option KVFilter) (u : ι) : List ι :=
  if (e.passesFilter mf u).getD false then [u]
  else match e.graph.getUnitType u with
    | some .course => e.lastMatching mf u
    | _ => []

/-- The units to go on with. -/
def nextOf (e : Env ι) (mf : Option KVFilter) (u : ι) : List ι :=
  if (e.passesFilter mf u).getD false then []
  else match e.graph.getUnitType u with
    | some .lesson => e.lessonBridge u
    | some .course => if (e.lastMatching mf u).isEmpty then e.deps u else []
    | _ => []

theorem resolveF_eq (e : Env ι) (mf : Option KVFilter) (n : Nat) : ∀ (u : ι) (vis : List ι),
    e.resolveF mf n u vis = dfs (ownOf e mf) (nextOf e mf) n u vis := by
  induction n with
  | zero => intros; rfl
  | succ n ih =>
    intro u vis
    have ihf : e.resolveF mf n = dfs (ownOf e mf) (nextOf e mf) n := by
      funext a b; exact ih a b
    rw [Env.resolveF, dfs, ihf]
    split
    · rfl
    · unfold ownOf nextOf
      split
      · rfl
      · cases h : e.graph.getUnitType u with
        | none => rfl
        | some t =>
          cases t with
          | exercise => rfl
          | lesson => rfl
          | course =>
            by_cases hl : (e.lastMatching mf u).isEmpty = true
            · simp only [hl, if_true]
              rw [List.isEmpty_iff.1 hl]
            · simp only [hl, Bool.false_eq_true, if_false]
              rfl

theorem nextOf_known (e : Env ι) (mf : Option KVFilter) (u : ι) (h : nextOf e mf u ≠ []) :
    u ∈ e.graph.types.keys := by
  rw [AMap.mem_keys_iff]
  unfold nextOf at h
  split at h
  · simp at h
  · cases hu : e.graph.getUnitType u with
    | none => simp [hu] at h
    | some t => exact ⟨t, hu⟩

/-- The recursion of `resolve_effective_dependencies` ends within the depth used by `resolve`. -/
theorem resolveF_total (e : Env ι) (mf : Option KVFilter) (u : ι) :
    ∃ r vis', e.resolveF mf (e.graph.types.length + 1) u [] = some (r, vis') := by
  rw [resolveF_eq]
  apply dfs_total _ _ e.graph.types.keys (nextOf_known e mf)
  have : unseen e.graph.types.keys [] ≤ e.graph.types.keys.length := List.length_filter_le _ _
  simp only [AMap.keys, List.length_map] at this ⊢
  omega

theorem mem_resolve (e : Env ι) (mf : Option KVFilter) (u t : ι) :
    t ∈ e.resolve mf u ↔
      ∃ v, Relation.ReflTransGen (fun a b => b ∈ nextOf e mf a) u v ∧ t ∈ ownOf e mf v := by
  obtain ⟨r, vis', h⟩ := resolveF_total e mf u
  unfold Env.resolve
  rw [h]
  rw [resolveF_eq] at h
  exact mem_dfs _ _ _ _ _ _ h t

/-! ### Translation into the vocabulary of the specification -/

theorem mem_deps (e : Env ι) (u d : ι) : d ∈ e.deps u ↔ DependsOn e.graph u d :=
  (rel_iff_getD e.graph.deps u d).symm
theorem mem_dependents (e : Env ι) (u d : ι) : d ∈ e.dependents u ↔ HasDependent e.graph u d :=
  (rel_iff_getD e.graph.dependents u d).symm
theorem mem_starting (e : Env ι) (c l : ι) : l ∈ e.starting c ↔ CourseStartsWith e.graph c l :=
  (rel_iff_getD e.graph.startingLessons c l).symm
theorem mem_lessons (e : Env ι) (c l : ι) : l ∈ e.lessons c ↔ CourseHasLesson e.graph c l :=
  (rel_iff_getD e.graph.courseLessons c l).symm

theorem courseOf_some (e : Env ι) {l c : ι} (h : e.graph.getLessonCourse l = some c) : e.courseOf l = c := by
  simp [Env.courseOf, h]

variable {e : Env ι}

theorem passesFilter_iff (he : Sane e) (mf : Option KVFilter) (u : ι) :
    (e.passesFilter mf u).getD false = true ↔ Accepts e mf u := by
  cases mf with
  | none => simp [Env.passesFilter, Accepts]
  | some f =>
    simp only [Env.passesFilter, Accepts, IsCourse, IsLesson]
    cases hu : e.graph.getUnitType u with
    | none => simp
    | some t =>
      cases t with
      | exercise => simp
      | course =>
        cases hm : e.courseMeta u <;> simp
      | lesson =>
        obtain ⟨c, hc⟩ := he.lessonHasCourse u hu
        have : e.courseOf u = c := courseOf_some e hc
        simp only [this, hc]
        cases hm : e.courseMeta c with
        | none => simp [hm]
        | some cm =>
          cases hl : e.lessonMeta u with
          | none => simp
          | some lm => simp [hm]

/-- For known courses and lessons the filter can always be evaluated. -/
theorem passesFilter_total (he : Sane e) (mf : Option KVFilter) (u : ι) (hu : IsCourse e u ∨ IsLesson e u) :
    ∃ b, e.passesFilter mf u = some b := by
  cases mf with
  | none => exact ⟨_, rfl⟩
  | some f =>
    simp only [Env.passesFilter]
    rcases hu with hu | hu
    · have := (he.course u).1 hu
      rw [Option.isSome_iff_exists] at this
      obtain ⟨m, hm⟩ := this
      simp only [IsCourse] at hu
      simp [hu, hm]
    · obtain ⟨c, hc⟩ := he.lessonHasCourse u hu
      have h1 := (he.course c).1 (he.wf.tyL u c hc).2
      have h2 := (he.lesson u).1 hu
      rw [Option.isSome_iff_exists] at h1 h2
      obtain ⟨cm, hcm⟩ := h1
      obtain ⟨lm, hlm⟩ := h2
      simp only [IsLesson] at hu
      simp [hu, courseOf_some e hc, hcm, hlm]

theorem passesFilter_true (he : Sane e) (mf : Option KVFilter) (u : ι) (hu : IsCourse e u ∨ IsLesson e u) :
    (e.passesFilter mf u).getD true = true ↔ Accepts e mf u := by
  obtain ⟨b, hb⟩ := passesFilter_total he mf u hu
  rw [← passesFilter_iff he, hb]
  simp

theorem mem_lastMatching (he : Sane e) (mf : Option KVFilter) (c l : ι) :
    l ∈ e.lastMatching mf c ↔ LastAccepted e mf c l := by
  simp only [Env.lastMatching, List.mem_filter, List.all_eq_true, Bool.not_eq_true',
    decide_eq_false_iff_not, not_and, mem_lessons, passesFilter_iff he, mem_dependents, LastAccepted,
    and_assoc]
  refine and_congr Iff.rfl (and_congr Iff.rfl ?_)
  constructor
  · intro h l' h1 h2 h3; exact h l' ((he.wf.depInv _ _).1 h3) h1 h2
  · intro h d hd h1 h2; exact h d h1 h2 ((he.wf.depInv _ _).2 hd)

theorem mem_lessonBridge (he : Sane e) {u : ι} (d : ι) :
    d ∈ e.lessonBridge u ↔ DependsOn e.graph u d ∨
      ∃ c, CourseStartsWith e.graph c u ∧ DependsOn e.graph c d := by
  have key : ∀ c, CourseStartsWith e.graph c u → e.courseOf u = c := fun c hc =>
    courseOf_some e ((he.wf.lesson c u).1 (he.wf.startingSub c u hc))
  unfold Env.lessonBridge
  split
  · rename_i h
    rw [mem_starting] at h
    rw [mem_extendSet, mem_deps, mem_deps]
    constructor
    · rintro (h' | h')
      · exact Or.inl h'
      · exact Or.inr ⟨_, h, h'⟩
    · rintro (h' | ⟨c, h1, h2⟩)
      · exact Or.inl h'
      · rw [key c h1]; exact Or.inr h2
  · rename_i h
    rw [mem_starting] at h
    rw [mem_deps]
    constructor
    · exact Or.inl
    · rintro (h' | ⟨c, h1, h2⟩)
      · exact h'
      · exact absurd (by rw [key c h1]; exact h1) h

theorem gates_iff (he : Sane e) (mf : Option KVFilter) (d t : ι) :
    t ∈ e.resolve mf d ↔ Gates e mf d t := by
  rw [mem_resolve]
  constructor
  · rintro ⟨v, hr, hv⟩
    induction hr using Relation.ReflTransGen.head_induction_on with
    | refl =>
      unfold ownOf at hv
      split at hv
      · rename_i h
        rw [passesFilter_iff he] at h
        simp only [List.mem_singleton] at hv
        subst hv
        exact .self h
      · rename_i h
        rw [passesFilter_iff he] at h
        split at hv
        · rename_i hc
          rw [mem_lastMatching he] at hv
          exact .lastLesson h hc hv
        · simp at hv
    | head hab _ ih =>
      rename_i a b
      unfold nextOf at hab
      split at hab
      · simp at hab
      · rename_i h
        rw [passesFilter_iff he] at h
        split at hab
        · rename_i hl
          rw [mem_lessonBridge he] at hab
          rcases hab with hab | ⟨c, h1, h2⟩
          · exact .throughLesson h hl hab ih
          · exact .throughStart h hl h1 h2 ih
        · rename_i hc
          split at hab
          · rename_i hemp
            rw [mem_deps] at hab
            refine .throughCourse h hc ?_ hab ih
            intro l hl
            rw [← mem_lastMatching he, List.isEmpty_iff.1 hemp] at hl
            simp at hl
          · simp at hab
        · simp at hab
  · intro h
    induction h with
    | self h =>
      refine ⟨_, .refl, ?_⟩
      simp [ownOf, (passesFilter_iff he mf _).2 h]
    | @lastLesson d t h hc hl =>
      refine ⟨_, .refl, ?_⟩
      rw [← passesFilter_iff he] at h
      simp only [IsCourse] at hc
      simp only [ownOf, h, hc, if_false, Bool.false_eq_true]
      exact (mem_lastMatching he mf _ _).2 hl
    | @throughCourse d d' t h hc hl hd _ ih =>
      obtain ⟨v, hr, hv⟩ := ih
      refine ⟨v, .head ?_ hr, hv⟩
      rw [← passesFilter_iff he] at h
      simp only [IsCourse] at hc
      have : (e.lastMatching mf d).isEmpty = true := by
        rw [List.isEmpty_iff, List.eq_nil_iff_forall_not_mem]
        intro l hl'
        exact hl l ((mem_lastMatching he mf _ _).1 hl')
      simp only [nextOf, h, hc, if_false, Bool.false_eq_true, this, if_true]
      exact (mem_deps e _ _).2 hd
    | @throughLesson d d' t h hl hd _ ih =>
      obtain ⟨v, hr, hv⟩ := ih
      refine ⟨v, .head ?_ hr, hv⟩
      rw [← passesFilter_iff he] at h
      simp only [IsLesson] at hl
      simp only [nextOf, h, hl, if_false, Bool.false_eq_true]
      exact (mem_lessonBridge he _).2 (Or.inl hd)
    | @throughStart d c d' t h hl hs hd _ ih =>
      obtain ⟨v, hr, hv⟩ := ih
      refine ⟨v, .head ?_ hr, hv⟩
      rw [← passesFilter_iff he] at h
      simp only [IsLesson] at hl
      simp only [nextOf, h, hl, if_false, Bool.false_eq_true]
      exact (mem_lessonBridge he _).2 (Or.inr ⟨c, hs, hd⟩)

theorem satisfiedEffective_iff (he : Sane e) (t : ι) :
    e.satisfiedEffective t = true ↔ Satisfied e t := by
  unfold Env.satisfiedEffective Satisfied
  by_cases h1 : e.black t = true
  · simp [h1]
  simp only [h1, if_false, Bool.false_eq_true, false_or]
  have h2 : e.black (e.courseOf t) = true ↔ ∃ c, e.graph.getLessonCourse t = some c ∧ e.black c = true := by
    unfold Env.courseOf
    cases h : e.graph.getLessonCourse t with
    | none => simp [he.dfltBlack]
    | some c => simp
  rw [← h2]
  by_cases h3 : e.black (e.courseOf t) = true
  · simp [h3]
  simp only [h3, if_false, Bool.false_eq_true, false_or]
  by_cases h4 : e.superseded t = true
  · simp [h4]
  simp only [h4, if_false, Bool.false_eq_true, false_or]
  unfold Env.passesThreshold
  cases hs : e.score t with
  | none => simp
  | some o =>
    cases o with
    | none => simp
    | some s =>
      cases ht : e.trials t with
      | none => simp
      | some n => simp

theorem allSatisfied_iff (he : Sane e) (mf : Option KVFilter) (u : ι) :
    e.allSatisfied mf u = true ↔ Unlocked e mf u := by
  simp only [Env.allSatisfied, List.all_eq_true, Unlocked, mem_deps]
  refine forall_congr' fun d => imp_congr Iff.rfl ?_
  unfold Env.satisfiedDependency
  have key : (∀ t, Gates e mf d t → Satisfied e t) ↔ (e.resolve mf d).all e.satisfiedEffective = true := by
    simp only [List.all_eq_true, gates_iff he, satisfiedEffective_iff he]
  rw [key]
  dsimp only
  split
  · rename_i h
    rw [List.isEmpty_iff.1 h]
    simp
  · rfl

theorem mem_validDependents (he : Sane e) (mf : Option KVFilter) (u v : ι) :
    v ∈ e.validDependents mf u ↔ HasDependent e.graph u v ∧ Unlocked e mf v := by
  simp only [Env.validDependents, List.mem_filter, mem_dependents, allSatisfied_iff he]

theorem mem_validStarting (he : Sane e) (mf : Option KVFilter) (c l : ι) :
    l ∈ e.validStarting mf c ↔ CourseStartsWith e.graph c l ∧ Unlocked e mf l := by
  simp only [Env.validStarting, List.mem_filter, mem_starting, allSatisfied_iff he]

theorem superseded_courseOf (he : Sane e) (l : ι) :
    e.superseded (e.courseOf l) = true ↔
      ∃ c, e.graph.getLessonCourse l = some c ∧ e.superseded c = true := by
  unfold Env.courseOf
  cases h : e.graph.getLessonCourse l with
  | none => simp [he.dfltSuperseded]
  | some c => simp

theorem black_courseOf (he : Sane e) (l : ι) :
    e.black (e.courseOf l) = true ↔ ∃ c, e.graph.getLessonCourse l = some c ∧ e.black c = true := by
  unfold Env.courseOf
  cases h : e.graph.getLessonCourse l with
  | none => simp [he.dfltBlack]
  | some c => simp

theorem skipLesson_iff (he : Sane e) (mf : Option KVFilter) (l : ι) (hl : IsLesson e l) :
    e.skipLesson mf l = true ↔ LessonSkipped e mf l := by
  simp only [Env.skipLesson, Bool.or_eq_true, Bool.not_eq_true', superseded_courseOf he, LessonSkipped,
    ← passesFilter_true he mf l (Or.inr hl), or_assoc, Bool.not_eq_true]

theorem skipCourseStatic_iff (he : Sane e) (mf : Option KVFilter) (c : ι) (hc : IsCourse e c) :
    e.skipCourseStatic mf c = true ↔ CourseSkipped e mf c := by
  simp only [Env.skipCourseStatic, Bool.or_eq_true, Bool.not_eq_true', CourseSkipped,
    ← passesFilter_true he mf c (Or.inl hc), or_assoc, Bool.not_eq_true]

theorem mem_validInLesson (he : Sane e) (l x : ι) : x ∈ e.validInLesson l ↔ Offers e l x := by
  unfold Env.validInLesson Offers
  have hx : x ∈ (e.graph.getLessonExercises l).getD [] ↔ LessonHasExercise e.graph l x :=
    (rel_iff_getD e.graph.lessonExercises l x).symm
  have hb : e.black (e.courseOf l) = false ↔ ∀ c, e.graph.getLessonCourse l = some c → e.black c = false := by
    have := black_courseOf he l
    constructor
    · intro h c hc
      by_contra hcb
      have := this.2 ⟨c, hc, by simpa using hcb⟩
      simp [h] at this
    · intro h
      by_contra hcb
      obtain ⟨c, hc, hb⟩ := this.1 (by simpa using hcb)
      simp [h c hc] at hb
  rw [← hb, ← hx]
  by_cases h1 : e.black l = true
  · simp [h1]
  by_cases h2 : e.black (e.courseOf l) = true
  · simp [h2]
  simp [h1, h2]

theorem validInLesson_nodup (he : Sane e) (l : ι) : (e.validInLesson l).Nodup := by
  unfold Env.validInLesson
  split
  · simp
  · split
    · simp
    · apply List.Nodup.filter
      cases h : e.graph.getLessonExercises l with
      | none => simp
      | some s => exact he.wf.exercisesNodup l s h

end Trane.Search
