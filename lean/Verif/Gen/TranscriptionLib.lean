import Verif.Gen.TranscriptionProps

/-!
# C54: libraries of transcription courses

Courses that list each other as transcription dependencies form a library exactly as their
dependencies allow: no cycle among the listed dependencies means no cycle among the lessons. -/

namespace Trane.Gen.Transcription
open Trane.Store Trane.Library Trane.Gen Trane.Graph

variable {α γ : Type}

/-- A transcription course: its manifest, its configuration and the passages it was given. -/
structure Src (α γ : Type) where
  manifest : CourseM α γ
  cfg : Config
  passages : List Passages

/-- The course with its generated lessons. -/
def Src.opened (lessonRest : Kind → α) (asset : Kind → Passages → Str → Str → α)
    (is : List Instrument) (x : Src α γ) : Opened α γ :=
  ⟨x.manifest, lessonManifests lessonRest asset x.cfg (some x.cfg) x.manifest.id is x.passages⟩

/-- `a` lists `b` as a transcription dependency. -/
def Lists (xs : List (Src α γ)) (a b : Str) : Prop := ∃ x ∈ xs, x.manifest.id = a ∧ b ∈ x.cfg.deps

/-- The course ids and the ids the courses list as transcription dependencies. -/
def mentioned (xs : List (Src α γ)) : List Str :=
  xs.map (·.manifest.id) ++ xs.flatMap (·.cfg.deps)

/-- Names for which ids are distinct: course ids are distinct and none of the ids mentioned continues
another one with `::`. -/
structure LibNames (is : List Instrument) (xs : List (Src α γ)) : Prop where
  courses : (xs.map (·.manifest.id)).Nodup
  apart : ∀ a ∈ mentioned xs, ∀ b ∈ mentioned xs, Apart a b
  names : ∀ x ∈ xs, Names is x.passages

section
variable (lessonRest : Kind → α) (asset : Kind → Passages → Str → Str → α) (is : List Instrument)
  (xs : List (Src α γ))

theorem course_mentioned {x : Src α γ} (hx : x ∈ xs) : x.manifest.id ∈ mentioned xs :=
  List.mem_append.2 (Or.inl (List.mem_map.2 ⟨x, hx, rfl⟩))

theorem dep_mentioned {x : Src α γ} (hx : x ∈ xs) {d : Str} (hd : d ∈ x.cfg.deps) : d ∈ mentioned xs :=
  List.mem_append.2 (Or.inr (List.mem_flatMap.2 ⟨x, hx, hd⟩))

theorem unitIds_eq : unitIds (xs.map (Src.opened lessonRest asset is)) =
    xs.flatMap (fun x => (courseParts x.cfg is x.passages).map (tagged x.manifest.id)) := by
  have : ∀ cs : List (Opened α γ), unitIds cs = cs.flatMap (fun c => unitIds [c]) := by
    intro cs; simp [unitIds]
  rw [this, List.flatMap_map]
  congr 1
  funext x
  exact unitIds_single lessonRest asset x.cfg is x.passages x.manifest

/-- **C54, distinct ids** of a whole library of transcription courses. -/
theorem library_ids_distinct (h : LibNames is xs) :
    (unitIds (xs.map (Src.opened lessonRest asset is))).Nodup := by
  rw [unitIds_eq]
  refine nodup_flatMap_disjoint _ _ (List.Nodup.of_map _ h.courses) (fun x hx => ?_) ?_
  · refine (List.nodup_map_iff_inj_on (courseParts_nodup (h.names x hx))).2 ?_
    intro a ha b hb e
    exact tagged_inj (courseParts_plain (h.names x hx) a ha) (courseParts_plain (h.names x hx) b hb) e
  · intro x hx y hy z hz hz'
    obtain ⟨a, ha, rfl⟩ := List.mem_map.1 hz
    obtain ⟨b, hb, e⟩ := List.mem_map.1 hz'
    refine List.inj_on_of_nodup_map h.courses hx hy ?_
    have ap := h.apart _ (course_mentioned xs hx) _ (course_mentioned xs hy)
    rcases courseParts_head ha with rfl | ⟨p, ps, rfl, hp⟩ <;>
      rcases courseParts_head hb with rfl | ⟨q, qs, rfl, hq⟩
    · rw [tagged_nil, tagged_nil] at e; exact e.symm
    · rw [tagged_nil] at e; exact (tagged_ne_course ⟨ap.2, ap.1⟩ e).elim
    · rw [tagged_nil] at e; exact (tagged_ne_course ap e.symm).elim
    · exact tagged_first (courseParts_plain (h.names x hx) _ ha p (by simp)) hp
        (courseParts_plain (h.names y hy) _ hb q (by simp)) hq ap e.symm

/-- The place of a lesson among those of its course. -/
def rank : Kind → Nat
  | .singing => 0
  | .advancedSinging => 1
  | .transcription _ => 1
  | .advancedTranscription _ => 2

theorem tag_plain (k : Kind) : ∃ p ps, k.parts = p :: ps ∧ Plain p ∧ p ≠ [] := by
  cases k <;> exact ⟨_, _, rfl, by unfold Plain; decide, by decide⟩

theorem idOf_inj {c c' : Str} {a b : Kind} (hap : Apart c c') (h : idOf c a = idOf c' b) :
    c = c' ∧ rank a = rank b := by
  obtain ⟨p, ps, hp, hp1, hp2⟩ := tag_plain a
  obtain ⟨q, qs, hq, hq1, hq2⟩ := tag_plain b
  have h' := h
  unfold idOf at h'
  rw [hp, hq] at h'
  have hc := tagged_first hp1 hp2 hq1 hq2 hap h'
  subst hc
  refine ⟨rfl, ?_⟩
  unfold tagged at h'
  have h' := List.append_cancel_left h'
  simp only [List.flatMap_cons, List.cons_append, List.cons.injEq, true_and] at h'
  have e1 := takeWhile_plain p _ hp1 (flat_start ps)
  have e2 := takeWhile_plain q _ hq1 (flat_start qs)
  rw [h', e2] at e1
  subst e1
  cases a <;> cases b <;> first | rfl | (exfalso; simp only [Kind.parts, List.cons.injEq] at hp hq; exact absurd (hp.1.trans hq.1.symm) (by decide))

/-- A dependency of a lesson is a lower lesson of the same course or a lesson of a course listed. -/
theorem dep_cases {cfg : Config} {c : Str} {k : Kind} {v : Str} (h : v ∈ depsOf cfg c k) :
    (∃ k', v = idOf c k' ∧ rank k' < rank k) ∨ (∃ d ∈ cfg.deps, ∃ k', v = idOf d k') := by
  cases k <;> simp only [depsOf, List.mem_cons, List.not_mem_nil, or_false, List.mem_append,
    List.mem_map] at h
  · obtain ⟨d, hd, rfl⟩ := h; exact Or.inr ⟨d, hd, _, rfl⟩
  · exact Or.inl ⟨_, h, by decide⟩
  · rcases h with ⟨d, hd, rfl⟩ | h
    · exact Or.inr ⟨d, hd, _, rfl⟩
    · exact Or.inl ⟨_, h, by simp [rank]⟩
  · rcases h with h | h
    · exact Or.inl ⟨_, h, by simp [rank]⟩
    · exact Or.inl ⟨_, h, by simp [rank]⟩

theorem sup_cases {c : Str} {k : Kind} {v : Str} (h : v ∈ supOf c k) :
    ∃ k', v = idOf c k' ∧ rank k' < rank k := by
  cases k <;> simp only [supOf, List.mem_cons, List.not_mem_nil, or_false] at h
  · exact ⟨_, h, by decide⟩
  · exact ⟨_, h, by simp [rank]⟩

/-- Some lesson generated for the library has id `u` and `v` among its dependencies. -/
def LessonDep (u v : Str) : Prop :=
  ∃ o ∈ xs.map (Src.opened lessonRest asset is), ∃ x ∈ o.lessons, x.1.id = u ∧ v ∈ x.1.deps

theorem lessonDep_iff {u v : Str} : LessonDep lessonRest asset is xs u v ↔
    ∃ x ∈ xs, ∃ k, Wanted x.cfg is k ∧ u = idOf x.manifest.id k ∧ v ∈ depsOf x.cfg x.manifest.id k := by
  unfold LessonDep
  simp only [List.mem_map]
  constructor
  · rintro ⟨_, ⟨x, hx, rfl⟩, ⟨l, es⟩, hl, rfl, hv⟩
    simp only [Src.opened, lessonManifests_eq] at hl
    obtain ⟨k, hk, he⟩ := List.mem_map.1 hl
    cases he
    exact ⟨x, hx, k, (mem_kinds _ _ _).1 hk, rfl, hv⟩
  · rintro ⟨x, hx, k, hk, rfl, hv⟩
    refine ⟨_, ⟨x, hx, rfl⟩, entry lessonRest asset x.cfg x.manifest.id x.passages k, ?_, rfl, hv⟩
    simp only [Src.opened, lessonManifests_eq]
    exact List.mem_map.2 ⟨k, (mem_kinds _ _ _).2 hk, rfl⟩

/-- **C54, acyclic.**  If the courses do not depend on each other in a circle, neither do the
lessons. -/
theorem lessons_acyclic (h : LibNames is xs) (hac : ¬ HasCycle (Lists xs)) :
    ¬ HasCycle (LessonDep lessonRest asset is xs) := by
  rintro ⟨u, hu⟩
  have key : ∀ v, Relation.TransGen (LessonDep lessonRest asset is xs) u v →
      ∃ x ∈ xs, ∃ k, u = idOf x.manifest.id k ∧ ∃ d ∈ mentioned xs, ∃ k', v = idOf d k' ∧
        (Relation.TransGen (Lists xs) x.manifest.id d ∨ (d = x.manifest.id ∧ rank k' < rank k)) := by
    intro v hv
    induction hv with
    | single h1 =>
      obtain ⟨x, hx, k, _, rfl, hv⟩ := (lessonDep_iff lessonRest asset is xs).1 h1
      refine ⟨x, hx, k, rfl, ?_⟩
      rcases dep_cases hv with ⟨k', rfl, hr⟩ | ⟨d, hd, k', rfl⟩
      · exact ⟨_, course_mentioned xs hx, k', rfl, Or.inr ⟨rfl, hr⟩⟩
      · exact ⟨d, dep_mentioned xs hx hd, k', rfl, Or.inl (.single ⟨x, hx, rfl, hd⟩)⟩
    | tail _ h1 ih =>
      obtain ⟨x, hx, k, hu, d, hd, k', hm, hp⟩ := ih
      obtain ⟨y, hy, k2, _, hm', hv⟩ := (lessonDep_iff lessonRest asset is xs).1 h1
      rw [hm] at hm'
      obtain ⟨rfl, hr2⟩ := idOf_inj (h.apart _ hd _ (course_mentioned xs hy)) hm'
      refine ⟨x, hx, k, hu, ?_⟩
      rcases dep_cases hv with ⟨k3, rfl, hr⟩ | ⟨d', hd', k3, rfl⟩
      · refine ⟨_, course_mentioned xs hy, k3, rfl, ?_⟩
        rcases hp with hp | ⟨hp, hr3⟩
        · exact Or.inl hp
        · exact Or.inr ⟨hp, by omega⟩
      · refine ⟨d', dep_mentioned xs hy hd', k3, rfl, Or.inl ?_⟩
        have step : Lists xs y.manifest.id d' := ⟨y, hy, rfl, hd'⟩
        rcases hp with hp | ⟨hp, _⟩
        · exact hp.tail step
        · rw [← hp]; exact .single step
  obtain ⟨x, hx, k, hu1, d, hd, k', hu2, hp⟩ := key u hu
  rw [hu1] at hu2
  obtain ⟨e, hr⟩ := idOf_inj (h.apart _ (course_mentioned xs hx) _ hd) hu2
  rcases hp with hp | ⟨_, hp⟩
  · rw [← e] at hp; exact hac ⟨_, hp⟩
  · omega

/-- **C54, dependencies exist.**  If the courses listed as transcription dependencies are in the library,
every lesson dependency is a lesson generated for the library. -/
theorem dependencies_generated (hcl : ∀ a b, Lists xs a b → b ∈ xs.map (·.manifest.id)) (u v : Str)
    (huv : LessonDep lessonRest asset is xs u v) :
    ∃ o ∈ xs.map (Src.opened lessonRest asset is), ∃ x ∈ o.lessons, x.1.id = v := by
  have gen : ∀ y ∈ xs, ∀ k, Wanted y.cfg is k →
      ∃ o ∈ xs.map (Src.opened lessonRest asset is), ∃ x ∈ o.lessons, x.1.id = idOf y.manifest.id k := by
    intro y hy k hk
    refine ⟨_, List.mem_map.2 ⟨y, hy, rfl⟩,
      entry lessonRest asset y.cfg y.manifest.id y.passages k, ?_, rfl⟩
    simp only [Src.opened, lessonManifests_eq]
    exact List.mem_map.2 ⟨k, (mem_kinds _ _ _).2 hk, rfl⟩
  obtain ⟨x, hx, k, hk, rfl, hv⟩ := (lessonDep_iff lessonRest asset is xs).1 huv
  have other : ∀ d ∈ x.cfg.deps, ∃ y ∈ xs, y.manifest.id = d := fun d hd =>
    List.mem_map.1 (hcl _ d ⟨x, hx, rfl, hd⟩)
  cases k <;> simp only [depsOf, List.mem_cons, List.not_mem_nil, or_false, List.mem_append,
    List.mem_map] at hv
  · obtain ⟨d, hd, rfl⟩ := hv
    obtain ⟨y, hy, rfl⟩ := other d hd
    exact gen y hy _ trivial
  · subst hv; exact gen x hx _ trivial
  · rcases hv with ⟨d, hd, rfl⟩ | rfl
    · obtain ⟨y, hy, rfl⟩ := other d hd
      exact gen y hy _ hk
    · exact gen x hx _ trivial
  · rcases hv with rfl | rfl
    · exact gen x hx _ hk.1
    · exact gen x hx _ hk.2

/-- What the manifests of the courses themselves must satisfy: they do not refer to each other in a
circle and their weights are valid. -/
structure CoursesOk : Prop where
  deps : ¬ HasCycle (fun a b => ∃ x ∈ xs, x.manifest.id = a ∧ b ∈ x.manifest.deps)
  sup : ¬ HasCycle (fun a b => ∃ x ∈ xs, x.manifest.id = a ∧ b ∈ x.manifest.sup)
  enc : ¬ HasCycle (fun a b => ∃ x ∈ xs, x.manifest.id = a ∧
    (b ∈ x.manifest.deps ∨ ∃ w, (b, w) ∈ x.manifest.enc))
  weights : ∀ x ∈ xs, ∀ e ∈ x.manifest.enc, 0 ≤ e.2 ∧ e.2 ≤ 1

/-- A relation that splits into one between courses and one between lessons, where no lesson leads to a
course, has no cycle if the parts have none. -/
theorem no_cycle_split {ι : Type} (R A B : ι → ι → Prop) (C : ι → Prop)
    (hR : ∀ u v, R u v → (C u ∧ A u v) ∨ (B u v ∧ ¬ C u ∧ ¬ C v)) (hA : ¬ HasCycle A) (hB : ¬ HasCycle B) :
    ¬ HasCycle R := by
  rintro ⟨u, hu⟩
  have lesson : ∀ a b, Relation.TransGen R a b → ¬ C a → Relation.TransGen B a b ∧ ¬ C b := by
    intro a b hab ha
    induction hab with
    | single h =>
      rcases hR _ _ h with ⟨hc, _⟩ | ⟨hb, _, hc⟩
      · exact (ha hc).elim
      · exact ⟨.single hb, hc⟩
    | tail _ h ih =>
      rcases hR _ _ h with ⟨hc, _⟩ | ⟨hb, _, hc⟩
      · exact (ih.2 hc).elim
      · exact ⟨ih.1.tail hb, hc⟩
  have course : ∀ a b, Relation.TransGen R a b → C b → Relation.TransGen A a b ∧ C a := by
    intro a b hab
    induction hab with
    | single h =>
      intro hb
      rcases hR _ _ h with ⟨hc, h⟩ | ⟨_, _, hc⟩
      · exact ⟨.single h, hc⟩
      · exact (hc hb).elim
    | tail _ h ih =>
      intro hb
      rcases hR _ _ h with ⟨hc, h⟩ | ⟨_, _, hc⟩
      · exact ⟨(ih hc).1.tail h, (ih hc).2⟩
      · exact (hc hb).elim
  by_cases hc : C u
  · exact hA ⟨u, (course u u hu hc).1⟩
  · exact hB ⟨u, (lesson u u hu hc).1⟩

theorem lesson_ne_course (h : LibNames is xs) {d : Str} (hd : d ∈ mentioned xs) (k : Kind) :
    idOf d k ∉ xs.map (·.manifest.id) := by
  intro hm
  obtain ⟨y, hy, e⟩ := List.mem_map.1 hm
  obtain ⟨p, ps, hp, _⟩ := tag_plain k
  unfold idOf at e
  rw [hp] at e
  exact tagged_ne_course (h.apart _ hd _ (course_mentioned xs hy)) e.symm

/-- **C54, the courses form a library** if they do not list each other in a circle, their manifests
refer to each other without circles, and the names are apart. -/
theorem acceptable (h : LibNames is xs) (hac : ¬ HasCycle (Lists xs)) (hok : CoursesOk xs) :
    Acceptable (xs.map (Src.opened lessonRest asset is)) := by
  have hdec : ∀ u ds es ss, Declares (xs.map (Src.opened lessonRest asset is)) u ds es ss →
      (∃ x ∈ xs, u = x.manifest.id ∧ ds = x.manifest.deps ∧ es = x.manifest.enc ∧ ss = x.manifest.sup) ∨
      (∃ x ∈ xs, ∃ k, Wanted x.cfg is k ∧ u = idOf x.manifest.id k ∧
        ds = depsOf x.cfg x.manifest.id k ∧ es = [] ∧ ss = supOf x.manifest.id k) := by
    rintro u ds es ss (⟨m, ⟨o, ho, rfl⟩, rfl, rfl, rfl, rfl⟩ | ⟨m, ⟨o, ho, x, hx, rfl⟩, rfl, rfl, rfl, rfl⟩)
    · obtain ⟨x, hx, rfl⟩ := List.mem_map.1 ho
      exact Or.inl ⟨x, hx, rfl, rfl, rfl, rfl⟩
    · obtain ⟨y, hy, rfl⟩ := List.mem_map.1 ho
      simp only [Src.opened, lessonManifests_eq] at hx
      obtain ⟨k, hk, rfl⟩ := List.mem_map.1 hx
      exact Or.inr ⟨y, hy, k, (mem_kinds _ _ _).1 hk, rfl, rfl, rfl, rfl⟩
  have isC : ∀ x ∈ xs, x.manifest.id ∈ xs.map (·.manifest.id) := fun x hx => List.mem_map.2 ⟨x, hx, rfl⟩
  have notC : ∀ x ∈ xs, ∀ k, idOf x.manifest.id k ∉ xs.map (·.manifest.id) := fun x hx k =>
    lesson_ne_course is xs h (course_mentioned xs hx) k
  have depNotC : ∀ x ∈ xs, ∀ k v, v ∈ depsOf x.cfg x.manifest.id k → v ∉ xs.map (·.manifest.id) := by
    intro x hx k v hv
    rcases dep_cases hv with ⟨k', rfl, _⟩ | ⟨d, hd, k', rfl⟩
    · exact notC x hx k'
    · exact lesson_ne_course is xs h (dep_mentioned xs hx hd) k'
  have hles := lessons_acyclic lessonRest asset is xs h hac
  have hdep : ¬ HasCycle (DeclaresDep (xs.map (Src.opened lessonRest asset is))) := by
    refine no_cycle_split _ _ (LessonDep lessonRest asset is xs) (· ∈ xs.map (·.manifest.id)) ?_ hok.deps hles
    rintro u v ⟨ds, es, ss, hd, hm⟩
    rcases hdec _ _ _ _ hd with ⟨x, hx, rfl, rfl, _, _⟩ | ⟨x, hx, k, hk, rfl, rfl, _, _⟩
    · exact Or.inl ⟨isC x hx, x, hx, rfl, hm⟩
    · exact Or.inr ⟨(lessonDep_iff lessonRest asset is xs).2 ⟨x, hx, k, hk, rfl, hm⟩, notC x hx k,
        depNotC x hx k v hm⟩
  refine ⟨library_ids_distinct lessonRest asset is xs h, fun u hu => hdep ⟨u, .single hu⟩, ?_, hdep, ?_, ?_⟩
  · intro u ds es ss hd e he
    rcases hdec _ _ _ _ hd with ⟨x, hx, _, _, rfl, _⟩ | ⟨x, hx, k, hk, _, _, rfl, _⟩
    · exact hok.weights x hx e he
    · cases he
  · refine no_cycle_split _ _ (fun u v => ∃ x ∈ xs, ∃ k, u = idOf x.manifest.id k ∧ v ∈ supOf x.manifest.id k)
      (· ∈ xs.map (·.manifest.id)) ?_ hok.sup ?_
    · rintro u v ⟨ds, es, ss, hd, hm⟩
      rcases hdec _ _ _ _ hd with ⟨x, hx, rfl, _, _, rfl⟩ | ⟨x, hx, k, hk, rfl, _, _, rfl⟩
      · exact Or.inl ⟨isC x hx, x, hx, rfl, hm⟩
      · refine Or.inr ⟨⟨x, hx, k, rfl, hm⟩, notC x hx k, ?_⟩
        obtain ⟨k', rfl, _⟩ := sup_cases hm
        exact notC x hx k'
    · rintro ⟨u, hu⟩
      have key : ∀ v, Relation.TransGen (fun u v => ∃ x ∈ xs, ∃ k, u = idOf x.manifest.id k ∧
          v ∈ supOf x.manifest.id k) u v → ∃ x ∈ xs, ∃ k k', u = idOf x.manifest.id k ∧
            v = idOf x.manifest.id k' ∧ rank k' < rank k := by
        intro v hv
        induction hv with
        | single h1 =>
          obtain ⟨x, hx, k, rfl, hv⟩ := h1
          obtain ⟨k', rfl, hr⟩ := sup_cases hv
          exact ⟨x, hx, k, k', rfl, rfl, hr⟩
        | tail _ h1 ih =>
          obtain ⟨x, hx, k, k', hu, hm, hr⟩ := ih
          obtain ⟨y, hy, k2, hm', hv⟩ := h1
          obtain ⟨k3, rfl, hr3⟩ := sup_cases hv
          rw [hm] at hm'
          obtain ⟨e, hr2⟩ := idOf_inj (h.apart _ (course_mentioned xs hx) _ (course_mentioned xs hy)) hm'
          exact ⟨x, hx, k, k3, hu, by rw [e], by omega⟩
      obtain ⟨x, hx, k, k', e1, e2, hr⟩ := key u hu
      rw [e1] at e2
      have := (idOf_inj (h.apart _ (course_mentioned xs hx) _ (course_mentioned xs hx)) e2).2
      omega
  · refine no_cycle_split _ _ (LessonDep lessonRest asset is xs) (· ∈ xs.map (·.manifest.id)) ?_ hok.enc hles
    rintro u v ⟨ds, es, ss, hd, hm⟩
    rcases hdec _ _ _ _ hd with ⟨x, hx, rfl, rfl, rfl, _⟩ | ⟨x, hx, k, hk, rfl, rfl, rfl, _⟩
    · exact Or.inl ⟨isC x hx, x, hx, rfl, hm⟩
    · rcases hm with hm | ⟨w, hm⟩
      · exact Or.inr ⟨(lessonDep_iff lessonRest asset is xs).2 ⟨x, hx, k, hk, rfl, hm⟩, notC x hx k,
          depNotC x hx k v hm⟩
      · cases hm

end

/-! ### A concrete library -/

/-- Two courses, the second of which lists the first. -/
def sampleLib : List (Src Unit Unit) :=
  [⟨⟨"jazz::blues".toList, [], [], [], none, none, some (), ()⟩, {},
      [⟨{ shortId := "a".toList, trackName := [] }, []⟩,
       ⟨{ shortId := "b".toList, trackName := [] }, [(1, ([], [])), (12, ([], []))]⟩]⟩,
   ⟨⟨"jazz::ballads".toList, ["jazz::blues".toList], [], [], none, none, some (), ()⟩,
      { deps := ["jazz::blues".toList, "elsewhere".toList], skipAdvanced := true },
      [⟨{ shortId := "a".toList, trackName := [] }, [(1, ([], []))]⟩]⟩]

def sampleInstruments : List Instrument := [⟨"Guitar".toList, "guitar".toList⟩, ⟨"Bass".toList, "bass".toList⟩]

instance (p : Str) : Decidable (Plain p) := by unfold Plain; infer_instance
instance (a b : Str) : Decidable (Apart a b) := by unfold Apart; infer_instance

theorem sample_names : LibNames sampleInstruments sampleLib := by
  have n : ∀ x ∈ sampleLib, Names sampleInstruments x.passages := by
    intro x hx
    unfold sampleLib at hx
    simp only [List.mem_cons, List.not_mem_nil, or_false] at hx
    rcases hx with rfl | rfl <;> exact ⟨by decide, by decide, by decide, by decide, by decide⟩
  exact ⟨by decide, by decide +kernel, n⟩

theorem sample_lists : ¬ HasCycle (Lists sampleLib) := by
  have h : ∀ a b, Lists sampleLib a b → a = "jazz::ballads".toList ∧ b ≠ "jazz::ballads".toList := by
    rintro a b ⟨x, hx, rfl, hb⟩
    unfold sampleLib at hx
    simp only [List.mem_cons, List.not_mem_nil, or_false] at hx
    rcases hx with rfl | rfl
    · cases hb
    · simp only [List.mem_cons, List.not_mem_nil, or_false] at hb
      rcases hb with rfl | rfl <;> exact ⟨rfl, by decide⟩
  rintro ⟨u, hu⟩
  cases hu with
  | single h1 => exact (h _ _ h1).2 (h _ _ h1).1
  | tail h0 h1 =>
    cases h0 with
    | single h2 => exact (h _ _ h2).2 (h _ _ h1).1
    | tail _ h2 => exact (h _ _ h2).2 (h _ _ h1).1

theorem sample_courses : CoursesOk sampleLib := by
  have hd : ∀ a b, (∃ x ∈ sampleLib, x.manifest.id = a ∧ b ∈ x.manifest.deps) →
      a = "jazz::ballads".toList ∧ b = "jazz::blues".toList := by
    rintro a b ⟨x, hx, rfl, hb⟩
    unfold sampleLib at hx
    simp only [List.mem_cons, List.not_mem_nil, or_false] at hx
    rcases hx with rfl | rfl
    · cases hb
    · simp only [List.mem_cons, List.not_mem_nil, or_false] at hb
      exact ⟨rfl, hb⟩
  have he : ∀ x ∈ sampleLib, x.manifest.enc = [] := by
    intro x hx
    unfold sampleLib at hx
    simp only [List.mem_cons, List.not_mem_nil, or_false] at hx
    rcases hx with rfl | rfl <;> rfl
  have hs : ∀ x ∈ sampleLib, x.manifest.sup = [] := by
    intro x hx
    unfold sampleLib at hx
    simp only [List.mem_cons, List.not_mem_nil, or_false] at hx
    rcases hx with rfl | rfl <;> rfl
  have hne : "jazz::blues".toList ≠ "jazz::ballads".toList := by decide
  have cyc : ∀ R : Str → Str → Prop, (∀ a b, R a b → a = "jazz::ballads".toList ∧ b = "jazz::blues".toList) →
      ¬ HasCycle R := by
    rintro R h ⟨u, hu⟩
    cases hu with
    | single h1 => exact hne ((h _ _ h1).2.symm.trans (h _ _ h1).1)
    | tail h0 h1 =>
      cases h0 with
      | single h2 => exact hne ((h _ _ h2).2.symm.trans (h _ _ h1).1)
      | tail _ h2 => exact hne ((h _ _ h2).2.symm.trans (h _ _ h1).1)
  refine ⟨cyc _ hd, ?_, cyc _ ?_, fun x hx e h => ?_⟩
  · refine cyc _ ?_
    rintro a b ⟨x, hx, _, hb⟩
    rw [hs x hx] at hb
    cases hb
  · rintro a b ⟨x, hx, e, hb | ⟨w, hb⟩⟩
    · exact hd a b ⟨x, hx, e, hb⟩
    · rw [he x hx] at hb; cases hb
  · rw [he x hx] at h; cases h

/-- The hypotheses hold for the sample library. -/
example : Acceptable (sampleLib.map (Src.opened (fun _ => ()) (fun _ _ _ _ => ()) sampleInstruments)) :=
  acceptable _ _ _ _ sample_names sample_lists sample_courses

/-- Its lessons and their dependencies. -/
example : ((sampleLib.map (Src.opened (fun _ => ()) (fun _ _ _ _ => ()) sampleInstruments)).flatMap
      (fun o => o.lessons.map (fun x => (x.1.id, x.1.deps, x.2.length)))) =
    [("jazz::blues::singing".toList, [], 3),
     ("jazz::blues::advanced_singing".toList, ["jazz::blues::singing".toList], 3),
     ("jazz::blues::transcription::guitar".toList, ["jazz::blues::singing".toList], 3),
     ("jazz::blues::transcription::bass".toList, ["jazz::blues::singing".toList], 3),
     ("jazz::blues::advanced_transcription::guitar".toList,
       ["jazz::blues::transcription::guitar".toList, "jazz::blues::advanced_singing".toList], 3),
     ("jazz::blues::advanced_transcription::bass".toList,
       ["jazz::blues::transcription::bass".toList, "jazz::blues::advanced_singing".toList], 3),
     ("jazz::ballads::singing".toList, ["jazz::blues::singing".toList, "elsewhere::singing".toList], 1),
     ("jazz::ballads::transcription::guitar".toList,
       ["jazz::blues::transcription::guitar".toList, "elsewhere::transcription::guitar".toList,
        "jazz::ballads::singing".toList], 1),
     ("jazz::ballads::transcription::bass".toList,
       ["jazz::blues::transcription::bass".toList, "elsewhere::transcription::bass".toList,
        "jazz::ballads::singing".toList], 1)] := by
  decide +kernel

/-- Without the check for duplicates the code makes in the passage directory, two inlined passages with
the same short id give two exercises the same id. -/
theorem inlined_clash : ¬ (unitIds [(⟨⟨"c".toList, [], [], [], none, none, some (), ()⟩,
      lessonManifests (fun _ => ()) (fun _ _ _ _ => ()) {} (some {}) "c".toList []
        [⟨{ shortId := "a".toList, trackName := "one".toList }, []⟩,
         ⟨{ shortId := "a".toList, trackName := "two".toList }, []⟩]⟩ : Opened Unit Unit)]).Nodup := by
  decide +kernel

/-- Short ids with colons can clash as well. -/
theorem colon_clash : ¬ (unitIds [(⟨⟨"c".toList, [], [], [], none, none, some (), ()⟩,
      lessonManifests (fun _ => ()) (fun _ _ _ _ => ()) {} (some {}) "c".toList []
        [⟨{ shortId := "a".toList, trackName := [] }, [(1, ([], []))]⟩,
         ⟨{ shortId := "a::1".toList, trackName := [] }, []⟩]⟩ : Opened Unit Unit)]).Nodup := by
  decide +kernel

end Trane.Gen.Transcription
