import Verif.Sched.UnitScorerProps
import Verif.Graph.Props

/-! Helper lemmas for C27: writes followed by invalidation keep the caches of units that nothing
supersedes coherent. -/

namespace Trane.UnitScorer

variable {ι R T W : Type} [DecidableEq ι] [Field R] [LinearOrder R]

/-- Units whose scores do not involve superseding: nothing supersedes the unit nor, for a course, any of
its lessons. -/
structure Plain (g : Graph ι) (u : ι) : Prop where
  self : g.getSupersededBy u = none
  lessons : ∀ ls l, g.getCourseLessons u = some ls → l ∈ ls →
    g.getSupersededBy l = none ∧ g.getCourseLessons l = none

theorem closed_plain (g : Graph ι) : Closed g (Plain g) := by
  constructor
  · intro u ids s hu h _
    rw [hu.self] at h; cases h
  · intro u ls l hu h hl
    obtain ⟨a, b⟩ := hu.lessons ls l h hl
    exact ⟨a, fun ls' l' h' _ => by rw [b] at h'; cases h'⟩

/-! ### Closed forms -/

/-- The score of a lesson that nothing supersedes. -/
def lessonVal (w : World ι R T W) (l : ι) : Option R := if w.black l then none else lessonMean w l

/-- The score of a course that nothing supersedes. -/
def courseVal (w : World ι R T W) (u : ι) : Option R :=
  if w.black u then none
  else match w.graph.getCourseLessons u with
    | none => none
    | some ls =>
      let vs := (ls.map (lessonVal w)).reduceOption
      if vs.isEmpty then none else some (mean vs)

/-- The average trials of a course that nothing supersedes. -/
def courseTrialsVal (w : World ι R T W) (u : ι) : Option R :=
  let ls := ((w.graph.getCourseLessons u).getD []).filter (fun l => !w.black l)
  let vs := (ls.map (lessonTrialsP w)).reduceOption
  if vs.isEmpty then none else some (mean vs)

theorem checkP_plain (w : World ι R T W) (f : ι → Option (Option R)) (n : Nat) {u : ι}
    (h : w.graph.getSupersededBy u = none) : checkP w f n u = some false := by
  unfold checkP; rw [h]

theorem lessonP_plain (w : World ι R T W) (f : ι → Option (Option R)) (n : Nat) {u : ι}
    (h : w.graph.getSupersededBy u = none) : lessonP w f n u = some (lessonVal w u) := by
  unfold lessonP lessonVal
  rw [checkP_plain w f n h]
  split <;> rfl

theorem courseP_plain (w : World ι R T W) (f : ι → Option (Option R)) (n : Nat) {u : ι}
    (h : Plain w.graph u) : courseP w f n u = some (courseVal w u) := by
  unfold courseP courseVal
  rw [checkP_plain w f n h.self]
  split
  · rfl
  · cases hls : w.graph.getCourseLessons u with
    | none => rfl
    | some ls =>
      have : ls.mapM (lessonP w f n) = some (ls.map (lessonVal w)) := by
        rw [← mapM_some]
        have aux : ∀ l' : List ι, (∀ x ∈ l', x ∈ ls) →
            l'.mapM (lessonP w f n) = l'.mapM (fun x => some (lessonVal w x)) := by
          intro l'
          induction l' with
          | nil => intro _; rfl
          | cons x l' ih =>
            intro hx
            rw [List.mapM_cons, List.mapM_cons, ih (fun y hy => hx y (List.mem_cons_of_mem _ hy)),
              lessonP_plain w f n (h.lessons ls x hls (hx x List.mem_cons_self)).1]
        exact aux ls (fun _ hx => hx)
      simp only [Option.bind_eq_bind, Option.bind_some, Bool.false_eq_true, if_false, this]
      split <;> rfl

theorem courseTrialsP_plain (w : World ι R T W) (n : Nat) {u : ι} (h : Plain w.graph u) :
    courseTrialsP w n u = some (courseTrialsVal w u) := by
  unfold courseTrialsP courseTrialsVal
  have aux : ∀ l' : List ι, (∀ x ∈ l', w.graph.getSupersededBy x = none) →
      keepM (fun l => do
        let b ← checkP w (scoreP w n) n l
        return !w.black l && !b) l' = some (l'.filter (fun l => !w.black l)) := by
    intro l'
    induction l' with
    | nil => intro _; rfl
    | cons x l' ih =>
      intro hx
      have h1 := ih (fun y hy => hx y (List.mem_cons_of_mem _ hy))
      rw [keepM, h1, checkP_plain w _ n (hx x List.mem_cons_self)]
      cases hb : w.black x <;> simp [hb]
  rw [aux]
  · simp only [Option.bind_eq_bind, Option.bind_some]
    split <;> rfl
  · intro x hx
    cases hls : w.graph.getCourseLessons u with
    | none => rw [hls] at hx; simp at hx
    | some ls => rw [hls] at hx; exact (h.lessons ls x hls hx).1

theorem lessonIs_plain (w : World ι R T W) {u : ι} (h : Plain w.graph u) (v : Option R) :
    LessonIs w u v ↔ v = lessonVal w u := by
  constructor
  · rintro ⟨n, hn⟩
    rw [lessonP_plain w _ _ h.self] at hn
    exact (Option.some.inj hn).symm
  · rintro rfl
    exact ⟨0, lessonP_plain w _ _ h.self⟩

theorem courseIs_plain (w : World ι R T W) {u : ι} (h : Plain w.graph u) (v : Option R) :
    CourseIs w u v ↔ v = courseVal w u := by
  constructor
  · rintro ⟨n, hn⟩
    rw [courseP_plain w _ _ h] at hn
    exact (Option.some.inj hn).symm
  · rintro rfl
    exact ⟨0, courseP_plain w _ _ h⟩

theorem courseTrialsIs_plain (w : World ι R T W) {u : ι} (h : Plain w.graph u) (v : Option R) :
    CourseTrialsIs w u v ↔ v = courseTrialsVal w u := by
  constructor
  · rintro ⟨n, hn⟩
    rw [courseTrialsP_plain w _ h] at hn
    exact (Option.some.inj hn).symm
  · rintro rfl
    exact ⟨0, courseTrialsP_plain w _ h⟩

/-! ### Queries, also of superseded units, keep the caches of plain units coherent -/

/-- `m` keeps the caches of plain units coherent. -/
def Pres (w : World ι R T W) {α : Type} (m : M ι R α) : Prop :=
  ∀ c a c', Coh (Plain w.graph) w c → m c = some (a, c') → Coh (Plain w.graph) w c'

theorem pres_of_sim (w : World ι R T W) {α : Type} {m : M ι R α} {a : α}
    (h : Sim (Plain w.graph) w m (some a)) : Pres w m := by
  intro c b c' hc hm
  obtain ⟨c1, h1, hc1⟩ := h a rfl c hc
  rw [h1] at hm
  cases hm
  exact hc1

theorem pres_pure (w : World ι R T W) {α : Type} (a : α) : Pres w (pure a : M ι R α) :=
  pres_of_sim w (sim_pure _ w a)

theorem pres_bind (w : World ι R T W) {α β : Type} {m : M ι R α} {f : α → M ι R β} (hm : Pres w m)
    (hf : ∀ a, Pres w (f a)) : Pres w (m >>= f) := by
  intro c b c' hc h
  change (m c).bind (fun x => f x.1 x.2) = _ at h
  rw [Option.bind_eq_some_iff] at h
  obtain ⟨⟨a, c1⟩, h1, h2⟩ := h
  exact hf a c1 b c' (hm c a c1 hc h1) h2

theorem pres_mapM (w : World ι R T W) {α β : Type} {f : α → M ι R β} (xs : List α)
    (h : ∀ x, Pres w (f x)) : Pres w (xs.mapM f) := by
  induction xs with
  | nil => simpa using pres_pure w []
  | cons x xs ih =>
    simp only [List.mapM_cons]
    exact pres_bind w (h x) (fun a => pres_bind w ih (fun b => pres_pure w _))

theorem pres_foldlM (w : World ι R T W) {α β : Type} {f : β → α → M ι R β} (xs : List α)
    (h : ∀ b x, Pres w (f b x)) (b : β) : Pres w (xs.foldlM f b) := by
  induction xs generalizing b with
  | nil => simpa using pres_pure w b
  | cons x xs ih =>
    simp only [List.foldlM_cons]
    exact pres_bind w (h b x) (fun a => ih a)

theorem pres_keepM (w : World ι R T W) {α : Type} {f : α → M ι R Bool} (xs : List α)
    (h : ∀ x, Pres w (f x)) : Pres w (keepM f xs) := by
  induction xs with
  | nil => exact pres_pure w []
  | cons x xs ih =>
    simp only [keepM]
    exact pres_bind w (h x) (fun a => pres_bind w ih (fun b => pres_pure w _))

section
variable (w : World ι R T W) {f : ι → M ι R (Option R)} (h : ∀ u, Pres w (f u))
include h

theorem pres_superseded (u : ι) (ids : List ι) : Pres w (supersededC w f u ids) := by
  unfold supersededC
  split
  · exact pres_pure w _
  · refine pres_bind w (pres_of_sim w (sim_seen _ w u)) (fun b => ?_)
    split
    · exact pres_pure w _
    · exact pres_bind w (pres_mapM w ids h) (fun _ => pres_pure w _)

theorem pres_replace (n : Nat) (ids : List ι) : Pres w (replaceC w f n ids) := by
  induction n generalizing ids with
  | zero => intro c a c' _ h; simp [replaceC] at h
  | succ n ih =>
    rw [replaceC]
    refine pres_foldlM w ids (fun acc x => ?_) []
    split
    · refine pres_bind w (pres_superseded w h x _) (fun b => ?_)
      split
      · exact pres_bind w (ih _) (fun _ => pres_pure w _)
      · exact pres_pure w _
    · exact pres_pure w _

theorem pres_check (n : Nat) (u : ι) : Pres w (checkC w f n u) := by
  unfold checkC
  split
  · exact pres_pure w _
  · exact pres_bind w (pres_replace w h n _) (fun r => pres_superseded w h u r)

end

theorem pres_score (w : World ι R T W) (n : Nat) (u : ι) : Pres w (scoreC w n u) ∧
    ∀ l, Pres w (lessonC w (scoreC w n) n l) := by
  have hcl := closed_plain w.graph
  induction n generalizing u with
  | zero =>
    refine ⟨fun c a c' _ h => by simp [scoreC] at h, fun l => ?_⟩
    by_cases hl : Plain w.graph l
    · refine pres_of_sim w (a := lessonVal w l) ?_
      rw [← lessonP_plain w (scoreP w 0) 0 hl.self]
      exact sim_lesson _ w 0 hcl (sim_score _ w hcl 0) l hl
    · intro c a c' hc hm
      unfold lessonC at hm
      split at hm
      · cases hm; exact hc
      · have hst : ∀ v, Pres w (storeLes l v : M ι R (Option R)) :=
          fun v => pres_of_sim w (sim_storeLes _ w l v (fun h => absurd h hl))
        revert hm
        have : Pres w (lessonBody w (scoreC w 0) 0 l) := by
          unfold lessonBody
          split
          · exact hst _
          · refine pres_bind w (pres_check w (fun u c a c' _ h => by simp [scoreC] at h) 0 l)
              (fun b => ?_)
            split
            · exact hst _
            · exact pres_bind w (pres_of_sim w (sim_lessonMean _ w l)) (fun v => hst v)
        exact this c a c' hc
  | succ n ih =>
    have hf : ∀ u, Pres w (scoreC w n u) := fun u => (ih u).1
    have hles : ∀ l, Pres w (lessonC w (scoreC w n) n l) := (ih u).2
    have hscore : ∀ u, Pres w (scoreC w (n + 1) u) := by
      intro u
      rw [scoreC]
      split
      · exact pres_pure w _
      · exact pres_bind w (pres_of_sim w (sim_exC _ w u)) (fun _ => pres_pure w _)
      · exact hles u
      · by_cases hu : Plain w.graph u
        · refine pres_of_sim w (a := courseVal w u) ?_
          rw [← courseP_plain w (scoreP w n) n hu]
          exact sim_course _ w n hcl (sim_score _ w hcl n) u hu
        · intro c a c' hc hm
          unfold courseC at hm
          split at hm
          · cases hm; exact hc
          · have hst : ∀ v, Pres w (storeCou u v : M ι R (Option R)) :=
              fun v => pres_of_sim w (sim_storeCou _ w u v (fun h => absurd h hu))
            have : Pres w (courseBody w (scoreC w n) n u) := by
              unfold courseBody
              split
              · exact hst _
              · refine pres_bind w (pres_check w hf n u) (fun b => ?_)
                split
                · exact hst _
                · split
                  · exact hst _
                  · refine pres_bind w (pres_mapM w _ hles) (fun vs => ?_)
                    dsimp only
                    split
                    · exact pres_pure w _
                    · exact hst _
            exact this c a c' hc hm
    refine ⟨hscore u, fun l => ?_⟩
    by_cases hl : Plain w.graph l
    · refine pres_of_sim w (a := lessonVal w l) ?_
      rw [← lessonP_plain w (scoreP w (n + 1)) (n + 1) hl.self]
      exact sim_lesson _ w (n + 1) hcl (sim_score _ w hcl (n + 1)) l hl
    · intro c a c' hc hm
      unfold lessonC at hm
      split at hm
      · cases hm; exact hc
      · have hst : ∀ v, Pres w (storeLes l v : M ι R (Option R)) :=
          fun v => pres_of_sim w (sim_storeLes _ w l v (fun h => absurd h hl))
        have : Pres w (lessonBody w (scoreC w (n + 1)) (n + 1) l) := by
          unfold lessonBody
          split
          · exact hst _
          · refine pres_bind w (pres_check w hscore (n + 1) l) (fun b => ?_)
            split
            · exact hst _
            · exact pres_bind w (pres_of_sim w (sim_lessonMean _ w l)) (fun v => hst v)
        exact this c a c' hc hm

theorem pres_courseTrials (w : World ι R T W) (n : Nat) (u : ι) : Pres w (courseTrialsC w n u) := by
  have hcl := closed_plain w.graph
  by_cases hu : Plain w.graph u
  · refine pres_of_sim w (a := courseTrialsVal w u) ?_
    rw [← courseTrialsP_plain w n hu]
    exact sim_courseTrials _ w hcl n u hu
  · intro c a c' hc hm
    unfold courseTrialsC at hm
    split at hm
    · cases hm; exact hc
    · have : Pres w (courseTrialsBody w n u) := by
        unfold courseTrialsBody
        refine pres_bind w (pres_keepM w _ (fun l => ?_)) (fun ls => ?_)
        · exact pres_bind w (pres_check w (fun u => (pres_score w n u).1) n l) (fun _ => pres_pure w _)
        · refine pres_bind w (pres_mapM w _ (fun l => pres_of_sim w (sim_lessonTrials _ w l)))
            (fun vs => ?_)
          exact pres_of_sim w (sim_storeCouT _ w u _ (fun h => absurd h hu))
      exact this c a c' hc hm

/-! ### Invalidation -/

theorem find_delAll {ν : Type} (m : AMap ι ν) (ks : List ι) (k : ι) (v : ν)
    (h : (delAll m ks).find k = some v) : m.find k = some v ∧ k ∉ ks := by
  unfold delAll at h
  induction ks generalizing m with
  | nil => exact ⟨h, by simp⟩
  | cons x ks ih =>
    obtain ⟨h1, h2⟩ := ih (m.del x) h
    rw [AMap.find_del] at h1
    split at h1
    · cases h1
    · rename_i hne
      refine ⟨h1, ?_⟩
      simp only [List.mem_cons, not_or]
      exact ⟨fun e => hne e.symm, h2⟩

theorem find_del_some {ν : Type} (m : AMap ι ν) (x k : ι) (v : ν) (h : (m.del x).find k = some v) :
    m.find k = some v ∧ k ≠ x := by
  rw [AMap.find_del] at h
  split at h
  · cases h
  · rename_i hne; exact ⟨h, fun e => hne e.symm⟩

/-- What survives the invalidation of `u`. -/
structure Survives (g : Graph ι) (c : Caches ι R) (u : ι) (c' : Caches ι R) : Prop where
  ex : ∀ e r, c'.ex.find e = some r → c.ex.find e = some r ∧ e ≠ u ∧
    (g.getUnitType u = some .lesson → e ∉ (g.getLessonExercises u).getD []) ∧
    (g.getUnitType u = some .course → ∀ l ∈ (g.getCourseLessons u).getD [],
      e ∉ (g.getLessonExercises l).getD [])
  les : ∀ l v, (c'.les.find l = some v → c.les.find l = some v) ∧
    (c'.lesT.find l = some v → c.lesT.find l = some v) ∧
    (c'.les.find l = some v ∨ c'.lesT.find l = some v → l ≠ u ∧
      (g.getUnitType u = some .exercise → g.getExerciseLesson u ≠ some l) ∧
      (g.getUnitType u = some .course → l ∉ (g.getCourseLessons u).getD []))
  cou : ∀ k v, (c'.cou.find k = some v → c.cou.find k = some v) ∧
    (c'.couT.find k = some v → c.couT.find k = some v) ∧
    (c'.cou.find k = some v ∨ c'.couT.find k = some v → k ≠ u ∧
      (g.getUnitType u = some .exercise → ∀ l, g.getExerciseLesson u = some l →
        g.getLessonCourse l ≠ some k) ∧
      (g.getUnitType u = some .lesson → g.getLessonCourse u ≠ some k))

theorem survives_invalidate (g : Graph ι) (c : Caches ι R) (u : ι) :
    Survives g c u (invalidate g c u) := by
  unfold invalidate
  cases ht : g.getUnitType u with
  | none =>
    refine ⟨fun e r h => ?_, fun l v => ⟨fun h => (find_del_some _ _ _ _ h).1,
      fun h => (find_del_some _ _ _ _ h).1, fun h => ?_⟩, fun l v =>
      ⟨fun h => (find_del_some _ _ _ _ h).1, fun h => (find_del_some _ _ _ _ h).1, fun h => ?_⟩⟩
    · obtain ⟨a, b⟩ := find_del_some _ _ _ _ h
      exact ⟨a, b, by simp [ht], by simp [ht]⟩
    · refine ⟨?_, by simp [ht], by simp [ht]⟩
      rcases h with h | h <;> exact (find_del_some _ _ _ _ h).2
    · refine ⟨?_, by simp [ht], by simp [ht]⟩
      rcases h with h | h <;> exact (find_del_some _ _ _ _ h).2
  | some t =>
    cases t with
    | exercise =>
      cases hl : g.getExerciseLesson u with
      | none =>
        simp only [hl]
        refine ⟨fun e r h => ?_, fun l v => ⟨fun h => (find_del_some _ _ _ _ h).1,
          fun h => (find_del_some _ _ _ _ h).1, fun h => ?_⟩, fun l v =>
          ⟨fun h => (find_del_some _ _ _ _ h).1, fun h => (find_del_some _ _ _ _ h).1, fun h => ?_⟩⟩
        · obtain ⟨a, b⟩ := find_del_some _ _ _ _ h
          exact ⟨a, b, by simp [ht], by simp [ht]⟩
        · refine ⟨?_, by simp [hl], by simp [ht]⟩
          rcases h with h | h <;> exact (find_del_some _ _ _ _ h).2
        · refine ⟨?_, by simp [hl], by simp [ht]⟩
          rcases h with h | h <;> exact (find_del_some _ _ _ _ h).2
      | some l0 =>
        cases hco : g.getLessonCourse l0 with
        | none =>
          simp only [hl, hco]
          refine ⟨fun e r h => ?_, fun l v => ⟨fun h => (find_del_some _ _ _ _
            (find_del_some _ _ _ _ h).1).1, fun h => (find_del_some _ _ _ _
            (find_del_some _ _ _ _ h).1).1, fun h => ?_⟩, fun l v =>
            ⟨fun h => (find_del_some _ _ _ _ h).1, fun h => (find_del_some _ _ _ _ h).1, fun h => ?_⟩⟩
          · obtain ⟨a, b⟩ := find_del_some _ _ _ _ h
            exact ⟨a, b, by simp [ht], by simp [ht]⟩
          · have : l ≠ u ∧ l ≠ l0 := by
              rcases h with h | h <;>
              exact ⟨(find_del_some _ _ _ _ (find_del_some _ _ _ _ h).1).2, (find_del_some _ _ _ _ h).2⟩
            refine ⟨this.1, ?_, by simp [ht]⟩
            intro _ e
            rw [hl] at e
            exact this.2 (Option.some.inj e).symm
          · refine ⟨?_, ?_, by simp [ht]⟩
            · rcases h with h | h <;> exact (find_del_some _ _ _ _ h).2
            · intro _ l' e e'
              rw [hl] at e; cases e
              rw [hco] at e'; cases e'
        | some co =>
          simp only [hl, hco]
          refine ⟨fun e r h => ?_, fun l v => ⟨fun h => (find_del_some _ _ _ _
            (find_del_some _ _ _ _ h).1).1, fun h => (find_del_some _ _ _ _
            (find_del_some _ _ _ _ h).1).1, fun h => ?_⟩, fun l v =>
            ⟨fun h => (find_del_some _ _ _ _ (find_del_some _ _ _ _ h).1).1,
              fun h => (find_del_some _ _ _ _ (find_del_some _ _ _ _ h).1).1, fun h => ?_⟩⟩
          · obtain ⟨a, b⟩ := find_del_some _ _ _ _ h
            exact ⟨a, b, by simp [ht], by simp [ht]⟩
          · have : l ≠ u ∧ l ≠ l0 := by
              rcases h with h | h <;>
              exact ⟨(find_del_some _ _ _ _ (find_del_some _ _ _ _ h).1).2, (find_del_some _ _ _ _ h).2⟩
            refine ⟨this.1, ?_, by simp [ht]⟩
            intro _ e
            rw [hl] at e
            exact this.2 (Option.some.inj e).symm
          · have : l ≠ u ∧ l ≠ co := by
              rcases h with h | h <;>
              exact ⟨(find_del_some _ _ _ _ (find_del_some _ _ _ _ h).1).2, (find_del_some _ _ _ _ h).2⟩
            refine ⟨this.1, ?_, by simp [ht]⟩
            intro _ l' e e'
            rw [hl] at e; cases e
            rw [hco] at e'
            exact this.2 (Option.some.inj e').symm
    | lesson =>
      cases hco : g.getLessonCourse u with
      | none =>
        simp only [hco]
        refine ⟨fun e r h => ?_, fun l v => ⟨fun h => (find_del_some _ _ _ _ h).1,
          fun h => (find_del_some _ _ _ _ h).1, fun h => ?_⟩, fun l v =>
          ⟨fun h => (find_del_some _ _ _ _ h).1, fun h => (find_del_some _ _ _ _ h).1, fun h => ?_⟩⟩
        · obtain ⟨a, b⟩ := find_delAll _ _ _ _ h
          obtain ⟨a, c⟩ := find_del_some _ _ _ _ a
          exact ⟨a, c, fun _ => b, by simp [ht]⟩
        · refine ⟨?_, by simp [ht], by simp [ht]⟩
          rcases h with h | h <;> exact (find_del_some _ _ _ _ h).2
        · refine ⟨?_, by simp [ht], by simp [hco]⟩
          rcases h with h | h <;> exact (find_del_some _ _ _ _ h).2
      | some co =>
        simp only [hco]
        refine ⟨fun e r h => ?_, fun l v => ⟨fun h => (find_del_some _ _ _ _ h).1,
          fun h => (find_del_some _ _ _ _ h).1, fun h => ?_⟩, fun l v =>
          ⟨fun h => (find_del_some _ _ _ _ (find_del_some _ _ _ _ h).1).1,
            fun h => (find_del_some _ _ _ _ (find_del_some _ _ _ _ h).1).1, fun h => ?_⟩⟩
        · obtain ⟨a, b⟩ := find_delAll _ _ _ _ h
          obtain ⟨a, c⟩ := find_del_some _ _ _ _ a
          exact ⟨a, c, fun _ => b, by simp [ht]⟩
        · refine ⟨?_, by simp [ht], by simp [ht]⟩
          rcases h with h | h <;> exact (find_del_some _ _ _ _ h).2
        · have : l ≠ u ∧ l ≠ co := by
            rcases h with h | h <;>
            exact ⟨(find_del_some _ _ _ _ (find_del_some _ _ _ _ h).1).2, (find_del_some _ _ _ _ h).2⟩
          refine ⟨this.1, by simp [ht], ?_⟩
          intro _ e
          rw [hco] at e
          exact this.2 (Option.some.inj e).symm
    | course =>
      refine ⟨fun e r h => ?_, fun l v => ⟨fun h => (find_del_some _ _ _ _
        (find_delAll _ _ _ _ h).1).1, fun h => (find_del_some _ _ _ _ (find_delAll _ _ _ _ h).1).1,
        fun h => ?_⟩, fun l v =>
        ⟨fun h => (find_del_some _ _ _ _ h).1, fun h => (find_del_some _ _ _ _ h).1, fun h => ?_⟩⟩
      · obtain ⟨a, b⟩ := find_delAll _ _ _ _ h
        obtain ⟨a, c⟩ := find_del_some _ _ _ _ a
        refine ⟨a, c, by simp [ht], fun _ l hl he => b ?_⟩
        exact List.mem_flatMap.2 ⟨l, hl, he⟩
      · have : l ≠ u ∧ l ∉ (g.getCourseLessons u).getD [] := by
          rcases h with h | h <;>
          exact ⟨(find_del_some _ _ _ _ (find_delAll _ _ _ _ h).1).2, (find_delAll _ _ _ _ h).2⟩
        exact ⟨this.1, by simp [ht], fun _ => this.2⟩
      · refine ⟨?_, by simp [ht], by simp [ht]⟩
        rcases h with h | h <;> exact (find_del_some _ _ _ _ h).2

/-! ### Writes -/

/-- `w'` is `w` after the stored data of `u` (trials, rewards, blacklist mark) changed. -/
structure Differ (u : ι) (w w' : World ι R T W) : Prop where
  graph : w'.graph = w.graph
  now : w'.now = w.now
  compute : w'.compute = w.compute
  dflt : w'.dflt = w.dflt
  stats : ∀ x, x ≠ u → w'.stats x = w.stats x
  rewards : ∀ x, x ≠ u → w'.rewards x = w.rewards x
  black : ∀ x, x ≠ u → w'.black x = w.black x

/-- The facts about containment used below; they hold in every graph built by edit calls (C03). -/
structure Contained (g : Graph ι) (dflt : ι) : Prop where
  lesson : ∀ c l, Graph.CourseHasLesson g c l ↔ g.getLessonCourse l = some c
  exercise : ∀ l e, Graph.LessonHasExercise g l e ↔ g.getExerciseLesson e = some l
  tyL : ∀ c l, Graph.CourseHasLesson g c l →
    g.getUnitType l = some .lesson ∧ g.getUnitType c = some .course
  tyE : ∀ l e, Graph.LessonHasExercise g l e →
    g.getUnitType e = some .exercise ∧ g.getUnitType l = some .lesson
  none : g.getUnitType dflt = none

theorem contained_run (ops : List (Graph.Op ι)) (d : ι) (hd : (Graph.run ops).getUnitType d = none) :
    Contained (Graph.run ops) d := by
  obtain ⟨a, b⟩ := Graph.containment_maps_agree ops
  obtain ⟨_, _, c, d'⟩ := Graph.containment_unique_and_typed ops
  exact ⟨a, b, c, d', hd⟩

theorem exRec_same {u : ι} {w w' : World ι R T W} (h : Differ u w w') (e : ι) (he : e ≠ u)
    (hl : (w.graph.getExerciseLesson e).getD w.dflt ≠ u)
    (hc : (w.graph.getLessonCourse ((w.graph.getExerciseLesson e).getD w.dflt)).getD w.dflt ≠ u) :
    w'.exRec e = w.exRec e := by
  unfold World.exRec
  simp only [h.graph, h.now, h.compute, h.dflt]
  rw [h.stats e he, h.rewards _ hl, h.rewards _ hc]

theorem mem_getD {g : Graph ι} {l e : ι} (h : Graph.LessonHasExercise g l e) :
    e ∈ (g.getLessonExercises l).getD [] := by
  obtain ⟨es, h1, h2⟩ := h
  rw [h1]; exact h2

theorem mem_getD' {g : Graph ι} {l e : ι} (h : Graph.CourseHasLesson g l e) :
    e ∈ (g.getCourseLessons l).getD [] := by
  obtain ⟨es, h1, h2⟩ := h
  rw [h1]; exact h2

/-- Exercises of a lesson untouched by the invalidation of `u` keep their records. -/
theorem exRec_lesson {u : ι} {w w' : World ι R T W} (hd : Differ u w w')
    (hg : Contained w.graph w.dflt) (hu : u ≠ w.dflt) {l e : ι}
    (he : Graph.LessonHasExercise w.graph l e) (hlu : l ≠ u)
    (h1 : w.graph.getUnitType u = some .exercise → w.graph.getExerciseLesson u ≠ some l)
    (h2 : w.graph.getLessonCourse l ≠ some u) :
    w'.exRec e = w.exRec e ∧ w'.black e = w.black e := by
  have hel := (hg.exercise l e).1 he
  have hne : e ≠ u := by
    rintro rfl
    exact h1 (hg.tyE l e he).1 hel
  refine ⟨exRec_same hd e hne ?_ ?_, hd.black e hne⟩
  · rw [hel]; exact hlu
  · rw [hel]
    cases hc : w.graph.getLessonCourse l with
    | none => simpa [hc] using fun e => hu e.symm
    | some co =>
      simp only [Option.getD_some, hc]
      rintro rfl
      exact h2 hc

theorem lesson_same {u : ι} {w w' : World ι R T W} (hd : Differ u w w')
    (hg : Contained w.graph w.dflt) (hu : u ≠ w.dflt) {l : ι} (hlu : l ≠ u)
    (h1 : w.graph.getUnitType u = some .exercise → w.graph.getExerciseLesson u ≠ some l)
    (h2 : w.graph.getLessonCourse l ≠ some u) :
    lessonVal w' l = lessonVal w l ∧ lessonTrialsP w' l = lessonTrialsP w l := by
  have hes : ∀ es, w.graph.getLessonExercises l = some es →
      es.filter (fun e => !w'.black e) = es.filter (fun e => !w.black e) ∧
      ∀ e ∈ es.filter (fun e => !w.black e), w'.exRec e = w.exRec e := by
    intro es hes
    have key := fun e (he : e ∈ es) => exRec_lesson hd hg hu (l := l) ⟨es, hes, he⟩ hlu h1 h2
    refine ⟨List.filter_congr (fun e he => by rw [(key e he).2]), ?_⟩
    intro e he
    exact (key e (List.mem_filter.1 he).1).1
  constructor
  · unfold lessonVal lessonMean
    rw [hd.black l hlu, hd.graph]
    cases hx : w.graph.getLessonExercises l with
    | none => rfl
    | some es =>
      obtain ⟨a, b⟩ := hes es hx
      dsimp only
      rw [a, List.map_congr_left (fun e he => by rw [b e he])]
  · unfold lessonTrialsP
    rw [hd.graph]
    cases hx : w.graph.getLessonExercises l with
    | none => rfl
    | some es =>
      obtain ⟨a, b⟩ := hes es hx
      dsimp only
      rw [a, List.map_congr_left (fun e he => by rw [b e he])]

/-- The main step: after the data of `u` changed and `u` was invalidated the caches of plain units are
coherent with the new data. -/
theorem coh_write {u : ι} {w w' : World ι R T W} (hd : Differ u w w')
    (hg : Contained w.graph w.dflt) (hu : u ≠ w.dflt) {c : Caches ι R}
    (hc : Coh (Plain w.graph) w c) :
    Coh (Plain w'.graph) w' (invalidate w.graph c u) := by
  have hs := survives_invalidate w.graph c u
  have hlc : ∀ l, l ∉ (w.graph.getCourseLessons u).getD [] ∨ w.graph.getUnitType u ≠ some .course →
      w.graph.getLessonCourse l ≠ some u := by
    intro l h e
    have hcl := (hg.lesson u l).2 e
    rcases h with h | h
    · exact h (mem_getD' hcl)
    · exact h (hg.tyL u l hcl).2
  have hles : ∀ l, l ≠ u → (w.graph.getUnitType u = some .exercise → w.graph.getExerciseLesson u ≠ some l) →
      (w.graph.getUnitType u = some .course → l ∉ (w.graph.getCourseLessons u).getD []) →
      lessonVal w' l = lessonVal w l ∧ lessonTrialsP w' l = lessonTrialsP w l := by
    intro l a b c
    refine lesson_same hd hg hu a b (hlc l ?_)
    by_cases ht : w.graph.getUnitType u = some .course
    · exact Or.inl (c ht)
    · exact Or.inr ht
  have hcou : ∀ k, k ≠ u → (w.graph.getUnitType u = some .exercise → ∀ l,
        w.graph.getExerciseLesson u = some l → w.graph.getLessonCourse l ≠ some k) →
      (w.graph.getUnitType u = some .lesson → w.graph.getLessonCourse u ≠ some k) →
      ∀ ls, w.graph.getCourseLessons k = some ls → ∀ l ∈ ls,
        lessonVal w' l = lessonVal w l ∧ lessonTrialsP w' l = lessonTrialsP w l ∧
        w'.black l = w.black l := by
    intro k a b c ls hls l hl
    have hkl : Graph.CourseHasLesson w.graph k l := ⟨ls, hls, hl⟩
    have hlk := (hg.lesson k l).1 hkl
    have hlu : l ≠ u := by
      rintro rfl
      exact c (hg.tyL k l hkl).1 hlk
    have := lesson_same hd hg hu hlu (fun ht e => b ht l e hlk)
      (by rw [hlk]; intro e; exact a (Option.some.inj e))
    exact ⟨this.1, this.2, hd.black l hlu⟩
  refine ⟨?_, ?_, ?_, ?_, ?_⟩
  · intro e r h
    obtain ⟨h1, h2, h3, h4⟩ := hs.ex e r h
    rw [hc.ex e r h1]
    refine (exRec_same hd e h2 ?_ ?_).symm
    · cases hl : w.graph.getExerciseLesson e with
      | none => simpa [hl] using fun e => hu e.symm
      | some l =>
        simp only [Option.getD_some]
        rintro rfl
        have hle := (hg.exercise l e).2 hl
        exact h3 (hg.tyE l e hle).2 (mem_getD hle)
    · cases hl : w.graph.getExerciseLesson e with
      | none =>
        simp only [Option.getD_none]
        cases hco : w.graph.getLessonCourse w.dflt with
        | none => simpa using fun e => hu e.symm
        | some co =>
          have := (hg.tyL co w.dflt ((hg.lesson co w.dflt).2 hco)).1
          rw [hg.none] at this; cases this
      | some l =>
        simp only [Option.getD_some]
        cases hco : w.graph.getLessonCourse l with
        | none => simpa using fun e => hu e.symm
        | some co =>
          simp only [Option.getD_some]
          rintro rfl
          have hle := (hg.exercise l e).2 hl
          have hcl := (hg.lesson co l).2 hco
          exact h4 (hg.tyL co l hcl).2 l (mem_getD' hcl) (mem_getD hle)
  · intro l v hp h
    rw [lessonIs_plain w' hp]
    obtain ⟨h1, _, h3⟩ := hs.les l v
    obtain ⟨a, b, d⟩ := h3 (Or.inl h)
    have hp' : Plain w.graph l := hd.graph ▸ hp
    rw [(hles l a b d).1]
    exact (lessonIs_plain w hp' v).1 (hc.les l v hp' (h1 h))
  · intro k v hp h
    rw [courseIs_plain w' hp]
    obtain ⟨h1, _, h3⟩ := hs.cou k v
    obtain ⟨a, b, d⟩ := h3 (Or.inl h)
    have hp' : Plain w.graph k := hd.graph ▸ hp
    rw [(courseIs_plain w hp' v).1 (hc.cou k v hp' (h1 h))]
    unfold courseVal
    rw [hd.black k a, hd.graph]
    cases hls : w.graph.getCourseLessons k with
    | none => rfl
    | some ls =>
      dsimp only
      rw [List.map_congr_left (fun l hl => ((hcou k a b d ls hls l hl).1).symm)]
  · intro l v h
    obtain ⟨_, h1, h3⟩ := hs.les l v
    obtain ⟨a, b, d⟩ := h3 (Or.inr h)
    rw [(hles l a b d).2]
    exact hc.lesT l v (h1 h)
  · intro k v hp h
    rw [courseTrialsIs_plain w' hp]
    obtain ⟨_, h1, h3⟩ := hs.cou k v
    obtain ⟨a, b, d⟩ := h3 (Or.inr h)
    have hp' : Plain w.graph k := hd.graph ▸ hp
    rw [(courseTrialsIs_plain w hp' v).1 (hc.couT k v hp' (h1 h))]
    unfold courseTrialsVal
    rw [hd.graph]
    cases hls : w.graph.getCourseLessons k with
    | none => rfl
    | some ls =>
      have key := hcou k a b d ls hls
      simp only [Option.getD_some]
      rw [List.filter_congr (p := fun l => !w'.black l) (q := fun l => !w.black l)
          (fun l hl => by rw [(key l hl).2.2]),
        List.map_congr_left (g := lessonTrialsP w) (fun l hl => ((key l (List.mem_filter.1 hl).1).2.1))]

end Trane.UnitScorer
