import Verif.Sched.LessonLemmas

/-! Helper lemmas: the effect of one iteration of the search. -/

namespace Trane.Search
open Trane.Filters (KVFilter)
open Trane.Graph

variable {ι : Type} [DecidableEq ι]

/-- The units on the stack. -/
def State.units (s : State ι) : List ι := s.stack.map Item.unit

/-- The lesson is outside the requested courses. -/
def OutOfScope (e : Env ι) (q : Query ι) (l : ι) : Prop := q.allowCourses = false ∧ e.courseOf l ∉ q.courses

/-- The search goes on past the lesson. -/
def GoesOn (e : Env ι) (q : Query ι) (l : ι) : Prop := LessonSkipped e q.filter l ∨ LessonPassed e l

/-- The effect on the candidates of visiting a lesson. -/
inductive CandEff (e : Env ι) (q : Query ι) (l : ι) (s s' : State ι) : Prop
  | skipped : LessonSkipped e q.filter l → s'.candidates = s.candidates →
      s'.inProgress = s.inProgress → CandEff e q l s s'
  | empty (a) : ¬ LessonSkipped e q.filter l → Contribution e l [] a → s'.candidates = s.candidates →
      s'.inProgress = s.inProgress → CandEff e q l s s'
  | capped (cs a) : ¬ LessonSkipped e q.filter l → Contribution e l cs a → cs ≠ [] →
      a ≤ e.opts.targetWindow.hi → l ∉ s.inProgress →
      e.opts.maxLessonsInProgress ≤ s.inProgress.length → s'.candidates = s.candidates →
      s'.inProgress = s.inProgress → CandEff e q l s s'
  | started (cs a dead) : ¬ LessonSkipped e q.filter l → Contribution e l cs a → cs ≠ [] →
      (dead = true ↔ ¬ LessonPassed e l) →
      a ≤ e.opts.targetWindow.hi → l ∉ s.inProgress →
      s.inProgress.length < e.opts.maxLessonsInProgress →
      s'.candidates = s.candidates ++ cs.map (fun c => { c with deadEnd := dead }) →
      s'.inProgress = s.inProgress.insert l → CandEff e q l s s'
  | added (cs a dead) : ¬ LessonSkipped e q.filter l → Contribution e l cs a → cs ≠ [] →
      (dead = true ↔ ¬ LessonPassed e l) →
      (a ≤ e.opts.targetWindow.hi → l ∈ s.inProgress) →
      s'.candidates = s.candidates ++ cs.map (fun c => { c with deadEnd := dead }) →
      s'.inProgress = s.inProgress → CandEff e q l s s'

/-- The effect of one iteration for unit `u`, popped from the stack of `s`. -/
inductive Eff (e : Env ι) (q : Query ι) (u : ι) (s s' : State ι) : Prop
  | nothing : (u ∈ s.visited ∨ (¬ IsLesson e u ∧ ¬ (IsCourse e u ∧ q.allowCourses = true))) → s' = s →
      Eff e q u s s'
  | course (skip : Bool) : u ∉ s.visited → IsCourse e u → q.allowCourses = true →
      (skip = true ↔ CourseSkipped e q.filter u ∨ pendingOf e s u = 0) →
      s'.visited = (if skip then s.visited.insert u else s.visited) →
      s'.pending = s.pending.put u (pendingOf e s u) →
      s'.candidates = s.candidates → s'.inProgress = s.inProgress →
      s'.units.Perm ((if skip then e.validDependents q.filter u else []) ++
        (e.validStarting q.filter u ++ s.units)) →
      Eff e q u s s'
  | outside : u ∉ s.visited → IsLesson e u → OutOfScope e q u →
      s' = { s with visited := s.visited.insert u } → Eff e q u s s'
  | lesson (on : Bool) (c : ι) (push : List ι) : u ∉ s.visited → IsLesson e u → ¬ OutOfScope e q u →
      e.graph.getLessonCourse u = some c →
      (on = true ↔ GoesOn e q u) →
      s'.visited = s.visited.insert u →
      (q.allowCourses = true → s'.pending = s.pending.put c (pendingOf e s c - 1)) →
      (q.allowCourses = false → s'.pending = s.pending) →
      push = (if q.allowCourses = true ∧ pendingOf e s c - 1 = 0 then [c] else []) →
      CandEff e q u s s' →
      s'.units.Perm ((if on then e.validDependents q.filter u else []) ++ (push ++ s.units)) →
      Eff e q u s s'

theorem units_pushAll (rnd : Rnd) (hr : IsRnd rnd) (item : Item ι) (us : List ι) (s : State ι) :
    (pushAll rnd item us s).units.Perm (us ++ s.units) := by
  unfold State.units pushAll
  simp only [List.map_append, List.map_reverse, List.map_map]
  apply List.Perm.append_right
  refine (List.reverse_perm _).trans ?_
  have : (Item.unit ∘ fun u => (⟨u, item.depth + 1⟩ : Item ι)) = id := rfl
  rw [this, List.map_id]
  exact hr _ _ _

theorem extendCandidates_eff {e : Env ι} (q : Query ι) {l : ι} {cs : List (Candidate ι)} {a : ℚ} {dead : Bool}
    (hc : Contribution e l cs a) (hns : ¬ LessonSkipped e q.filter l) (hd : dead = true ↔ ¬ LessonPassed e l)
    (s s₀ : State ι) (hs : s.candidates = s₀.candidates ∧ s.inProgress = s₀.inProgress) :
    CandEff e q l s₀ (extendCandidates e.opts (cs.map (fun c => { c with deadEnd := dead })) l
      (if cs.length > 0 then some a else none) s) ∧
    (extendCandidates e.opts (cs.map (fun c => { c with deadEnd := dead })) l
      (if cs.length > 0 then some a else none) s).stack = s.stack ∧
    (extendCandidates e.opts (cs.map (fun c => { c with deadEnd := dead })) l
      (if cs.length > 0 then some a else none) s).visited = s.visited ∧
    (extendCandidates e.opts (cs.map (fun c => { c with deadEnd := dead })) l
      (if cs.length > 0 then some a else none) s).pending = s.pending := by
  unfold extendCandidates
  by_cases hemp : cs = []
  · subst hemp
    simp only [List.map_nil, List.isEmpty_nil, if_true, and_true]
    exact .empty a hns hc hs.1 hs.2
  · have h1 : ¬ (cs.map (fun c => { c with deadEnd := dead })).isEmpty = true := by
      simpa [List.isEmpty_iff] using hemp
    rw [if_neg h1, if_pos (List.length_pos_iff.2 hemp)]
    dsimp only
    by_cases ha : a ≤ e.opts.targetWindow.hi
    · by_cases hl : l ∈ s.inProgress
      · have : (decide (a ≤ e.opts.targetWindow.hi) && !decide (l ∈ s.inProgress)) = false := by simp [hl]
        simp only [this, Bool.false_eq_true, if_false, and_true]
        exact .added cs a dead hns hc hemp hd (fun _ => hs.2 ▸ hl) (by simp [hs.1]) hs.2
      · have : (decide (a ≤ e.opts.targetWindow.hi) && !decide (l ∈ s.inProgress)) = true := by
          simp [hl, ha]
        simp only [this, if_true]
        split
        · rename_i hcap
          simp only [and_true]
          exact .capped cs a hns hc hemp ha (hs.2 ▸ hl) (hs.2 ▸ hcap) hs.1 hs.2
        · rename_i hcap
          simp only [and_true]
          exact .started cs a dead hns hc hemp hd ha (hs.2 ▸ hl) (by rw [← hs.2]; omega) (by simp [hs.1])
            (by simp [hs.2])
    · have : (decide (a ≤ e.opts.targetWindow.hi) && !decide (l ∈ s.inProgress)) = false := by simp [ha]
      simp only [this, Bool.false_eq_true, if_false, and_true]
      exact .added cs a dead hns hc hemp hd (fun h => absurd h ha) (by simp [hs.1]) hs.2

/-- Why a search fails: a score, urgency or velocity of an offered exercise cannot be computed. -/
def ScoreFailure (e : Env ι) : Prop :=
  ∃ l x, Offers e l x ∧ (e.score x = none ∨ e.urgency x = none ∨ e.velocity x = none)

theorem map_self_dead (cs : List (Candidate ι)) (h : ∀ c ∈ cs, c.deadEnd = false) :
    cs.map (fun c => { c with deadEnd := false }) = cs := by
  conv_rhs => rw [← List.map_id cs]
  apply List.map_congr_left
  intro c hc
  have := h c hc
  cases c
  simp_all

/-- What `processLesson` does. -/
theorem processLesson_eff {e : Env ι} (he : Sane e) {rnd : Rnd} (hr : IsRnd rnd) (q : Query ι) (item : Item ι)
    (hl : IsLesson e item.unit) (s₀ s : State ι) (hs : s.candidates = s₀.candidates ∧ s.inProgress = s₀.inProgress) :
    match processLesson e rnd q item s with
    | .next s' => ∃ on : Bool, (on = true ↔ GoesOn e q item.unit) ∧ s'.visited = s.visited ∧
        s'.pending = s.pending ∧ CandEff e q item.unit s₀ s' ∧
        s'.units.Perm ((if on then e.validDependents q.filter item.unit else []) ++ s.units)
    | .stop s' => (¬ GoesOn e q item.unit ∧ s'.visited = s.visited ∧
        s'.pending = s.pending ∧ CandEff e q item.unit s₀ s' ∧ s'.units = s.units) ∧
        e.opts.batchSize * maxCandidateFactor ≤ s'.candidates.length
    | .fail => ScoreFailure e := by
  unfold processLesson
  dsimp only
  by_cases hskip : e.skipLesson q.filter item.unit = true
  · rw [if_pos hskip]
    have hsk := (skipLesson_iff he q.filter item.unit hl).1 hskip
    dsimp only
    refine ⟨true, ⟨fun _ => Or.inl hsk, fun _ => rfl⟩, rfl, rfl, ?_, ?_⟩
    · exact .skipped hsk hs.1 hs.2
    · exact units_pushAll rnd hr item _ s
  · rw [if_neg hskip]
    have hsk : ¬ LessonSkipped e q.filter item.unit := fun h =>
      hskip ((skipLesson_iff he q.filter item.unit hl).2 h)
    cases hlc : lessonCandidates e rnd s.rnd item with
    | none =>
      dsimp only
      obtain ⟨x, h1, h2⟩ := lessonCandidates_none he hr hlc
      exact ⟨_, x, h1, h2⟩
    | some p =>
      obtain ⟨cs, a⟩ := p
      dsimp only
      have hc := lessonCandidates_spec he hr hlc
      have hth := threshold_iff he hc
      by_cases hpass : Env.passesThreshold e.opts.passing (if cs.length > 0 then some a else none)
          (e.trials item.unit) = true
      · rw [if_pos hpass]
        dsimp only
        have hp := hth.1 hpass
        have hx := extendCandidates_eff q hc hsk (dead := false) (by simp [hp]) { s with rnd := s.rnd + 2 } s₀ hs
        rw [map_self_dead cs hc.live] at hx
        refine ⟨true, ⟨fun _ => Or.inr hp, fun _ => rfl⟩, hx.2.2.1, hx.2.2.2, ?_, ?_⟩
        · have h1 := hx.1
          generalize extendCandidates e.opts cs item.unit (if cs.length > 0 then some a else none)
            { s with rnd := s.rnd + 2 } = s1 at h1 ⊢
          cases h1 with
          | skipped a b c => exact .skipped a b c
          | empty x a b c d => exact .empty x a b c d
          | capped x y a b c d f g h i => exact .capped x y a b c d f g h i
          | started x y z a b c d f g h i j => exact .started x y z a b c d f g h i j
          | added x y z a b c d f g h => exact .added x y z a b c d f g h
        · refine (units_pushAll rnd hr item _ _).trans ?_
          simp only [if_true]
          apply List.Perm.append_left
          unfold State.units
          rw [hx.2.1]
      · rw [if_neg hpass]
        have hp : ¬ LessonPassed e item.unit := fun h => hpass (hth.2 h)
        have hx := extendCandidates_eff q hc hsk (dead := true) (by simp [hp]) { s with rnd := s.rnd + 2 } s₀ hs
        have hng : ¬ GoesOn e q item.unit := by
          rintro (h | h)
          · exact hsk h
          · exact hp h
        generalize extendCandidates e.opts (cs.map (fun c => { c with deadEnd := true })) item.unit
          (if cs.length > 0 then some a else none) { s with rnd := s.rnd + 2 } = s1 at hx ⊢
        by_cases hstop : s1.candidates.length ≥ e.opts.batchSize * maxCandidateFactor
        · rw [if_pos hstop]
          dsimp only
          refine ⟨⟨hng, hx.2.2.1, hx.2.2.2, hx.1, ?_⟩, hstop⟩
          unfold State.units; rw [hx.2.1]
        · rw [if_neg hstop]
          dsimp only
          refine ⟨false, by simp [hng], hx.2.2.1, hx.2.2.2, ?_, ?_⟩
          · have h1 := hx.1
            cases h1 with
            | skipped a b c => exact .skipped a b c
            | empty x a b c d => exact .empty x a b c d
            | capped x y a b c d f g h i => exact .capped x y a b c d f g h i
            | started x y z a b c d f g h i j => exact .started x y z a b c d f g h i j
            | added x y z a b c d f g h => exact .added x y z a b c d f g h
          · simp only [Bool.false_eq_true, if_false, List.nil_append]
            unfold State.units
            dsimp only
            refine (List.Perm.map _ (hr _ _ _)).trans ?_
            rw [hx.2.1]

/-- What one iteration does. -/
theorem visit_eff {e : Env ι} (he : Sane e) {rnd : Rnd} (hr : IsRnd rnd) (q : Query ι) (item : Item ι)
    (s : State ι) :
    match visit e rnd q item s with
    | .next s' => Eff e q item.unit s s'
    | .stop s' => Eff e q item.unit s s' ∧ e.opts.batchSize * maxCandidateFactor ≤ s'.candidates.length
    | .fail => ScoreFailure e := by
  unfold visit
  by_cases hv : item.unit ∈ s.visited
  · rw [if_pos hv]; exact .nothing (Or.inl hv) rfl
  rw [if_neg hv]
  cases ht : e.graph.getUnitType item.unit with
  | none => exact .nothing (Or.inr ⟨by simp [IsLesson, ht], by simp [IsCourse, ht]⟩) rfl
  | some t =>
    cases t with
    | exercise => exact .nothing (Or.inr ⟨by simp [IsLesson, ht], by simp [IsCourse, ht]⟩) rfl
    | course =>
      dsimp only
      by_cases ha : q.allowCourses = true
      · rw [if_pos ha]
        dsimp only
        unfold visitCourse
        dsimp only
        have hp : ∀ s : State ι, pendingOf e (pushAll rnd item (e.validStarting q.filter item.unit) s) item.unit =
          pendingOf e s item.unit := fun _ => rfl
        rw [hp]
        by_cases hk : (e.skipCourseStatic q.filter item.unit || pendingOf e s item.unit == 0) = true
        · rw [if_pos hk]
          have hk' := hk
          rw [Bool.or_eq_true, skipCourseStatic_iff he _ _ ht, beq_iff_eq] at hk'
          refine .course true hv ht ha (by simp [hk']) rfl rfl rfl rfl ?_
          refine (units_pushAll rnd hr item _ _).trans ?_
          simp only [if_true]
          apply List.Perm.append_left
          exact units_pushAll rnd hr item _ s
        · rw [if_neg hk]
          have hk' := hk
          rw [Bool.or_eq_true, skipCourseStatic_iff he _ _ ht, beq_iff_eq] at hk'
          refine .course false hv ht ha (by simp only [Bool.false_eq_true, false_iff]; exact hk') rfl rfl rfl rfl ?_
          simp only [Bool.false_eq_true, if_false, List.nil_append]
          exact units_pushAll rnd hr item _ s
      · rw [if_neg ha]
        exact .nothing (Or.inr ⟨by simp [IsLesson, ht], fun h => ha h.2⟩) rfl
    | lesson =>
      dsimp only
      unfold visitLesson
      dsimp only
      obtain ⟨c, hc⟩ := he.lessonHasCourse item.unit ht
      by_cases hout : OutOfScope e q item.unit
      · have : (!q.allowCourses && !decide (e.courseOf item.unit ∈ q.courses)) = true := by
          simp [hout.1, hout.2]
        rw [if_pos this]
        exact .outside hv ht hout rfl
      · have : ¬ (!q.allowCourses && !decide (e.courseOf item.unit ∈ q.courses)) = true := by
          intro h
          rw [Bool.and_eq_true] at h
          exact hout ⟨by simpa using h.1, by simpa using h.2⟩
        rw [if_neg this]
        by_cases ha : q.allowCourses = true
        · set s1 : State ι := { s with
            visited := s.visited.insert item.unit
            pending := s.pending.put c (pendingOf e s c - 1)
            stack := (if q.allowCourses = true ∧ pendingOf e s c - 1 = 0 then [⟨c, item.depth + 1⟩] else []) ++
              s.stack } with hs1
          have hcount : countLesson e q item { s with visited := s.visited.insert item.unit } = some s1 := by
            unfold countLesson
            rw [if_pos ha, hc]
            dsimp only
            have : pendingOf e { s with visited := s.visited.insert item.unit } c = pendingOf e s c := rfl
            rw [this]
            by_cases hz : pendingOf e s c - 1 = 0
            · rw [if_pos hz, hs1, if_pos ⟨ha, hz⟩]; rfl
            · rw [if_neg hz, hs1, if_neg (fun h => hz h.2)]; rfl
          rw [hcount]
          dsimp only
          have hp := processLesson_eff he hr q item ht s s1 ⟨rfl, rfl⟩
          have hu : s1.units = (if q.allowCourses = true ∧ pendingOf e s c - 1 = 0 then [c] else []) ++ s.units := by
            rw [hs1]; unfold State.units; dsimp only
            rw [List.map_append]
            split <;> rfl
          cases hpl : processLesson e rnd q item s1 with
          | next s' =>
            rw [hpl] at hp
            dsimp only at hp ⊢
            obtain ⟨on, h1, h2, h3, h4, h5⟩ := hp
            rw [hu] at h5
            exact .lesson on c _ hv ht hout hc h1 h2 (fun _ => h3) (fun h => by simp [ha] at h) rfl h4 h5
          | stop s' =>
            rw [hpl] at hp
            dsimp only at hp ⊢
            obtain ⟨⟨h1, h2, h3, h4, h5⟩, h6⟩ := hp
            rw [hu] at h5
            refine ⟨.lesson false c _ hv ht hout hc (by simp [h1]) h2 (fun _ => h3)
              (fun h => by simp [ha] at h) rfl h4 ?_, h6⟩
            rw [h5]; simp
          | fail =>
            rw [hpl] at hp
            exact hp
        · set s1 : State ι := { s with visited := s.visited.insert item.unit } with hs1
          have hcount : countLesson e q item s1 = some s1 := by
            unfold countLesson
            rw [if_neg ha]
          rw [hcount]
          dsimp only
          have hp := processLesson_eff he hr q item ht s s1 ⟨rfl, rfl⟩
          have hu : s1.units = (if q.allowCourses = true ∧ pendingOf e s c - 1 = 0 then [c] else []) ++ s.units := by
            rw [if_neg (fun h => ha h.1)]; rfl
          cases hpl : processLesson e rnd q item s1 with
          | next s' =>
            rw [hpl] at hp
            dsimp only at hp ⊢
            obtain ⟨on, h1, h2, h3, h4, h5⟩ := hp
            rw [hu] at h5
            exact .lesson on c _ hv ht hout hc h1 h2 (fun h => absurd h ha) (fun _ => h3) rfl h4 h5
          | stop s' =>
            rw [hpl] at hp
            dsimp only at hp ⊢
            obtain ⟨⟨h1, h2, h3, h4, h5⟩, h6⟩ := hp
            rw [hu] at h5
            refine ⟨.lesson false c _ hv ht hout hc (by simp [h1]) h2 (fun h => absurd h ha)
              (fun _ => h3) rfl h4 ?_, h6⟩
            rw [h5]; simp
          | fail =>
            rw [hpl] at hp
            exact hp

/-! ### The loop -/

/-- A chain of iterations. -/
inductive Steps (e : Env ι) (q : Query ι) : State ι → State ι → Prop
  | refl (s) : Steps e q s s
  | step {s item rest s' s''} : s.stack = item :: rest → Eff e q item.unit { s with stack := rest } s' →
      Steps e q s' s'' → Steps e q s s''

/-- The result of a search: the stack has run empty or there are enough candidates. -/
theorem loop_steps {e : Env ι} (he : Sane e) {rnd : Rnd} (hr : IsRnd rnd) (q : Query ι) (n : Nat) :
    ∀ (s : State ι) (r : Option (State ι)), loop e rnd q n s = some r →
      match r with
      | some s' => Steps e q s s' ∧
          (s'.stack = [] ∨ e.opts.batchSize * maxCandidateFactor ≤ s'.candidates.length)
      | none => ScoreFailure e := by
  induction n with
  | zero => intro s r h; simp [loop] at h
  | succ n ih =>
    intro s r h
    rw [loop] at h
    cases hs : s.stack with
    | nil =>
      rw [hs] at h
      simp only [Option.some.injEq] at h
      subst h
      exact ⟨.refl s, Or.inl hs⟩
    | cons item rest =>
      rw [hs] at h
      dsimp only at h
      have hv := visit_eff he hr q item { s with stack := rest }
      cases hvi : visit e rnd q item { s with stack := rest } with
      | next s1 =>
        rw [hvi] at h hv
        dsimp only at h hv
        have := ih s1 r h
        cases r with
        | none => exact this
        | some s' => exact ⟨.step hs hv this.1, this.2⟩
      | stop s1 =>
        rw [hvi] at h hv
        dsimp only at h hv
        simp only [Option.some.injEq] at h
        subst h
        exact ⟨.step hs hv.1 (.refl s1), Or.inr hv.2⟩
      | fail =>
        rw [hvi] at h hv
        dsimp only at h hv
        simp only [Option.some.injEq] at h
        subst h
        exact hv

/-- Properties kept by every iteration hold at the end. -/
theorem Steps.induction {e : Env ι} {q : Query ι} {P : State ι → Prop}
    (h : ∀ s item rest s', P s → s.stack = item :: rest → Eff e q item.unit { s with stack := rest } s' → P s')
    {s s' : State ι} (hs : Steps e q s s') (h0 : P s) : P s' := by
  induction hs with
  | refl => exact h0
  | step h1 h2 _ ih => exact ih (h _ _ _ _ h0 h1 h2)

/-! ### Termination -/

/-- The number of courses on the stack. -/
def courseCount (e : Env ι) (us : List ι) : Nat := us.countP (fun u => e.graph.getUnitType u = some .course)

theorem unseen_insert_lt (e : Env ι) (vis : List ι) (u : ι) (t : UnitType)
    (hu : e.graph.getUnitType u = some t) (hv : u ∉ vis) :
    unseen e.graph.types.keys (vis.insert u) < unseen e.graph.types.keys vis := by
  apply unseen_lt _ (fun v hv => by simp [hv]) (u := u) ((AMap.mem_keys_iff _ _).2 ⟨t, hu⟩) hv (by simp)

/-- Lexicographic decrease of an iteration. -/
theorem eff_decreases {e : Env ι} (he : Sane e) {q : Query ι} {s : State ι} {item : Item ι} {rest : List (Item ι)}
    {s' : State ι} (hs : s.stack = item :: rest) (h : Eff e q item.unit { s with stack := rest } s') :
    Prod.Lex (· < ·) (Prod.Lex (· < ·) (· < ·))
      (unseen e.graph.types.keys s'.visited, courseCount e s'.units, s'.units.length)
      (unseen e.graph.types.keys s.visited, courseCount e s.units, s.units.length) := by
  have hu : s.units = item.unit :: rest.map Item.unit := by simp [State.units, hs]
  cases h with
  | nothing _ heq =>
    subst heq
    apply Prod.Lex.right
    have h1 : courseCount e (State.units { s with stack := rest }) ≤ courseCount e s.units := by
      rw [hu]
      unfold courseCount State.units
      exact (List.sublist_cons_self _ _).countP_le
    rcases Nat.lt_or_eq_of_le h1 with h1 | h1
    · exact Prod.Lex.left _ _ h1
    · rw [h1]
      apply Prod.Lex.right
      rw [hu]
      simp [State.units]
  | course skip hv ht ha hk hvis _ _ _ hst =>
    cases skip with
    | true =>
      apply Prod.Lex.left
      rw [hvis]
      exact unseen_insert_lt e _ _ _ ht hv
    | false =>
      rw [hvis]
      simp only [Bool.false_eq_true, if_false, List.nil_append] at hst ⊢
      apply Prod.Lex.right
      apply Prod.Lex.left
      unfold courseCount
      rw [hst.countP_eq, List.countP_append, hu, List.countP_cons_of_pos (by simpa [IsCourse] using ht)]
      have : (e.validStarting q.filter item.unit).countP
          (fun u => decide (e.graph.getUnitType u = some .course)) = 0 := by
        rw [List.countP_eq_zero]
        intro l hl
        rw [mem_validStarting he] at hl
        have := (he.wf.tyL l _ ((he.wf.lesson _ _).1 (he.wf.startingSub _ _ hl.1))).1
        simp [this]
      rw [this]
      simp [State.units]
  | outside hv ht _ heq =>
    apply Prod.Lex.left
    rw [heq]
    exact unseen_insert_lt e _ _ _ ht hv
  | lesson on c push hv ht _ _ _ hvis _ _ _ _ _ =>
    apply Prod.Lex.left
    rw [hvis]
    exact unseen_insert_lt e _ _ _ ht hv

theorem loop_terminates {e : Env ι} (he : Sane e) {rnd : Rnd} (hr : IsRnd rnd) (q : Query ι) (s : State ι) :
    ∃ N, ∀ n ≥ N, ∃ r, loop e rnd q n s = some r := by
  have wf : WellFounded (Prod.Lex (· < ·) (Prod.Lex (· < ·) (· < ·)) : ℕ × ℕ × ℕ → ℕ × ℕ × ℕ → Prop) :=
    WellFounded.prod_lex wellFounded_lt (WellFounded.prod_lex wellFounded_lt wellFounded_lt)
  have key : ∀ m : ℕ × ℕ × ℕ, ∀ s : State ι,
      m = (unseen e.graph.types.keys s.visited, courseCount e s.units, s.units.length) →
      ∃ N, ∀ n ≥ N, ∃ r, loop e rnd q n s = some r := by
    intro m
    induction m using wf.induction with
    | h m ih =>
      intro s hm
      cases hs : s.stack with
      | nil =>
        refine ⟨1, fun n hn => ?_⟩
        obtain ⟨n, rfl⟩ : ∃ k, n = k + 1 := ⟨n - 1, by omega⟩
        exact ⟨_, by rw [loop, hs]⟩
      | cons item rest =>
        have hv := visit_eff he hr q item { s with stack := rest }
        cases hvi : visit e rnd q item { s with stack := rest } with
        | next s1 =>
          rw [hvi] at hv
          dsimp only at hv
          obtain ⟨N, hN⟩ := ih _ (by rw [hm]; exact eff_decreases he hs hv) s1 rfl
          refine ⟨N + 1, fun n hn => ?_⟩
          obtain ⟨n, rfl⟩ : ∃ k, n = k + 1 := ⟨n - 1, by omega⟩
          obtain ⟨r, hr⟩ := hN n (by omega)
          exact ⟨r, by rw [loop, hs]; dsimp only; rw [hvi]; exact hr⟩
        | stop s1 =>
          refine ⟨1, fun n hn => ?_⟩
          obtain ⟨n, rfl⟩ : ∃ k, n = k + 1 := ⟨n - 1, by omega⟩
          exact ⟨_, by rw [loop, hs]; dsimp only; rw [hvi]⟩
        | fail =>
          refine ⟨1, fun n hn => ?_⟩
          obtain ⟨n, rfl⟩ : ∃ k, n = k + 1 := ⟨n - 1, by omega⟩
          exact ⟨_, by rw [loop, hs]; dsimp only; rw [hvi]⟩
  exact key _ s rfl

end Trane.Search
