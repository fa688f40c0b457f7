import Verif.Bench.Runs

/-!
# C95: the benchmark simulates what it says
-/

set_option linter.unusedSectionVars false

namespace Trane.Bench

variable {σ ι : Type} [DecidableEq ι]

/-! ### The grades of a student -/

/-- After the trials that make the performance stable a student lapses, with a two, if the first random number is below
the rate of lapses.  Otherwise the numbers that lead to a grade are an interval, as long as the probability of the grade at
that trial.  The probabilities add up to 1 as well as those of the profile do. -/
theorem grade_has_its_chance {p : Profile} (hi : ∀ i, 0 ≤ p.initial i) (hs : ∀ i, 0 ≤ p.stable i)
    (vi : verifyProbs p.initial = true) (vs : verifyProbs p.stable = true) (n : Nat) (d : Draw) :
    (d.lapse < p.lapseRate ∧ p.trialsBeforeStable < n → getScore p n d = some .two) ∧
    (¬ (d.lapse < p.lapseRate ∧ p.trialsBeforeStable < n) → ∀ g, getScore p n d = some g ↔
      below (chance p n) (place g) ≤ d.choice * total (chance p n) ∧
      d.choice * total (chance p n) < below (chance p n) (place g) + chance p n (place g)) ∧
    (∀ i, 0 ≤ chance p n i) ∧ |total (chance p n) - 1| < 1 / 10000 := by
  have ht := chance_total n vi vs
  have hn := chance_nonneg hi hs n
  refine ⟨fun h => ?_, fun h g => ?_, hn, ht⟩
  · unfold getScore; rw [if_pos h]
  · unfold getScore
    rw [if_neg h, chance_eq, Option.map_eq_some_iff]
    have h0 : total (chance p n) ≠ 0 := by
      intro h0
      rw [h0] at ht
      norm_num at ht
    constructor
    · rintro ⟨i, hi, rfl⟩
      rw [place_gradeOf]
      exact (weightedIndex_iff hn h0 d.choice_nonneg d.choice_lt i).1 hi
    · intro hg
      exact ⟨place g, (weightedIndex_iff hn h0 d.choice_nonneg d.choice_lt _).2 hg, (gradeOf_eq _ _).2 rfl⟩

theorem getScore_some {p : Profile} (hi : ∀ i, 0 ≤ p.initial i) (hs : ∀ i, 0 ≤ p.stable i)
    (vi : verifyProbs p.initial = true) (vs : verifyProbs p.stable = true) (n : Nat) (d : Draw) :
    ∃ g, getScore p n d = some g := by
  have ht := chance_total n vi vs
  have hn := chance_nonneg hi hs n
  have h0 : total (chance p n) ≠ 0 := by
    intro h0
    rw [h0] at ht
    norm_num at ht
  unfold getScore
  split
  · exact ⟨_, rfl⟩
  · rw [chance_eq]
    unfold weightedIndex
    rw [if_neg (by simp only [not_or, not_lt]; exact ⟨hn 0, hn 1, hn 2, hn 3, hn 4, h0⟩)]
    dsimp only
    split_ifs <;> exact ⟨_, rfl⟩

/-- A profile that `verify` accepts although the student has no grade at all to give. -/
def negativeProfile : Profile where
  sessionFrequency := 1
  exercisesPerSession := 25
  initial := fun i => if i = 0 then 2 else if i = 1 then -1 else 0
  trialsBeforeStable := 5
  stable := fun i => if i = 4 then 1 else 0
  lapseRate := 1 / 10

/-- `verify` checks the sums, not the signs: it accepts a profile with which the very first grade panics. -/
theorem verify_misses_negative : verify .default [negativeProfile] = true ∧
    ∀ d, getScore negativeProfile 0 d = none := by
  refine ⟨by decide +kernel, fun d => ?_⟩
  unfold getScore
  rw [if_neg (by simp [negativeProfile])]
  have : weightedIndex (interpolate negativeProfile 0) d.choice = none := by
    unfold weightedIndex
    rw [if_pos (by right; left; decide +kernel)]
  rw [this]; rfl

/-! ### A run -/

variable {A : Api σ ι} {p : Profile} {draws : Nat → Draw} {anchor : Int} {obj₀ : σ}

/-- What a simulation that succeeds reports is what happened (see `Run` and `Story`). -/
theorem simulation_exact {B : Settings ι} {courses : List ι} {r : Result σ ι}
    (h : simulate A p draws B courses anchor obj₀ = .ok r) : Run A p B courses anchor obj₀ r :=
  simulate_run h

/-- The time of an event. -/
def Event.time : Event ι → Int
  | .batch t _ => t
  | .scored _ _ t => t

theorem timeOf_lt (p : Profile) (anchor : Int) (he : 0 < p.exercisesPerSession)
    (hd : p.exercisesPerSession ≤ p.sessionFrequency * 86400) {i j : Nat} (h : i < j) :
    timeOf p anchor i < timeOf p anchor j := by
  unfold timeOf
  generalize p.exercisesPerSession = E at *
  generalize p.sessionFrequency = f at *
  have hmi := Nat.mod_lt i he
  have hdi := Nat.div_add_mod i E
  have hdj := Nat.div_add_mod j E
  rcases lt_or_eq_of_le (Nat.div_le_div_right (c := E) h.le) with hq | hq
  · have : (i / E : Nat) + 1 ≤ j / E := hq
    have h1 : ((i / E + 1 : Nat) : Int) * f * 86400 ≤ ((j / E : Nat) : Int) * f * 86400 := by
      have : (i / E + 1) * f ≤ (j / E) * f := Nat.mul_le_mul_right _ this
      have : ((i / E + 1 : Nat) : Int) * f ≤ ((j / E : Nat) : Int) * f := by exact_mod_cast this
      linarith
    have h2 : ((i / E + 1 : Nat) : Int) * f * 86400 = ((i / E : Nat) : Int) * f * 86400 + f * 86400 := by
      push_cast; ring
    have h3 : (E : Int) ≤ f * 86400 := by exact_mod_cast hd
    have h4 : ((i % E : Nat) : Int) < E := by exact_mod_cast hmi
    have h5 : (0 : Int) ≤ ((j % E : Nat) : Int) := Int.natCast_nonneg _
    linarith
  · rw [hq] at hdi ⊢
    have : i % E < j % E := by omega
    have : ((i % E : Nat) : Int) < ((j % E : Nat) : Int) := by exact_mod_cast this
    linarith

theorem snoc_split {α : Type} {es pre post : List α} {e e' : α} (h : es ++ [e'] = pre ++ e :: post) :
    (pre = es ∧ e = e' ∧ post = []) ∨ ∃ post', post = post' ++ [e'] ∧ es = pre ++ e :: post' := by
  rcases List.eq_nil_or_concat post with rfl | ⟨post', e'', rfl⟩
  · obtain ⟨h1, h2⟩ := List.append_inj' h rfl
    simp at h2
    exact Or.inl ⟨h1.symm, h2.symm, rfl⟩
  · rw [List.concat_eq_append, ← List.cons_append, ← List.append_assoc] at h
    obtain ⟨h1, h2⟩ := List.append_inj' h rfl
    simp at h2
    subst h2
    exact Or.inr ⟨post', by simp, h1⟩

theorem story_times {es : List (Event ι)} {rest : List ι} {obj : σ} {ends : List σ}
    (h : Story A p anchor obj₀ es rest obj ends) {pre post : List (Event ι)} {e : Event ι} (he : es = pre ++ e :: post) :
    e.time = timeOf p anchor (graded pre) ∧ 0 < p.exercisesPerSession := by
  induction h generalizing pre e post with
  | start => simp at he
  | batch _ _ hlt _ ih | grade _ hlt _ _ ih =>
    rcases snoc_split he with ⟨rfl, rfl, rfl⟩ | ⟨post', rfl, h⟩
    · refine ⟨rfl, ?_⟩
      rcases Nat.eq_zero_or_pos p.exercisesPerSession with h | h
      · rw [h] at hlt; simp at hlt
      · exact h
    · exact ih h
  | ended _ _ _ ih => exact ih he

/-- Time never runs backwards in a simulation, and no two grades have the same time, if a session fits between two
sessions. -/
theorem simulated_time_advances {B : Settings ι} {courses : List ι} {r : Result σ ι}
    (h : simulate A p draws B courses anchor obj₀ = .ok r) (hd : p.exercisesPerSession ≤ p.sessionFrequency * 86400)
    {a b c : List (Event ι)} {e f : Event ι} (he : r.events = a ++ e :: b ++ f :: c) :
    e.time ≤ f.time ∧ (∀ x g t y g' t', e = .scored x g t → f = .scored y g' t' → t < t') ∧ anchor ≤ e.time := by
  obtain ⟨rest, obj, hs⟩ := (simulate_run h).story
  obtain ⟨h1, h0⟩ := story_times (pre := a) (e := e) (post := b ++ f :: c) hs (by rw [he]; simp)
  obtain ⟨h2, -⟩ := story_times (pre := a ++ e :: b) (e := f) (post := c) hs (by rw [he])
  rw [graded_append] at h2
  refine ⟨?_, ?_, ?_⟩
  · rw [h1, h2]
    rcases Nat.eq_zero_or_pos (graded (e :: b)) with h | h
    · rw [h, Nat.add_zero]
    · exact (timeOf_lt p anchor h0 hd (by omega)).le
  · rintro x g t y g' t' rfl rfl
    change t = _ at h1
    change t' = _ at h2
    rw [h1, h2]
    refine timeOf_lt p anchor h0 hd ?_
    have : graded (Event.scored x g t :: b) = graded b + 1 := by simp [graded]
    omega
  · rw [h1, timeOf]
    have : (0 : Int) ≤ ((graded a / p.exercisesPerSession : Nat) : Int) * p.sessionFrequency * 86400 := by positivity
    have : (0 : Int) ≤ ((graded a % p.exercisesPerSession : Nat) : Int) := Int.natCast_nonneg _
    linarith

/-! ### Success -/

theorem practice_ok {P : σ → Prop} {V : ι → Prop} (hsc : ∀ o x g t, P o → V x → ∃ o', A.score o x g t = some o' ∧ P o')
    (hg : ∀ n d, ∃ g, getScore p n d = some g) (start : Int) : ∀ (xs : List ι) (s : St σ ι) (k : Nat),
    (∀ x ∈ xs, V x) → P s.obj → ∃ s' k', practice A p draws start xs s k = .ok (s', k') ∧ P s'.obj := by
  intro xs
  induction xs with
  | nil => intro s k _ hP; exact ⟨s, k, rfl, hP⟩
  | cons x xs ih =>
    intro s k hV hP
    simp only [practice]
    split
    · exact ⟨s, k, rfl, hP⟩
    · obtain ⟨g, hg⟩ := hg ((s.counts.find x).getD 0) (draws s.practiced)
      rw [hg]
      dsimp only
      obtain ⟨o', ho, hP'⟩ := hsc s.obj x g (exerciseTimestamp start k) hP (hV x (by simp))
      rw [ho]
      exact ih _ _ (fun y hy => hV y (by simp [hy])) hP'

theorem session_ok {P : σ → Prop} {V : ι → Prop} (hov : ∀ o t, P o → P (A.overrideTime o t))
    (hba : ∀ o, P o → ∃ o' ids, A.batch o = some (o', ids) ∧ P o' ∧ ∀ x ∈ ids, V x)
    (hsc : ∀ o x g t, P o → V x → ∃ o', A.score o x g t = some o' ∧ P o')
    (hg : ∀ n d, ∃ g, getScore p n d = some g) (start : Int) : ∀ (fuel : Nat) (s : St σ ι) (k : Nat),
    P s.obj → ∃ s' k' b, session A p draws start fuel s k = .ok (s', k', b) ∧ P s'.obj := by
  intro fuel
  induction fuel with
  | zero => intro s k hP; exact ⟨s, k, false, rfl, hP⟩
  | succ fuel ih =>
    intro s k hP
    simp only [session]
    split
    · exact ⟨s, k, false, rfl, hP⟩
    · obtain ⟨o', ids, ho, hP', hV⟩ := hba _ (hov _ (exerciseTimestamp start k) hP)
      rw [ho]
      dsimp only
      split
      · exact ⟨_, _, _, rfl, hP'⟩
      · obtain ⟨s', k', hp, hP''⟩ := practice_ok (draws := draws) hsc hg start ids
          { s with obj := o', events := s.events ++ [.batch (exerciseTimestamp start k) ids] } k hV hP'
        rw [hp]
        exact ih s' k' hP''

theorem sessions_ok {P : σ → Prop} {V : ι → Prop} (hov : ∀ o t, P o → P (A.overrideTime o t))
    (hba : ∀ o, P o → ∃ o' ids, A.batch o = some (o', ids) ∧ P o' ∧ ∀ x ∈ ids, V x)
    (hsc : ∀ o x g t, P o → V x → ∃ o', A.score o x g t = some o' ∧ P o')
    (hg : ∀ n d, ∃ g, getScore p n d = some g) (B : Settings ι) (courses : List ι) :
    ∀ (more n : Nat) (s : St σ ι) (ends : List σ), P s.obj →
    ∃ r, sessions A p draws B courses anchor more n s ends = .ok r := by
  intro more
  induction more with
  | zero => intro n s ends _; exact ⟨_, rfl⟩
  | succ more ih =>
    intro n s ends hP
    obtain ⟨s', k', b, hs, hP'⟩ := session_ok (draws := draws) hov hba hsc hg
      (sessionTimestamp anchor n p.sessionFrequency) p.exercisesPerSession s 0 hP
    simp only [sessions]
    rw [hs]
    cases b with
    | true => exact ⟨_, rfl⟩
    | false =>
      dsimp only
      split
      · exact ⟨_, rfl⟩
      · exact ih _ _ _ (hov _ _ hP')

/-- The simulation of a student whose probabilities are not negative and add up to 1 does not panic, and succeeds if the
object does not fail.  `P` are the states of the object that can occur, `V` the exercises that it knows. -/
theorem simulation_succeeds {P : σ → Prop} {V : ι → Prop} (hi : ∀ i, 0 ≤ p.initial i) (hs : ∀ i, 0 ≤ p.stable i)
    (vi : verifyProbs p.initial = true) (vs : verifyProbs p.stable = true)
    (hov : ∀ o t, P o → P (A.overrideTime o t))
    (hba : ∀ o, P o → ∃ o' ids, A.batch o = some (o', ids) ∧ P o' ∧ ∀ x ∈ ids, V x)
    (hsc : ∀ o x g t, P o → V x → ∃ o', A.score o x g t = some o' ∧ P o') (h₀ : P obj₀)
    (B : Settings ι) (courses : List ι) :
    ∃ r, simulate A p draws B courses anchor obj₀ = .ok r :=
  sessions_ok hov hba hsc (getScore_some hi hs vi vs) B courses _ _ _ _ h₀

end Trane.Bench
