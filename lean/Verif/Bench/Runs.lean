import Verif.Bench.Spec
import Mathlib.Tactic.Ring
import Mathlib.Tactic.Positivity
import Mathlib.Tactic.FieldSimp

/-!
# The benchmark: lemmas
-/

set_option linter.unusedSectionVars false

namespace Trane.Bench

variable {σ ι : Type} [DecidableEq ι]

/-! ### Grades -/

theorem weight_range (p : Profile) (n : Nat) : 0 ≤ weight p n ∧ weight p n ≤ 1 := by
  unfold weight
  split
  · norm_num
  · exact ⟨le_min (by positivity) (by norm_num), min_le_right _ _⟩

theorem weight_stable {p : Profile} {n : Nat} (h : p.trialsBeforeStable ≤ n) : weight p n = 1 := by
  unfold weight
  split
  · rfl
  · rename_i h0
    have : (0 : ℚ) < p.trialsBeforeStable := by exact_mod_cast Nat.pos_of_ne_zero h0
    apply min_eq_right
    rw [le_div_iff₀ this, one_mul]
    exact_mod_cast h

theorem weight_before {p : Profile} {n : Nat} (h : n < p.trialsBeforeStable) :
    weight p n = (n : ℚ) / p.trialsBeforeStable := by
  unfold weight
  have h0 : (0 : ℚ) < p.trialsBeforeStable := by exact_mod_cast Nat.lt_of_le_of_lt (Nat.zero_le n) h
  rw [if_neg (by omega)]
  apply min_eq_left
  rw [div_le_iff₀ h0, one_mul]
  exact_mod_cast h.le

theorem weightedIndex_iff {w : Probs} (hw : ∀ i, 0 ≤ w i) (ht : total w ≠ 0) {v : ℚ} (h0 : 0 ≤ v) (h1 : v < 1)
    (i : Fin 5) : weightedIndex w v = some i ↔ below w i ≤ v * total w ∧ v * total w < below w i + w i := by
  have a0 := hw 0
  have a1 := hw 1
  have a2 := hw 2
  have a3 := hw 3
  have a4 := hw 4
  have hpos : 0 < total w := lt_of_le_of_ne (by unfold total; linarith) (Ne.symm ht)
  have hv : v * total w < total w := by nlinarith
  have hv0 : 0 ≤ v * total w := by positivity
  unfold weightedIndex
  rw [if_neg (by simp only [not_or, not_lt]; exact ⟨a0, a1, a2, a3, a4, ht⟩)]
  dsimp only
  generalize hx : v * total w = x at *
  unfold total at hv
  by_cases c0 : x < w 0
  · rw [if_pos c0]
    fin_cases i <;> simp [below] <;> (try intro) <;> (try constructor) <;> linarith
  rw [if_neg c0]
  by_cases c1 : x < w 0 + w 1
  · rw [if_pos c1]
    fin_cases i <;> simp [below] <;> (try intro) <;> (try constructor) <;> linarith
  rw [if_neg c1]
  by_cases c2 : x < w 0 + w 1 + w 2
  · rw [if_pos c2]
    fin_cases i <;> simp [below] <;> (try intro) <;> (try constructor) <;> linarith
  rw [if_neg c2]
  by_cases c3 : x < w 0 + w 1 + w 2 + w 3
  · rw [if_pos c3]
    fin_cases i <;> simp [below] <;> (try intro) <;> (try constructor) <;> linarith
  rw [if_neg c3]
  fin_cases i <;> simp [below] <;> (try intro) <;> (try constructor) <;> linarith

theorem chance_eq (p : Profile) (n : Nat) : interpolate p n = chance p n := by
  funext i
  unfold interpolate chance
  split
  · rename_i h
    have h0 : (p.trialsBeforeStable : ℚ) ≠ 0 := by
      have : 0 < p.trialsBeforeStable := by omega
      exact_mod_cast this.ne'
    rw [weight_before h]
    field_simp
  · rename_i h
    rw [weight_stable (by omega)]
    ring

theorem place_gradeOf (i : Fin 5) : place (gradeOf i) = i := by fin_cases i <;> rfl

theorem gradeOf_eq (i : Fin 5) (g : MasteryScore) : gradeOf i = g ↔ i = place g := by
  fin_cases i <;> cases g <;> simp [gradeOf, place]

theorem chance_nonneg {p : Profile} (hi : ∀ i, 0 ≤ p.initial i) (hs : ∀ i, 0 ≤ p.stable i) (n : Nat) (i : Fin 5) :
    0 ≤ chance p n i := by
  unfold chance
  split
  · rename_i h
    have : (0 : ℚ) ≤ p.trialsBeforeStable - n := by
      rw [sub_nonneg]; exact_mod_cast h.le
    have := mul_nonneg this (hi i)
    have := mul_nonneg (Nat.cast_nonneg (α := ℚ) n) (hs i)
    positivity
  · exact hs i

theorem chance_total {p : Profile} (n : Nat) (hi : verifyProbs p.initial = true) (hs : verifyProbs p.stable = true) :
    |total (chance p n) - 1| < 1 / 10000 := by
  simp only [verifyProbs, decide_eq_true_eq, abs_lt] at *
  obtain ⟨w0, w1⟩ := weight_range p n
  have : total (chance p n) = total p.initial * (1 - weight p n) + total p.stable * weight p n := by
    rw [← chance_eq]; simp only [interpolate, total]; ring
  rw [this]
  obtain ⟨i0, i1⟩ := hi
  obtain ⟨s0, s1⟩ := hs
  rcases eq_or_lt_of_le w0 with h | h
  · rw [← h]; constructor <;> linarith
  constructor <;> nlinarith

theorem getScore_canGive {p : Profile} {n : Nat} {d : Draw} {g : MasteryScore} (h : getScore p n d = some g) :
    CanGive p n g := by
  unfold getScore at h
  split at h
  · rename_i hl
    cases h
    exact Or.inl ⟨rfl, hl.2, lt_of_le_of_lt d.lapse_nonneg hl.1⟩
  · rw [chance_eq, Option.map_eq_some_iff] at h
    obtain ⟨i, hi, rfl⟩ := h
    right
    rw [place_gradeOf]
    have hc : ¬ (chance p n 0 < 0 ∨ chance p n 1 < 0 ∨ chance p n 2 < 0 ∨ chance p n 3 < 0 ∨ chance p n 4 < 0 ∨
        total (chance p n) = 0) := by
      intro hc
      rw [weightedIndex, if_pos hc] at hi
      cases hi
    simp only [not_or, not_lt] at hc
    have := (weightedIndex_iff (w := chance p n) (by
      intro j; fin_cases j
      exacts [hc.1, hc.2.1, hc.2.2.1, hc.2.2.2.1, hc.2.2.2.2.1]) hc.2.2.2.2.2 d.choice_nonneg d.choice_lt i).1 hi
    linarith [this.1, this.2]

/-! ### Runs -/

theorem graded_append (es fs : List (Event ι)) : graded (es ++ fs) = graded es + graded fs := by
  simp [graded]

theorem graded_batch (t : Int) (ids : List ι) : graded [Event.batch t ids] = 0 := rfl

theorem graded_scored (x : ι) (g : MasteryScore) (t : Int) : graded [Event.scored x g t] = 1 := rfl

theorem trials_append (x : ι) (es fs : List (Event ι)) : trials x (es ++ fs) = trials x es + trials x fs := by
  simp [trials]

theorem trials_batch (x : ι) (t : Int) (ids : List ι) : trials x [Event.batch t ids] = 0 := rfl

theorem trials_scored (x y : ι) (g : MasteryScore) (t : Int) :
    trials x [Event.scored y g t] = if y = x then 1 else 0 := by
  simp [trials, List.countP_cons]

theorem not_starved_scored (es : List (Event ι)) (x : ι) (g : MasteryScore) (t : Int) :
    ¬ Starved (es ++ [Event.scored x g t]) := by
  rintro ⟨pre, t', h⟩
  have := (List.append_inj' h rfl).2
  simp at this

theorem starved_batch (es : List (Event ι)) (t : Int) (ids : List ι) :
    Starved (es ++ [Event.batch t ids]) ↔ ids = [] := by
  constructor
  · rintro ⟨pre, t', h⟩
    have := (List.append_inj' h rfl).2
    simp at this
    exact this.2
  · rintro rfl
    exact ⟨es, t, rfl⟩

theorem timeOf_session (p : Profile) (anchor : Int) {n k : Nat} (h : k < p.exercisesPerSession) :
    timeOf p anchor (n * p.exercisesPerSession + k) =
      exerciseTimestamp (sessionTimestamp anchor n p.sessionFrequency) k := by
  unfold timeOf exerciseTimestamp sessionTimestamp
  rw [Nat.mul_comm n, Nat.mul_add_div (by omega), Nat.div_eq_of_lt h, Nat.mul_add_mod, Nat.mod_eq_of_lt h, Nat.add_zero]

/-- What holds in session `n` after `k` exercises. -/
structure Inv (A : Api σ ι) (p : Profile) (anchor : Int) (obj₀ : σ) (ends : List σ) (k : Nat) (s : St σ ι)
    (rest : List ι) : Prop where
  graded : graded s.events = ends.length * p.exercisesPerSession + k
  practiced : s.practiced = Bench.graded s.events
  counts : ∀ x, (s.counts.find x).getD 0 = trials x s.events
  story : Story A p anchor obj₀ s.events rest s.obj ends

variable {A : Api σ ι} {p : Profile} {draws : Nat → Draw} {anchor : Int} {obj₀ : σ}

theorem Inv.lt {ends : List σ} {k : Nat} {s : St σ ι} {rest : List ι} (hi : Inv A p anchor obj₀ ends k s rest)
    (h : k < p.exercisesPerSession) : Bench.graded s.events < (ends.length + 1) * p.exercisesPerSession := by
  rw [hi.graded, Nat.add_mul]; omega

theorem practice_inv {ends : List σ} : ∀ {xs : List ι} {s : St σ ι} {k : Nat} {s' : St σ ι} {k' : Nat},
    Inv A p anchor obj₀ ends k s xs → k ≤ p.exercisesPerSession → (xs ≠ [] → ¬ Starved s.events) →
    practice A p draws (sessionTimestamp anchor ends.length p.sessionFrequency) xs s k = .ok (s', k') →
    ∃ rest, Inv A p anchor obj₀ ends k' s' rest ∧ k' ≤ p.exercisesPerSession ∧ (rest = [] ∨ k' = p.exercisesPerSession) ∧
      k ≤ k' ∧ (xs ≠ [] → k < p.exercisesPerSession → k < k') ∧ (xs ≠ [] → ¬ Starved s'.events) := by
  intro xs
  induction xs with
  | nil =>
    intro s k s' k' hi hk hs h
    simp only [practice, Except.ok.injEq, Prod.mk.injEq] at h
    obtain ⟨rfl, rfl⟩ := h
    exact ⟨[], hi, hk, Or.inl rfl, le_refl _, by simp, by simp⟩
  | cons x xs ih =>
    intro s k s' k' hi hk hs h
    simp only [practice] at h
    split at h
    · simp only [Except.ok.injEq, Prod.mk.injEq] at h
      obtain ⟨rfl, rfl⟩ := h
      exact ⟨_, hi, hk, Or.inr (by omega), le_refl _, by intro _ _; omega, hs⟩
    · rename_i hlt
      split at h
      · cases h
      · rename_i g hg
        split at h
        · cases h
        · rename_i obj hobj
          have hlt' : k < p.exercisesPerSession := by omega
          have hg' := getScore_canGive hg
          rw [hi.counts] at hg'
          have hinv : Inv A p anchor obj₀ ends (k + 1) ⟨obj, s.counts.put x ((s.counts.find x).getD 0 + 1), s.practiced + 1,
              s.events ++ [.scored x g (exerciseTimestamp (sessionTimestamp anchor ends.length p.sessionFrequency) k)]⟩ xs := by
            refine ⟨?_, ?_, ?_, ?_⟩
            · dsimp only; rw [graded_append, graded_scored, hi.graded]; omega
            · dsimp only; rw [graded_append, graded_scored, hi.practiced]
            · intro y
              dsimp only
              rw [trials_append, trials_scored, hi.counts x]
              by_cases hy : x = y
              · subst hy
                rw [AMap.find_put_self]; simp
              · rw [AMap.find_put_ne _ _ hy, hi.counts]; simp [hy]
            · dsimp only
              have ht := timeOf_session p anchor (n := ends.length) hlt'
              rw [← hi.graded] at ht
              rw [← ht] at hobj ⊢
              exact Story.grade hi.story (hi.lt hlt') hg' hobj
          obtain ⟨rest, h1, h2, h3, h4, h5, h6⟩ := ih hinv (by omega) (fun _ => not_starved_scored _ _ _ _) h
          refine ⟨rest, h1, h2, h3, by omega, by intro _ _; omega, fun _ => ?_⟩
          cases xs with
          | nil =>
            simp only [practice, Except.ok.injEq, Prod.mk.injEq] at h
            obtain ⟨rfl, rfl⟩ := h
            exact not_starved_scored _ _ _ _
          | cons y ys => exact h6 (by simp)

theorem session_inv {ends : List σ} : ∀ {fuel : Nat} {s : St σ ι} {k : Nat} {rest : List ι} {s' : St σ ι} {k' : Nat} {b : Bool},
    Inv A p anchor obj₀ ends k s rest → k ≤ p.exercisesPerSession → p.exercisesPerSession ≤ fuel + k → ¬ Starved s.events →
    (rest = [] ∨ k = p.exercisesPerSession) →
    session A p draws (sessionTimestamp anchor ends.length p.sessionFrequency) fuel s k = .ok (s', k', b) →
    ∃ rest', Inv A p anchor obj₀ ends k' s' rest' ∧ (b = true → k' < p.exercisesPerSession ∧ Starved s'.events) ∧
      (b = false → k' = p.exercisesPerSession ∧ ¬ Starved s'.events) := by
  intro fuel
  induction fuel with
  | zero =>
    intro s k rest s' k' b hi hk hf hs hr h
    simp only [session, Except.ok.injEq, Prod.mk.injEq] at h
    obtain ⟨rfl, rfl, rfl⟩ := h
    exact ⟨rest, hi, by simp, fun _ => ⟨by omega, hs⟩⟩
  | succ fuel ih =>
    intro s k rest s' k' b hi hk hf hs hr h
    simp only [session] at h
    split at h
    · simp only [Except.ok.injEq, Prod.mk.injEq] at h
      obtain ⟨rfl, rfl, rfl⟩ := h
      exact ⟨rest, hi, by simp, fun _ => ⟨by omega, hs⟩⟩
    · rename_i hlt
      have hlt' : k < p.exercisesPerSession := by omega
      split at h
      · cases h
      · rename_i obj ids hb
        have hinv : Inv A p anchor obj₀ ends k (⟨obj, s.counts, s.practiced, s.events ++
            [.batch (exerciseTimestamp (sessionTimestamp anchor ends.length p.sessionFrequency) k) ids]⟩ : St σ ι) ids := by
          refine ⟨?_, ?_, ?_, ?_⟩
          · dsimp only; rw [graded_append, graded_batch, hi.graded]; omega
          · dsimp only; rw [graded_append, graded_batch, hi.practiced]; rfl
          · intro y
            dsimp only
            rw [trials_append, trials_batch, hi.counts]; rfl
          · dsimp only
            have hrest : rest = [] := hr.resolve_right (by omega)
            subst hrest
            have ht := timeOf_session p anchor (n := ends.length) hlt'
            rw [← hi.graded] at ht
            rw [← ht] at hb ⊢
            exact Story.batch hi.story hs (hi.lt hlt') hb
        split at h
        · rename_i hids
          simp only [Except.ok.injEq, Prod.mk.injEq] at h
          obtain ⟨rfl, rfl, rfl⟩ := h
          exact ⟨ids, hinv, fun _ => ⟨hlt', (starved_batch _ _ _).2 hids⟩, by simp⟩
        · rename_i hids
          split at h
          · cases h
          · rename_i s₁ k₁ hp
            obtain ⟨rest₁, h1, h2, h3, h4, h5, h6⟩ := practice_inv hinv hlt'.le
              (fun h => by rw [starved_batch]; exact h) hp
            have := h5 hids hlt'
            exact ih h1 h2 (by omega) (h6 hids) h3 h

theorem checkMastery_iff (A : Api σ ι) (obj : σ) (B : Settings ι) (courses : List ι) :
    checkMastery A obj B courses = true ↔ Mastered A B courses obj := by
  unfold checkMastery Mastered
  constructor
  · intro h c hc
    split at h
    · cases h
    · rename_i a ha
      split at h
      · rename_i hge
        rw [List.all_eq_true] at h
        rcases hc with rfl | hc
        · exact ⟨a, ha, hge⟩
        · have := h c hc
          split at this
          · cases this
          · rename_i s hs
            exact ⟨s, hs, by simpa using this⟩
      · cases h
  · intro h
    obtain ⟨a, ha, hge⟩ := h _ (Or.inl rfl)
    rw [ha]
    dsimp only
    rw [if_pos hge, List.all_eq_true]
    intro c hc
    obtain ⟨s, hs, hge⟩ := h c (Or.inr hc)
    rw [hs]
    simpa using hge

theorem sessions_run {B : Settings ι} {courses : List ι} : ∀ {more n : Nat} {s : St σ ι} {ends : List σ}
    {r : Result σ ι},
    Inv A p anchor obj₀ ends 0 s [] → ¬ Starved s.events → ends.length = n → n + more = B.maxSessions →
    (∀ obj ∈ ends, ¬ Mastered A B courses obj) →
    sessions A p draws B courses anchor more n s ends = .ok r → Run A p B courses anchor obj₀ r := by
  intro more
  induction more with
  | zero =>
    intro n s ends r hi hs hl hm he h
    subst hl
    simp only [sessions, Except.ok.injEq] at h
    subst h
    refine ⟨⟨[], s.obj, hi.story⟩, hi.practiced, by dsimp only; omega, rfl, fun _ => ?_, fun h => absurd h hs,
      fun _ => Or.inl (by dsimp only; omega), ?_, ?_⟩
    · have := hi.graded; have := hi.practiced; dsimp only; omega
    · intro d
      dsimp only
      refine ⟨by simp, ?_⟩
      rintro ⟨before, last, rfl, h, -⟩
      exact absurd h (he last (by simp))
    · rintro before last h obj ho
      dsimp only at h
      subst h
      exact he obj (by simp [ho])
  | succ more ih =>
    intro n s ends r hi hs hl hm he h
    subst hl
    simp only [sessions] at h
    split at h
    · cases h
    · rename_i s' k' heq
      simp only [Except.ok.injEq] at h
      subst h
      obtain ⟨rest', h1, h2, -⟩ := session_inv hi (Nat.zero_le _) (by omega) hs (Or.inl rfl) heq
      obtain ⟨h3, h4⟩ := h2 rfl
      refine ⟨⟨rest', s'.obj, h1.story⟩, h1.practiced, by dsimp only; omega, rfl, fun h => absurd h4 h,
        fun _ => ⟨rfl, by dsimp only; omega, k', h3, ?_⟩, fun _ => Or.inr h4, ?_, ?_⟩
      · have := h1.graded; have := h1.practiced; dsimp only; omega
      · intro d
        dsimp only
        refine ⟨by simp, ?_⟩
        rintro ⟨before, last, rfl, h, -⟩
        exact absurd h (he last (by simp))
      · rintro before last h obj ho
        dsimp only at h
        subst h
        exact he obj (by simp [ho])
    · rename_i s' k' heq
      obtain ⟨rest', h1, -, h2⟩ := session_inv hi (Nat.zero_le _) (by omega) hs (Or.inl rfl) heq
      obtain ⟨rfl, h4⟩ := h2 rfl
      have hgr : graded s'.events = (ends.length + 1) * p.exercisesPerSession := by
        rw [h1.graded, Nat.add_mul, Nat.one_mul]
      have hst := Story.ended h1.story hgr rfl
      split at h
      · rename_i hc
        rw [checkMastery_iff] at hc
        simp only [Except.ok.injEq] at h
        subst h
        refine ⟨⟨[], _, hst⟩, h1.practiced, by dsimp only; omega, by simp, fun _ => ?_, fun h => absurd h h4,
          by simp, ?_, ?_⟩
        · have := h1.graded; have := h1.practiced
          dsimp only; omega
        · intro d
          dsimp only
          constructor
          · intro h
            exact ⟨ends, _, rfl, hc, by simpa using h.symm⟩
          · rintro ⟨before, last, h, -, rfl⟩
            obtain ⟨rfl, -⟩ := List.append_inj' h rfl
            rfl
        · rintro before last h obj ho
          dsimp only at h
          obtain ⟨rfl, -⟩ := List.append_inj' h rfl
          exact he obj ho
      · rename_i hc
        rw [checkMastery_iff] at hc
        refine ih (n := ends.length + 1)
          (s := ⟨A.overrideTime s'.obj (exerciseTimestamp (sessionTimestamp anchor ends.length p.sessionFrequency)
            p.exercisesPerSession), s'.counts, s'.practiced, s'.events⟩)
          (ends := ends ++ [A.overrideTime s'.obj (exerciseTimestamp (sessionTimestamp anchor ends.length
            p.sessionFrequency) p.exercisesPerSession)])
          ⟨?_, h1.practiced, h1.counts, hst⟩ h4 (by simp) (by omega) ?_ h
        · rw [List.length_append]; exact hgr
        · intro obj ho
          rcases List.mem_append.1 ho with h | h
          · exact he obj h
          · rw [List.mem_singleton.1 h]; exact hc

theorem simulate_run {B : Settings ι} {courses : List ι} {r : Result σ ι}
    (h : simulate A p draws B courses anchor obj₀ = .ok r) : Run A p B courses anchor obj₀ r := by
  unfold simulate at h
  refine sessions_run (ends := []) ⟨?_, ?_, ?_, .start⟩ ?_ rfl (by simp) (by simp) h
  · simp [graded]
  · simp [graded]
  · intro x; rfl
  · rintro ⟨pre, t, h⟩
    simp at h

end Trane.Bench
