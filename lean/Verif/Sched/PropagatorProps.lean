import Verif.Sched.PropagatorLemmas

/-!
# Properties of reward propagation

C28, C29 and C61.
-/

namespace Trane.Propagator
open Trane

variable {ι : Type} [DecidableEq ι]

/-- `rs` are the rewards propagated for the score. -/
def Propagates (g : Graph ι) (empty e : ι) (score : MasteryScore) (t : Int)
    (rs : List (UnitReward ι)) : Prop := ∃ fuel, propagate g empty fuel e score t = some rs

/-- The lesson and the course of an exercise, when both are known and have nonempty names. -/
def Roots (g : Graph ι) (empty e l c : ι) : Prop :=
  g.getExerciseLesson e = some l ∧ g.getLessonCourse l = some c ∧ l ≠ empty ∧ c ≠ empty

/-- Four and five are good scores. -/
def isGood : MasteryScore → Bool
  | .four | .five => true
  | _ => false

theorem isGood_iff (s : MasteryScore) : decide (0 < initialReward s) = isGood s := by
  cases s <;> norm_num [initialReward, isGood]

theorem propagates_cases {g : Graph ι} {empty e : ι} {score : MasteryScore} {t : Int}
    {rs : List (UnitReward ι)} (h : Propagates g empty e score t rs) :
    rs = [] ∨ ∃ l c m fuel, Roots g empty e l c ∧
      loop g t fuel [] (initialItems g l c (initialReward score) t).reverse = some m ∧
      rs = m.map Prod.snd := by
  obtain ⟨fuel, h⟩ := h
  unfold propagate at h
  split at h
  · cases h; exact Or.inl rfl
  · rename_i l c hr
    unfold helper at h
    split at h
    · cases h; exact Or.inl rfl
    · rename_i hne
      rw [Option.map_eq_some_iff] at h
      obtain ⟨m, hm, rfl⟩ := h
      refine Or.inr ⟨l, c, m, fuel, ?_, hm, rfl⟩
      unfold resolveRoots at hr
      rw [Option.bind_eq_some_iff] at hr
      obtain ⟨l', h1, h2⟩ := hr
      rw [Option.map_eq_some_iff] at h2
      obtain ⟨c', h2, h3⟩ := h2
      cases h3
      exact ⟨h1, h2, fun e => hne (Or.inl e), fun e => hne (Or.inr e)⟩

theorem propagates_roots {g : Graph ι} {empty e l c : ι} {score : MasteryScore} {t : Int}
    {rs : List (UnitReward ι)} (h : Propagates g empty e score t rs) (hr : Roots g empty e l c) :
    ∃ m fuel, loop g t fuel [] (initialItems g l c (initialReward score) t).reverse = some m ∧
      rs = m.map Prod.snd := by
  obtain ⟨fuel, h⟩ := h
  obtain ⟨h1, h2, h3, h4⟩ := hr
  unfold propagate resolveRoots at h
  rw [h1] at h
  simp only [Option.bind_some, h2, Option.map_some] at h
  unfold helper at h
  rw [if_neg (by rintro (e | e); exacts [h3 e, h4 e]), Option.map_eq_some_iff] at h
  obtain ⟨m, hm, rfl⟩ := h
  exact ⟨m, fuel, hm, rfl⟩

theorem mem_values {m : AMap ι (UnitReward ι)} (hn : m.keys.Nodup) {r : UnitReward ι} :
    r ∈ m.map Prod.snd ↔ ∃ u, m.find u = some r := by
  rw [List.mem_map]
  constructor
  · rintro ⟨⟨u, r'⟩, hm, rfl⟩
    exact ⟨u, AMap.find_of_mem hn hm⟩
  · rintro ⟨u, h⟩
    exact ⟨(u, r), AMap.mem_of_find h, rfl⟩

/-! ### C28 -/

/-- C28: propagation ends, on every graph that can be built and for every exercise and score, and the
number of steps available does not change the result. -/
theorem propagation_terminates (ops : List (Graph.Op ι)) (empty e : ι) (score : MasteryScore)
    (t : Int) : ∃ N, ∀ fuel, N ≤ fuel → ∃ rs, propagate (Graph.run ops) empty fuel e score t = some rs := by
  unfold propagate
  cases hr : resolveRoots (Graph.run ops) e with
  | none => exact ⟨0, fun fuel _ => ⟨[], rfl⟩⟩
  | some p =>
    obtain ⟨l, c⟩ := p
    obtain ⟨N, hN⟩ := loop_total (validWeights_run ops) l c (initialReward score) t
    refine ⟨N, fun fuel hf => ?_⟩
    dsimp only
    unfold helper
    split
    · exact ⟨[], rfl⟩
    · obtain ⟨m, hm⟩ := hN fuel hf
      rw [hm]
      exact ⟨_, rfl⟩

theorem loop_fuel {g : Graph ι} {t : Int} {f1 f2 : Nat} (h : f1 ≤ f2) :
    ∀ {m : AMap ι (UnitReward ι)} {s : List (UnitReward ι)} {r : AMap ι (UnitReward ι)},
      loop g t f1 m s = some r → loop g t f2 m s = some r := by
  induction f1 generalizing f2 with
  | zero =>
    intro m s r hl
    cases s with
    | nil => cases f2 <;> exact hl
    | cons => cases hl
  | succ f1 ih =>
    intro m s r hl
    obtain ⟨f2, rfl⟩ : ∃ k, f2 = k + 1 := ⟨f2 - 1, by omega⟩
    cases s with
    | nil => exact hl
    | cons i s =>
      rw [loop] at hl ⊢
      split
      · rename_i hw; rw [if_pos hw] at hl; exact ih (by omega) hl
      · rename_i hw; rw [if_neg hw] at hl; exact ih (by omega) hl

/-- C28: the propagated rewards are determined by the graph, the exercise, the score and the time. -/
theorem propagation_unique {g : Graph ι} {empty e : ι} {score : MasteryScore} {t : Int}
    {rs rs' : List (UnitReward ι)} (h : Propagates g empty e score t rs)
    (h' : Propagates g empty e score t rs') : rs = rs' := by
  obtain ⟨f, h⟩ := h
  obtain ⟨f', h'⟩ := h'
  have key : ∀ {f f' : Nat} {rs : List (UnitReward ι)}, f ≤ f' →
      propagate g empty f e score t = some rs → propagate g empty f' e score t = some rs := by
    intro f f' rs hf h
    unfold propagate at h ⊢
    cases hr : resolveRoots g e with
    | none => rw [hr] at h; exact h
    | some p =>
      rw [hr] at h
      dsimp only at h ⊢
      unfold helper at h ⊢
      split
      · rename_i hc; rw [if_pos hc] at h; exact h
      · rename_i hc
        rw [if_neg hc, Option.map_eq_some_iff] at h
        obtain ⟨m, hm, rfl⟩ := h
        rw [loop_fuel hf hm]; rfl
  rcases Nat.le_total f f' with hf | hf
  · exact Option.some.inj ((key hf h).symm.trans h')
  · exact Option.some.inj (h.symm.trans (key hf h'))

/-- The following theorem for any graph whose weights lie between 0 and 1. -/
theorem rewards_bounded_of {g : Graph ι} (vw : ValidWeights g) (empty e : ι) (score : MasteryScore) (t : Int)
    (rs : List (UnitReward ι)) (h : Propagates g empty e score t rs) :
    (rs.map UnitReward.unit).Nodup ∧
    ∀ r ∈ rs, (isGood score = true → 0 < r.value) ∧ (isGood score = false → r.value < 0) ∧
      1 / 5 ≤ |r.value| ∧ |r.value| ≤ |initialReward score| ∧
      1 / 5 ≤ r.weight ∧ r.weight ≤ 1 ∧ r.time = t := by
  rcases propagates_cases h with rfl | ⟨l, c, m, fuel, _, hm, rfl⟩
  · simp
  have hI := inv_loop vw hm
  constructor
  · have : (m.map Prod.snd).map UnitReward.unit = m.keys := by
      unfold AMap.keys
      rw [List.map_map]
      apply List.map_congr_left
      rintro ⟨u, r⟩ hu
      exact hI.key u r (AMap.find_of_mem hI.nodup hu)
    rw [this]
    exact hI.nodup
  · intro r hr
    obtain ⟨u, hu⟩ := (mem_values hI.nodup).1 hr
    have hg := hI.good r (Or.inr ⟨u, hu⟩)
    have hs := good_sign hg
    obtain ⟨p, k, _, hp0, hp1, hv, hw, ha, hb, ht⟩ := hg
    have hgood := isGood_iff score
    have h9 : (0 : ℚ) ≤ rewardFactor ^ k ∧ rewardFactor ^ k ≤ 1 :=
      ⟨pow_nonneg (by norm_num [rewardFactor]) k,
       pow_le_one₀ (by norm_num [rewardFactor]) (by norm_num [rewardFactor])⟩
    have h8 : (0 : ℚ) ≤ weightFactor ^ k ∧ weightFactor ^ k ≤ 1 :=
      ⟨pow_nonneg (by norm_num [weightFactor]) k,
       pow_le_one₀ (by norm_num [weightFactor]) (by norm_num [weightFactor])⟩
    have hone : p * rewardFactor ^ k ≤ 1 := mul_le_one₀ hp1 h9.1 h9.2
    have hnn : 0 ≤ p * rewardFactor ^ k := mul_nonneg hp0.le h9.1
    refine ⟨?_, ?_, ha, ?_, hb, ?_, ht⟩
    · intro hh
      rw [hh] at hgood
      exact hs.2 (of_decide_eq_true hgood)
    · intro hh
      rw [hh] at hgood
      have h0 : ¬ 0 < r.value := fun h0 => of_decide_eq_false hgood (hs.1 h0)
      rcases lt_or_eq_of_le (not_lt.1 h0) with h1 | h1
      · exact h1
      · rw [h1] at ha; norm_num [minAbsReward] at ha
    · rw [hv, mul_assoc, abs_mul, abs_of_nonneg hnn]
      calc |initialReward score| * (p * rewardFactor ^ k) ≤ |initialReward score| * 1 :=
            mul_le_mul_of_nonneg_left hone (abs_nonneg _)
        _ = _ := mul_one _
    · rw [hw]; exact mul_le_one₀ hp1 h8.1 h8.2

/-- C28: each unit receives at most one reward; the reward is positive exactly for the scores four and
five and negative otherwise; its magnitude lies between 0.2 and that of the initial reward, its weight
between 0.2 and 1, and it carries the time of the score. -/
theorem rewards_bounded (ops : List (Graph.Op ι)) (empty e : ι) (score : MasteryScore) (t : Int)
    (rs : List (UnitReward ι)) (h : Propagates (Graph.run ops) empty e score t rs) :
    (rs.map UnitReward.unit).Nodup ∧
    ∀ r ∈ rs, (isGood score = true → 0 < r.value) ∧ (isGood score = false → r.value < 0) ∧
      1 / 5 ≤ |r.value| ∧ |r.value| ≤ |initialReward score| ∧
      1 / 5 ≤ r.weight ∧ r.weight ≤ 1 ∧ r.time = t :=
  rewards_bounded_of (validWeights_run ops) empty e score t rs h

/-! ### C29 -/

/-- The following theorem for any graph whose weights lie between 0 and 1. -/
theorem rewards_follow_edges_of {g : Graph ι} (vw : ValidWeights g) (empty e : ι) (score : MasteryScore) (t : Int)
    (rs : List (UnitReward ι)) (h : Propagates g empty e score t rs) :
    ∀ r ∈ rs, ∃ l c p k, Roots g empty e l c ∧
      Path g (isGood score) l c r.unit p (k + 1) ∧
      r.value = initialReward score * p * (9 / 10) ^ k ∧ r.weight = p * (4 / 5) ^ k := by
  rcases propagates_cases h with rfl | ⟨l, c, m, fuel, hroots, hm, rfl⟩
  · simp
  intro r hr
  have hI := inv_loop vw hm
  obtain ⟨u, hu⟩ := (mem_values hI.nodup).1 hr
  obtain ⟨p, k, hpath, _, _, hv, hw, _⟩ := hI.good r (Or.inr ⟨u, hu⟩)
  rw [isGood_iff] at hpath
  exact ⟨l, c, p, k, hroots, hpath, hv, hw⟩

/-- C29: a reward goes only to a unit that a chain of encompassing (good score) or encompassed-by (bad
score) edges connects to the lesson or the course of the exercise.  Its value is the initial reward
times the weights of the chain, shrunk by 0.9 for each edge after the first, and its weight is the
product of the weights, shrunk by 0.8 likewise. -/
theorem rewards_follow_edges (ops : List (Graph.Op ι)) (empty e : ι) (score : MasteryScore) (t : Int)
    (rs : List (UnitReward ι)) (h : Propagates (Graph.run ops) empty e score t rs) :
    ∀ r ∈ rs, ∃ l c p k, Roots (Graph.run ops) empty e l c ∧
      Path (Graph.run ops) (isGood score) l c r.unit p (k + 1) ∧
      r.value = initialReward score * p * (9 / 10) ^ k ∧ r.weight = p * (4 / 5) ^ k :=
  rewards_follow_edges_of (validWeights_run ops) empty e score t rs h

/-! ### C61 -/

/-- The following theorem for any graph whose weights lie between 0 and 1. -/
theorem rewards_closed_of {g : Graph ι} (vw : ValidWeights g) (empty e l c : ι) (score : MasteryScore) (t : Int)
    (rs : List (UnitReward ι)) (h : Propagates g empty e score t rs)
    (hr : Roots g empty e l c) :
    (∀ s v w, s = l ∨ s = c → Edge g (isGood score) s v w →
      1 / 5 ≤ |w * initialReward score| → 1 / 5 ≤ w →
      ∃ r ∈ rs, r.unit = v ∧ |w * initialReward score| ≤ |r.value|) ∧
    (∀ r ∈ rs, ∀ v w, Edge g (isGood score) r.unit v w →
      1 / 5 ≤ |w * (9 / 10) * r.value| → 1 / 5 ≤ w * (4 / 5) * r.weight →
      ∃ r' ∈ rs, r'.unit = v ∧ |w * (9 / 10) * r.value| ≤ |r'.value|) := by
  obtain ⟨m, fuel, hm, rfl⟩ := propagates_roots h hr
  have hI := inv_loop vw hm
  constructor
  · intro s v w hs he h1 h2
    rw [← isGood_iff] at he
    have hst : stop (w * initialReward score) w = false := stop_false.2 ⟨h1, h2⟩
    have hmem : (⟨v, w * initialReward score, w, t⟩ : UnitReward ι) ∈
        initialItems g l c (initialReward score) t := by
      unfold initialItems
      refine List.mem_map.2 ⟨(v, w), List.mem_filter.2 ⟨?_, by simp [hst]⟩, rfl⟩
      rcases hs with rfl | rfl
      · exact List.mem_append_left _ (mem_nextUnits.2 he)
      · exact List.mem_append_right _ (mem_nextUnits.2 he)
    rcases hI.start _ hmem with ⟨r', hr', _⟩ | ⟨r', hr', hv⟩
    · cases hr'
    · exact ⟨r', (mem_values hI.nodup).2 ⟨_, hr'⟩, hI.key _ _ hr', hv⟩
  · intro r hr v w he h1 h2
    obtain ⟨u, hu⟩ := (mem_values hI.nodup).1 hr
    have hg := good_sign (hI.good r (Or.inr ⟨u, hu⟩))
    rw [← isGood_iff, ← decide_eq_decide.2 hg] at he
    have hst : stop (w * rewardFactor * r.value) (w * weightFactor * r.weight) = false :=
      stop_false.2 ⟨h1, h2⟩
    have hmem : (⟨v, w * rewardFactor * r.value, w * weightFactor * r.weight, t⟩ : UnitReward ι) ∈
        nextItems g r t := by
      unfold nextItems
      exact List.mem_map.2 ⟨(v, w), List.mem_filter.2 ⟨mem_nextUnits.2 he, by simp [hst]⟩, rfl⟩
    rcases hI.closed u r hu _ hmem with ⟨r', hr', _⟩ | ⟨r', hr', hv⟩
    · cases hr'
    · exact ⟨r', (mem_values hI.nodup).2 ⟨_, hr'⟩, hI.key _ _ hr', hv⟩

/-- C61: nothing is left out.  A neighbour of the lesson or course whose reward passes both thresholds
receives a reward at least as strong; and so does a neighbour of every rewarded unit. -/
theorem rewards_closed (ops : List (Graph.Op ι)) (empty e l c : ι) (score : MasteryScore) (t : Int)
    (rs : List (UnitReward ι)) (h : Propagates (Graph.run ops) empty e score t rs)
    (hr : Roots (Graph.run ops) empty e l c) :
    (∀ s v w, s = l ∨ s = c → Edge (Graph.run ops) (isGood score) s v w →
      1 / 5 ≤ |w * initialReward score| → 1 / 5 ≤ w →
      ∃ r ∈ rs, r.unit = v ∧ |w * initialReward score| ≤ |r.value|) ∧
    (∀ r ∈ rs, ∀ v w, Edge (Graph.run ops) (isGood score) r.unit v w →
      1 / 5 ≤ |w * (9 / 10) * r.value| → 1 / 5 ≤ w * (4 / 5) * r.weight →
      ∃ r' ∈ rs, r'.unit = v ∧ |w * (9 / 10) * r.value| ≤ |r'.value|) :=
  rewards_closed_of (validWeights_run ops) empty e l c score t rs h hr

theorem edge_default {g : Graph ι} (hd : g.encompassingEqualsDependency = true) (score : MasteryScore)
    (u v : ι) (w : ℚ) : Edge g (isGood score) u v w ↔ Flows g score u v ∧ w = 1 := by
  unfold Graph.encompassingEqualsDependency at hd
  rw [Bool.and_eq_true] at hd
  have hA : Edge g true u v w ↔ Graph.DependsOn g u v ∧ w = 1 := by
    unfold Edge Graph.getEncompasses Graph.DependsOn
    rw [if_pos rfl, if_pos hd.1]
    cases hs : g.getDependencies u with
    | none => simp
    | some s =>
      simp only [Option.map_some, Option.some.injEq, exists_eq_left', List.mem_map, Prod.mk.injEq]
      constructor
      · rintro ⟨d, h, rfl, rfl⟩; exact ⟨h, rfl⟩
      · rintro ⟨h, rfl⟩; exact ⟨v, h, rfl, rfl⟩
  have hB : Edge g false u v w ↔ Graph.HasDependent g u v ∧ w = 1 := by
    unfold Edge Graph.getEncompassedBy Graph.HasDependent
    rw [if_neg (by simp), if_pos hd.2]
    cases hs : g.getDependents u with
    | none => simp
    | some s =>
      simp only [Option.map_some, Option.some.injEq, exists_eq_left', List.mem_map, Prod.mk.injEq]
      constructor
      · rintro ⟨d, h, rfl, rfl⟩; exact ⟨h, rfl⟩
      · rintro ⟨h, rfl⟩; exact ⟨v, h, rfl, rfl⟩
  cases score <;> simp only [isGood, Flows] <;> first | exact hA | exact hB

theorem path_default {g : Graph ι} (hd : g.encompassingEqualsDependency = true) {score : MasteryScore}
    {l c v : ι} {p : ℚ} {k : Nat} (h : Path g (isGood score) l c v p k) :
    p = 1 ∧ 0 < k ∧ (Walk (Flows g score) k l v ∨ Walk (Flows g score) k c v) := by
  induction h with
  | first hs he =>
    obtain ⟨hf, rfl⟩ := (edge_default hd score _ _ _).1 he
    refine ⟨rfl, by omega, ?_⟩
    rcases hs with rfl | rfl
    · exact Or.inl (.step (.nil _) hf)
    · exact Or.inr (.step (.nil _) hf)
  | step _ he ih =>
    obtain ⟨hf, rfl⟩ := (edge_default hd score _ _ _).1 he
    obtain ⟨rfl, _, ih⟩ := ih
    exact ⟨by norm_num, by omega, ih.imp (fun h => .step h hf) (fun h => .step h hf)⟩

/-- The following theorem for any graph whose weights lie between 0 and 1. -/
theorem default_rewards_exact_of {g : Graph ι} (vw : ValidWeights g) (empty e l c : ι) (score : MasteryScore)
    (t : Int) (rs : List (UnitReward ι)) (h : Propagates g empty e score t rs)
    (hr : Roots g empty e l c)
    (hd : g.encompassingEqualsDependency = true) (r : UnitReward ι) :
    r ∈ rs ↔ ∃ k, Distance (Flows g score) l c r.unit (k + 1) ∧
      r.value = initialReward score * (9 / 10) ^ k ∧ r.weight = (4 / 5) ^ k ∧ r.time = t ∧
      1 / 5 ≤ |r.value| ∧ 1 / 5 ≤ r.weight := by
  obtain ⟨hc1, hc2⟩ := rewards_closed_of vw empty e l c score t rs h hr
  obtain ⟨hnd, hb⟩ := rewards_bounded_of vw empty e score t rs h
  -- every reward comes from a walk
  have hsound : ∀ r ∈ rs, ∃ j, (Walk (Flows g score) (j + 1) l r.unit ∨
      Walk (Flows g score) (j + 1) c r.unit) ∧
      r.value = initialReward score * (9 / 10) ^ j ∧ r.weight = (4 / 5) ^ j := by
    intro r hrm
    obtain ⟨l', c', p, k, hroots, hpath, hv, hw⟩ := rewards_follow_edges_of vw empty e score t rs h r hrm
    obtain ⟨h1, h2, _⟩ := hroots
    obtain ⟨h1', h2', _⟩ := hr
    rw [h1'] at h1; cases h1
    rw [h2'] at h2; cases h2
    obtain ⟨rfl, _, hwalk⟩ := path_default hd hpath
    exact ⟨k, hwalk, by rw [hv, mul_one], by rw [hw, one_mul]⟩
  have hanti : ∀ {i j : Nat}, i ≤ j → ((9 : ℚ) / 10) ^ j ≤ (9 / 10) ^ i ∧ ((4 : ℚ) / 5) ^ j ≤ (4 / 5) ^ i :=
    fun hij => ⟨pow_le_pow_of_le_one (by norm_num) (by norm_num) hij,
      pow_le_pow_of_le_one (by norm_num) (by norm_num) hij⟩
  have hi0 : 0 < |initialReward score| := by cases score <;> norm_num [initialReward]
  have habs : ∀ j : Nat, |initialReward score * (9 / 10) ^ j| = |initialReward score| * (9 / 10) ^ j := by
    intro j
    rw [abs_mul, abs_of_nonneg (pow_nonneg (by norm_num : (0 : ℚ) ≤ 9 / 10) j)]
  have hlt : ∀ {i j : Nat}, |initialReward score * (9 / 10) ^ j| ≤ |initialReward score * (9 / 10) ^ i| →
      i ≤ j := by
    intro i j hij
    rw [habs, habs] at hij
    have := le_of_mul_le_mul_left hij hi0
    by_contra hc
    have := pow_lt_pow_right_of_lt_one₀ (by norm_num : (0 : ℚ) < 9 / 10) (by norm_num) (not_le.1 hc)
    linarith
  -- every walk of allowed length gives a reward at least as strong
  have hcomplete : ∀ k s v, s = l ∨ s = c → Walk (Flows g score) (k + 1) s v →
      1 / 5 ≤ |initialReward score * (9 / 10) ^ k| → (1 : ℚ) / 5 ≤ (4 / 5) ^ k →
      ∃ r ∈ rs, r.unit = v ∧ |initialReward score * (9 / 10) ^ k| ≤ |r.value| := by
    intro k
    induction k with
    | zero =>
      intro s v hs hw h1 h2
      cases hw with
      | step hw hf =>
        cases hw
        have := hc1 s v 1 hs ((edge_default hd score _ _ _).2 ⟨hf, rfl⟩)
          (by simpa using h1) (by norm_num)
        simpa using this
    | succ k ih =>
      intro s v hs hw h1 h2
      cases hw with
      | @step _ _ b _ hw hf =>
        obtain ⟨r, hrm, hru, hrv⟩ := ih s b hs hw
          (le_trans h1 (by rw [habs, habs]; exact mul_le_mul_of_nonneg_left (hanti (by omega)).1 hi0.le))
          (le_trans h2 (hanti (by omega)).2)
        obtain ⟨j, _, hjv, hjw⟩ := hsound r hrm
        rw [hjv] at hrv
        have hjk := hlt hrv
        have e1 : 1 * (9 / 10) * r.value = initialReward score * (9 / 10) ^ (j + 1) := by
          rw [hjv]; ring
        have e2 : 1 * (4 / 5) * r.weight = (4 / 5) ^ (j + 1) := by
          rw [hjw, one_mul, pow_succ, mul_comm]
        have hle : |initialReward score * (9 / 10) ^ (k + 1)| ≤
            |initialReward score * (9 / 10) ^ (j + 1)| := by
          rw [habs, habs]; exact mul_le_mul_of_nonneg_left (hanti (by omega)).1 hi0.le
        obtain ⟨r', hr', hu', hv'⟩ := hc2 r hrm v 1
          ((edge_default hd score _ _ _).2 ⟨by rw [hru]; exact hf, rfl⟩)
          (by rw [e1]; exact le_trans h1 hle)
          (by rw [e2]; exact le_trans h2 (hanti (by omega)).2)
        rw [e1] at hv'
        exact ⟨r', hr', hu', le_trans hle hv'⟩
  constructor
  · intro hrm
    obtain ⟨k, hwalk, hv, hw⟩ := hsound r hrm
    obtain ⟨_, _, b1, b2, b3, b4, b5⟩ := hb r hrm
    refine ⟨k, ⟨by omega, hwalk, ?_⟩, hv, hw, b5, b1, b3⟩
    intro m hm0 hm
    obtain ⟨m, rfl⟩ : ∃ q, m = q + 1 := ⟨m - 1, by omega⟩
    have hno : ∀ s, s = l ∨ s = c → ¬ Walk (Flows g score) (m + 1) s r.unit := by
      intro s hs hwm
      obtain ⟨r', hr', hu', hv'⟩ := hcomplete m s r.unit hs hwm
        (le_trans b1 (by rw [hv, habs, habs]; exact mul_le_mul_of_nonneg_left (hanti (by omega)).1 hi0.le))
        (le_trans b3 (by rw [hw]; exact (hanti (by omega)).2))
      have : r' = r := List.inj_on_of_nodup_map hnd hr' hrm hu'
      subst this
      rw [hv] at hv'
      have := hlt hv'
      omega
    exact ⟨hno l (Or.inl rfl), hno c (Or.inr rfl)⟩
  · rintro ⟨k, ⟨_, hwalk, hmin⟩, hv, hw, ht, b1, b2⟩
    have : ∃ r' ∈ rs, r'.unit = r.unit ∧ |initialReward score * (9 / 10) ^ k| ≤ |r'.value| := by
      rw [hv] at b1
      rw [hw] at b2
      rcases hwalk with hwk | hwk
      · exact hcomplete k l _ (Or.inl rfl) hwk b1 b2
      · exact hcomplete k c _ (Or.inr rfl) hwk b1 b2
    obtain ⟨r', hr', hu', hv'⟩ := this
    obtain ⟨j, hjw, hjv, hjwt⟩ := hsound r' hr'
    rw [hjv] at hv'
    have hjk := hlt hv'
    have hkj : k ≤ j := by
      by_contra hc
      have := hmin (j + 1) (by omega) (by omega)
      rw [hu'] at hjw
      exact hjw.elim this.1 this.2
    have hjk : j = k := by omega
    subst hjk
    have : r' = r := by
      obtain ⟨u', v', w', t'⟩ := r'
      obtain ⟨u, v, w, t''⟩ := r
      have htt := (hb _ hr').2.2.2.2.2.2
      dsimp only at *
      subst hu' hv hw hjv hjwt htt
      rw [ht]
    rw [← this]; exact hr'

/-- C61 (partial: default weights only).  When the encompassing relation is the dependency relation (no library author gave weights), a
unit is rewarded exactly when its distance `k + 1` from the lesson or course keeps the reward and its
weight at 0.2 or more, and its reward is the initial reward shrunk by 0.9 for each step after the
first.  So the result does not depend on the order of traversal. -/
theorem default_rewards_exact_partial (ops : List (Graph.Op ι)) (empty e l c : ι) (score : MasteryScore)
    (t : Int) (rs : List (UnitReward ι)) (h : Propagates (Graph.run ops) empty e score t rs)
    (hr : Roots (Graph.run ops) empty e l c)
    (hd : (Graph.run ops).encompassingEqualsDependency = true) (r : UnitReward ι) :
    r ∈ rs ↔ ∃ k, Distance (Flows (Graph.run ops) score) l c r.unit (k + 1) ∧
      r.value = initialReward score * (9 / 10) ^ k ∧ r.weight = (4 / 5) ^ k ∧ r.time = t ∧
      1 / 5 ≤ |r.value| ∧ 1 / 5 ≤ r.weight :=
  default_rewards_exact_of (validWeights_run ops) empty e l c score t rs h hr hd r

/-! ### Examples -/

/-- Course 1 with lessons 10, 11, 12; each lesson depends on the previous one; exercise 120. -/
def chain : List (Graph.Op Nat) := [.addCourse 1, .addLesson 10 1, .addLesson 11 1, .addLesson 12 1,
  .addExercise 120 12, .addDependencies 11 .lesson [10], .addDependencies 12 .lesson [11]]

/-- The hypotheses of the theorems above hold for a good and a bad score. -/
example : Roots (Graph.run chain) 0 120 12 1 ∧
    (Graph.run chain).encompassingEqualsDependency = true ∧
    Propagates (Graph.run chain) 0 120 .five 7 [⟨11, 4 / 5, 1, 7⟩, ⟨10, 18 / 25, 4 / 5, 7⟩] ∧
    Propagates (Graph.run chain) 0 120 .one 7 [] :=
  ⟨⟨by decide +kernel, by decide +kernel, by decide +kernel, by decide +kernel⟩, by decide +kernel,
    ⟨10, by decide +kernel⟩, ⟨10, by decide +kernel⟩⟩

/-- Lesson 10 encompasses 13 directly and through 11 and 12; 13 encompasses 14.  The two libraries only
differ in the order in which the manifest of lesson 10 lists its units. -/
def diamond (es : List (Nat × ℚ)) : List (Graph.Op Nat) := [.addCourse 1, .addLesson 10 1,
  .addLesson 11 1, .addLesson 12 1, .addLesson 13 1, .addLesson 14 1, .addExercise 100 10,
  .addEncompassed 10 [] es, .addEncompassed 11 [] [(12, 1)], .addEncompassed 12 [] [(13, 1)],
  .addEncompassed 13 [] [(14, 3 / 5)]]

/-- C61 is false in general: a unit receives a reward or not depending on the order in which a manifest
lists the encompassed units. -/
theorem rewards_depend_on_order : ∃ es es' : List (Nat × ℚ), es.Perm es' ∧ ∃ rs rs',
    Propagates (Graph.run (diamond es)) 0 100 .five 7 rs ∧
    Propagates (Graph.run (diamond es')) 0 100 .five 7 rs' ∧
    (∃ r ∈ rs, r.unit = 14) ∧ ¬ ∃ r ∈ rs', r.unit = 14 := by
  refine ⟨[(11, 63 / 100), (13, 1 / 2)], [(13, 1 / 2), (11, 63 / 100)], List.Perm.swap .., ?_⟩
  refine ⟨(propagate (Graph.run (diamond [(11, 63 / 100), (13, 1 / 2)])) 0 20 100 .five 7).getD [],
    (propagate (Graph.run (diamond [(13, 1 / 2), (11, 63 / 100)])) 0 20 100 .five 7).getD [],
    ⟨20, by decide +kernel⟩, ⟨20, by decide +kernel⟩, by decide +kernel, by decide +kernel⟩

end Trane.Propagator
