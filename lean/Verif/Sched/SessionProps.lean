import Verif.Sched.BatchProps

/-!
# The relearn pile and the success rate over a whole session

A session is any sequence of accepted scores and batch requests.  The library, the blacklist, the scores and
the options may change between requests: each request carries its own environment.
-/

namespace Trane.Batch
open Trane.Search
open Trane.Filters (UnitFilter)

variable {ι : Type} [DecidableEq ι]

/-- A batch request. -/
structure Request (ι : Type) where
  env : Env ι
  options : SchedulerOptions
  choices : Choices ι
  fuel : Nat
  entries : List ι
  filter : Option (UnitFilter ι)

/-- What happens in a session. -/
inductive Act (ι : Type)
  /-- an exercise is given a grade, which is stored -/
  | grade (x : ι) (g : MasteryScore)
  /-- a batch is requested -/
  | batch (q : Request ι)

/-- The session part of `score_exercise`, /repo/src/scheduler.rs:1138-1142. -/
def graded (s : Session ι) (x : ι) (g : MasteryScore) : Session ι :=
  updateRate { s with pile := updatePile s.pile x g } g

/-- One step; a request that never ends (lack of fuel) leaves the session as it is. -/
def act (s : Session ι) : Act ι → Session ι
  | .grade x g => graded s x g
  | .batch q => match getBatch q.env q.options q.choices q.fuel q.entries s q.filter with
    | none => s
    | some r => r.1

/-- A session from its start. -/
def session (h : List (Act ι)) : Session ι := h.foldl act {}

/-! ### Vocabulary -/

/-- Grades 1 and 2. -/
def Failing (g : MasteryScore) : Prop := g.toFloat ≤ 2

/-- The libraries of the requests are loaded libraries. -/
def Proper (h : List (Act ι)) : Prop :=
  ∀ q, Act.batch q ∈ h → Sane q.env ∧ IsChoices q.choices

/-- The search of the request produces candidates, so that the pile is looked at. -/
def Searched (q : Request ι) : Prop :=
  ∃ cs, initialCandidates q.env q.choices.rnds q.fuel q.entries q.filter = some (some cs)

/-- The last grade of `x` in `h` was a failing one, and no request since then found `x` blacklisted. -/
def ToRelearn (h : List (Act ι)) (x : ι) : Prop :=
  ∃ before g since, h = before ++ .grade x g :: since ∧ Failing g ∧ (∀ g', Act.grade x g' ∉ since) ∧
    ∀ q, Act.batch q ∈ since → Searched q → ¬ Blacklisted q.env x

/-! ### Lemmas -/

theorem failing_iff (g : MasteryScore) : failing g = true ↔ Failing g := by
  cases g <;> simp [failing, Failing, MasteryScore.toFloat] <;> norm_num

theorem updateRate_pile (s : Session ι) (g : MasteryScore) : (updateRate s g).pile = s.pile := by
  unfold updateRate; split <;> rfl

theorem act_batch_pile {s : Session ι} {q : Request ι} (he : Sane q.env) (hch : IsChoices q.choices)
    (hfuel : getBatch q.env q.options q.choices q.fuel q.entries s q.filter ≠ none) (x : ι) :
    x ∈ (act s (.batch q)).pile ↔ x ∈ s.pile ∧ (Searched q → ¬ Blacklisted q.env x) := by
  simp only [act]
  split
  · rename_i h; exact absurd h hfuel
  · rename_i r hr
    obtain ⟨s', r⟩ := r
    dsimp only
    cases r with
    | some xs =>
      obtain ⟨cs, _, _, hcs, -, -, rfl⟩ := getBatch_ok hch hr
      rw [mem_cleanPile he]
      exact and_congr_right fun _ => ⟨fun h _ => h, fun h => h ⟨cs, hcs⟩⟩
    | none =>
      rcases getBatch_err hch hr with ⟨hn, rfl⟩ | ⟨cs, _, _, _, hcs, -, -, rfl⟩
      · refine ⟨fun h => ⟨h, fun ⟨cs, hcs⟩ => ?_⟩, And.left⟩
        rw [hn] at hcs
        cases hcs
      · rw [mem_cleanPile he]
        exact and_congr_right fun _ => ⟨fun h _ => h, fun h => h ⟨cs, hcs⟩⟩

/-- Every request ends. -/
def Ended : Session ι → List (Act ι) → Prop
  | _, [] => True
  | s, a :: h => (∀ q, a = .batch q →
      getBatch q.env q.options q.choices q.fuel q.entries s q.filter ≠ none) ∧ Ended (act s a) h

theorem ended_append {s : Session ι} {h h' : List (Act ι)} :
    Ended s (h ++ h') ↔ Ended s h ∧ Ended (h.foldl act s) h' := by
  induction h generalizing s with
  | nil => simp [Ended]
  | cons a h ih => simp [Ended, ih, and_assoc]

theorem toRelearn_grade (h : List (Act ι)) (x y : ι) (g : MasteryScore) :
    ToRelearn (h ++ [.grade y g]) x ↔ if x = y then Failing g else ToRelearn h x := by
  by_cases hxy : x = y
  · subst hxy
    rw [if_pos rfl]
    constructor
    · rintro ⟨before, g', since, he, hf, hno, -⟩
      rcases List.eq_nil_or_concat since with rfl | ⟨since', a, rfl⟩
      · obtain ⟨-, h2⟩ := List.append_inj' he rfl
        simp only [List.cons.injEq, Act.grade.injEq, and_true, true_and] at h2
        rw [h2]; exact hf
      · rw [List.concat_eq_append, ← List.cons_append, ← List.append_assoc] at he
        obtain ⟨-, h2⟩ := List.append_inj' he rfl
        simp only [List.cons.injEq, and_true] at h2
        exact absurd (by simp [← h2]) (hno g)
    · intro hf
      exact ⟨h, g, [], rfl, hf, by simp, by simp⟩
  · rw [if_neg hxy]
    constructor
    · rintro ⟨before, g', since, he, hf, hno, hb⟩
      rcases List.eq_nil_or_concat since with rfl | ⟨since', a, rfl⟩
      · obtain ⟨-, h2⟩ := List.append_inj' he rfl
        simp only [List.cons.injEq, Act.grade.injEq, and_true] at h2
        exact absurd h2.1.symm hxy
      · rw [List.concat_eq_append] at he hno hb
        rw [← List.cons_append, ← List.append_assoc] at he
        obtain ⟨h1, h2⟩ := List.append_inj' he rfl
        exact ⟨before, g', since', h1, hf, fun g' hg => hno g' (List.mem_append_left _ hg),
          fun q hq => hb q (List.mem_append_left _ hq)⟩
    · rintro ⟨before, g', since, rfl, hf, hno, hb⟩
      refine ⟨before, g', since ++ [.grade y g], by simp, hf, ?_, ?_⟩
      · intro g'' hg
        rw [List.mem_append] at hg
        rcases hg with hg | hg
        · exact hno _ hg
        · simp at hg; exact hxy hg.1
      · intro q hq
        rw [List.mem_append] at hq
        rcases hq with hq | hq
        · exact hb q hq
        · simp at hq

theorem toRelearn_batch (h : List (Act ι)) (x : ι) (q : Request ι) :
    ToRelearn (h ++ [.batch q]) x ↔ ToRelearn h x ∧ (Searched q → ¬ Blacklisted q.env x) := by
  constructor
  · rintro ⟨before, g', since, he, hf, hno, hb⟩
    rcases List.eq_nil_or_concat since with rfl | ⟨since', a, rfl⟩
    · obtain ⟨-, h2⟩ := List.append_inj' he rfl
      simp at h2
    · rw [List.concat_eq_append] at he hno hb
      rw [← List.cons_append, ← List.append_assoc] at he
      obtain ⟨h1, h2⟩ := List.append_inj' he rfl
      simp only [List.cons.injEq, and_true] at h2
      subst h2
      exact ⟨⟨before, g', since', h1, hf, fun g' hg => hno g' (List.mem_append_left _ hg),
        fun q hq => hb q (List.mem_append_left _ hq)⟩, hb q (by simp)⟩
  · rintro ⟨⟨before, g', since, rfl, hf, hno, hb⟩, hq⟩
    refine ⟨before, g', since ++ [.batch q], by simp, hf, ?_, ?_⟩
    · intro g'' hg
      rw [List.mem_append] at hg
      rcases hg with hg | hg
      · exact hno _ hg
      · simp at hg
    · intro q' hq'
      rw [List.mem_append] at hq'
      rcases hq' with hq' | hq'
      · exact hb q' hq'
      · simp at hq'
        subst hq'
        exact hq

/-! ### The properties -/

/-- C41: after any session the pile consists of exactly those exercises whose last grade was 1 or 2 and that no
later request found blacklisted, directly or with their lesson or course; each is there once. -/
theorem pile_exact (h : List (Act ι)) (hp : Proper h) (hend : Ended {} h) :
    (session h).pile.Nodup ∧ ∀ x, x ∈ (session h).pile ↔ ToRelearn h x := by
  induction h using List.reverseRecOn with
  | nil =>
    refine ⟨List.nodup_nil, fun x => ⟨fun hx => by simp [session] at hx, ?_⟩⟩
    rintro ⟨before, g, since, he, -⟩
    simp at he
  | append_singleton h a ih =>
    rw [ended_append] at hend
    obtain ⟨hn, hm⟩ := ih (fun q hq => hp q (List.mem_append_left _ hq)) hend.1
    have hstep : session (h ++ [a]) = act (session h) a := by simp [session]
    rw [hstep]
    cases a with
    | grade y g =>
      have hpile : (act (session h) (.grade y g)).pile = updatePile (session h).pile y g :=
        updateRate_pile _ _
      rw [hpile]
      refine ⟨nodup_updatePile hn _ _, fun x => ?_⟩
      rw [mem_updatePile, toRelearn_grade]
      by_cases hxy : x = y
      · rw [if_pos hxy, if_pos hxy, failing_iff]
      · rw [if_neg hxy, if_neg hxy]; exact hm x
    | batch q =>
      obtain ⟨he, hch⟩ := hp q (by simp)
      have hfuel : getBatch q.env q.options q.choices q.fuel q.entries (session h) q.filter ≠ none :=
        hend.2.1 q rfl
      refine ⟨?_, fun x => ?_⟩
      · simp only [act]
        split
        · exact hn
        · rename_i r hr
          obtain ⟨s', r⟩ := r
          exact hn.sublist (pile_after_batch he hch hr).2.2.1
      · rw [act_batch_pile he hch hfuel, toRelearn_batch, hm x]

/-- C63: the success rate that the next request works with is the fraction of the grades of the session that
were 3 or better, and 1 before the first grade. -/
theorem success_rate_exact (h : List (Act ι)) (hp : Proper h) :
    ∃ gs : List MasteryScore, gs = h.filterMap (fun a => match a with | .grade _ g => some g | .batch _ => none) ∧
      successRate (session h) = if gs = [] then 1
        else ((gs.filter (fun g => decide (2 < g.toFloat))).length : ℚ) / (gs.length : ℚ) := by
  refine ⟨_, rfl, ?_⟩
  have key : (session h).passed = ((h.filterMap (fun a => match a with
        | .grade _ g => some g | .batch _ => none)).filter (fun g => decide (2 < g.toFloat))).length ∧
      (session h).passed + (session h).failed = (h.filterMap (fun a => match a with
        | .grade _ g => some g | .batch _ => none)).length := by
    induction h using List.reverseRecOn with
    | nil => simp [session]
    | append_singleton h a ih =>
      obtain ⟨h1, h2⟩ := ih (fun q hq => hp q (List.mem_append_left _ hq))
      have hstep : session (h ++ [a]) = act (session h) a := by simp [session]
      rw [hstep, List.filterMap_append, List.filter_append, List.length_append, List.length_append, ← h1, ← h2]
      cases a with
      | grade y g =>
        simp only [act, graded]
        cases g <;> simp [updateRate, failing, MasteryScore.toFloat, List.filter_cons] <;> norm_num <;> omega
      | batch q =>
        obtain ⟨he, hch⟩ := hp q (by simp)
        have : (act (session h) (.batch q)).passed = (session h).passed ∧
            (act (session h) (.batch q)).failed = (session h).failed := by
          simp only [act]
          split
          · exact ⟨rfl, rfl⟩
          · rename_i r hr
            obtain ⟨s', r⟩ := r
            exact (pile_after_batch he hch hr).2.2.2
        simp [this]
  unfold successRate
  rw [key.2, key.1]
  by_cases h0 : h.filterMap (fun a => match a with | .grade _ g => some g | .batch _ => none) = []
  · rw [if_pos h0, if_pos (by rw [h0]; rfl)]
  · rw [if_neg h0, if_neg (by rw [List.length_eq_zero_iff]; exact h0)]

/-- The batches handed out. -/
def handedOut (s : Session ι) : List (Act ι) → List (List ι)
  | [] => []
  | .grade x g :: h => handedOut (act s (.grade x g)) h
  | .batch q :: h =>
    match getBatch q.env q.options q.choices q.fuel q.entries s q.filter with
    | some (_, some xs) => xs :: handedOut (act s (.batch q)) h
    | _ => handedOut (act s (.batch q)) h

theorem frequency_from (s : Session ι) (h : List (Act ι)) (hp : Proper h) (x : ι) :
    ((h.foldl act s).freq.find x).getD 0 =
      (s.freq.find x).getD 0 + ((handedOut s h).map (fun xs => xs.count x)).sum := by
  induction h generalizing s with
  | nil => simp [handedOut]
  | cons a h ih =>
    rw [List.foldl_cons, ih (act s a) (fun q hq => hp q (List.mem_cons_of_mem _ hq))]
    cases a with
    | grade y g =>
      have : (act s (.grade y g)).freq = s.freq := by
        simp only [act, graded, updateRate]; split <;> rfl
      rw [this]; rfl
    | batch q =>
      obtain ⟨-, hch⟩ := hp q (by simp)
      cases hr : getBatch q.env q.options q.choices q.fuel q.entries s q.filter with
      | none =>
        have : act s (.batch q) = s := by simp only [act, hr]
        simp only [handedOut, hr, this]
      | some r =>
        obtain ⟨s', r⟩ := r
        have : act s (.batch q) = s' := by simp only [act, hr]
        rw [this, batch_counted hch hr x]
        cases r <;> simp [handedOut, hr, this]
        omega

/-- C64: over a whole session each exercise has been counted as often as it was handed out. -/
theorem frequency_exact (h : List (Act ι)) (hp : Proper h) (x : ι) :
    ((session h).freq.find x).getD 0 = ((handedOut {} h).map (fun xs => xs.count x)).sum := by
  rw [session, frequency_from {} h hp x]
  simp

/-- A session in which 300 fails, is handed out, and passes, while 110 fails and stays. -/
example : ∃ q : Request Nat, Proper [.grade 300 .two, .grade 110 .one, .batch q, .grade 300 .four] ∧
    Ended {} [.grade 300 .two, .grade 110 .one, .batch q, .grade 300 .four] ∧
    ToRelearn [.grade 300 .two, .grade 110 .one, .batch q, .grade 300 .four] 110 ∧
    ¬ ToRelearn [.grade 300 .two, .grade 110 .one, .batch q, .grade 300 .four] 300 := by
  have h : drafted fresh .default 60 [] { pile := [110, 300], failed := 2 } none = some [101, 100, 300, 110] := by
    decide +kernel
  obtain ⟨xs, -, hg⟩ := getBatch_drafted h
  refine ⟨⟨fresh, .default, firstChoices, 60, [], none⟩, ?_, ⟨by simp, by simp, ?_, by simp, trivial⟩, ?_, ?_⟩
  · intro q hq
    simp at hq
    subst hq
    exact ⟨fresh_sane, firstChoices_ok⟩
  · intro q hq
    simp only [Act.batch.injEq] at hq
    subst hq
    have : act (act ({} : Session Nat) (.grade 300 .two)) (.grade 110 .one) =
        { pile := [110, 300], failed := 2 } := by rfl
    rw [this]
    dsimp only
    rw [hg]
    simp
  · refine ⟨[.grade 300 .two], .one, _, rfl, ?_, by simp, ?_⟩
    · simp [Failing, MasteryScore.toFloat]
    · intro q hq _ 
      simp at hq
      subst hq
      rintro (hb | ⟨l, -, hb | ⟨c, -, hb⟩⟩) <;> simp [fresh, libraryOf] at hb
  · have := (toRelearn_grade [.grade 300 .two, .grade 110 .one,
        .batch ⟨fresh, .default, firstChoices, 60, [], none⟩] 300 300 .four).not.2
      (by simp [Failing, MasteryScore.toFloat]; norm_num)
    exact this

end Trane.Batch
