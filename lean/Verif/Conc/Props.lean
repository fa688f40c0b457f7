import Verif.Conc.Cells

/-!
# Calls from several threads

Rust lets a `&mut self` call run only when no other call is running, so an object sees phases: in
each, either any number of threads do `&self` calls, or one thread does whatever it wants.
-/

namespace Trane.Conc

/-- **C78.** Threads that call `&self` methods never block one another for good, whatever the
schedule and whether or not waiting writers hold back readers: as long as a call is unfinished some
thread can go on.  Left out: batches from the review list, for which this is false
(`review_list_deadlock`). -/
theorem no_deadlock_partial (calls : List (List Api)) (acts : List (List Act))
    (hacts : Threads calls acts)
    (hshared : ∀ cs ∈ calls, ∀ c ∈ cs, c.shared = true ∧ c ≠ .getBatchReviewList)
    (s : List Thread) (hs : Reach false (start acts) s) : ¬ Deadlock s := by
  apply no_deadlock
  refine reach_induct (P := fun s => ∀ t ∈ s, TOk OkD t ∧ HeldOk t) hs ?_
    (fun s i s' h => heldOk_step h)
  have hd : ∀ a ∈ acts, Disc OkD [] a ∧ after [] a = [] := by
    intro a ha
    obtain ⟨i, hi⟩ := List.mem_iff_getElem?.1 ha
    have hlen := hacts.length_eq
    have hil : i < acts.length := (List.getElem?_eq_some_iff.1 hi).1
    have hic : i < calls.length := by omega
    have ht := hacts.get hic hil
    have he : acts.get ⟨i, hil⟩ = a := by
      rw [List.getElem?_eq_getElem hil] at hi
      simpa using hi
    rw [he] at ht
    refine calls_sound okD_mono checkAll_shared ht ?_
    intro c hc
    have := hshared _ (List.get_mem calls ⟨i, hic⟩) c hc
    exact api_shared c this.1 this.2
  intro t ht
  refine ⟨start_tok hd t ht, ?_⟩
  obtain ⟨a, -, rfl⟩ := List.mem_map.1 ht
  intro l hl
  simp at hl

/-- **C78.** No schedule goes on for ever: the number of steps is at most twice the number of
actions, so with `no_deadlock_partial` every schedule that goes on while it can ends with all calls
finished. -/
theorem schedules_end (strict : Bool) (acts : List (List Act)) (n : Nat) (s : List Thread)
    (h : Runs strict (start acts) n s) : n ≤ 2 * (acts.map List.length).sum := by
  have h1 := runs_le h
  rw [start_todo] at h1
  omega

/-- Finished threads have given everything back, so the next phase starts with free locks. -/
theorem finished_free (calls : List (List Api)) (acts : List (List Act))
    (hacts : Threads calls acts) (s : List Thread) (hs : Reach false (start acts) s)
    (hf : Finished s) : ∀ t ∈ s, t.held = [] := by
  have hd : ∀ a ∈ acts, Disc (fun h r m => okA h r m = true) [] a ∧ after [] a = [] := by
    intro a ha
    obtain ⟨i, hi⟩ := List.mem_iff_getElem?.1 ha
    have hlen := hacts.length_eq
    have hil : i < acts.length := (List.getElem?_eq_some_iff.1 hi).1
    have hic : i < calls.length := by omega
    have ht := hacts.get hic hil
    have he : acts.get ⟨i, hil⟩ = a := by
      rw [List.getElem?_eq_getElem hil] at hi
      simpa using hi
    rw [he] at ht
    exact calls_sound okA_mono checkAll_all ht (fun c _ => api_all c)
  have := reach_induct (P := fun s => ∀ t ∈ s, TOk (fun h r m => okA h r m = true) t) hs
    (start_tok hd) (fun s i s' h => TOk.step h)
  intro t ht
  have hl := (this t ht).last
  rw [hf t ht] at hl
  exact hl

/-- **C78, C79.** One thread alone, doing any calls (`&mut self` ones and review list batches
included), never waits for itself and never breaks the rule of a `RefCell`. -/
theorem alone_finishes (calls : List Api) (acts : List Act) (hacts : CallsTrace calls acts)
    (s : List Thread) (hs : Reach false (start [acts]) s) : ¬ Deadlock s ∧ ¬ Clash s := by
  have hd := calls_sound okA_mono checkAll_all hacts (fun c _ => api_all c)
  constructor
  · have hinv := reach_induct (P := fun s => s.length = 1 ∧
        ∀ t ∈ s, TOk (fun h r m => okA h r m = true) t) hs
      ⟨rfl, start_tok (acts := [acts]) (by intro a ha; simp at ha; rw [ha]; exact hd)⟩
      (fun s i s' h hP => by
        refine ⟨?_, TOk.step h hP.2⟩
        obtain ⟨t, -, hc⟩ := step_cases h
        rcases hc with ⟨_, _, _, _, rfl⟩ | ⟨_, _, _, _, rfl⟩ | ⟨_, _, _, _, rfl⟩ <;>
          rw [List.length_set] <;> exact hP.1)
    obtain ⟨hl, ht⟩ := hinv
    obtain ⟨t, rfl⟩ := List.length_eq_one_iff.1 hl
    rintro ⟨hn, hfin⟩
    have hne : t.rest ≠ [] := by
      intro h0
      apply hfin
      intro u hu
      simp at hu
      rw [hu, h0]
    have h := hn 0
    have hok := ht t (by simp)
    unfold stepAt at h
    simp only [List.getElem?_cons_zero] at h
    have hdis := hok.disc
    cases hr : t.rest with
    | nil => exact hne hr
    | cons x rest =>
      rw [hr] at h hdis
      cases x with
      | drop r m => simp at h
      | take r m =>
        have ho := hdis.1
        unfold okA at ho
        simp only [Bool.and_eq_true, Bool.or_eq_true, Bool.not_eq_true',
          decide_eq_true_eq] at ho
        cases r with
        | cell c => simp at h
        | lock l =>
          cases m with
          | read =>
            have hw : t.wants l = false := by
              rw [← Bool.not_eq_true, wants_true]
              rintro ⟨-, r', hr'⟩
              rw [hr] at hr'
              simp at hr'
            simp [hw] at h
            exact absurd ho.1 (by simp [h])
          | write =>
            have hrd := ho.2.resolve_left (by simp)
            have hh : t.has l = false := by
              unfold Thread.has
              rw [hrd, ho.1]
              rfl
            cases hw : t.waiting with
            | false => simp [hw] at h
            | true => simp [hw, hh] at h
  · refine cellInv_noClash (k := 0) (reach_induct hs ?_ (fun s i s' h => cellInv_step h))
    intro i t hi
    cases i with
    | zero =>
      simp [start] at hi
      subst hi
      exact ⟨fun _ => ⟨hd.1, fun c hc => by simp at hc⟩, fun h => absurd rfl h⟩
    | succ i => simp [start] at hi

/-- **C79.** When at most one thread does calls that involve scores, no `RefCell` is borrowed twice
in conflict, whatever the schedule.  With two such threads this is false
(`two_scoring_threads_clash`). -/
theorem no_clash_partial (calls : List (List Api)) (acts : List (List Act))
    (hacts : Threads calls acts) (k : Nat)
    (hk : ∀ i cs, calls[i]? = some cs → i ≠ k → ∀ c ∈ cs, c.scores = false)
    (s : List Thread) (hs : Reach false (start acts) s) : ¬ Clash s := by
  refine cellInv_noClash (k := k) (reach_induct hs ?_ (fun s i s' h => cellInv_step h))
  intro i t hi
  have hlen := hacts.length_eq
  unfold start at hi
  rw [List.getElem?_map] at hi
  obtain ⟨a, ha, rfl⟩ := Option.map_eq_some_iff.1 hi
  have hil : i < acts.length := (List.getElem?_eq_some_iff.1 ha).1
  have hic : i < calls.length := by omega
  have ht := hacts.get hic hil
  have he : acts.get ⟨i, hil⟩ = a := by
    rw [List.getElem?_eq_getElem hil] at ha
    simpa using ha
  rw [he] at ht
  refine ⟨fun _ => ?_, fun hne => ?_⟩
  · exact ⟨(calls_sound okA_mono checkAll_all ht (fun c _ => api_all c)).1,
      fun c hc => by simp at hc⟩
  · refine ⟨(calls_sound (ok := okN) (fun _ _ _ _ _ h => h) checkAll_plain ht (fun c hc => ?_)).1,
      fun c m hm => by simp at hm⟩
    exact api_plain c (hk i _ (List.getElem?_eq_getElem hic) hne c hc)

end Trane.Conc
