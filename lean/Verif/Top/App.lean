import Verif.Top.TimeProps
import Verif.Sched.CacheRange
import Verif.Sched.ScoreInstance

/-!
# The whole object with the scorers of the application (C83, C82)

Here the object of `Verif.Top.Model` uses the exercise scorer and the reward scorer of the application.
-/

namespace Trane.TopLevel
open Trane.Store
open Trane.UnitScorer (Caches scoreC exC lessonTrialsC courseTrialsC invalidate invalidatePrefix after appScore
  Bounded Keeps OkScore ExRec World)
open Trane.Scorer (Kind)

/-- The trials or deltas as the exercise scorer reads them. /repo/src/scheduler/unit_scorer.rs:190-213. -/
def entries (l : List (ℝ × Int)) : List Scorer.Entry := l.map (fun p => ⟨p.1, p.2⟩)

/-- The rewards as the reward scorer reads them. /repo/src/scheduler/unit_scorer.rs:218-228. -/
def rewardsOf (l : List ((ℚ × ℚ) × Int)) : List RewardScorer.Reward :=
  l.map (fun p => ⟨(p.1.1 : ℝ), (p.1.2 : ℝ), p.2⟩)

/-- The scorers of the application, `PowerLawScorer` and `WeightedRewardScorer`, which are made in
/repo/src/scheduler/unit_scorer.rs:73-86; `kind` gives the type of each exercise and `inRange` the timestamps that
`chrono` accepts. -/
noncomputable def appBase (kind : Str → Kind) (inRange : ℤ → Bool) (sortV : SortDesc ℝ) (sortW : SortDesc (ℚ × ℚ)) :
    Base ℝ where
  sortV := sortV
  sortW := sortW
  scorer := fun clock x now st l c =>
    let r := appScore kind inRange clock x now ⟨entries st.1, entries st.2⟩ (rewardsOf l) (rewardsOf c)
    (r.score, r.urgency, r.velocity)

/-! ### Everything in the caches is in range -/

/-- What a record in the caches satisfies. -/
def GoodRec (r : ExRec ℝ) : Prop := (0 ≤ r.score ∧ r.score ≤ 5) ∧ (0 ≤ r.urgency ∧ r.urgency ≤ 1)

/-- What a score satisfies. -/
def GoodScore (x : ℝ) : Prop := 0 ≤ x ∧ x ≤ 5

/-- The caches of an object are in range. -/
abbrev Ranged (t : Top ℝ) : Prop := Bounded GoodRec GoodScore t.caches

section
variable (kind : Str → Kind) (inRange : ℤ → Bool) (sortV : SortDesc ℝ) (sortW : SortDesc (ℚ × ℚ))

theorem get_newestFirst (S : SortDesc ℝ) (t : Table ℝ) (u : Str) (n : Nat) :
    Scorer.NewestFirst (entries (t.get S u n)) := by
  unfold Scorer.NewestFirst entries Table.get
  rw [List.map_map, List.pairwise_map]
  exact (S.sorted _).sublist (List.take_sublist _ _)

theorem appScore_good (clock : ℤ) (x : Str) (now : ℤ) (r : UnitScorer.Record) (hr : Scorer.NewestFirst r.trials)
    (l c : List RewardScorer.Reward) : GoodRec (appScore kind inRange clock x now r l c) := by
  refine ⟨UnitScorer.app_score_range kind inRange clock x now r hr l c, ?_⟩
  obtain ⟨s, hs, h⟩ := Scorer.score_well_formed (kind x) r.trials r.deltas now hr
  unfold appScore
  rw [hs]
  exact h.2.1

theorem world_good (t : Top ℝ) (e : Str) :
    GoodRec ((t.sys.world (t.config (appBase kind inRange sortV sortW))).exRec e) :=
  appScore_good kind inRange t.clock _ _ _ (get_newestFirst _ _ _ _) _ _

theorem keeps_app (t : Top ℝ) (n : Nat) (u : Str) :
    Keeps GoodRec GoodScore (OkScore GoodScore) (scoreC (t.sys.world (t.config (appBase kind inRange sortV sortW))) n u) :=
  UnitScorer.keeps_score _ (world_good kind inRange sortV sortW t) (fun _ h => h.1)
    (fun xs hne h => UnitScorer.mean_between xs hne h) n u

theorem bounded_after {α : Type} {Q : α → Prop} {m : UnitScorer.M Str ℝ α} {c : Caches Str ℝ}
    (hm : Keeps GoodRec GoodScore Q m) (hc : Bounded GoodRec GoodScore c) : Bounded GoodRec GoodScore (after c (m c)) := by
  cases h : m c with
  | none => exact hc
  | some r => exact (hm c r.1 r.2 hc (by rw [h])).2

theorem ranged_ask (t : Top ℝ) (c : Caches Str ℝ) (hc : Bounded GoodRec GoodScore c) (a : Ask) :
    Bounded GoodRec GoodScore (t.ask (appBase kind inRange sortV sortW) c a) := by
  cases a with
  | score u n => exact bounded_after (keeps_app kind inRange sortV sortW t n u) hc
  | lessonTrials u =>
    exact bounded_after (UnitScorer.keeps_lessonTrials _ (world_good kind inRange sortV sortW t) u) hc
  | courseTrials u n =>
    exact bounded_after (UnitScorer.keeps_courseTrials _ (world_good kind inRange sortV sortW t) (fun _ h => h.1)
      (fun xs hne h => UnitScorer.mean_between xs hne h) n u) hc

theorem bounded_foldl (g : Graph Str) (us : List Str) {c : Caches Str ℝ} (hc : Bounded GoodRec GoodScore c) :
    Bounded GoodRec GoodScore (us.foldl (fun c u => invalidate g c u) c) := by
  induction us generalizing c with
  | nil => exact hc
  | cons u us ih => exact ih (UnitScorer.bounded_invalidate g u hc)

/-- What a grading does: the delta it stores is the grade minus the old score. -/
theorem grading (cfg : System.Config ℝ) (order : List Reward → List Reward) (fuel : Nat) (s s' : System.State ℝ)
    (x : Str) (g : MasteryScore) (ts : Int) (f : System.Faults) (ok : Bool)
    (hk : ∀ n u, Keeps GoodRec GoodScore (OkScore GoodScore) (scoreC (s.world cfg) n u))
    (hw : ∀ e, GoodRec ((s.world cfg).exRec e)) (hc : Bounded GoodRec GoodScore s.caches)
    (h : System.scoreExercise cfg order fuel s x g ts f = some (s', ok)) :
    Bounded GoodRec GoodScore s'.caches ∧ (s'.deltas = s.deltas ∨ ∃ old, OkScore GoodScore old ∧
      s'.deltas = (s.deltas.step cfg.sortV (.record [⟨x, System.gradeVal ℝ g - old.getD 0, ts⟩] f.delta)).1) := by
  unfold System.scoreExercise at h
  split at h
  · cases h
  · rename_i existing c h1
    obtain ⟨ho, hb⟩ := hk fuel x _ _ _ hc h1
    split at h
    · cases h
    · rename_i r c2 h2
      obtain ⟨-, hb2⟩ := UnitScorer.keeps_ex (V := GoodScore) _ hw x _ _ _ hb h2
      dsimp only at h
      have hd : ∀ d : Table ℝ × Bool, d = (if 0 < r.trials then
          s.deltas.step cfg.sortV (.record [⟨x, System.gradeVal ℝ g - existing.getD 0, ts⟩] f.delta)
          else (s.deltas, true)) → d.1 = s.deltas ∨ ∃ old, OkScore GoodScore old ∧
      d.1 = (s.deltas.step cfg.sortV (.record [⟨x, System.gradeVal ℝ g - old.getD 0, ts⟩] f.delta)).1 := by
        rintro d rfl
        split
        · exact Or.inr ⟨existing, ho, rfl⟩
        · exact Or.inl rfl
      have hd' := hd _ rfl
      revert h hd'
      generalize (if 0 < r.trials then
          s.deltas.step cfg.sortV (.record [⟨x, System.gradeVal ℝ g - existing.getD 0, ts⟩] f.delta)
          else (s.deltas, true)) = d
      intro h hd'
      split at h
      · cases h; exact ⟨hb2, hd'⟩
      · split at h
        · cases h; exact ⟨hb2, hd'⟩
        · split at h
          · cases h
          · split at h
            · cases h
              exact ⟨UnitScorer.bounded_invalidate _ _ hb2, hd'⟩
            · cases h
              exact ⟨bounded_foldl _ _ (UnitScorer.bounded_invalidate _ _ hb2), hd'⟩

theorem ranged_step (t : Top ℝ) (h : Ranged t) (c : Call ℝ) :
    Ranged (step (appBase kind inRange sortV sortW) t c).1 := by
  cases c with
  | addToBlacklist u f => exact UnitScorer.bounded_invalidate _ _ h
  | removeFromBlacklist u f => exact UnitScorer.bounded_invalidate _ _ h
  | removePrefixFromBlacklist p f => exact UnitScorer.bounded_invalidatePrefix _ h
  | scoreExercise x g ts fuel order f =>
    rcases step_score (appBase kind inRange sortV sortW) t x g ts fuel order f with ⟨-, e⟩ | ⟨s, ok, hs, e⟩
    · rw [e]; exact h
    · rw [e]
      exact (grading _ order fuel t.sys s x g ts f ok (keeps_app kind inRange sortV sortW t)
        (world_good kind inRange sortV sortW t) h hs).1
  | getUnitScore u n => exact bounded_after (keeps_app kind inRange sortV sortW t n u) h
  | getBatch q =>
    rcases step_batch (appBase kind inRange sortV sortW) t q with ⟨-, e⟩ | ⟨s, r, -, e⟩
    · rw [e]; exact h
    · rw [e]
      change Bounded GoodRec GoodScore (q.asks.foldl (t.ask (appBase kind inRange sortV sortW)) t.caches)
      have : ∀ (l : List Ask) (c : Caches Str ℝ), Bounded GoodRec GoodScore c →
          Bounded GoodRec GoodScore (l.foldl (t.ask (appBase kind inRange sortV sortW)) c) := by
        intro l
        induction l with
        | nil => exact fun c hc => hc
        | cons a l ih => exact fun c hc => ih _ (ranged_ask kind inRange sortV sortW t c hc a)
      exact this _ _ h
  | invalidate u => exact UnitScorer.bounded_invalidate _ _ h
  | invalidatePrefix p => exact UnitScorer.bounded_invalidatePrefix _ h
  | setPreferences p f => cases f <;> exact h
  | restart g =>
    rcases step_restart (appBase kind inRange sortV sortW) t g with e | ⟨-, e⟩
    · rw [e]; exact h
    · rw [e]; exact UnitScorer.bounded_empty
  | _ => exact h

theorem ranged_runs (g0 : Graph Str) (clock : Int) (h : List (Call ℝ)) :
    Ranged (runs (appBase kind inRange sortV sortW) (fresh g0 clock) h) := by
  induction h using List.reverseRecOn with
  | nil => exact UnitScorer.bounded_empty
  | append_singleton h c ih => rw [runs_snoc]; exact ranged_step kind inRange sortV sortW _ ih c

/-! ### Rows -/

theorem rows_record (P : ℝ → Prop) (t : Table ℝ) (es : List (Entry ℝ)) (h : ∀ r ∈ t.rows, P r.val)
    (he : ∀ e ∈ es, P e.val) {t' : Table ℝ} (ht : t.record es = some t') : ∀ r ∈ t'.rows, P r.val := by
  induction es generalizing t with
  | nil => cases ht; exact h
  | cons e es ih =>
    rw [Table.record] at ht
    split at ht
    · cases ht
    · rename_i t1 h1
      refine ih t1 ?_ (fun e' h' => he e' (List.mem_cons_of_mem _ h')) ht
      unfold Table.recordOne Table.insert at h1
      split at h1
      · cases h1
      · cases h1
        have hr : (t.intern e.unit).rows = t.rows := by unfold Table.intern; split <;> rfl
        intro r hr'
        simp only [hr, List.mem_append, List.mem_singleton] at hr'
        rcases hr' with hr' | rfl
        · exact h r hr'
        · exact he e List.mem_cons_self

theorem rows_step (P : ℝ → Prop) (S : SortDesc ℝ) (t : Table ℝ) (o : LogOp ℝ) (h : ∀ r ∈ t.rows, P r.val)
    (he : ∀ es f, o = .record es f → ∀ e ∈ es, P e.val) : ∀ r ∈ (t.step S o).1.rows, P r.val := by
  cases o with
  | record es f =>
    unfold Table.step
    dsimp only
    split
    · exact h
    · rename_i t' ht'
      split
      · exact h
      · exact rows_record P t es h (he es f rfl) ht'
  | trim n s =>
    have hs : (t.trimByTime S n s).rows.Sublist t.rows :=
      Table.foldl_sublist (fun k l => Table.trimUidByTime S n k l) (fun k rows => List.filter_sublist) _ _
    exact fun r hr => h r (hs.subset hr)
  | removePrefix p s =>
    have hs : (t.removePrefix p s).rows.Sublist t.rows :=
      Table.foldl_sublist (fun k rows => rows.filter (fun r => r.uid ≠ k)) (fun k rows => List.filter_sublist) _ _
    exact fun r hr => h r (hs.subset hr)
  | reopen => exact h

theorem get_mem_rows (S : SortDesc ℝ) (t : Table ℝ) (u : Str) (n : Nat) {p : ℝ × Int} (hp : p ∈ t.get S u n) :
    ∃ r ∈ t.rows, r.val = p.1 := by
  unfold Table.get at hp
  obtain ⟨r, hr, rfl⟩ := List.mem_map.1 hp
  have h1 : r ∈ t.rowsOf u := (S.perm _).subset (List.mem_of_mem_take hr)
  unfold Table.rowsOf at h1
  split at h1
  · cases h1
  · exact ⟨r, List.mem_of_mem_filter h1, rfl⟩

end

end Trane.TopLevel
