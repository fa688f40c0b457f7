import Verif.Sql.Old

/-!
# C93 and C94: what the SQL of the stores does

The stores are the texts of their statements and migrations, run by a model of SQLite.  `Scan` is the order in which
the engine goes through the rows of a query without `ORDER BY`, and through rows that are equal for `ORDER BY`; every
call may have another one.
-/

set_option linter.unusedSectionVars false

namespace Trane.Sql
open Trane.Store (Str LogOp Entry Reward Table likePrefix)
open Trane.Store.Table (Wf AbsStep IsNewest)

variable {R : Type} [DecidableEq R] {α : Type}

/-! ### Specification -/

/-- The logs of the units after calls: `start` is what they were, and every call does to them what
`Trane.Store.Table.AbsStep` says of a call that succeeds or, if the machine fails, of one that does not. -/
inductive LoggedFrom (start : Str → List (α × Int)) : List (LogOp α) → (Str → List (α × Int)) → Prop
  | nil : LoggedFrom start [] start
  | snoc {ops : List (LogOp α)} {o : LogOp α} {log log' : Str → List (α × Int)} :
      LoggedFrom start ops log → AbsStep log log' o (!logFails o) → LoggedFrom start (ops ++ [o]) log'

/-- Calls one after the other, each with the order of the engine, and whether they succeed. -/
def runLog (T : Texts) (P : Payload R α) : Db R → List (Scan R × LogOp α) → Db R × List Bool
  | db, [] => (db, [])
  | db, (S, o) :: calls =>
    let res := runLog T P (logStep S T P db o).1 calls
    (res.1, (logStep S T P db o).2 :: res.2)

/-- The file answers with the newest entries of the logs. -/
def Answers (T : Texts) (P : Payload R α) (db : Db R) (log : Str → List (α × Int)) : Prop :=
  ∀ (S : Scan R) (u : Str) (n : Nat), ∃ ans, getEntries S T P db u n = some ans ∧ IsNewest n (log u) ans

/-- The rewards of the units after calls and what the calls returned. -/
inductive RewardedFrom : List Store.Rewards.Op → List (Option (List Str)) → (Str → List ((ℚ × ℚ) × Int)) → Prop
  | nil : RewardedFrom [] [] (fun _ => [])
  | snoc {ops : List Store.Rewards.Op} {outs : List (Option (List Str))} {o : Store.Rewards.Op}
      {out : Option (List Str)} {log log' : Str → List ((ℚ × ℚ) × Int)} :
      RewardedFrom ops outs log → RewardState.AbsStep (Store.Rewards.sessionLog ops) log log' o out →
      RewardedFrom (ops ++ [o]) (outs ++ [out]) log'

/-- Calls of the store of rewards one after the other, and what they return. -/
def runRewards : RewardState → List (Scan ℚ × Store.Rewards.Op) → RewardState × List (Option (List Str))
  | s, [] => (s, [])
  | s, (S, o) :: calls =>
    let res := runRewards (s.step S o).1 calls
    (res.1, (s.step S o).2 :: res.2)

/-- The blacklisted ids after calls that returned `Ok` or not. -/
inductive BlacklistedFrom : List Store.Blacklist.Op → List Bool → (Str → Prop) → Prop
  | nil : BlacklistedFrom [] [] (fun _ => False)
  | snoc {ops : List Store.Blacklist.Op} {oks : List Bool} {o : Store.Blacklist.Op} {ok : Bool} {s s' : Str → Prop} :
      BlacklistedFrom ops oks s → Store.Blacklist.AbsStep s s' o ok →
      (BlacklistState.blacklistFails o = false → ok = true) →
      BlacklistedFrom (ops ++ [o]) (oks ++ [ok]) s'

/-- Calls of the blacklist one after the other. -/
def runBlacklist : BlacklistState R → List (Scan R × Store.Blacklist.Op) → BlacklistState R × List Bool
  | b, [] => (b, [])
  | b, (S, o) :: calls =>
    let res := runBlacklist (b.step S o).1 calls
    (res.1, (b.step S o).2 :: res.2)

/-- Calls of the review list one after the other. -/
def runReview : Db R → List (Scan R × Store.ReviewList.Op) → Db R × List Bool
  | db, [] => (db, [])
  | db, (S, o) :: calls =>
    let res := runReview (reviewStep S db o).1 calls
    (res.1, (reviewStep S db o).2 :: res.2)

/-- Whether the machine fails in the call. -/
def reviewFails : Store.ReviewList.Op → Bool
  | .add _ f => f
  | .remove _ f => f
  | .reopen => false

/-! ### C93 -/

section
variable {sh : Shape} {P : Payload R α} {T : Texts} {v : Nat} {idx : List (Str × Str × List Str)}

theorem runLog_aux (hT : Reads sh T (trimByTimeCond sh)) (hP : Fits sh P) (h0 : T.migrations ≠ [])
    (hv : v = T.migrations.length) {start : Str → List (α × Int)} (calls : List (Scan R × LogOp α)) :
    ∀ {t : Table α} {ops : List (LogOp α)}, Wf t → LoggedFrom start ops t.history →
    ∃ t', runLog T P (ofTable sh P v idx t) calls = (ofTable sh P v idx t', calls.map (fun c => !logFails c.2)) ∧ Wf t' ∧
      LoggedFrom start (ops ++ calls.map Prod.snd) t'.history := by
  induction calls with
  | nil => intro t ops h hl; exact ⟨t, rfl, h, by simpa using hl⟩
  | cons c calls ih =>
    obtain ⟨S, o⟩ := c
    intro t ops h hl
    obtain ⟨t1, e1, h1, a1⟩ := logStep_spec (v := v) (idx := idx) hT hP h0 hv S h o
    obtain ⟨t2, e2, h2, a2⟩ := ih h1 (.snoc hl a1)
    refine ⟨t2, ?_, h2, by simpa using a2⟩
    simp only [runLog]
    rw [e1]
    simp only
    rw [e2]
    rfl

theorem answers_ofTable {trim : Cond} (hT : Reads sh T trim) (hP : Fits sh P) {t : Table α} (h : Wf t) :
    Answers T P (ofTable sh P v idx t) t.history := fun S u n =>
  ⟨_, getEntries_eq hT hP S h u n, Table.get_newest _ t u n⟩

theorem log_aux (hT : Reads sh T (trimByTimeCond sh)) (hP : Fits sh P) (h0 : T.migrations ≠ [])
    (hl : ∀ S : Scan R, runTexts S T.migrations {} = some (ofTable sh P 0 idx {})) (S : Scan R)
    (calls : List (Scan R × LogOp α)) :
    ∃ db, openStore S T {} = some db ∧ (runLog T P db calls).2 = calls.map (fun c => !logFails c.2) ∧
      ∃ log, LoggedFrom (fun _ => []) (calls.map Prod.snd) log ∧ Answers T P (runLog T P db calls).1 log := by
  refine ⟨_, toLatest_new S h0 (hl S), ?_⟩
  obtain ⟨t, e, hw, a⟩ := runLog_aux (v := T.migrations.length) (idx := idx) hT hP h0 rfl
    (start := fun _ => []) calls (t := {}) (ops := []) Table.wf_empty .nil
  have e' : runLog T P { ofTable (R := R) sh P 0 idx {} with version := T.migrations.length } calls =
      (ofTable sh P T.migrations.length idx t, calls.map (fun c => !logFails c.2)) := e
  rw [e']
  exact ⟨rfl, _, a, answers_ofTable hT hP hw⟩

end

/-- C93, scores: a new file opens, every call succeeds unless the machine fails, and after every history of calls the
file answers with the newest entries of the logs that the calls made. -/
theorem stats_sql_keeps_logs (S : Scan R) (calls : List (Scan R × LogOp R)) :
    ∃ db, openStore S statsTexts {} = some db ∧
      (runLog statsTexts one db calls).2 = calls.map (fun c => !logFails c.2) ∧
      ∃ log, LoggedFrom (fun _ => []) (calls.map Prod.snd) log ∧
        Answers statsTexts one (runLog statsTexts one db calls).1 log :=
  log_aux stats_reads (one_fits rfl) (by simp [statsTexts]) (fun S => stats_run S one) S calls

/-- C93, deltas: likewise. -/
theorem deltas_sql_keeps_logs (S : Scan R) (calls : List (Scan R × LogOp R)) :
    ∃ db, openStore S deltasTexts {} = some db ∧
      (runLog deltasTexts one db calls).2 = calls.map (fun c => !logFails c.2) ∧
      ∃ log, LoggedFrom (fun _ => []) (calls.map Prod.snd) log ∧
        Answers deltasTexts one (runLog deltasTexts one db calls).1 log :=
  log_aux deltas_reads (one_fits rfl) (by simp [deltasTexts]) (fun S => deltas_run S one) S calls

theorem runRewards_aux (calls : List (Scan ℚ × Store.Rewards.Op)) :
    ∀ {t : Table (ℚ × ℚ)} {c : AMap Str (List Reward)} {ops : List Store.Rewards.Op} {outs : List (Option (List Str))},
    Store.Rewards.Good ⟨t, c⟩ (Store.Rewards.sessionLog ops) → RewardedFrom ops outs t.history →
    ∃ t' c', (runRewards ⟨RewardState.file t, c⟩ calls).1 = ⟨RewardState.file t', c'⟩ ∧ Wf t' ∧
      (∀ u, (t'.history u).length ≤ 20) ∧
      RewardedFrom (ops ++ calls.map Prod.snd) (outs ++ (runRewards ⟨RewardState.file t, c⟩ calls).2) t'.history := by
  induction calls with
  | nil => intro t c ops outs h hl; exact ⟨t, c, rfl, h.wf, h.bound, by simpa [runRewards] using hl⟩
  | cons x calls ih =>
    obtain ⟨S, o⟩ := x
    intro t c ops outs h hl
    obtain ⟨t1, c1, out, e1, h1, a1⟩ := RewardState.step_spec S ops h o
    obtain ⟨t2, c2, e2, h2, b2, a2⟩ := ih h1 (.snoc hl a1)
    simp only [runRewards]
    rw [e1]
    simp only
    refine ⟨t2, c2, e2, h2, b2, by simpa using a2⟩

/-- C93, rewards: a new file opens, the calls return the units whose rewards were accepted, and after every history
of calls the file answers with the newest of the rewards that the calls kept, of which there are at most twenty for a
unit. -/
theorem rewards_sql_keeps_logs (S : Scan ℚ) (calls : List (Scan ℚ × Store.Rewards.Op)) :
    ∃ db, openStore S rewardsTexts {} = some db ∧
      ∃ log, RewardedFrom (calls.map Prod.snd) (runRewards ⟨db, []⟩ calls).2 log ∧ (∀ u, (log u).length ≤ 20) ∧
        Answers rewardsTexts two (runRewards ⟨db, []⟩ calls).1.db log := by
  refine ⟨RewardState.file {}, ?_, ?_⟩
  · exact toLatest_new S (by simp [rewardsTexts]) (rewards_run S two)
  · obtain ⟨t, c, e, hw, hb, a⟩ := runRewards_aux calls (t := {}) (c := []) (ops := []) (outs := [])
      ⟨Table.wf_empty, fun u => rfl, fun u => by simp [Table.history, Table.rowsOf, Table.uidOf]⟩ .nil
    rw [e]
    exact ⟨t.history, by simpa using a, hb, answers_ofTable rewards_reads RewardState.fits hw⟩

theorem runBlacklist_aux (calls : List (Scan R × Store.Blacklist.Op)) :
    ∀ {b : Store.Blacklist} {ops : List Store.Blacklist.Op} {oks : List Bool},
    Store.Blacklist.Inv b → BlacklistedFrom ops oks (fun x => x ∈ b.db) →
    ∃ b', (runBlacklist (BlacklistState.ofBlacklist b) calls).1 = BlacklistState.ofBlacklist (R := R) b' ∧
      Store.Blacklist.Inv b' ∧
      BlacklistedFrom (ops ++ calls.map Prod.snd) (oks ++ (runBlacklist (BlacklistState.ofBlacklist b) calls).2)
        (fun x => x ∈ b'.db) := by
  induction calls with
  | nil => intro b ops oks h hl; exact ⟨b, rfl, h, by simpa [runBlacklist] using hl⟩
  | cons x calls ih =>
    obtain ⟨S, o⟩ := x
    intro b ops oks h hl
    obtain ⟨b1, ok, e1, h1, a1, k1⟩ := BlacklistState.step_spec S b h o
    obtain ⟨b2, e2, h2, a2⟩ := ih h1 (.snoc hl a1 k1)
    simp only [runBlacklist]
    rw [e1]
    simp only
    exact ⟨b2, e2, h2, by simpa using a2⟩

/-- C93, blacklist: a new file opens, the calls do to the blacklisted ids what they should, and afterwards the listing
has exactly these, each once, and the question about one of them is answered with yes. -/
theorem blacklist_sql_is_set (S : Scan R) (calls : List (Scan R × Store.Blacklist.Op)) :
    ∃ b, BlacklistState.openDb S {} = some b ∧
      ∃ s, BlacklistedFrom (calls.map Prod.snd) (runBlacklist b calls).2 s ∧
        (∀ S, ∃ us, listEntries S blacklistTexts (runBlacklist b calls).1.db = some us ∧ us.Nodup ∧
          ∀ x, x ∈ us ↔ s x) ∧
        ∀ x, ((runBlacklist b calls).1.hasEntry x).2 = true ↔ s x := by
  refine ⟨BlacklistState.ofBlacklist ⟨[], []⟩, ?_, ?_⟩
  · unfold BlacklistState.openDb
    rw [toLatest_new S (by simp [blacklistTexts]) (blacklist_run S), Option.bind_some]
    obtain ⟨us, hp, e⟩ := listEntries_eq (R := R) (tab := nBlacklist) (v := blacklistTexts.migrations.length)
      (idx := listIndexes nBlacklist) (l := []) blacklist_reads S
    have e' : listEntries S blacklistTexts { ofList (R := R) nBlacklist 0 (listIndexes nBlacklist) [] with
        version := blacklistTexts.migrations.length } = some us := e
    rw [e', hp.eq_nil]
    rfl
  · obtain ⟨b, e, hi, a⟩ := runBlacklist_aux (R := R) calls (b := ⟨[], []⟩) (ops := []) (oks := [])
      (Store.Blacklist.inv_open [] (by simp)) (by simpa using BlacklistedFrom.nil)
    refine ⟨fun x => x ∈ b.db, by simpa using a, fun S => ?_, fun x => ?_⟩
    · rw [e]
      obtain ⟨us, hp, e⟩ := listEntries_eq (R := R) (tab := nBlacklist) (v := blacklistTexts.migrations.length)
        (idx := listIndexes nBlacklist) (l := b.db) blacklist_reads S
      exact ⟨us, e, hp.nodup_iff.mpr hi.nodup, fun x => hp.mem_iff⟩
    · rw [e, BlacklistState.hasEntry_of, (Store.Blacklist.hasEntry_eq b x hi).1, decide_eq_true_iff]

theorem runReview_aux (calls : List (Scan R × Store.ReviewList.Op)) : ∀ l : List Str,
    runReview (reviewFile l) calls =
      (reviewFile (R := R) ((calls.map Prod.snd).foldl (fun t o => (Store.ReviewList.step t o).1) l),
        calls.map (fun c => !reviewFails c.2)) := by
  induction calls with
  | nil => intro l; rfl
  | cons c calls ih =>
    obtain ⟨S, o⟩ := c
    intro l
    simp only [runReview]
    rw [reviewStep_eq]
    simp only
    rw [ih]
    refine congrArg (Prod.mk _) ?_
    simp only [List.map_cons]
    congr 1
    cases o with
    | add u f => cases f <;> rfl
    | remove u f => cases f <;> rfl
    | reopen => rfl

/-- C93, review list: a new file opens, every call succeeds unless the machine fails, and afterwards the listing has
exactly the ids whose last successful call was an addition, each once. -/
theorem review_sql_is_set (S : Scan R) (calls : List (Scan R × Store.ReviewList.Op)) :
    ∃ db, toLatest S reviewListTexts.migrations {} = some db ∧
      (runReview db calls).2 = calls.map (fun c => !reviewFails c.2) ∧
      ∀ S, ∃ us, listEntries S reviewListTexts (runReview db calls).1 = some us ∧ us.Nodup ∧
        ∀ x, x ∈ us ↔ Store.ReviewList.Listed (calls.map Prod.snd) x := by
  refine ⟨reviewFile [], ?_, ?_⟩
  · exact toLatest_new S (by simp [reviewListTexts]) (review_run S)
  · rw [runReview_aux]
    refine ⟨rfl, fun S => ?_⟩
    obtain ⟨us, hp, e⟩ := listEntries_eq (R := R) (tab := nReview) (v := reviewListTexts.migrations.length)
      (idx := listIndexes nReview) (l := Store.ReviewList.run (calls.map Prod.snd)) review_reads S
    refine ⟨us, e, hp.nodup_iff.mpr (Store.ReviewList.review_list_is_set _ []).2, fun x => ?_⟩
    rw [hp.mem_iff]
    exact (Store.ReviewList.review_list_is_set _ x).1

/-! ### C94 -/

/-- The migrations of the five stores. -/
def allMigrations : List (List Text) :=
  [statsTexts.migrations, deltasTexts.migrations, rewardsTexts.migrations, blacklistTexts.migrations,
    reviewListTexts.migrations]

theorem all_migrations (S : Scan R) : ∀ ms ∈ allMigrations,
    ms ≠ [] ∧ (∀ m ∈ ms, Additive m) ∧ ∃ last : Db R, runTexts S ms {} = some last := by
  intro ms h
  simp only [allMigrations, List.mem_cons, List.not_mem_nil, or_false] at h
  rcases h with rfl | rfl | rfl | rfl | rfl
  · exact ⟨by simp [statsTexts], stats_additive, _, stats_run S (one (R := R))⟩
  · exact ⟨by simp [deltasTexts], deltas_additive, _, deltas_run S (one (R := R))⟩
  · exact ⟨by simp [rewardsTexts], rewards_additive, _, rewards_run S (two (R := R))⟩
  · exact ⟨by simp [blacklistTexts], blacklist_additive, _, blacklist_run S⟩
  · exact ⟨by simp [reviewListTexts], review_additive, _, review_run S⟩

/-- C94: a file of any earlier release, with any rows, opens: it gets the version, the tables, the columns and the
indexes of a new file, its rows stay, and no others come. -/
theorem earlier_release_opens (S : Scan R) : ∀ ms ∈ allMigrations, ∀ k ≤ ms.length, ∀ d : Db R, OfRelease ms k d →
    ∃ fresh d', toLatest S ms {} = some fresh ∧ toLatest S ms d = some d' ∧ d'.version = fresh.version ∧
      SameSchema d' fresh ∧ KeepsRows d d' := by
  intro ms h k hk d hd
  obtain ⟨h0, hm, last, hl⟩ := all_migrations S ms h
  obtain ⟨d', g1, g2, g3, g4⟩ := toLatest_keeps S S h0 hm hl hk hd
  exact ⟨_, d', toLatest_new S h0 hl, g1, g2, ⟨g3.columns, g3.indexes⟩, g4⟩

/-- C94: opening a file that has been opened by this release changes nothing. -/
theorem opened_file_unchanged (S S' : Scan R) : ∀ ms ∈ allMigrations, ∀ d d' : Db R, toLatest S ms d = some d' →
    toLatest S' ms d' = some d' := by
  intro ms h d d' hd
  refine toLatest_same S' (all_migrations S ms h).1 ?_
  unfold toLatest at hd
  split at hd
  · cases hd
  · obtain ⟨x, _, rfl⟩ := Option.map_eq_some_iff.mp hd
    rfl

/-- C94: a file of a later release is refused. -/
theorem later_release_refused (S : Scan R) : ∀ ms ∈ allMigrations, ∀ d : Db R, ms.length < d.version →
    toLatest S ms d = none := by
  intro ms _ d hd
  unfold toLatest
  rw [if_pos (Or.inr hd)]

/-- C94: the queries get the same answers after opening as before, whatever is in the file.  A release that had the
tables had at least the first two migrations for scores, deltas and rewards and the first one for the lists. -/
theorem answers_survive_opening (S S' : Scan R) (k : Nat) (d : Db R) :
    (2 ≤ k → k ≤ statsTexts.migrations.length → OfRelease statsTexts.migrations k d →
      ∃ d', openStore S statsTexts d = some d' ∧
        ∀ u n, getEntries S' statsTexts one d' u n = getEntries S' statsTexts one d u n) ∧
    (2 ≤ k → k ≤ deltasTexts.migrations.length → OfRelease deltasTexts.migrations k d →
      ∃ d', openStore S deltasTexts d = some d' ∧
        ∀ u n, getEntries S' deltasTexts one d' u n = getEntries S' deltasTexts one d u n) ∧
    (2 ≤ k → k ≤ rewardsTexts.migrations.length → OfRelease rewardsTexts.migrations k d →
      ∃ d', openStore S rewardsTexts d = some d' ∧
        ∀ u n, getEntries S' rewardsTexts two d' u n = getEntries S' rewardsTexts two d u n) ∧
    (1 ≤ k → k ≤ blacklistTexts.migrations.length → OfRelease blacklistTexts.migrations k d →
      ∃ d', toLatest S blacklistTexts.migrations d = some d' ∧
        listEntries S' blacklistTexts d' = listEntries S' blacklistTexts d) ∧
    (1 ≤ k → k ≤ reviewListTexts.migrations.length → OfRelease reviewListTexts.migrations k d →
      ∃ d', toLatest S reviewListTexts.migrations d = some d' ∧
        listEntries S' reviewListTexts d' = listEntries S' reviewListTexts d) := by
  refine ⟨fun h2 hk hd => ?_, fun h2 hk hd => ?_, fun h2 hk hd => ?_, fun h2 hk hd => ?_, fun h2 hk hd => ?_⟩
  · obtain ⟨e, he, ht⟩ := stats_first S
    obtain ⟨d', g, t⟩ := answers_old stats_additive (by simp [statsTexts]) S (stats_run S one) he ht h2 hk hd
    exact ⟨d', g, fun u n => getEntries_tables stats_reads S' t u n⟩
  · obtain ⟨e, he, ht⟩ := deltas_first S
    obtain ⟨d', g, t⟩ := answers_old deltas_additive (by simp [deltasTexts]) S (deltas_run S one) he ht h2 hk hd
    exact ⟨d', g, fun u n => getEntries_tables deltas_reads S' t u n⟩
  · obtain ⟨e, he, ht⟩ := rewards_first S
    obtain ⟨d', g, t⟩ := answers_old rewards_additive (by simp [rewardsTexts]) S (rewards_run S two) he ht h2 hk hd
    exact ⟨d', g, fun u n => getEntries_tables rewards_reads S' t u n⟩
  · obtain ⟨e, he, ht⟩ := blacklist_first S
    obtain ⟨d', g, t⟩ := answers_old blacklist_additive (by simp [blacklistTexts]) S (blacklist_run S) he ht h2 hk hd
    refine ⟨d', g, ?_⟩
    unfold listEntries
    rw [query_tables S' t blacklist_reads.entries]
  · obtain ⟨e, he, ht⟩ := review_first S
    obtain ⟨d', g, t⟩ := answers_old review_additive (by simp [reviewListTexts]) S (review_run S) he ht h2 hk hd
    refine ⟨d', g, ?_⟩
    unfold listEntries
    rw [query_tables S' t review_reads.entries]

theorem upgrade_aux {sh : Shape} {P : Payload R α} {T : Texts} {idx : List (Str × Str × List Str)}
    (hT : Reads sh T (trimByTimeCond sh)) (hP : Fits sh P) (h0 : T.migrations ≠ [])
    (hm : ∀ m ∈ T.migrations, Additive m)
    (hl : ∀ S : Scan R, runTexts S T.migrations {} = some (ofTable sh P 0 idx {}))
    (hf : ∀ S : Scan R, ∃ e : Db R, runTexts S (T.migrations.take 2) {} = some e ∧
      e.tables = (ofTable sh P 0 idx {}).tables) (k : Nat) (h2 : 2 ≤ k) (hk : k ≤ T.migrations.length)
    (S S' : Scan R) (before after : List (Scan R × LogOp α)) :
    ∃ old new, openStore S (T.release k) {} = some old ∧
      openStore S' T (runLog (T.release k) P old before).1 = some new ∧
      (runLog T P new after).2 = after.map (fun c => !logFails c.2) ∧
      ∃ log, LoggedFrom (fun _ => []) ((before ++ after).map Prod.snd) log ∧ Answers T P (runLog T P new after).1 log := by
  choose first hf1 hf2 using hf
  obtain ⟨e, he, het⟩ := release_tables hm S (hl S) (hf1 S) (hf2 S) h2
  have hn : T.migrations.take k ≠ [] := by
    rw [ne_eq, List.take_eq_nil_iff]
    rintro (h | h)
    · omega
    · exact h0 h
  have hlen : (T.migrations.take k).length = k := by rw [List.length_take]; omega
  have hopen : openStore S (T.release k) {} = some (ofTable sh P k e.indexes {}) := by
    have := toLatest_new S hn he
    unfold openStore Texts.release
    simp only
    rw [this, hlen]
    cases e with
    | mk v tb ix =>
      simp only at het
      subst het
      rfl
  obtain ⟨t, e1, hw, a⟩ := runLog_aux (T := T.release k) (v := k) (idx := e.indexes) (release_reads hT k) hP hn hlen.symm
    (start := fun _ => []) before (t := {}) (ops := []) Table.wf_empty .nil
  obtain ⟨t2, e2, hw2, a2⟩ := runLog_aux (T := T) (v := T.migrations.length) (idx := idx) hT hP h0 rfl
    (start := fun _ => []) after hw a
  refine ⟨_, ofTable sh P T.migrations.length idx t, hopen, ?_, ?_, t2.history, ?_, ?_⟩
  · rw [e1]
    exact open_old hm hl hf1 hf2 h2 h0 hk S' S he rfl t
  · rw [e2]
  · simpa using a2
  · rw [e2]
    exact answers_ofTable hT hP hw2

/-- C94, scores: when an earlier release has kept the file through any calls and this one takes over, the logs go on
from where they were. -/
theorem stats_upgrade_keeps_logs (k : Nat) (h2 : 2 ≤ k) (hk : k ≤ statsTexts.migrations.length) (S S' : Scan R)
    (before after : List (Scan R × LogOp R)) :
    ∃ old new, openStore S (statsTexts.release k) {} = some old ∧
      openStore S' statsTexts (runLog (statsTexts.release k) one old before).1 = some new ∧
      (runLog statsTexts one new after).2 = after.map (fun c => !logFails c.2) ∧
      ∃ log, LoggedFrom (fun _ => []) ((before ++ after).map Prod.snd) log ∧
        Answers statsTexts one (runLog statsTexts one new after).1 log :=
  upgrade_aux stats_reads (one_fits rfl) (by simp [statsTexts]) stats_additive (fun S => stats_run S one) stats_first k h2
    hk S S' before after

/-- C94, deltas: likewise. -/
theorem deltas_upgrade_keeps_logs (k : Nat) (h2 : 2 ≤ k) (hk : k ≤ deltasTexts.migrations.length) (S S' : Scan R)
    (before after : List (Scan R × LogOp R)) :
    ∃ old new, openStore S (deltasTexts.release k) {} = some old ∧
      openStore S' deltasTexts (runLog (deltasTexts.release k) one old before).1 = some new ∧
      (runLog deltasTexts one new after).2 = after.map (fun c => !logFails c.2) ∧
      ∃ log, LoggedFrom (fun _ => []) ((before ++ after).map Prod.snd) log ∧
        Answers deltasTexts one (runLog deltasTexts one new after).1 log :=
  upgrade_aux deltas_reads (one_fits rfl) (by simp [deltasTexts]) deltas_additive (fun S => deltas_run S one) deltas_first k
    h2 hk S S' before after

end Trane.Sql
