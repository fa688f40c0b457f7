import Verif.Sql.Migrations

/-!
# The migrations of the five stores
-/

set_option linter.unusedSectionVars false

namespace Trane.Sql
open Trane.Store (Str Table)

variable {R : Type} [DecidableEq R] {α : Type}

theorem runTexts_parsed (S : Scan R) {m : Text} {s : Stmt} (h : parse m = some (s, 0)) (ms : List Text) (d : Db R) :
    runTexts S (m :: ms) d = (if s.known d then exec S d [] s else none).bind (runTexts S ms) := by
  rw [runTexts_cons]
  unfold execute prepare
  rw [h]
  by_cases hk : s.known d = true
  · simp [hk]
  · simp [hk]

/-! ### Lists of ids -/

/-- The columns of a list of ids. -/
def listCols : List Col := [{ name := nUnit, ty := .text, notNull := true, unique := true }]

/-- The file of a list of ids. -/
def ofList (tab : Str) (version : Nat) (idx : List (Str × Str × List Str)) (l : List Str) : Db R where
  version := version
  tables := [(tab, ⟨listCols, l.map (fun u => [.text u])⟩)]
  indexes := idx

def nBlacklist : Str := "blacklist".toList
def nReview : Str := "review_list".toList

/-! ### The indexes of the last version -/

def statsIndexes : List (Str × Str × List Str) :=
  [("unit_ids".toList, nUids, [nUnit]), ("trials".toList, statsShape.tab, [nUid, nTime])]

def deltasIndexes : List (Str × Str × List Str) :=
  [("deltas_trials".toList, deltasShape.tab, [nUid, nTime])]

def rewardsIndexes : List (Str × Str × List Str) :=
  [("unit_ids".toList, nUids, [nUnit]), ("rewards".toList, rewardsShape.tab, [nUid, nTime])]

def listIndexes (tab : Str) : List (Str × Str × List Str) := [("unit_id_index".toList, tab, [nUnit])]

/-! ### The migrations -/

theorem parse_uids :
    parse ["CREATE TABLE uids(unit_uid INTEGER PRIMARY KEY, unit_id TEXT NOT NULL UNIQUE);"] =
      some (.createTable nUids uidCols, 0) := by decide +kernel

theorem parse_unit_ids : parse ["CREATE INDEX unit_ids ON uids (unit_id);"] =
    some (.createIndex "unit_ids".toList nUids [nUnit], 0) := by decide +kernel

theorem parse_stats_table : parse ["CREATE TABLE practice_stats(", "id INTEGER PRIMARY KEY,",
    "unit_uid INTEGER NOT NULL REFERENCES uids(unit_uid),", "score REAL, timestamp INTEGER);"] =
    some (.createTable statsShape.tab (rowCols statsShape), 0) := by decide +kernel

theorem parse_unit_scores : parse ["CREATE INDEX unit_scores ON practice_stats (unit_uid);"] =
    some (.createIndex "unit_scores".toList statsShape.tab [nUid], 0) := by decide +kernel

theorem parse_drop : parse ["DROP INDEX unit_scores"] = some (.dropIndex "unit_scores".toList, 0) := by decide +kernel

theorem parse_trials : parse ["CREATE INDEX trials ON practice_stats (unit_uid, timestamp);"] =
    some (.createIndex "trials".toList statsShape.tab [nUid, nTime], 0) := by decide +kernel

theorem parse_deltas_table : parse ["CREATE TABLE practice_deltas(", "id INTEGER PRIMARY KEY,",
    "unit_uid INTEGER NOT NULL REFERENCES uids(unit_uid),", "delta REAL, timestamp INTEGER);"] =
    some (.createTable deltasShape.tab (rowCols deltasShape), 0) := by decide +kernel

theorem parse_deltas_trials : parse ["CREATE INDEX deltas_trials ON practice_deltas (unit_uid, timestamp);"] =
    some (.createIndex "deltas_trials".toList deltasShape.tab [nUid, nTime], 0) := by decide +kernel

theorem parse_rewards_table : parse ["CREATE TABLE practice_rewards(", "id INTEGER PRIMARY KEY,",
    "unit_uid INTEGER NOT NULL REFERENCES uids(unit_uid),", "reward REAL,", "weight REAL,", "timestamp INTEGER);"] =
    some (.createTable rewardsShape.tab (rowCols rewardsShape), 0) := by decide +kernel

theorem parse_rewards : parse ["CREATE INDEX rewards ON practice_rewards (unit_uid, timestamp);"] =
    some (.createIndex "rewards".toList rewardsShape.tab [nUid, nTime], 0) := by decide +kernel

theorem parse_blacklist : parse ["CREATE TABLE blacklist(unit_id TEXT NOT NULL UNIQUE);"] =
    some (.createTable nBlacklist listCols, 0) := by decide +kernel

theorem parse_blacklist_index : parse ["CREATE INDEX unit_id_index ON blacklist (unit_id);"] =
    some (.createIndex "unit_id_index".toList nBlacklist [nUnit], 0) := by decide +kernel

theorem parse_review : parse ["CREATE TABLE review_list(unit_id TEXT NOT NULL UNIQUE);"] =
    some (.createTable nReview listCols, 0) := by decide +kernel

theorem parse_review_index : parse ["CREATE INDEX unit_id_index ON review_list (unit_id);"] =
    some (.createIndex "unit_id_index".toList nReview [nUnit], 0) := by decide +kernel

theorem stats_additive : ∀ m ∈ statsTexts.migrations, Additive m := by
  intro m hm
  simp only [statsTexts, List.mem_cons, List.not_mem_nil, or_false] at hm
  rcases hm with rfl | rfl | rfl | rfl | rfl | rfl
  exacts [⟨_, parse_uids, rfl⟩, ⟨_, parse_stats_table, rfl⟩, ⟨_, parse_unit_ids, rfl⟩, ⟨_, parse_unit_scores, rfl⟩,
    ⟨_, parse_drop, rfl⟩, ⟨_, parse_trials, rfl⟩]

theorem deltas_additive : ∀ m ∈ deltasTexts.migrations, Additive m := by
  intro m hm
  simp only [deltasTexts, List.mem_cons, List.not_mem_nil, or_false] at hm
  rcases hm with rfl | rfl | rfl
  exacts [⟨_, parse_uids, rfl⟩, ⟨_, parse_deltas_table, rfl⟩, ⟨_, parse_deltas_trials, rfl⟩]

theorem rewards_additive : ∀ m ∈ rewardsTexts.migrations, Additive m := by
  intro m hm
  simp only [rewardsTexts, List.mem_cons, List.not_mem_nil, or_false] at hm
  rcases hm with rfl | rfl | rfl | rfl
  exacts [⟨_, parse_uids, rfl⟩, ⟨_, parse_rewards_table, rfl⟩, ⟨_, parse_unit_ids, rfl⟩, ⟨_, parse_rewards, rfl⟩]

theorem blacklist_additive : ∀ m ∈ blacklistTexts.migrations, Additive m := by
  intro m hm
  simp only [blacklistTexts, List.mem_cons, List.not_mem_nil, or_false] at hm
  rcases hm with rfl | rfl
  exacts [⟨_, parse_blacklist, rfl⟩, ⟨_, parse_blacklist_index, rfl⟩]

theorem review_additive : ∀ m ∈ reviewListTexts.migrations, Additive m := by
  intro m hm
  simp only [reviewListTexts, List.mem_cons, List.not_mem_nil, or_false] at hm
  rcases hm with rfl | rfl
  exacts [⟨_, parse_review, rfl⟩, ⟨_, parse_review_index, rfl⟩]

theorem stats_run (S : Scan R) (P : Payload R α) :
    runTexts S statsTexts.migrations {} = some (ofTable statsShape P 0 statsIndexes {}) := by
  unfold statsTexts
  simp only [runTexts_parsed S parse_uids, runTexts_parsed S parse_stats_table, runTexts_parsed S parse_unit_ids,
    runTexts_parsed S parse_unit_scores, runTexts_parsed S parse_drop, runTexts_parsed S parse_trials]
  rfl

theorem deltas_run (S : Scan R) (P : Payload R α) :
    runTexts S deltasTexts.migrations {} = some (ofTable deltasShape P 0 deltasIndexes {}) := by
  unfold deltasTexts
  simp only [runTexts_parsed S parse_uids, runTexts_parsed S parse_deltas_table, runTexts_parsed S parse_deltas_trials]
  rfl

theorem rewards_run (S : Scan R) (P : Payload R α) :
    runTexts S rewardsTexts.migrations {} = some (ofTable rewardsShape P 0 rewardsIndexes {}) := by
  unfold rewardsTexts
  simp only [runTexts_parsed S parse_uids, runTexts_parsed S parse_rewards_table, runTexts_parsed S parse_unit_ids,
    runTexts_parsed S parse_rewards]
  rfl

theorem blacklist_run (S : Scan R) :
    runTexts S blacklistTexts.migrations {} = some (ofList nBlacklist 0 (listIndexes nBlacklist) []) := by
  unfold blacklistTexts
  simp only [runTexts_parsed S parse_blacklist, runTexts_parsed S parse_blacklist_index]
  rfl

theorem review_run (S : Scan R) :
    runTexts S reviewListTexts.migrations {} = some (ofList nReview 0 (listIndexes nReview) []) := by
  unfold reviewListTexts
  simp only [runTexts_parsed S parse_review, runTexts_parsed S parse_review_index]
  rfl

/-! ### Opening -/

/-- A new file is an empty one of the last version. -/
theorem toLatest_new (S : Scan R) {ms : List Text} (h0 : ms ≠ []) {d : Db R} (h : runTexts S ms {} = some d) :
    toLatest S ms {} = some { d with version := ms.length } := by
  rw [toLatest_eq S ms {} h0 (Nat.zero_le _)]
  show (runTexts S (ms.drop 0) {}).map _ = _
  rw [List.drop_zero, h]
  rfl

/-- A file of the last version stays as it is. -/
theorem toLatest_same (S : Scan R) {ms : List Text} (h0 : ms ≠ []) {d : Db R} (hv : d.version = ms.length) :
    toLatest S ms d = some d := by
  rw [toLatest_eq S ms d h0 (Nat.le_of_eq hv), hv, List.drop_length]
  show some { d with version := ms.length } = some d
  rw [← hv]

end Trane.Sql
