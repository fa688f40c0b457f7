import Verif.Sql.Engine
import Verif.Store.Rewards
import Verif.Store.Blacklist
import Verif.Store.ReviewList

/-!
# The stores, with their SQL texts

The functions of the stores as sequences of calls of SQLite with the texts in the code, line by line and without the
indentation.  They use the operations of Verif/Store, of which only the calls, and the cache of rewards and of
the blacklist, play a role here.
-/

namespace Trane.Sql
open Trane.Store (Str LogOp Entry Reward)

variable {R : Type} [DecidableEq R] {α : Type}

/-- How the numbers of an entry are passed to SQLite and read from a row. -/
structure Payload (R α : Type) where
  enc : α → Record R
  dec : Record R → Option α

/-- One number: the score of a trial, /repo/src/practice_stats.rs:118, or a delta,
/repo/src/practice_deltas.rs:103. -/
def one : Payload R R where
  enc x := [.real x]
  dec
    | [.real x] => some x
    | _ => none

/-- Two numbers: the value and the weight of a reward, /repo/src/practice_rewards.rs:173-174. -/
def two : Payload R (R × R) where
  enc x := [.real x.1, .real x.2]
  dec
    | [.real x, .real y] => some (x, y)
    | _ => none

/-- The texts of a store with two tables. /repo/src/practice_stats.rs:54-203 and the other stores. -/
structure Texts where
  migrations : List Text
  get : Text
  intern : Text
  insert : Text
  uids : Text
  trim : Text
  like : Text
  delete : Text

/-- /repo/src/practice_stats.rs:49-80,111-113,141-144,163,172-174,189,198. -/
def statsTexts : Texts where
  migrations :=
    [ ["CREATE TABLE uids(unit_uid INTEGER PRIMARY KEY, unit_id TEXT NOT NULL UNIQUE);"],
      ["CREATE TABLE practice_stats(",
       "id INTEGER PRIMARY KEY,",
       "unit_uid INTEGER NOT NULL REFERENCES uids(unit_uid),",
       "score REAL, timestamp INTEGER);"],
      ["CREATE INDEX unit_ids ON uids (unit_id);"],
      ["CREATE INDEX unit_scores ON practice_stats (unit_uid);"],
      ["DROP INDEX unit_scores"],
      ["CREATE INDEX trials ON practice_stats (unit_uid, timestamp);"] ]
  get := ["SELECT score, timestamp from practice_stats WHERE unit_uid = (",
          "SELECT unit_uid FROM uids WHERE unit_id = $1)",
          "ORDER BY timestamp DESC LIMIT ?2;"]
  intern := ["INSERT OR IGNORE INTO uids(unit_id) VALUES ($1);"]
  insert := ["INSERT INTO practice_stats (unit_uid, score, timestamp) VALUES (",
             "(SELECT unit_uid FROM uids WHERE unit_id = $1), $2, $3);"]
  uids := ["SELECT unit_uid from uids"]
  trim := ["DELETE FROM practice_stats WHERE unit_uid = $1 AND timestamp NOT IN (",
           "SELECT timestamp FROM practice_stats WHERE unit_uid = $1",
           "ORDER BY timestamp DESC LIMIT ?2);"]
  like := ["SELECT unit_uid FROM uids WHERE unit_id LIKE $1;"]
  delete := ["DELETE FROM practice_stats WHERE unit_uid = $1;"]

/-- /repo/src/practice_deltas.rs:49-66,95-97,122-125,143,151-153,166,174. -/
def deltasTexts : Texts where
  migrations :=
    [ ["CREATE TABLE uids(unit_uid INTEGER PRIMARY KEY, unit_id TEXT NOT NULL UNIQUE);"],
      ["CREATE TABLE practice_deltas(",
       "id INTEGER PRIMARY KEY,",
       "unit_uid INTEGER NOT NULL REFERENCES uids(unit_uid),",
       "delta REAL, timestamp INTEGER);"],
      ["CREATE INDEX deltas_trials ON practice_deltas (unit_uid, timestamp);"] ]
  get := ["SELECT delta, timestamp from practice_deltas WHERE unit_uid = (",
          "SELECT unit_uid FROM uids WHERE unit_id = $1)",
          "ORDER BY timestamp DESC LIMIT ?2;"]
  intern := ["INSERT OR IGNORE INTO uids(unit_id) VALUES ($1);"]
  insert := ["INSERT INTO practice_deltas (unit_uid, delta, timestamp) VALUES (",
             "(SELECT unit_uid FROM uids WHERE unit_id = $1), $2, $3);"]
  uids := ["SELECT unit_uid from uids"]
  trim := ["DELETE FROM practice_deltas WHERE unit_uid = $1 AND timestamp NOT IN (",
           "SELECT timestamp FROM practice_deltas WHERE unit_uid = $1",
           "ORDER BY timestamp DESC LIMIT ?2);"]
  like := ["SELECT unit_uid FROM uids WHERE unit_id LIKE $1;"]
  delete := ["DELETE FROM practice_deltas WHERE unit_uid = $1;"]

/-- /repo/src/practice_rewards.rs:106-129,163-165,199,203-204,235,240-243,255,260. -/
def rewardsTexts : Texts where
  migrations :=
    [ ["CREATE TABLE uids(unit_uid INTEGER PRIMARY KEY, unit_id TEXT NOT NULL UNIQUE);"],
      ["CREATE TABLE practice_rewards(",
       "id INTEGER PRIMARY KEY,",
       "unit_uid INTEGER NOT NULL REFERENCES uids(unit_uid),",
       "reward REAL,",
       "weight REAL,",
       "timestamp INTEGER);"],
      ["CREATE INDEX unit_ids ON uids (unit_id);"],
      ["CREATE INDEX rewards ON practice_rewards (unit_uid, timestamp);"] ]
  get := ["SELECT reward, weight, timestamp from practice_rewards WHERE unit_uid = (",
          "SELECT unit_uid FROM uids WHERE unit_id = $1)",
          "ORDER BY timestamp DESC LIMIT ?2;"]
  intern := ["INSERT OR IGNORE INTO uids(unit_id) VALUES ($1);"]
  insert := ["INSERT INTO practice_rewards (unit_uid, reward, weight, timestamp) VALUES (",
             "(SELECT unit_uid FROM uids WHERE unit_id = $1), $2, $3, $4);"]
  uids := ["SELECT unit_uid FROM uids"]
  trim := ["DELETE FROM practice_rewards WHERE id IN (",
           "SELECT id FROM practice_rewards WHERE unit_uid = ?1",
           "ORDER BY timestamp DESC LIMIT -1 OFFSET ?2",
           ")"]
  like := ["SELECT unit_uid FROM uids WHERE unit_id LIKE ?1"]
  delete := ["DELETE FROM practice_rewards WHERE unit_uid = ?1;"]

/-- /repo/src/practice_rewards.rs:214-218. -/
def truncateText : Text :=
  ["DELETE FROM practice_rewards WHERE id IN (",
   "SELECT id FROM practice_rewards WHERE unit_uid = (",
   "SELECT unit_uid FROM uids WHERE unit_id = $1)",
   "ORDER BY timestamp DESC LIMIT -1 OFFSET 20",
   ");"]

/-! ### Functions that the three stores have in common -/

section
variable (S : Scan R) (T : Texts) (P : Payload R α)

/-- `init`, for instance /repo/src/practice_stats.rs:84-90. -/
def openStore (db : Db R) : Option (Db R) := toLatest S T.migrations db

/-- Reading a row of the answer, /repo/src/practice_stats.rs:117-126, /repo/src/practice_deltas.rs:102-110,
/repo/src/practice_rewards.rs:172-182. -/
def readRow (r : Record R) : Option (α × Int) :=
  match P.dec r.dropLast, r.getLast? with
  | some x, some (.int t) => some (x, t)
  | _, _ => none

/-- `get_scores`, /repo/src/practice_stats.rs:107-131; `get_deltas`, /repo/src/practice_deltas.rs:92-114;
`get_rewards`, /repo/src/practice_rewards.rs:159-185. -/
def getEntries (db : Db R) (u : Str) (n : Nat) : Option (List (α × Int)) :=
  (query S db T.get [.text u, .int n]).bind (fun rows => rows.mapM (readRow P))

/-- One entry, /repo/src/practice_stats.rs:147-152, /repo/src/practice_deltas.rs:129-134. -/
def insertEntry (db : Db R) (e : Entry α) : Option (Db R) :=
  (execute S db T.intern [.text e.unit]).bind fun db =>
    execute S db T.insert (.text e.unit :: P.enc e.val ++ [.int e.ts])

/-- The transaction of `record_exercise_scores`, /repo/src/practice_stats.rs:134-157, and
`record_exercise_deltas`, /repo/src/practice_deltas.rs:117-138. -/
def insertAll : Db R → List (Entry α) → Option (Db R)
  | db, [] => some db
  | db, e :: es => (insertEntry S T P db e).bind fun db => insertAll db es

/-- The answer of a query for `i64`. As in /repo/src/practice_stats.rs:163-168. -/
def readInts (rows : List (Record R)) : Option (List Int) :=
  rows.mapM fun r => match r.head? with
    | some (.int i) => some i
    | _ => none

/-- One statement for every id, each for itself, up to the first error. As in /repo/src/practice_stats.rs:169-178. -/
def forEach (text : Text) (ps : Int → List (Val R)) : Db R → List Int → Db R × Bool
  | db, [] => (db, true)
  | db, k :: ks =>
    match execute S db text (ps k) with
    | none => (db, false)
    | some db => forEach text ps db ks

/-- The numbers of units, then a statement for each, then `VACUUM`.  `stop = some k` is a failure of the machine
after the first `k` statements. As in /repo/src/practice_stats.rs:160-205. -/
def forUids (find : Text) (args : List (Val R)) (text : Text) (ps : Int → List (Val R)) (vacuum : Bool)
    (stop : Option Nat) (db : Db R) : Db R × Bool :=
  match (query S db find args).bind readInts with
  | none => (db, false)
  | some ks =>
    match stop with
    | some k => ((forEach S text ps db (ks.take k)).1, false)
    | none =>
      match forEach S text ps db ks with
      | (db, false) => (db, false)
      | (db, true) => if vacuum then (db, (execute S db ["VACUUM;"] []).isSome) else (db, true)

/-- `trim_scores`, /repo/src/practice_stats.rs:160-182; `trim_deltas`, /repo/src/practice_deltas.rs:141-160;
`trim_rewards`, which does not vacuum, /repo/src/practice_rewards.rs:232-248. -/
def trimAll (vacuum : Bool) (n : Nat) (stop : Option Nat) (db : Db R) : Db R × Bool :=
  forUids S T.uids [] T.trim (fun k => [.int k, .int n]) vacuum stop db

/-- `remove_scores_with_prefix`, /repo/src/practice_stats.rs:185-205; `remove_deltas_with_prefix`,
/repo/src/practice_deltas.rs:163-180; `remove_rewards_with_prefix`, /repo/src/practice_rewards.rs:251-268. -/
def removeLike (p : Str) (stop : Option Nat) (db : Db R) : Db R × Bool :=
  forUids S T.like [.text (p ++ ['%'])] T.delete (fun k => [.int k]) true stop db

/-- A call of `PracticeStats` or `PracticeDeltas` that changes something, and opening the file again.
/repo/src/practice_stats.rs:106-234. -/
def logStep (db : Db R) : LogOp α → Db R × Bool
  | .record es commitFails =>
    match insertAll S T P db es with
    | none => (db, false)
    | some db' => if commitFails then (db, false) else (db', true)
  | .trim n stop => trimAll S T true n stop db
  | .removePrefix p stop => removeLike S T p stop db
  | .reopen =>
    match openStore S T db with
    | none => (db, false)
    | some db => (db, true)

end

/-! ### Rewards -/

/-- `LocalPracticeRewards`, /repo/src/practice_rewards.rs:96-102. -/
structure RewardState where
  db : Db ℚ
  cache : AMap Str (List Reward) := []

namespace RewardState
open Trane.Store.Rewards (hasSimilar addCache)

/-- /repo/src/practice_rewards.rs:191-224: the loop, as in `Trane.Store.Rewards.loop`. -/
def loop (S : Scan ℚ) : RewardState → List Reward → Option Nat → RewardState × List Str × Bool
  | s, [], _ => (s, [], true)
  | s, r :: rs, budget =>
    if hasSimilar s.cache r then loop S s rs budget
    else if budget = some 0 then (s, [], false)
    else
      match insertEntry S rewardsTexts two s.db ⟨r.unit, (r.value, r.weight), r.ts⟩ with
      | none => (s, [], false)
      | some db =>
        match execute S db truncateText [.text r.unit] with
        | none => (s, [], false)
        | some db =>
          let res := loop S ⟨db, addCache s.cache r⟩ rs (budget.map (· - 1))
          (res.1, r.unit :: res.2.1, res.2.2)

/-- A call of `PracticeRewards` that changes something, and opening the file again,
/repo/src/practice_rewards.rs:133-147,188-268. -/
def step (S : Scan ℚ) (s : RewardState) : Store.Rewards.Op → RewardState × Option (List Str)
  | .record rs fail =>
    let res := loop S s rs fail
    if res.2.2 && fail.isNone then (res.1, some res.2.1) else ({ res.1 with db := s.db }, none)
  | .trim n stop =>
    let res := trimAll S rewardsTexts false n stop s.db
    ({ s with db := res.1 }, if res.2 then some [] else none)
  | .removePrefix p stop =>
    let res := removeLike S rewardsTexts p stop s.db
    ({ s with db := res.1 }, if res.2 then some [] else none)
  | .reopen =>
    match openStore S rewardsTexts s.db with
    | none => (s, none)
    | some db => (⟨db, []⟩, some [])

end RewardState

/-! ### Lists of ids -/

/-- The texts of a list of ids. /repo/src/blacklist.rs:36-160 and /repo/src/review_list.rs:33-105. -/
structure ListTexts where
  migrations : List Text
  add : Text
  remove : Text
  entries : Text

/-- /repo/src/blacklist.rs:48-57,113,125,161; line 142 has the text of line 125. -/
def blacklistTexts : ListTexts where
  migrations :=
    [ ["CREATE TABLE blacklist(unit_id TEXT NOT NULL UNIQUE);"],
      ["CREATE INDEX unit_id_index ON blacklist (unit_id);"] ]
  add := ["INSERT INTO blacklist (unit_id) VALUES (?1)"]
  remove := ["DELETE FROM blacklist WHERE unit_id = $1"]
  entries := ["SELECT unit_id from blacklist;"]

/-- /repo/src/blacklist.rs:137-138. -/
def blacklistLike : Text := ["SELECT unit_id from blacklist WHERE unit_id LIKE $1;"]

/-- /repo/src/review_list.rs:36-45,76,85,94. -/
def reviewListTexts : ListTexts where
  migrations :=
    [ ["CREATE TABLE review_list(unit_id TEXT NOT NULL UNIQUE);"],
      ["CREATE INDEX unit_id_index ON review_list (unit_id);"] ]
  add := ["INSERT OR IGNORE INTO review_list (unit_id) VALUES (?1)"]
  remove := ["DELETE FROM review_list WHERE unit_id = $1"]
  entries := ["SELECT unit_id from review_list;"]

/-- The answer of a query for strings. As in /repo/src/blacklist.rs:138-145. -/
def readTexts (rows : List (Record R)) : Option (List Str) :=
  rows.mapM fun r => match r.head? with
    | some (.text s) => some s
    | _ => none

/-- `get_review_list_entries`, /repo/src/review_list.rs:91-104; `get_blacklist_entries`,
/repo/src/blacklist.rs:158-171. -/
def listEntries (S : Scan R) (T : ListTexts) (db : Db R) : Option (List Str) :=
  (query S db T.entries []).bind readTexts

/-- A call of `ReviewList` that changes something, and opening the file again,
/repo/src/review_list.rs:49-88.  `dbFails` is a failure of the machine before the statement. -/
def reviewStep (S : Scan R) (db : Db R) : Store.ReviewList.Op → Db R × Bool
  | .add u f => change db (if f then none else execute S db reviewListTexts.add [.text u])
  | .remove u f => change db (if f then none else execute S db reviewListTexts.remove [.text u])
  | .reopen => change db (toLatest S reviewListTexts.migrations db)
where
  /-- The new database, or the old one after an error. -/
  change (db : Db R) : Option (Db R) → Db R × Bool
    | none => (db, false)
    | some db => (db, true)

/-- `LocalBlacklist`, /repo/src/blacklist.rs:37-44. -/
structure BlacklistState (R : Type) where
  cache : AMap Str Bool
  db : Db R

namespace BlacklistState

/-- `has_entry`, /repo/src/blacklist.rs:92-101. -/
def hasEntry (b : BlacklistState R) (u : Str) : BlacklistState R × Bool :=
  match b.cache.find u with
  | some v => (b, v)
  | none => ({ b with cache := b.cache.put u false }, false)

/-- `new`, /repo/src/blacklist.rs:69-82. -/
def openDb (S : Scan R) (db : Db R) : Option (BlacklistState R) :=
  (toLatest S blacklistTexts.migrations db).bind fun db =>
    (listEntries S blacklistTexts db).map fun us => ⟨us.foldl (fun c u => c.put u true) [], db⟩

/-- `add_to_blacklist`, /repo/src/blacklist.rs:104-119. -/
def add (S : Scan R) (b : BlacklistState R) (u : Str) (dbFails : Bool) : BlacklistState R × Bool :=
  match b.hasEntry u with
  | (b, true) => (b, true)
  | (b, false) =>
    if dbFails then (b, false)
    else match execute S b.db blacklistTexts.add [.text u] with
      | none => (b, false)
      | some db => (⟨b.cache.put u true, db⟩, true)

/-- `remove_from_blacklist`, /repo/src/blacklist.rs:122-131. -/
def remove (S : Scan R) (b : BlacklistState R) (u : Str) : BlacklistState R × Bool :=
  match execute S b.db blacklistTexts.remove [.text u] with
  | none => (b, false)
  | some db => (⟨b.cache.put u false, db⟩, true)

/-- The loop of /repo/src/blacklist.rs:145-151, with the rows that were selected. -/
def removeAll (S : Scan R) : BlacklistState R → List Str → BlacklistState R × Bool
  | b, [] => (b, true)
  | b, u :: us =>
    match b.remove S u with
    | (b, false) => (b, false)
    | (b, true) => removeAll S b us

/-- `remove_prefix_from_blacklist`, /repo/src/blacklist.rs:134-155.  `failAt = some k` is a failure of the machine
after `k` rows. -/
def removePrefix (S : Scan R) (b : BlacklistState R) (p : Str) (failAt : Option Nat) : BlacklistState R × Bool :=
  match (query S b.db blacklistLike [.text (p ++ ['%'])]).bind readTexts with
  | none => (b, false)
  | some us =>
    match failAt with
    | some k => ((removeAll S b (us.take k)).1, false)
    | none =>
      match removeAll S b us with
      | (b, false) => (b, false)
      | (b, true) => (b, (execute S b.db ["VACUUM;"] []).isSome)

/-- A call of `Blacklist`, and opening the file again. -/
def step (S : Scan R) (b : BlacklistState R) : Store.Blacklist.Op → BlacklistState R × Bool
  | .add u f => b.add S u f
  | .remove u f => if f then (b, false) else b.remove S u
  | .removePrefix p f => b.removePrefix S p f
  | .query u => ((b.hasEntry u).1, true)
  | .reopen =>
    match openDb S b.db with
    | none => (b, false)
    | some b => (b, true)

end BlacklistState

end Trane.Sql
