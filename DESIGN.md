# Formal model of trane: design

## Trusted base

* Lean 4.33.0's kernel, and the three standard axioms `propext`, `Classical.choice`, `Quot.sound`
  (the axioms each property theorem depends on are listed at the end of this file; none of our own are added).
* Mathlib (installed version) as a library of definitions: all its lemmas are kernel-checked.
* The faithfulness of the model to `/repo`: each model definition cites the file and lines it models.

## Modelling conventions

* `Ustr` ids are values of an arbitrary type with decidable equality (or `List Char` where string
  structure matters: prefix search, SQL `LIKE`, id generation).
* `UstrMap` is an association list with unique keys (`Verif.Base.AMap`), `UstrSet` is a duplicate-free list.
  Iteration order of hash maps is unspecified in Rust; where it can influence the result the model takes the
  order as a parameter and theorems quantify over every order.
* `Result` is `Option`/`Except` data; a panic is an error value. A `&mut self` method returns the new state, and a
  method that mutates and then fails returns both the partially mutated state and the failure.
* `f32` is modelled by exact numbers: `ℚ` for the decision logic, `ℝ` for the scoring curves (they use real powers).
  `Verif/Float` (C80, C81) models rounding, NaN and infinities for the exercise scorer, the reward scorer, the values of
  propagated rewards, the averages of unit scores and the selection weights. There `powf` is assumed to return a neighbour
  of the true power, `sqrt` to be correctly rounded, nothing is assumed of `ln_1p` and `exp` (C125 alone assumes that they
  return a neighbour of the true value), and the sign of zero is left out. Elsewhere (mastery windows, knocker, success rate) rounding is not modelled.
* Random choices (shuffle, weighted sampling, random sort keys) are parameters constrained only by what the library
  documents (a shuffle is a permutation, a sample is a sub-multiset).
* SQLite tables are lists of rows with the constraints of the schema; statements are functions on rows. Each
  `transaction … commit` is one atomic step. The clock is a parameter. Sql models the SQL texts themselves: a lexer, a
  parser and an engine after SQLite's documentation, for the statements the stores use; C93 shows that the texts do what
  the functions on rows do.
* JSON text, its reader and writer, and the derived (de)serialisers are modelled in Json, from the documented behaviour of
  serde_json (compact and pretty writer, recursion limit 128); `Json.preferencesFormat` plugs into C76. Elsewhere
  (de)serialisation is a parameter. YAML front matter and the digits of floating point numbers are
  parameters. Locks and RefCells are modelled apart from the data, in Conc/Code; the data of the blacklist and of a grading under all interleavings of threads are in Conc/SharedBlacklist and Conc/Grading.

## Plan per property

| id | model module | how it will be proved |
|----|--------------|-----------------------|
| C01 | Graph | state machine over edit calls; inverse-relation invariant by induction over call sequences |
| C02 | Graph | same |
| C03 | Graph | same, including the error paths that leave a partial type update |
| C04 | Graph | monotonicity of the type map over steps; rejection lemma |
| C05 | Graph | multiset count invariant by induction |
| C06 | Cycles | white-path argument for the iterative DFS: invariant on (visited, stack); termination by measure |
| C07 | Graph | loop invariant over the courses |
| C08 | Graph | sinks invariant by induction over loader-disciplined sequences |
| C09 | Graph | invariant by induction |
| C10 | Blacklist | refinement (cache, table) to a set, over all histories with reopen |
| C11 | Blacklist | definition of SQL LIKE; exact for prefixes without `%`, `_` and letters; negation with witnesses |
| C12 | ReviewList | refinement to a set |
| C13 | Stats | refinement of the two tables to a per-unit log; ORDER BY/LIMIT as sorted list prefix |
| C14 | Stats | proved for distinct timestamps; negation with a tie witness; rewards version in full |
| C15 | Stats | as C11 |
| C16 | Rewards | invariant over record batches |
| C17 | Rewards | cache invariant over histories |
| C18 | Stats | write-ahead steps; crash = any prefix of atomic steps |
| C19–C22, C25 | Scorer | real analysis over Mathlib's `rpow`, induction over trial lists |
| C23, C24 | RewardScorer | convexity of weighted averages; decision logic |
| C26, C27 | UnitScorer | averages; cache coherence invariant; negations with witnesses for stale cases |
| C28, C29 | Propagator | decreasing measure on (magnitude, weight); invariants of the work list |
| C30–C37 | Scheduler | the search as a transition system on (stack, visited, results); termination measure; invariants |
| C38, C39, C46 | CandidateFilter, Options | list algebra; interval arithmetic |
| C40 | Shuffler | permutation and grouping lemmas |
| C41 | RelearnPile | refinement to "last score" function |
| C42 | Knocker | decision logic |
| C43 | Scheduler/Stats | composition of the store models |
| C44, C45 | Filters | structural induction on filter trees; prefix sums |
| C47–C50 | Library | fold over manifests; sortedness |
| C51–C54 | Generators | structural induction on passages; injectivity of id rendering |
| C55, C56 | Top, OptionsApi | component copies of the options; product of the component state machines, projections of histories; negation with a witness where the code does not forward |
| C57 | Options | case analysis and interval arithmetic |
| C58, C59 | Scorer | monotonicity of the curves in time and in grades; witnesses where the code is not monotone |
| C60 | UnitScorer | fuel of the recursive query bounded by the height of the score dependency relation; divergence witness |
| C61 | Propagator | completeness of the work list; order-dependence witness |
| C62 | CandidateWeight | interval arithmetic and monotonicity over the reals |
| C63 | CandidateFilter | case analysis of the share adjustment |
| C64 | Session | counting over histories of batches |
| C65 | Batch | existence argument through search, knock-out and windows; witness for high scores |
| C66 | System | composition of stores, caches and session over histories |
| C67 | Library | prefix algebra on paths |
| C68, C69, C70 | Generators | exactness of the file classification; fold invariants |
| C71, C72 | Top | restart as a step of the product machine |
| C73 | Gen/Builder* | the builders as lists of writes to a file map, read back by the generator model of C52 |
| C74 | Library/Builder* | the builders as lists of steps on a file map, read back by the library model of C47 |
| C75 | Graph/Dot* | the drawing as text; unique reading of lines by splitting at quotes; counts of lines over all graph histories |
| C76 | Top/Config* | a disk with a budget of steps left and a cut inside the last write; case analysis of each step |
| C77 | Library/Assets* | normalisation and verification of every kind of asset, against one function `paths` listing the paths |
| C78 | Conc/Locks, Code, Deadlock, Props | every function as a program of lock and cell actions with open branches; order on locks; a measure on what is left to do |
| C79 | Conc/Cells, Props | invariant over all schedules: only one thread touches cells, and it nests them correctly |
| C80 | Float/Round, F32, Scorer, Interval, Props | IEEE binary32 rounding on the reals; interval bounds carried through every operation; induction over the history |
| C81 | Float/Rewards, RewardLemmas, RewardProps, Propagation, PropagationProps, RewardSample | interval bounds with signs; induction over reward lists and over propagation paths |
| C82 | Top/TimeProps, TimeSample, AppProps, AppSample | what the clock shows is a fold over the history; the override is unchanged by every other call; an uncached exercise is scored with both |
| C83 | Sched/CacheRange, Top/App, AppProps, AppSample | invariant of the caches over all histories, kept by every step of the scoring monad |
| C84 | Sched/Overlay, OverlayProps, Top/AskProps | the caches read over the data give a pure function; every query agrees with it and keeps it |
| C85 | Top/ScoreProps, ScoreSample | C33 for batches with the scores read through the caches, moved after the batch by C84 |
| C86 | Top/Whole, WholeAsk, WholeSample; Sched/OverlayTerm | the hypotheses of the search theorems (C30-C41, C85) derived from the files on disk (C47), the opening and the calls; the scores exist by C60 |
| C87 | Json/Text, TextLemmas, TextRound, Serde, Codes, CodesTypes, Props | the reader undoes the writer by induction over values; a strict beginning of a value is never complete; each type decodes what it encodes with a bound on the nesting |
| C88 | Json/Lenient | readers that look up one member after the other have all the freedoms; every struct is such a reader, and every enum reads a name with such data (`Variants`) |
| C89 | Json/Grammar, GrammarProps | a grammar as inductive relations, independent of the reader; the reader is sound and complete for it, by induction on its fuel |
| C90 | Tree/Model, Props, Open, Saved, Built, Sample, BuiltSample | the files of a machine as a map from paths to texts; path resolution with `.` and `..` against a relation `Leads`; the library model of C47, the assets of C77 and the JSON grammar of C89 on top; builders write texts that are read back (C74) |
| C91 | Tree/Generators, GenFiles, Lines, GenKnowledge, GenLiteracy, GenTranscription, GenServed, GenSample | the generators of Gen/* with the texts of the tree for files and the names and assets of the code; one specification per generator, written over texts only; `Due` says what is to be made for a course |
| C92 | Tree/Whole, WholeSample | C86 and C91 put together: an object on a library opened from texts, with the batch size of the preferences' text |
| C93 | Sql/Syntax, Engine, Code, Props | a lexer and parser for the SQL of the stores and an engine for its statements; refinement: the file is the encoding of the table or list of Store, every text does to it what the operation does to the table; induction over calls, each with its own scan order |
| C94 | Sql/Migrations, Old, Props | every migration only creates tables and creates or drops indexes; running the rest of them on a file with the schema of a release gives the schema of the last one and keeps the rows |
| C95 | Bench/Model, Spec, Runs, Props, Library | the loops of the simulation over an arbitrary object, with the random numbers as parameters; `Story` says which events may follow each other and at which times, `Run` what is reported; invariant by induction over the exercises, batches and sessions; the draws that lead to a grade are an interval of the length of its probability; the object is then that of C86, for which no call fails |
| C96 | Scorer/FormulaSpec, Scorer/Formula, Top/GradeFormula | the formulas written out without the definitions of the model (recursion from the newest trial down, sums over positions, products of powers instead of logarithms); the loops of the model are proved equal to them, and the answer of the whole object after a grade, for every history before it, to the formula of the logs |
| C97 | Library/BuiltLibrary, BuildSucceeds, TestLib/Model, Ids, Builders, Props, Random, Sample | the builders of C74 one after the other; induction over the courses: what stands after one is still there after the others; the links in the manifests of test courses are those of the test courses, read back from the ids; random dependencies go to smaller indices, so there are no cycles |
| C98 | TestLib/Simulation, SimLibrary, Sample | the loop of the simulation over an arbitrary object, answers and clock; `SimStory` says which events may follow each other; the object is then that of C86, for which no call fails |
| C99 | Tree/Session | the filter is looked up in the texts of the saved filters (C90), the part by C45; `batchFor` is then the batch of C92 with that filter; the scope of the filters is that of C34 and C33, read off the manifests in the texts |
| C100 | Float/Shares, SharesLemmas, SharesProps | the shares and the numbers of exercises over any arithmetic; read without rounding they are the model of C38 and C63 (`filter_exact`); read with `f32`, each rounding of the default shares is computed (`rnd_val`), the products are bounded by the relative error of one rounding, and the machine's batch is an exact batch with other shares, so that the theorems of C38 apply |
| C101 | Library/Alike, Tree/Moved, MovedProps, MovedPractice, CopySample | opening is natural: it carries a relation between the parts of manifests that it does not look at (here: the same up to the places of files) from the disk to the library, step by step through reading, generators, checks and the graph (`openLibrary_like`); a moved library is an instance, with resolved paths shifted from one root to the other; the graphs are equal, so the histories of C92 are the same |
| C102 | Tree/Copy, CopySample | the copy by induction over the files walked, the destination apart from the source; a copy in an empty directory is a moved library of C101; threads as lists of steps that are local to a directory, any interleaving, by induction over it with one shadow file system per thread; the report by cases |
| C103 | Library/Shuffle, ShuffleProps, Gen/Shuffle, Tree/Listed, ListedSample | two disks whose listings are permutations of each other have courses that correspond, and generators return permutations (by the exact characterisations of C52–C54, by induction over permutations for the metadata); then what the library answers is determined by C47 and C50 |
| C104 | Sched/ScoreOrder, ScoreOrderProps, Library/ShuffleScores, Tree/ListedScores, Float/OrderProps, OrderSample | the score queries overlaid on given caches (C84) are functions of the sets in the graph up to permutation, by induction over the fuel; the sets of two libraries correspond by C103; rewards by their exact characterisation along dependencies (C61); in f32 by adding up the errors of single roundings |
| C105 | Sched/ProgressSpec, ProgressProps, ProgressScores, ProgressSample, ProgressLocks, Library/ProgressProps, Top/ProgressProps, ProgressSample | the units that come before a locked unit are ranked by the longest chain (finite and without loop), and by induction over the rank everything is open and done unless a lesson on offer is not mastered; scores of courses follow those of their lessons by the averages; conditions on the graph from those on the manifests; four kinds of libraries that lock for good as counterexamples |
| C106 | Sched/OfferOrder, OfferOrderProps, OfferOrderSample, Top/OfferOrder, OfferOrderProps | every notion of the specification of the search (access, locks, shares) is invariant under replacing the graph by one with the same relations; with soundness (C33) and completeness (C36) of the search its result is determined lesson by lesson; C103 and C48 give the relations |
| C107 | Sched/Touches, TouchesOrder, Store/RewardsOrder, Top/SameHistory, SameHistoryProps, SameHistorySample | simulation: two objects are twins when they differ only in row numbers, the order of sets and the session; every call keeps twins twins. For the caches, the entries a query adds are a set defined without reference to the order (`Touches`), so equal sets of queries leave equal caches; for the rewards, a list without repeated units is recorded unit by unit, and the answers do not depend on the numbers of rows |
| C108 | Scorer/SpacingProps | induction over the history: the growth of a transition is at most 33/8 times the days since the trial before, and 1 + x ≤ exp x; monotonicity of the transition in the days; the closed form of perfect and of failed histories; comparison of the two forgetting curves |
| C109 | Scorer/LaterProps, Store/Later, Sched/Later, Top/LaterProps | every function of the model commutes with moving all timestamps by δ: the scorers because they only subtract, the tables because rows are only compared, the propagation because it copies the timestamp; then induction over the calls, with the invariant that the timestamps of the stored rewards are representable |
| C110 | Scorer/FivesProps, Top/FivesLemmas, Top/FivesCaches, Top/FivesProps, Top/FivesSample | fives never shorten the stability of one day, so within a day the retrievability is at least 0.9; an invariant over the grades: what each adds to the tables of trials and deltas, and that the record of the exercise and the score of its lesson leave the caches with the first one; the newest of the tables are then all new, and the answers through the caches are those computed (C84) |
| C111 | Sched/CoherentAnswers, Top/DiligentLemmas, Top/DiligentProps, Top/DiligentSample | with coherent caches and nothing superseded all answers are those computed from the stored data; a lesson whose stored grades are recent fives is mastered, so it is not one still to be learned, and C105 leaves nothing locked; an invariant over the calls says what a session of fives leaves in the tables; a lesson once practised is never to be learned again, so different rounds take up different lessons |
| C112 | Store/Prune, Top/TidySpec, Top/TidyLemmas, Top/TidyProps | a relation between two tables: the 20 newest rows of every unit agree; with different dates the rows of a unit have one order, so the relation is kept by recording on both, by trimming either or both, and by removal; a relation between two objects that differ in the two tables only is kept by every call, as all scores are computed from the 20 newest rows; trimming the rewards does nothing by C16 |
| C113 | Sched/Separate, Sched/SeparateFrame, Store/Separate, Top/SeparateSpec, Top/SeparateLemmas, Top/SeparateProps | two relations on computations of the unit scorer: `Follows` (same result and same cache entries for the units of the part, on caches and data that agree there) and `Frames` (cache entries of the part untouched); every function of the scorer and every invalidation satisfies the first for units of the part and the second for the others; rewards stay on the side of the exercise by induction over the propagation loop; the tables agree on the units of the part after calls about either side; so the relation between two objects is kept by every call; the sample has two courses, one depending on the other |
| C114 | Top/AnewSpec, Top/AnewProps | removing by prefix empties the three tables on the part and opening again empties caches and the list of recent rewards; settings (blacklist, review list, preferences, options, session, clock) go through the same values with and without the practising calls, by induction over the calls; so the two objects are in the relation of C113, which every later call keeps |
| C115 | Top/OnlySpec, Top/OnlyProps | after opening, the cache of an exercise holds what its rows give (C82), so a grading writes what the rows alone determine, whatever else was called: by induction both histories store the same; then the worlds agree and coherence of the caches gives equal answers; the blacklist after taking a unit off again is as before because other calls do not touch it |
| C116 | Conc/Object, ObjectSpec, ObjectLemmas, SharedBlacklist(Spec, Props) | threads that run the calls of one object step by step behind a read-write lock; the log of returned calls; invariant over all schedules: either nobody writes and every reader will answer right whatever other readers do, or one writer is alone; the blacklist keeps cache and table in agreement under reading steps of any number of readers |
| C117 | Conc/Grading(Spec, Props), WatchSpec, Watch | `score_exercise` as a program of steps, one per lock held, beside reading calls, no lock around; invariant over all schedules: the stored data lie between those after the finished gradings and those after one more; the program left alone ends where `System.scoreExercise` ends |
| C118 | Top/CrashSpec, Top/CrashProps | the states a crash can leave, call by call; for a grading, the states its program goes through (C117): each has the files of the grading with an error at the next write; opening reads files only |
| C119 | Top/Site, Top/SiteSpec, Top/SiteProps, Top/SiteSample | a site: the files and, for each object, what it has in memory; a call sees the files as they are; invariants of the tables that do not mention the memories, by induction over interleavings; witnesses for what is kept in memory |
| C120 | Float/Approx, Float/Slope, Float/VelocityLemmas, Float/VelocityProps | sums and products of numbers that are not negative keep a relative error of 2^-24 per operation; the differences of the code against their condition (spread of the days from the newest and oldest trial, Cauchy–Schwarz for the numerator); the machine's quotient against the exact one and, through C25, the least squares line |
| C121 | Float/WeightLemmas, Float/AverageLemmas, Float/AverageProps | the weights from bounds of logarithms, the sums with an error relative to the sum of the weights, quotient and combination; recall 1 when no time has passed |
| C122 | Float/RecallLemmas, Float/StabilityLemmas, Float/ReplayLemmas, Float/ReplayProps | relative errors of recall through logarithms; one step of the replay adds 85 errors of 2^-24 and does not enlarge the earlier ones, because stability grows less than in proportion and stays in order; the fifty days are compared exactly |
| C123 | Float/RewardNear, Float/FinalLemmas, Float/FinalProps | decays are within 10 errors of 2^-24, or both at most 1/32 and the reward is dropped; sums of the rewards with an error in proportion to the weights; the three comparisons are exact; a reward whose sign is lost is next to 0; against the formulas of C96 |
| C124 | Float/MeanProps | the error of a sum of n scores grows like n² · 2^-24; divided by n; C123 for the exercises |
| C125 | `Float/Rewards.lean` (`gCost`, `gWeight`) against `Formula.weight`; `ln_1p` and `exp` are arbitrary functions that return a neighbour of the exact value (`NextTo`) | each term of the log-cost is followed with its rounding error (`CostLemmas.lean`), then the exponential, the clamping, the square root and the quotient; theorems in `Float/CostProps.lean` |
| C126 | Float/Portion, Float/PortionProps | `select_candidates` of the scheduler over any arithmetic; in `f32` every operation is monotone, which gives the bounds and the order; differences of `f32` numbers from 2 to 4 are exact, so that passing scores next to 4 are covered; the part is within 100 errors of 2^-24 of the exact one, less than half an exercise for 65536 of them |
| C127 | Float/TrialsProps | averages of trial counts over any arithmetic; a quotient of small integers that is below a decimal is below it by more than the rounding errors, and rounding keeps the order; for courses the error of the sum is followed, and one course is computed in full to refute the rest |
| C128 | Float/QuotaProps | errors of the adjusted shares followed in units of 2^-24; a multiple of 1/100 is either a whole number or more than the error away from one, so cutting off the digits can only lose an exercise at whole numbers |
| C129 | Float/GroupProps | the sum of three scores of at most 3 in all is at most half a unit of the last place above 3 before its last rounding, which goes to 3, a tie with an even last digit |
| C130 | Float/AlongProps | induction over the path: a step multiplies the error by at most nine tenths and adds three units of 2^-24, so it stays below thirty of them |
| C131 | Float/UnlockProps | the comparison of scores from C124 and the one of trials from C127 together |

## What is modelled

| code | model | left out |
|------|-------|----------|
| `graph.rs` | Graph/Model, Graph/Cycles, Graph/Dot | thread locks (see Conc) |
| lock and RefCell use of all modules | Conc/Code | data: which branch is taken is left open, so more paths than in the code are covered; calls that do not end alone (C60) are left out |
| `blacklist.rs` and `score_exercise` with several threads | Conc/SharedBlacklist, Conc/Grading | one lock per object, as a condition on taking it; fairness and waiting (see Conc/Code); what a grading reads before it writes is one step |
| `blacklist.rs`, `review_list.rs` | Store/Blacklist, Store/ReviewList, Store/Like; SQL texts and migrations in Sql/Code | connection pool; in Sql type conversions, `NULL` for NaN, the largest key, rows that change while a query runs |
| `practice_stats.rs`, `practice_deltas.rs`, `practice_rewards.rs` | Store/Table, Store/Rewards, Store/Crash; SQL texts and migrations in Sql/Code | same; loss of committed data by the operating system (`synchronous = OFF`) |
| `exercise_scorer.rs` | Scorer/Model, Float/Scorer | sign of zero, the last digit of powf |
| `reward_scorer.rs` | Scorer/RewardModel, Float/Rewards | sign of zero, the last digit of powf |
| `scheduler/unit_scorer.rs` | Sched/UnitScorer, Sched/UnitCache, Sched/ScoreInstance | interior mutability |
| `scheduler/reward_propagator.rs` | Sched/Propagator | |
| `scheduler.rs`, `scheduler/data.rs` | Sched/Search, Sched/Batch, Sched/System | the search sees scores as a function of the unit; by C84 the answers through the caches are such a function, C27 says when they are up to date, C85 and C86 put the two together |
| `scheduler/filter.rs`, `review_knocker.rs`, `shuffler.rs`, `relearn_pile.rs` | Sched/CandidateFilter, CandidateWeight, Knocker, Shuffler, Batch | the random generator |
| `data.rs` | Data/Options, Library/Assets, Json/Serde, parts in Library and Gen | digits of `f32` |
| `data/filter.rs`, `filter_manager.rs`, `study_session_manager.rs` | Data/Filter, Library/Saved, Json/Serde | |
| `course_library.rs` | Library/Model, Library/Serial, Json/Serde, Tree/* | symbolic links, unreadable files, names that are not UTF-8 |
| `data/course_generator/*.rs` | Gen/*, Tree/Generators | YAML, iteration order of hash maps, the long instructions compiled in: parameters |
| `lib.rs`, `preferences_manager.rs` | Top/Model, Top/Config, Sched/OptionsApi | |
| `course_builder.rs` | Library/Builder, Tree/Built | empty directories, absolute paths, errors of the operating system |
| `course_builder/knowledge_base_builder.rs` | Gen/Builder | same |
| `benchmark.rs` | Bench/Model, Tree/Copy | `u32` overflow is left out; probabilities are exact; the students' simulations and their copies and threads are separate models |
| `test_utils.rs` | TestLib/Model, TestLib/Simulation | courses built in parallel, the temporary directory |
| `error.rs` | not modelled | |

Functions without a definition of their own because they only pass a call on; they are folded into the definition named:
getters of `scheduler/data.rs` (lines 66-127, 170-172, 244-263: `Graph` queries and the manifest functions of `Search.Env`),
the trait wrappers of `practice_deltas.rs` (69-89, 184-209: `Table`), `practice_rewards.rs:154-156`, `preferences_manager.rs:45-56`
(`Call.setPreferences`), `scheduler.rs:1036-1045` (`Search.Env.hasExercise`) and 1162-1193 (`TopLevel.step`), `lib.rs:332-366`
(`Call.restart`), `data/filter.rs:244-258`, `scheduler/filter.rs:74-76`, constructors of empty state (`relearn_pile.rs:25-30`,
`review_knocker.rs:61-63`), `unit_scorer.rs:89-91` (`Call.overrideTime`) and 298-318 (`exC`, the count in its record),
`course_library.rs:185-192, 656-658`, the accessors of `data.rs`, `transcription.rs:672-684` (a map over instruments),
`literacy.rs:693-702`. Not modelled: `Display` implementations and printing (`data.rs:165-171`, `test_utils.rs:82-91`, the benchmark's `main`).

## Disagreements between the properties and the code

Each is a theorem with a concrete witness, unless marked (read): those were found by reading and are not part
of a theorem.

1. C32: a blacklisted exercise listed in the review list is scheduled under the review list filter
   (`review_list_ignores_blacklist`).
2. C31: a lesson filter with repeated ids and a review list with overlapping entries give an exercise twice.
3. C11, C15: prefixes are matched with SQL `LIKE`, so `_`, `%` and letter case match other units.
4. C14: trimming keeps more than n entries when time stamps are equal.
5. C55: `set_scheduler_options` and `reset_scheduler_options` do not reach the copies of the options held by the
   filter, the scorer, the relearn pile; `set_scheduler_options` does not verify (`options_not_followed`).
6. C56: `Trane::set_encompasing_equals_dependency` calls the getter (`encompassing_setter_ignored`).
7. C27: cached scores are stale after prefix removal from the blacklist, for superseded units, after direct writes
   to the stores, as time passes, and after a failed trial write that follows a stored delta.
8. C17: the cache of recent rewards is not cleared by removal, trimming or a failed commit, so a reward that is no
   longer stored can suppress a new one.
9. C45: the sum of durations is a `u32`.
10. C36: a starting lesson of a course with another starting lesson that has a dependency outside of the course is
    not reached.
11. C33: dependencies of a course do not gate lessons reached through lesson dependencies of other courses.
12. C30: `score_exercise` accepts unknown ids; a failing grade then makes every later batch fail
    (`unknown_relearn_fails`).
13. C05: `add_encompassed` with empty lists leaves the two directions of the relation in different modes.
14. C61: rewards depend on the order in which encompassed units are listed.
15. C38: a batch can be larger than the batch size for small sizes, and relearned exercises come on top.
16. C46: inverted windows are accepted by verification. C39: mismatches below `f32::EPSILON` are accepted.
17. C60: a course that supersedes one of its own lessons makes score queries recurse for ever.
18. C26: a unit counts as superseded when no superseding unit has a score.
19. C58: scores rise when the last practice becomes 50 days old. C59: improving the latest grade across 3 can raise
    the urgency. C25: trials within about 30 seconds have velocity 0.
20. C65: all candidates can be knocked out. C34: relearned exercises are added whatever the filter.
21. C67: ignored paths have no effect when the library root is a relative path.
22. C52, C54: short ids with colons, and repeated ids of inlined passages, lead to clashing unit ids.
23. C72: a preferred batch size of zero is stored, and the library cannot be opened afterwards
    (`zero_batch_size_locks`).
24. C76: a crash inside `fs::write` of the preferences leaves a truncated file, and the old preferences are lost
    (`interrupted_storing_loses`); a crash during the very first opening, between the creation of
    `user_preferences.json` and its write, makes every later opening fail (`interrupted_opening_blocks`).
25. (read) `num_deltas` of the scheduler options is never used: `num_trials` is used for deltas.
26. (read) The cycle check ignores the dependencies implied by containment; a lesson may depend on its own course.
27. (read) A blacklisted empty id makes every course dependency count as satisfied.
28. (read) A course manifest in the library root itself is not loaded; unreadable directory entries are skipped.
29. (read) Literacy: the course instructions file is never recognised; dictation lessons drop dependencies on other
    courses. Knowledge base: the documentation asks for front and back files, the code only for the front.
30. (read) Comments in `exercise_scorer.rs` give other constants than the code; a comment in `scheduler.rs` asks for
    lessons to be visited and mastered where the code asks for visited.
31. C74: the three calls of `verify_paths` in `course_builder.rs` pass on an error but drop the Boolean answer, so a
    course whose manifests mention missing files is built without complaint and makes the library fail to open
    (`missing_file_not_noticed`). Equal directory names and wrong parent ids are not noticed either.
32. C73: rebuilding a simple knowledge base course leaves the directories of lessons that were removed from the
    configuration, so they stay in the course (`removed_lesson_stays`); a rebuild that fails half way has deleted the
    old files of a lesson (`failed_build_loses_files`); an exercise whose short id has a slash is written but never
    read (`slash_exercise_lost`); a property file silently replaces an additional file of the same name
    (`property_replaces_file`); the general builder merges lessons with the same short id (`same_id_merges`); naming
    an exercise with short id `lesson` renames the lesson (`lesson_exercise_names_lesson`).
33. C75: `generate_dot_graph` does not draw courses without lessons, nor the arrows from them
    (`course_without_lessons_not_drawn`); an arrow can be written twice (`arrow_written_twice`); ids with quotes are not
    escaped (`quotes_not_escaped`).
34. C77: normalisation accepts absolute paths of files that do not exist (`absolute_paths_not_checked`).
35. C78: `get_candidates_from_review_list` (scheduler.rs:926) holds a read lock of the frequency map while
    `get_candidates_from_lesson_helper` (scheduler.rs:359) takes it again. If another thread ends a batch in between and
    waits to write, both wait for ever, because parking_lot holds back readers behind a waiting writer
    (`review_list_deadlock`).
36. C79: `unsafe impl Sync for Trane` (lib.rs:739-742) relies on all interior mutability being behind locks, but the caches
    of `UnitScorer` (unit_scorer.rs:41-53) are plain `RefCell`s (`two_scoring_threads_clash`).
37. (read) `new_local` prepares `.trane` below `library_root` as given but opens the library at
    `working_dir.join(library_root)`; for a relative root these can be two directories.
38. C81: weights of encompassed units in manifests are not checked. With weights near the largest `f32` the reward of an
    exercise, and with it its score, is NaN (oversized_weights_spoil_scores).
39. C82: `override_current_timestamp` does not clear the score caches, so a score asked for before the call keeps its old
    value (`cached_score_ignores_time`). The reward scorer reads the clock of the computer (reward_scorer.rs:94 and 128), so
    rewards fade and apply as of today even if the time is overridden (`rewards_ignore_time_set`).
40. C87: serde_json reads at most 127 levels of nesting but writes any number. A saved filter with 41 combined filters
    inside one another, or a music piece with 63 passages inside one another, is written and cannot be read; one such
    filter makes opening the library fail (`chain_read_iff`, `tower_read_iff`, `deep_filter_blocks_opening`). A weight that
    is not finite is written as `null`, and the manifest is not read again (`infinite_weight_not_read`).
41. C90: `Trane::new_local(working_dir, library_root)` looks for the courses in `working_dir.join(library_root)` but for
    `.trane` in `library_root` itself, that is, in the current directory of the process if the root is relative
    (lib.rs:310-322). With another working directory the preferences, filters and databases are not those of the library
    (`config_elsewhere`).
42. C91: the instructions and the material of a lesson made by the knowledge base generator are served as the bare names
    `lesson.instructions.md` and `lesson.material.md` (knowledge_base.rs:550-563). The library makes paths absolute only
    in manifests that it reads (course_library.rs:298-303), so these are looked for in the current directory of the
    process and not in the directory of the lesson (`instructions_from_cwd`, `instructions_not_found`). The paths of the
    flashcards do lead to their files.
43. C95: `Benchmark::verify` checks that probabilities add up to 1 but not that they are not negative, and `run_benchmark`
    does not call it: a profile with `[2.0, -1.0, 0.0, 0.0, 0.0]` is accepted, and the first grade panics
    (`verify_misses_negative`).  The panic is reported as an error of the thread.
44. C95: if more exercises fit into a session than seconds between two sessions, the simulated time goes back at the
    start of the next session (`simulated_time_can_go_back`); only a `session_frequency` of 0 does this in practice.
45. C95, C102 (first and last point read, not modelled): the documentation of `days_to_mastery` says it is the number of sessions; it is the number
    of days.  The library is copied with its `.trane` directory, so that students start with the practice data that are
    stored in the library.  `session * session_frequency` overflows `u32` for large settings.
46. C96: comments of the exercise scorer do not match it: the two averages are blended 80/20, not 60/40
    (`comments_disagree_on_average`); weights decay per week, not per day; difficulty reverts to the constant 5, not to the
    estimate made from the trials (`difficulty_reverts_to_five`); and the documented stability update leaves out the factor
    `min(days, 1)` that makes reviews within a day count less.
47. C97: the documentation of random libraries says that each course and lesson has a number of dependencies in the given
    range.  The first has none, the second at most one, and a course drawn twice counts once, so that there may be fewer
    than the lower bound (example in TestLib/Sample).  `num_courses` is documented as the number of exercises.
48. C98: two grades that an exercise gets in the same second are stored in no particular order (`ORDER BY timestamp`), so
    that `assert_simulation_scores` may compare them the wrong way round (`scores_may_differ`).
49. C100: `adjusted_mastery_windows` leaves the current window `1.0 - sum`. At a success rate from 1/2 to below 3/4 the
    default shares give 0.29999995 in `f32` and not 0.3, so for each batch size that is a multiple of 10, the default 50
    included, the current window gets one exercise fewer than three tenths of the batch (14 and not 15;
    `machine_one_fewer`). The other windows and rates agree with exact arithmetic.
50. C103: `generate_course_metadata` pushes artists and albums in the order in which `read_dir` returns the passages, so
    the manifest of a transcription course can differ from one opening to the next although no file changed
    (`metadata_order_differs`). Filters do not look at the order of values.
51. C104: lesson and course scores are `f32` averages summed in the iteration order of hash sets, so the same stored
    data can give scores that differ in the last digits from one run to the next (`mean_depends_on_order`: 1 and the
    next `f32` number); the difference is bounded by `machine_mean_order`.
52. C105: `check_cycles` looks at dependencies alone. A lesson of course C that depends on a lesson of course D, where D
    depends on C, passes the checks, but both courses wait for each other and their lessons stay locked for good
    (`containment_loop_locks`, `containment_loop_nothing_to_learn`).
53. C105: once a course is superseded its lessons are no longer offered, but units of other courses that depend on one
    of those lessons still wait for its score to pass (`superseded_course_locks`).
54. C105: nothing rejects a course or lesson that depends on an exercise; such a unit is never offered
    (`exercise_dependency_locks`).
55. C119: the blacklist trusts its cache ("it's safe to assume that the entry is not in the blacklist", `src/blacklist.rs:96-98`), but nothing keeps a library from being opened twice: an object does not
    see what another one blacklisted, gets an error when it adds the same id, and can return `Ok` for an addition that is not stored
56. C127: a course whose lessons have averages of 1, 1.8 and 2.6 trials (five exercises each, 5, 9 and 13 trials in all)
    averages exactly 1.8, the default `min_avg_trials`, but `get_course_num_trials`, visiting them in that order, returns 1.7999998 and
    `passes_threshold` (`src/scheduler.rs:529`) refuses it, so that its dependents stay locked (`machine_course_wrong`).

## The project's own tests on the model

`lean/Verif/Conform` makes the calls of the project's `#[test]` functions on the model and checks their assertions
there: unit graph, the five stores, filters and study sessions, relearn pile, knocker, shuffler, reward propagator,
candidate filter, selection from lessons, unit scorer, shared data, and all tests of the exercise scorer and the reward scorer. The scorers of the model have real numbers;
`lean/Verif/Numeric` encloses their values by intervals with rational ends that the kernel computes
(`score_computed`, `rewards_computed`). These are tests of how well the model follows the code, not proofs; no claim rests on them. They
found no difference.

## Wrong programs

`seeded/LOG.jsonl` records edits of the model and the theorems that failed. An edit often breaks a helper lemma
first, and the build then stops before the property theorems that use it; the log names what failed to build. For
important edits a second round (entries with `"round": "refutation"`) shows that the property itself is false of the
edited model, not just that an old proof script fails.

## Axioms of the property theorems

Printed by `#print axioms` for each of the 709 theorems named in MANIFEST.json.

* 664 theorems depend on `propext`, `Classical.choice` and `Quot.sound`: all that are not listed below.
* only `propext` and `Quot.sound` (40): `Trane.Assets.exercise_normalized_iff`, `Trane.Assets.normalized_absolute`, `Trane.Assets.unit_normalized_iff`, `Trane.Assets.verified_iff`, `Trane.Assets.verified_normalizes`, `Trane.Conc.finished_free`, `Trane.Conc.review_list_deadlock`, `Trane.Conc.two_scoring_threads_clash`, `Trane.Filters.filter_course_basic`, `Trane.Filters.filter_course_exact`, `Trane.Filters.filter_course_sound`, `Trane.Filters.filter_lesson_exact`, `Trane.Graph.add_calls_succeed_iff`, `Trane.Graph.containment_after_add`, `Trane.Graph.encompassing_agreement_fails`, `Trane.Graph.known_id_rejected`, `Trane.Graph.starting_lessons_exact`, `Trane.Graph.starting_lessons_frame`, `Trane.Library.can_reopen`, `Trane.Saved.get_exact`, `Trane.Saved.open_succeeds_iff`, `Trane.Store.Blacklist.blacklist_calls_succeed`, `Trane.Store.Blacklist.blacklist_query_iff_listed`, `Trane.Store.Blacklist.blacklist_refines_set`, `Trane.Store.ReviewList.review_list_is_set`, `Trane.Store.ReviewList.review_list_step`, `Trane.Store.Table.get_scores_newest`, `Trane.TestLib.random_generates`, `Trane.TestLib.simulation_runs`, `Trane.Threads.blacklist_shared`, `Trane.Threads.log_grows`, `Trane.Threads.one_after_another`, `Trane.TopLevel.courses_apart`, `Trane.TopLevel.score_unique`, `Trane.Tree.copyFile_local`, `Trane.Tree.copy_exact`, `Trane.Tree.students_apart`, `Trane.UnitScorer.answer_unique`, `Trane.UnitScorer.superseded_unique`, `Trane.in_window_iff`.
* only `propext` (3): `Trane.Filters.session_filter_of_part`, `Trane.Filters.session_wraps`, `Trane.Threads.inner_locks_not_enough`.
* no axiom (2): `Trane.Assets.absolute_paths_not_checked`, `Trane.Filters.session_empty`.
