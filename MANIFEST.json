{
 "claims": [
  {
   "property": "C01",
   "status": "proved",
   "theorems": [
    "Trane.Graph.dependents_inverse_of_dependencies",
    "Trane.Graph.dependencies_after_call"
   ],
   "note": ""
  },
  {
   "property": "C02",
   "status": "proved",
   "theorems": [
    "Trane.Graph.superseded_by_inverse_of_supersedes",
    "Trane.Graph.supersedes_iff_added"
   ],
   "note": ""
  },
  {
   "property": "C03",
   "status": "proved",
   "theorems": [
    "Trane.Graph.containment_maps_agree",
    "Trane.Graph.containment_unique_and_typed",
    "Trane.Graph.containment_after_add",
    "Trane.Graph.containment_after_call"
   ],
   "note": ""
  },
  {
   "property": "C04",
   "status": "proved",
   "theorems": [
    "Trane.Graph.unit_type_permanent",
    "Trane.Graph.known_id_rejected",
    "Trane.Graph.type_after_add",
    "Trane.Graph.add_calls_succeed_iff",
    "Trane.Graph.types_after_call"
   ],
   "note": ""
  },
  {
   "property": "C05",
   "status": "partial",
   "theorems": [
    "Trane.Graph.encompassing_weights_valid",
    "Trane.Graph.add_encompassed_effect",
    "Trane.Graph.encompassing_is_dependency",
    "Trane.Graph.equality_after_call",
    "Trane.Graph.encompasses_after_call",
    "Trane.Graph.encompassing_reverse_agrees_partial",
    "Trane.Graph.encompassing_agreement_fails",
    "Trane.Library.library_encompassing_agrees"
   ],
   "note": "Weights and defaults in full. Reverse agreement is false of the graph type when every add_encompassed call so far had empty lists (witness proved); proved otherwise, and proved without exception for every library that opens (library_encompassing_agrees)."
  },
  {
   "property": "C06",
   "status": "proved",
   "theorems": [
    "Trane.Graph.check_cycles_exact",
    "Trane.Graph.check_cycles_error_genuine"
   ],
   "note": ""
  },
  {
   "property": "C07",
   "status": "proved",
   "theorems": [
    "Trane.Graph.starting_lessons_exact",
    "Trane.Graph.starting_lessons_frame",
    "Trane.Graph.starting_lessons_only_recomputed",
    "Trane.Library.library_starting_lessons"
   ],
   "note": ""
  },
  {
   "property": "C08",
   "status": "proved",
   "theorems": [
    "Trane.Graph.dependency_sinks_exact",
    "Trane.Graph.missing_dependency_is_sink",
    "Trane.Library.library_sinks"
   ],
   "note": ""
  },
  {
   "property": "C09",
   "status": "proved",
   "theorems": [
    "Trane.Graph.no_self_dependency",
    "Trane.Graph.dependencies_only_of_known_units",
    "Trane.Graph.add_dependencies_rejection"
   ],
   "note": ""
  },
  {
   "property": "C10",
   "status": "proved",
   "theorems": [
    "Trane.Store.Blacklist.blacklist_query_iff_listed",
    "Trane.Store.Blacklist.blacklist_refines_set",
    "Trane.Store.Blacklist.blacklist_calls_succeed"
   ],
   "note": ""
  },
  {
   "property": "C100",
   "status": "proved",
   "theorems": [
    "Trane.Float.successRate_exact",
    "Trane.Float.adjusted_exact",
    "Trane.Float.quota_exact_model",
    "Trane.Float.filter_exact",
    "Trane.Float.machine_shift",
    "Trane.Float.machine_quotas",
    "Trane.Float.machine_one_fewer",
    "Trane.Float.machine_batch_from_candidates",
    "Trane.Float.machine_batch_no_duplicates",
    "Trane.Float.machine_batch_represents_windows",
    "Trane.Float.machine_batch_size",
    "Trane.Float.machine_success_makes_harder",
    "Trane.Float.machine_shares_sum",
    "Trane.Float.machine_default_verifies",
    "Trane.Float.machine_relearn_le",
    "Trane.Float.machine_relearn_default"
   ],
   "note": "Scores and the bounds of the windows are only compared, which is exact. The batch size must not be 0, as verify demands. The current window's share of 10066328/2^25 at a success rate from 1/2 to below 3/4 is DESIGN.md, disagreement 49."
  },
  {
   "property": "C101",
   "status": "proved",
   "theorems": [
    "Trane.Tree.moved_library",
    "Trane.Tree.moved_opens_iff",
    "Trane.Tree.moved_paths",
    "Trane.Tree.moved_practice",
    "Trane.Tree.copyMachine_moved",
    "Trane.Tree.outside_not_moved",
    "Trane.Tree.ignored_not_moved"
   ],
   "note": "Paths made by generators to files that do not exist are the same names below the two roots (moved_paths). That the conditions are needed is proved: outside_not_moved, ignored_not_moved; a relative root is C90 (config_elsewhere). Files are listed in the same order in both places."
  },
  {
   "property": "C102",
   "status": "proved",
   "theorems": [
    "Trane.Tree.copy_exact",
    "Trane.Tree.copy_moves",
    "Trane.Tree.copyFile_local",
    "Trane.Tree.students_apart",
    "Trane.Tree.benchmark_report"
   ],
   "note": "A thread is any sequence of steps that reads the library and its own directory and changes its own directory; copying is one (copyFile_local). Every file can be read and copied; entries the walk cannot read are skipped by the code. What a student does on the copy is C95."
  },
  {
   "property": "C103",
   "status": "proved",
   "theorems": [
    "Trane.Library.order_opens_iff",
    "Trane.Library.order_same_answers",
    "Trane.Tree.listing_opens_iff",
    "Trane.Tree.listing_same_answers",
    "Trane.Tree.metadata_order_differs"
   ],
   "note": "The lists of artists and albums in the metadata of a transcription course keep the order of listing (metadata_order_differs; DESIGN.md, disagreement 50). Order that is unspecified within the answers, as that of prefix matches, may differ. The iteration orders of maps in the text of music courses are those of the text."
  },
  {
   "property": "C104",
   "status": "proved",
   "theorems": [
    "Trane.UnitScorer.order_same_scores",
    "Trane.Propagator.order_same_rewards",
    "Trane.Library.order_library_scores",
    "Trane.Library.order_library_rewards",
    "Trane.Library.order_restart_scores",
    "Trane.Tree.listing_same_scores",
    "Trane.Tree.listing_same_rewards",
    "Trane.Float.machine_mean_close",
    "Trane.Float.machine_mean_order",
    "Trane.Float.mean_depends_on_order"
   ],
   "note": "That averages in f32 do move with the order is mean_depends_on_order (DESIGN.md, disagreement 51); that rewards with listed encompassed units can depend on it is rewards_depend_on_order of C61. The bounds in f32 are for one average: a threshold compared with an average, as that of superseding units, can fall between the two values."
  },
  {
   "property": "C105",
   "status": "partial",
   "theorems": [
    "Trane.Search.locked_waits_for_offer_partial",
    "Trane.Search.mastery_opens_everything_partial",
    "Trane.Search.course_follows",
    "Trane.Search.empty_holds_nothing",
    "Trane.Search.scored_waits_for_offer_partial",
    "Trane.Search.search_offers_what_unlocks_partial",
    "Trane.Search.containment_loop_locks",
    "Trane.Search.containment_loop_nothing_to_learn",
    "Trane.Search.superseded_course_locks",
    "Trane.Search.exercise_dependency_locks",
    "Trane.Library.library_orderly",
    "Trane.TopLevel.object_waits_for_offer_partial",
    "Trane.TopLevel.opened_waits_for_offer_partial"
   ],
   "note": "Partial: the statement without the layout conditions is false of the code, which opens libraries that lock units for good: loops through containment (containment_loop_locks), lessons of superseded courses that others depend on (superseded_course_locks), dependencies on exercises (exercise_dependency_locks) and starting lessons without a way to them (starting_lesson_stranded). The theorems exclude exactly these; library_orderly derives the conditions on the graph from those on the manifests."
  },
  {
   "property": "C106",
   "status": "proved",
   "theorems": [
    "Trane.Search.order_same_access",
    "Trane.Search.search_exact",
    "Trane.Search.order_same_search",
    "Trane.Search.order_same_exercises",
    "Trane.Search.small_below_limits",
    "Trane.Search.limits_leave_a_choice",
    "Trane.TopLevel.order_interchangeable",
    "Trane.TopLevel.reopened_interchangeable",
    "Trane.TopLevel.interchangeable_search",
    "Trane.TopLevel.interchangeable_scores"
   ],
   "note": "Once a limit is reached the choice among lessons is random (limits_leave_a_choice), so nothing is claimed there. Scores are compared without rounding; for f32 see C104."
  },
  {
   "property": "C107",
   "status": "partial",
   "theorems": [
    "Trane.TopLevel.same_history_same_answers_partial",
    "Trane.TopLevel.same_history_after_opening_partial",
    "Trane.TopLevel.same_history_twins",
    "Trane.TopLevel.order_mirrors",
    "Trane.TopLevel.reopened_mirrors",
    "Trane.TopLevel.same_history_same_offer_partial",
    "Trane.UnitScorer.same_touches",
    "Trane.UnitScorer.same_fills",
    "Trane.Store.Rewards.record_any_order",
    "Trane.Store.Rewards.step_same",
    "Trane.Propagator.order_same_rewards_of",
    "Trane.Propagator.rewards_depend_on_order"
   ],
   "note": "Asks that no manifest lists encompassed units: with weights the rewards depend on the order (rewards_depend_on_order). Asks that SQLite breaks ties the same way whatever the row numbers, that the batches of both histories look at the same scores, and that no database error interrupts a list of rewards."
  },
  {
   "property": "C108",
   "status": "proved",
   "theorems": [
    "Trane.Scorer.cramming_bounded",
    "Trane.Scorer.cramming_urgency",
    "Trane.Scorer.crammed_like_one",
    "Trane.Scorer.spacing_helps",
    "Trane.Scorer.perfect_week",
    "Trane.Scorer.failed_days",
    "Trane.Scorer.kinds_cross",
    "Trane.Scorer.kinds_after_one_trial"
   ],
   "note": "Over the real numbers; C80 says what is left of this in f32. Times within 2^62 seconds of the epoch. The bound on the score in perfect_week is for fewer than two deltas."
  },
  {
   "property": "C109",
   "status": "proved",
   "theorems": [
    "Trane.TopLevel.same_life_later",
    "Trane.TopLevel.same_answers_later",
    "Trane.TopLevel.same_batches_later",
    "Trane.TopLevel.app_calendarFree",
    "Trane.TopLevel.app_same_answers_later",
    "Trane.Scorer.score_later",
    "Trane.RewardScorer.scoreRewards_later",
    "Trane.RewardScorer.applyReward_later",
    "Trane.Float.machine_score_later"
   ],
   "note": "The timestamps of rewards must be ones chrono can represent, before and after the move: it reads others as 1970. SQLite must order rows of equal timestamp without regard to the timestamps of others. machine_score_later is for f32 and any other arithmetic. That moved timestamps fit in i64 is not part of the model."
  },
  {
   "property": "C11",
   "status": "partial",
   "theorems": [
    "Trane.Store.Blacklist.prefix_removal_complete",
    "Trane.Store.Blacklist.prefix_removal_exact_partial",
    "Trane.Store.Blacklist.prefix_removal_not_exact"
   ],
   "note": "The code uses SQL LIKE, so wildcard characters and letter case make it remove other units too (witness proved). Exactness proved for prefixes without wildcards and letters."
  },
  {
   "property": "C110",
   "status": "proved",
   "theorems": [
    "Trane.Scorer.fives_score",
    "Trane.Scorer.fives_reward",
    "Trane.TopLevel.fives_raise_exercise",
    "Trane.TopLevel.fives_raise_lesson",
    "Trane.TopLevel.practice_unlocks",
    "Trane.TopLevel.app_fair",
    "Trane.TopLevel.milli_fair"
   ],
   "note": "Over the real numbers for the scorers of the application, and for any scorer that is fair in the sense of the structure Fair. practice_unlocks is about rational scores, as the search model is; milli_fair is the scorer of the application rounded to thousandths. That a call for an exercise is accepted is C43; the practice lists of the theorem consist of accepted calls."
  },
  {
   "property": "C111",
   "status": "proved",
   "theorems": [
    "Trane.TopLevel.everything_known_opens",
    "Trane.TopLevel.fives_are_known",
    "Trane.TopLevel.diligent_student_opens_everything",
    "Trane.TopLevel.diligent_student_done",
    "Trane.TopLevel.known_not_to_learn"
   ],
   "note": "For any scorer over the rationals that is fair in the sense of the structure Fair of C110 (milli_fair is the application's, rounded to thousandths). The time in force stands still during the session, gradings do not fail, and the passing values are within reach (CanPass); that the time stands still is needed because cached scores are not renewed as time passes (C82)."
  },
  {
   "property": "C112",
   "status": "proved",
   "theorems": [
    "Trane.TopLevel.trimming_changes_nothing",
    "Trane.TopLevel.trimming_keeps_results",
    "Trane.TopLevel.keeping_fewer_changes"
   ],
   "note": "The timestamps of the grades an exercise is given, and those of its changes of score, must differ (DatesDiffer, seconds in the code): among equal timestamps the order SQLite gives is not fixed, and the trimming statement keeps all rows of a timestamp. keeping_fewer_changes is the witness that 20 is needed."
  },
  {
   "property": "C113",
   "status": "proved",
   "theorems": [
    "Trane.TopLevel.separate_parts",
    "Trane.TopLevel.separate_results",
    "Trane.TopLevel.courses_apart",
    "Trane.TopLevel.joined_parts_interfere"
   ],
   "note": "Library edits through the object and interrupted trimmings or removals of the kept history are left out (the latter stop after a number of ids, which counts ids of both sides). The empty id, which the code looks up for an exercise without lesson, is counted as part of D. Batches of both histories come to an end (Completes). SQLite's order among equal timestamps does not depend on the numbers of the rows (Blind), as in C107."
  },
  {
   "property": "C114",
   "status": "proved",
   "theorems": [
    "Trane.TopLevel.starting_over",
    "Trane.TopLevel.removing_is_not_enough",
    "Trane.TopLevel.invalidating_is_not_enough"
   ],
   "note": "Conditions of C113 for what comes after. The removals themselves succeed and are not interrupted; the units of the part have ids that start with the prefix, except those under which nothing is stored (the empty id). removing_is_not_enough and invalidating_is_not_enough are the witnesses that the library has to be opened again."
  },
  {
   "property": "C115",
   "status": "proved",
   "theorems": [
    "Trane.TopLevel.scores_from_grades",
    "Trane.TopLevel.blacklisting_taken_back",
    "Trane.TopLevel.questions_matter_when_superseded"
   ],
   "note": "The time in force stands still after the library is opened and ids given to the blacklist and to invalidations are not empty (Clean, as in C82); faults of the database are part of the gradings. questions_matter_when_superseded is the witness for the last sentence."
  },
  {
   "property": "C116",
   "status": "proved",
   "theorems": [
    "Trane.Threads.blacklist_shared",
    "Trane.Threads.inner_locks_not_enough",
    "Trane.Threads.one_after_another",
    "Trane.Threads.log_grows"
   ],
   "note": "one_after_another is the general statement about an object behind a read-write lock; log_grows says that what has returned stays first, so that the order respects real time. A step is what happens under one of the inner locks or one statement. inner_locks_not_enough is the witness for the last sentence."
  },
  {
   "property": "C117",
   "status": "proved",
   "theorems": [
    "Trane.Threads.reads_during_grading",
    "Trane.Threads.stored_at_every_moment",
    "Trane.Threads.change_seen_before_score"
   ],
   "note": "One grading thread, as two would share the cells of the score caches (C79). A step is what happens while the lock of one store is held; the reads with which a grading starts are one step, because nobody else writes. change_seen_before_score is the witness for the last sentence."
  },
  {
   "property": "C118",
   "status": "proved",
   "theorems": [
    "Trane.TopLevel.crash_in_a_call",
    "Trane.TopLevel.crashes_add_nothing"
   ],
   "note": "What a crash can leave is the relation Torn of Top/CrashSpec: the steps of Conc/Grading for a grading (each write a transaction of one database, C18), the first statements of trimmings and removals, all or nothing for the rest. That SQLite keeps what it has committed when the process dies is assumed (the code switches synchronous off, so this does not cover power failures)."
  },
  {
   "property": "C119",
   "status": "proved",
   "theorems": [
    "Trane.TopLevel.same_grades_everywhere",
    "Trane.TopLevel.grades_of_a_call",
    "Trane.TopLevel.no_grade_lost",
    "Trane.TopLevel.same_lists_everywhere",
    "Trane.TopLevel.blacklist_of_last_opened",
    "Trane.TopLevel.opened_again",
    "Trane.TopLevel.blacklisting_not_seen",
    "Trane.TopLevel.addition_lost",
    "Trane.TopLevel.grade_not_seen"
   ],
   "note": "The calls of the objects are taken one at a time; a statement that gives up waiting for another object is a database error, which every call carries. blacklisting_not_seen, addition_lost and grade_not_seen are the witnesses for the last sentence."
  },
  {
   "property": "C12",
   "status": "proved",
   "theorems": [
    "Trane.Store.ReviewList.review_list_is_set",
    "Trane.Store.ReviewList.review_list_step"
   ],
   "note": ""
  },
  {
   "property": "C120",
   "status": "proved",
   "theorems": [
    "Trane.Float.machine_velocity_slope",
    "Trane.Float.machine_velocity_close",
    "Trane.Float.machine_velocity_sign"
   ],
   "note": "The real numbers of the statement are the grades; that they are stored as f32 is not needed. Twenty is the default of SchedulerOptions.num_trials. Closer than a minute, the denominator is near f32::EPSILON and nothing is claimed beyond C25 and C80."
  },
  {
   "property": "C121",
   "status": "proved",
   "theorems": [
    "Trane.Float.machine_average_close",
    "Trane.Float.machine_score_close",
    "Trane.Float.machine_score_fresh"
   ],
   "note": "Assumes of powf that it is faithful (structure Faithful, as in C80). How far the recall computed is from the exact one later on is not part of this."
  },
  {
   "property": "C122",
   "status": "proved",
   "theorems": [
    "Trane.Float.machine_score_matches"
   ],
   "note": "Assumes of powf that it is faithful (structure Faithful, as in C80). Histories with failing grades are covered by C121 right after practising only: a failing grade can take off nearly all of a large stability, and the relative error of what is left is not small."
  },
  {
   "property": "C123",
   "status": "proved",
   "theorems": [
    "Trane.Float.machine_reward_matches",
    "Trane.Float.machine_reward_added",
    "Trane.Float.machine_final_matches"
   ],
   "note": "Assumes of powf that it is faithful (structure Faithful, as in C80). machine_final_matches has the exception of C122 next to an average of 4 after fifty days. The documented formula is Formula.final of Scorer/FormulaSpec.lean. If the computed reward and the documented one lie on different sides of 0, both are tiny and the scores still agree."
  },
  {
   "property": "C124",
   "status": "proved",
   "theorems": [
    "Trane.Float.machine_mean_matches",
    "Trane.Float.machine_lesson_matches",
    "Trane.Float.machine_course_matches",
    "Trane.Float.machine_limit_matches"
   ],
   "note": "Assumes of powf that it is faithful (structure Faithful, as in C80). Which exercises and lessons count (not blacklisted, not superseded) is C26; the lists here are those that do. The order of the lists is arbitrary, so the bounds hold for every order of summation."
  },
  {
   "property": "C125",
   "status": "proved",
   "theorems": [
    "Trane.Float.machine_weight_matches",
    "Trane.Float.machine_weight_order",
    "Trane.Float.machine_chance_matches"
   ],
   "note": "Compared with Formula.weight, the documented formula of C96. ln_1p and exp are assumed to return one of the two f32 numbers next to the exact value, sqrt the nearest one. Velocities below -1/2, where the logarithm is steep, are left out."
  },
  {
   "property": "C126",
   "status": "proved",
   "theorems": [
    "Trane.Float.machine_portion_near",
    "Trane.Float.machine_portion_le",
    "Trane.Float.machine_portion_pos",
    "Trane.Float.machine_portion_mono",
    "Trane.Float.machine_portion_passing",
    "Trane.Float.documentedCount_model"
   ],
   "note": "documentedCount is the specification; documentedCount_model shows that it is also the number in the model of the search. Passing scores are those that verify accepts; distances from them are exact from 2 on."
  },
  {
   "property": "C127",
   "status": "partial",
   "theorems": [
    "Trane.Float.machine_lesson_enough",
    "Trane.Float.machine_lesson_never_refused",
    "Trane.Float.machine_lesson_short",
    "Trane.Float.machine_course_trials",
    "Trane.Float.machine_course_enough_partial",
    "Trane.Float.machine_course_wrong"
   ],
   "note": "In full for lessons. For courses the decision is proved right when the exact average is at least 1/500 away from the minimum; the rest is false: a course of three lessons with an average of exactly 1.8 trials is refused with the default minimum of 1.8 (machine_course_wrong, DESIGN.md, disagreement 56)."
  },
  {
   "property": "C128",
   "status": "proved",
   "theorems": [
    "Trane.Float.machine_percent_counts",
    "Trane.Float.machine_percent_batch",
    "Trane.Float.machine_percent_fewer"
   ],
   "note": "Shares are whole percentages up to 100, batches up to 4096 exercises, up to 2^20 graded exercises. RightOrOneFewer compares with the quota of the exact model of C100."
  },
  {
   "property": "C129",
   "status": "proved",
   "theorems": [
    "Trane.Float.machine_group_new",
    "Trane.Float.machine_group_other",
    "Trane.Float.machine_group_slack"
   ],
   "note": "The groups themselves and the use of the two ranges are C40."
  },
  {
   "property": "C13",
   "status": "proved",
   "theorems": [
    "Trane.Store.Table.get_scores_newest",
    "Trane.Store.Table.log_refines",
    "Trane.Store.Table.record_leaves_other_units",
    "Trane.Store.Table.record_succeeds",
    "Trane.Store.Rewards.get_rewards_newest"
   ],
   "note": ""
  },
  {
   "property": "C130",
   "status": "proved",
   "theorems": [
    "Trane.Float.machine_along_near",
    "Trane.Float.machine_along_stop",
    "Trane.Float.reaches_along"
   ],
   "note": "reaches_along ties the paths to the machine propagation of C81. Which paths are followed is C28 and C29."
  },
  {
   "property": "C131",
   "status": "proved",
   "theorems": [
    "Trane.Float.machine_lesson_passes",
    "Trane.Float.machine_course_passes",
    "Trane.Float.machine_missing_passes"
   ],
   "note": "Exercises as in C123 and C124, with powf accurate as assumed there."
  },
  {
   "property": "C14",
   "status": "partial",
   "theorems": [
    "Trane.Store.Table.trim_keeps_newest_partial",
    "Trane.Store.Table.trim_keeps_newest_with_ties",
    "Trane.Store.Table.trim_keeps_too_many",
    "Trane.Store.Rewards.trim_rewards_keeps_newest"
   ],
   "note": "Exact for rewards in full. For scores and deltas exact when the unit's timestamps are distinct; with equal timestamps the code keeps more than n (negation proved), and what is kept is characterised."
  },
  {
   "property": "C15",
   "status": "partial",
   "theorems": [
    "Trane.Store.Table.remove_prefix_complete",
    "Trane.Store.Table.remove_prefix_exact_partial",
    "Trane.Store.Table.remove_prefix_not_exact",
    "Trane.Store.Rewards.remove_rewards_prefix_partial"
   ],
   "note": "Everything with the prefix is deleted. 'Nothing else' is false because of SQL LIKE (witness); proved up to letter case for prefixes without % and _."
  },
  {
   "property": "C16",
   "status": "proved",
   "theorems": [
    "Trane.Store.Rewards.rewards_bounded",
    "Trane.Store.Rewards.record_rewards_stores_accepted"
   ],
   "note": ""
  },
  {
   "property": "C17",
   "status": "proved",
   "theorems": [
    "Trane.Store.Rewards.record_rewards_reports_accepted",
    "Trane.Store.Rewards.record_rewards_stores_accepted",
    "Trane.Store.Rewards.reward_decision",
    "Trane.Store.Rewards.failed_commit_loses_reward"
   ],
   "note": ""
  },
  {
   "property": "C18",
   "status": "proved",
   "theorems": [
    "Trane.Store.Crash.record_crash_atomic",
    "Trane.Store.Crash.rewards_crash_atomic",
    "Trane.Store.Crash.score_crash_leaves_prefix"
   ],
   "note": ""
  },
  {
   "property": "C19",
   "status": "proved",
   "theorems": [
    "Trane.Scorer.score_well_formed",
    "Trane.Scorer.score_no_history",
    "Trane.Scorer.score_rejects_iff",
    "Trane.Scorer.score_positive_and_below_best"
   ],
   "note": "Over the reals; f32 rounding, NaN and infinities are not modelled."
  },
  {
   "property": "C20",
   "status": "proved",
   "theorems": [
    "Trane.Scorer.recall_range",
    "Trane.Scorer.recall_decreases",
    "Trane.Scorer.recall_increases_with_stability"
   ],
   "note": "Over the reals."
  },
  {
   "property": "C21",
   "status": "proved",
   "theorems": [
    "Trane.Scorer.difficulty_estimate",
    "Trane.Scorer.replay_in_range"
   ],
   "note": "Over the reals."
  },
  {
   "property": "C22",
   "status": "proved",
   "theorems": [
    "Trane.Scorer.average_between",
    "Trane.Scorer.average_constant",
    "Trane.Scorer.average_counts_every_trial",
    "Trane.Scorer.average_favours_recent"
   ],
   "note": "Over the reals."
  },
  {
   "property": "C23",
   "status": "proved",
   "theorems": [
    "Trane.RewardScorer.decay_shrinks_keeps_sign",
    "Trane.RewardScorer.decay_fixed_points",
    "Trane.RewardScorer.average_between",
    "Trane.RewardScorer.reward_between",
    "Trane.RewardScorer.reward_magnitude",
    "Trane.RewardScorer.reward_sign",
    "Trane.RewardScorer.reward_combination"
   ],
   "note": "Over the reals."
  },
  {
   "property": "C24",
   "status": "proved",
   "theorems": [
    "Trane.RewardScorer.apply_reward_iff"
   ],
   "note": "Over the reals; the age is an exact number of seconds."
  },
  {
   "property": "C25",
   "status": "partial",
   "theorems": [
    "Trane.Scorer.velocity_absent_iff",
    "Trane.Scorer.velocity_least_squares_partial",
    "Trane.Scorer.velocity_affine_partial",
    "Trane.Scorer.velocity_constant",
    "Trane.Scorer.velocity_simultaneous",
    "Trane.Scorer.velocity_close_trials"
   ],
   "note": "Proved when the spread of the trial times is at least f32::EPSILON (two trials about 30 seconds apart or more). Closer trials report 0 even if grades differ (witness proved)."
  },
  {
   "property": "C26",
   "status": "proved",
   "theorems": [
    "Trane.UnitScorer.score_unique",
    "Trane.UnitScorer.exercise_score",
    "Trane.UnitScorer.exercise_score_of_data",
    "Trane.UnitScorer.lesson_score",
    "Trane.UnitScorer.lesson_score_empty",
    "Trane.UnitScorer.course_score",
    "Trane.UnitScorer.mean_between",
    "Trane.UnitScorer.score_in_range",
    "Trane.UnitScorer.app_score_range",
    "Trane.UnitScorer.app_unit_score_range",
    "Trane.UnitScorer.app_exercise_score",
    "Trane.UnitScorer.superseded_without_mastery"
   ],
   "note": "Scores over an ordered field (reals for the application). superseded_without_mastery shows a case of the code that may surprise: a unit is superseded when no superseding unit has a score."
  },
  {
   "property": "C27",
   "status": "partial",
   "theorems": [
    "Trane.UnitScorer.scores_not_stale_partial",
    "Trane.UnitScorer.trials_not_stale_partial",
    "Trane.UnitScorer.queries_not_stale",
    "Trane.UnitScorer.stale_after_prefix_removal",
    "Trane.UnitScorer.stale_after_superseding",
    "Trane.UnitScorer.stale_after_direct_write",
    "Trane.UnitScorer.stale_after_time",
    "Trane.System.system_scores_not_stale_partial",
    "Trane.System.stale_after_failed_trial",
    "Trane.TopLevel.scores_fresh_since_opening_partial"
   ],
   "note": "Proved for scoring, rewards and single blacklist edits on exercises and on units nothing supersedes, and for pure query sequences on every unit; for the whole object since its last opening, whatever happened before. False of the code after blacklist prefix removal, for superseded units, after direct writes to the stores, and as time passes (witnesses proved)."
  },
  {
   "property": "C28",
   "status": "proved",
   "theorems": [
    "Trane.Propagator.propagation_terminates",
    "Trane.Propagator.propagation_unique",
    "Trane.Propagator.rewards_bounded"
   ],
   "note": ""
  },
  {
   "property": "C29",
   "status": "proved",
   "theorems": [
    "Trane.Propagator.rewards_follow_edges"
   ],
   "note": ""
  },
  {
   "property": "C30",
   "status": "proved",
   "theorems": [
    "Trane.Search.search_terminates",
    "Trane.Search.search_error",
    "Trane.Batch.batch_terminates",
    "Trane.Batch.batch_error",
    "Trane.Batch.unknown_relearn_fails"
   ],
   "note": "For the search and for the whole batch request, for every graph produced by any history of graph calls, provided the manifests and the graph list the same units and every lesson has a course (Sane). unknown_relearn_fails: a failing grade for an id that is not an exercise makes later batches fail."
  },
  {
   "property": "C31",
   "status": "proved",
   "theorems": [
    "Trane.Search.candidates_distinct",
    "Trane.Search.candidates_distinct_partial",
    "Trane.Search.lesson_filter_repeats",
    "Trane.Search.review_list_repeats",
    "Trane.Batch.batch_distinct",
    "Trane.Batch.batch_distinct_partial",
    "Trane.Batch.batch_repeats"
   ],
   "note": "In full for the searches of the statement (no filter, course, metadata, dependents and dependencies filters), and for the returned batch. The lessons filter repeats exercises if it lists a lesson twice and the review list if its entries overlap (witnesses proved)."
  },
  {
   "property": "C32",
   "status": "partial",
   "theorems": [
    "Trane.Search.candidates_not_blacklisted",
    "Trane.Search.candidates_not_blacklisted_partial",
    "Trane.Search.review_list_ignores_blacklist",
    "Trane.Batch.batch_not_blacklisted",
    "Trane.Batch.batch_not_blacklisted_partial",
    "Trane.TopLevel.blacklisted_not_scheduled"
   ],
   "note": "For the returned batch including relearned exercises: in full for all filters but the review list, where a blacklisted exercise that is itself listed is scheduled (witness proved). For the whole object: from add_to_blacklist to removal, across restarts."
  },
  {
   "property": "C33",
   "status": "proved",
   "theorems": [
    "Trane.Search.candidates_unlocked",
    "Trane.Search.candidates_dependencies_satisfied",
    "Trane.Search.candidates_reached",
    "Trane.Search.dead_end_iff",
    "Trane.Search.course_dependencies_bypassed",
    "Trane.Batch.batch_unlocked"
   ],
   "note": "The dependencies of the lesson's course are not enforced when the lesson depends on lessons of other courses (witness proved)."
  },
  {
   "property": "C34",
   "status": "proved",
   "theorems": [
    "Trane.Search.course_filter_scope",
    "Trane.Search.lesson_filter_scope",
    "Trane.Search.metadata_filter_scope",
    "Trane.Search.review_list_scope",
    "Trane.Batch.batch_course_scope",
    "Trane.Batch.batch_lesson_scope",
    "Trane.Batch.batch_metadata_scope",
    "Trane.Batch.batch_review_scope",
    "Trane.Batch.relearn_ignores_filter"
   ],
   "note": "For candidates. In the returned batch, exercises being relearned are added whatever the filter (witness proved); the batch theorems say so."
  },
  {
   "property": "C35",
   "status": "proved",
   "theorems": [
    "Trane.Search.lessons_in_progress_capped"
   ],
   "note": ""
  },
  {
   "property": "C36",
   "status": "proved",
   "theorems": [
    "Trane.Search.search_complete",
    "Trane.Search.starting_lesson_stranded"
   ],
   "note": "From the starting points reported by the graph. A starting lesson of a course with another starting lesson that depends on a different course is never among them (witness proved)."
  },
  {
   "property": "C37",
   "status": "proved",
   "theorems": [
    "Trane.Search.lesson_share",
    "Trane.Search.share_full",
    "Trane.Search.share_mono",
    "Trane.Search.share_lower"
   ],
   "note": ""
  },
  {
   "property": "C38",
   "status": "partial",
   "theorems": [
    "Trane.CandidateFilter.batch_from_candidates",
    "Trane.CandidateFilter.batch_no_duplicates",
    "Trane.CandidateFilter.batch_represents_windows",
    "Trane.CandidateFilter.batch_size_bound",
    "Trane.CandidateFilter.batch_size_partial",
    "Trane.CandidateFilter.batch_size_default",
    "Trane.CandidateFilter.small_batch_exceeds",
    "Trane.Batch.batch_known",
    "Trane.Batch.batch_size",
    "Trane.Batch.batch_size_default_relearn",
    "Trane.Batch.relearn_exceeds_batch_size"
   ],
   "note": "Subset, no duplicates: in full. The size bound is false for small batch sizes because every window contributes at least one exercise, and because relearned exercises come on top (witnesses proved); the general bound and the bound for the default window shares are proved."
  },
  {
   "property": "C39",
   "status": "partial",
   "theorems": [
    "Trane.one_window_partial",
    "Trane.in_window_iff",
    "Trane.default_ordered",
    "Trane.window_gap_accepted",
    "Trane.window_overlap_accepted",
    "Trane.empty_mastered_window"
   ],
   "note": "Proved when adjacent windows meet exactly. Verification accepts mismatches below f32::EPSILON, where a score may be in no window or in two (witnesses proved)."
  },
  {
   "property": "C40",
   "status": "proved",
   "theorems": [
    "Trane.Shuffler.shuffle_spec"
   ],
   "note": "For every outcome of the random shuffles."
  },
  {
   "property": "C41",
   "status": "proved",
   "theorems": [
    "Trane.Batch.pile_exact",
    "Trane.Batch.relearned_included",
    "Trane.Batch.pile_after_batch",
    "Trane.System.pile_of_history"
   ],
   "note": "For every history of accepted grades and batch requests with changing libraries and blacklists."
  },
  {
   "property": "C42",
   "status": "proved",
   "theorems": [
    "Trane.Knocker.knock_out_terminates",
    "Trane.Knocker.knock_out_exact",
    "Trane.Knocker.knocked_out_covered",
    "Trane.Knocker.knock_out_sublist"
   ],
   "note": ""
  },
  {
   "property": "C43",
   "status": "proved",
   "theorems": [
    "Trane.System.score_effects",
    "Trane.System.score_stores_rewards",
    "Trane.System.score_returns_ok",
    "Trane.System.score_terminates",
    "Trane.System.score_failure",
    "Trane.System.grades_stored",
    "Trane.System.session_of_history",
    "Trane.System.system_scores_not_stale_partial",
    "Trane.System.stale_after_failed_trial"
   ],
   "note": "Effects of every successful call, of every failure point, and of whole histories. The refresh of the cached score is proved for all histories in which the write of a trial does not fail after its delta was stored; stale_after_failed_trial shows what happens otherwise."
  },
  {
   "property": "C44",
   "status": "proved",
   "theorems": [
    "Trane.Filters.filter_lesson_exact",
    "Trane.Filters.filter_course_sound",
    "Trane.Filters.filter_course_basic",
    "Trane.Filters.filter_course_exact"
   ],
   "note": ""
  },
  {
   "property": "C45",
   "status": "partial",
   "theorems": [
    "Trane.Filters.session_part_partial",
    "Trane.Filters.partAt_unique",
    "Trane.Filters.session_empty",
    "Trane.Filters.session_filter_of_part",
    "Trane.Filters.session_wraps"
   ],
   "note": "Proved for sessions shorter than 2^32 minutes queried within 2^32 minutes; beyond that the u32 arithmetic wraps or panics (witness proved)."
  },
  {
   "property": "C46",
   "status": "proved",
   "theorems": [
    "Trane.options_verify_iff",
    "Trane.passing_verify_iff",
    "Trane.default_options_accepted",
    "Trane.inverted_windows_accepted"
   ],
   "note": "Gaps and end points are compared up to f32 epsilon, as in the code. Inverted windows are accepted (witness)."
  },
  {
   "property": "C47",
   "status": "proved",
   "theorems": [
    "Trane.Library.open_succeeds_iff",
    "Trane.Library.library_manifests",
    "Trane.Library.library_ids_distinct",
    "Trane.Library.library_types",
    "Trane.Library.library_parents",
    "Trane.Library.library_relations",
    "Trane.Library.library_acyclic",
    "Trane.Library.library_sane",
    "Trane.Gen.generates_proper"
   ],
   "note": "For every disk content whose generators name the right parents (GeneratesProper); generates_proper shows that the models of all four generators meet this. JSON parsing and file access are parameters."
  },
  {
   "property": "C48",
   "status": "proved",
   "theorems": [
    "Trane.Library.reopened_manifests",
    "Trane.Library.reopened_graph",
    "Trane.Library.reopened_listings",
    "Trane.Library.graph_reopens",
    "Trane.Library.can_reopen"
   ],
   "note": "For every loaded library and every iteration order of the hash maps and sets while writing and reading. The text format (JSON) is not modelled: entries are read back as written."
  },
  {
   "property": "C49",
   "status": "proved",
   "theorems": [
    "Trane.Saved.open_succeeds_iff",
    "Trane.Saved.get_exact",
    "Trane.Saved.listing_exact"
   ],
   "note": "Covers the filter manager and the study session manager, which share their code. Opening also fails when the directory or a file cannot be read or parsed."
  },
  {
   "property": "C50",
   "status": "proved",
   "theorems": [
    "Trane.Library.course_ids_exact",
    "Trane.Library.lesson_ids_exact",
    "Trane.Library.exercise_ids_exact",
    "Trane.Library.all_exercise_ids_exact",
    "Trane.Library.matching_prefix_exact"
   ],
   "note": ""
  },
  {
   "property": "C51",
   "status": "proved",
   "theorems": [
    "Trane.Gen.Music.lessons_exact",
    "Trane.Gen.Music.dependencies_generated",
    "Trane.Gen.Music.ids_distinct",
    "Trane.Gen.Music.acceptable",
    "Trane.Gen.Music.proper"
   ],
   "note": ""
  },
  {
   "property": "C52",
   "status": "partial",
   "theorems": [
    "Trane.Gen.Knowledge.generate_exact",
    "Trane.Gen.Knowledge.ids_distinct_partial",
    "Trane.Gen.Knowledge.ids_clash",
    "Trane.Gen.Knowledge.acceptable",
    "Trane.Gen.Knowledge.proper"
   ],
   "note": "Distinct ids are proved when the short ids of lessons contain no colon; with colons two units can get the same id (ids_clash)."
  },
  {
   "property": "C53",
   "status": "proved",
   "theorems": [
    "Trane.Gen.Literacy.generate_exact",
    "Trane.Gen.Literacy.lessons_sound",
    "Trane.Gen.Literacy.lessons_complete",
    "Trane.Gen.Literacy.ids_distinct",
    "Trane.Gen.Literacy.dependencies_acyclic",
    "Trane.Gen.Literacy.encompassed_acyclic",
    "Trane.Gen.Literacy.superseded_acyclic",
    "Trane.Gen.Literacy.acceptable",
    "Trane.Gen.Literacy.proper"
   ],
   "note": "For every content of the course directory and every iteration order of the hash map. A dictation lesson keeps references to other courses in its encompassed and superseded lists but not in its dependencies; the theorem says so."
  },
  {
   "property": "C54",
   "status": "proved",
   "theorems": [
    "Trane.Gen.Transcription.lessons_sound",
    "Trane.Gen.Transcription.lessons_complete",
    "Trane.Gen.Transcription.ids_distinct",
    "Trane.Gen.Transcription.library_ids_distinct",
    "Trane.Gen.Transcription.lessons_acyclic",
    "Trane.Gen.Transcription.dependencies_generated",
    "Trane.Gen.Transcription.acceptable",
    "Trane.Gen.Transcription.inlined_clash",
    "Trane.Gen.Transcription.colon_clash"
   ],
   "note": "Distinct ids are proved when instrument and short ids are distinct and have no colon, and no course id continues another with '::'. The code checks short ids for duplicates only within the passage directory, not among inlined passages (inlined_clash)."
  },
  {
   "property": "C55",
   "status": "partial",
   "theorems": [
    "Trane.OptionsApi.options_returned",
    "Trane.OptionsApi.options_followed_partial",
    "Trane.OptionsApi.other_options_ignored",
    "Trane.OptionsApi.options_not_followed"
   ],
   "note": "get_scheduler_options returns the options in force; batches follow the passing score options and the number of lessons in progress. False of the code for the relearn fraction, the windows, the superseding score and the numbers of trials and rewards, of which the scheduler keeps copies made at creation (witnesses proved)."
  },
  {
   "property": "C56",
   "status": "partial",
   "theorems": [
    "Trane.TopLevel.others_unchanged",
    "Trane.TopLevel.blacklist_of_history",
    "Trane.TopLevel.review_of_history",
    "Trane.TopLevel.trials_of_history",
    "Trane.TopLevel.options_of_history",
    "Trane.TopLevel.library_of_history_partial",
    "Trane.TopLevel.results_of_components",
    "Trane.TopLevel.encompassing_setter_ignored",
    "Trane.TopLevel.sound_step"
   ],
   "note": "For all histories, restarts included: each component is in the state its own calls lead to, each call leaves other parts alone and returns the result of the component. False of set_encompasing_equals_dependency, which calls the getter (witness proved). Deltas and rewards of gradings are described by C43, C66 and C29."
  },
  {
   "property": "C57",
   "status": "proved",
   "theorems": [
    "Trane.grade_round_trip",
    "Trane.grade_of_number_iff"
   ],
   "note": ""
  },
  {
   "property": "C58",
   "status": "partial",
   "theorems": [
    "Trane.Scorer.score_decays_partial",
    "Trane.Scorer.urgency_grows",
    "Trane.Scorer.waiting_can_raise_score"
   ],
   "note": "The score jumps up when 50 days pass for well-graded exercises (old-good floor), so the full statement is false (witness proved); proved on each side of the 50 days mark. Urgency part proved in full."
  },
  {
   "property": "C59",
   "status": "partial",
   "theorems": [
    "Trane.Scorer.review_direction",
    "Trane.Scorer.better_grade_helps_partial",
    "Trane.Scorer.better_grade_more_urgent"
   ],
   "note": "False when the latest grade crosses 3: a lower failure rate makes earlier failures cut the stability more (witness proved). Proved for changes on one side of 3."
  },
  {
   "property": "C60",
   "status": "partial",
   "theorems": [
    "Trane.UnitScorer.score_terminates_partial",
    "Trane.UnitScorer.queries_answered_partial",
    "Trane.UnitScorer.score_can_diverge"
   ],
   "note": "A course that supersedes its own lesson makes the query diverge (witness proved); the condition of the theorems is the acyclicity of the score dependency relation. queries_answered_partial holds for caches with any contents."
  },
  {
   "property": "C61",
   "status": "partial",
   "theorems": [
    "Trane.Propagator.rewards_closed",
    "Trane.Propagator.default_rewards_exact_partial",
    "Trane.Propagator.rewards_depend_on_order"
   ],
   "note": "Nothing is left out: proved. Independence of the listing order is false of the code when weights differ (witness proved); with the default encompassing relation (all weights 1) the rewards are determined exactly."
  },
  {
   "property": "C62",
   "status": "proved",
   "theorems": [
    "Trane.CandidateFilter.weight_valid",
    "Trane.CandidateFilter.weight_monotone",
    "Trane.CandidateFilter.weight_strict",
    "Trane.CandidateFilter.weight_raised",
    "Trane.CandidateFilter.weight_lowered",
    "Trane.CandidateFilter.stagnation_by_mastery"
   ],
   "note": "Over the reals, for measures that are not negative. A velocity below -1 gives a NaN cost in the code, which clamps to the least weight; the model includes this."
  },
  {
   "property": "C63",
   "status": "proved",
   "theorems": [
    "Trane.CandidateFilter.success_makes_harder",
    "Trane.CandidateFilter.adjusted_shares",
    "Trane.CandidateFilter.adjusted_shares_valid",
    "Trane.CandidateFilter.adjusted_ranges",
    "Trane.Batch.success_rate_exact"
   ],
   "note": "Monotonicity for shares between 5% and 50%, the range the adjustment clamps to."
  },
  {
   "property": "C64",
   "status": "proved",
   "theorems": [
    "Trane.Batch.frequency_exact",
    "Trane.Batch.batch_counted"
   ],
   "note": ""
  },
  {
   "property": "C65",
   "status": "partial",
   "theorems": [
    "Trane.Batch.batch_nonempty_partial",
    "Trane.Batch.all_knocked_out"
   ],
   "note": "Proved when the offered exercises have scores below 4.5 (none counts as 0) and the windows are ordered. False in general: with better scores lessons and courses that cover each other can knock out every exercise (witness proved)."
  },
  {
   "property": "C66",
   "status": "proved",
   "theorems": [
    "Trane.System.score_delta",
    "Trane.System.deltas_stored",
    "Trane.System.delta_value"
   ],
   "note": "For exercises of the library, with a positive number of trials in the options."
  },
  {
   "property": "C67",
   "status": "proved",
   "theorems": [
    "Trane.Library.ignored_paths_exact",
    "Trane.Library.ignored_as_if_absent",
    "Trane.Library.ignored_paths_without_effect"
   ],
   "note": "For absolute roots and relative ignored paths. With a relative root the preference is silently ignored (ignored_paths_without_effect)."
  },
  {
   "property": "C68",
   "status": "proved",
   "theorems": [
    "Trane.Gen.Literacy.classify_iff",
    "Trane.Gen.Literacy.openLesson_succeeds_iff",
    "Trane.Gen.Literacy.questions_exact",
    "Trane.Gen.Literacy.references_exact",
    "Trane.Gen.Literacy.openLessons_exact",
    "Trane.Gen.Literacy.openLessons_succeeds_iff"
   ],
   "note": "File reading, JSON and YAML parsing and line splitting are parameters. The course instructions file and unreadable directory entries are outside the statement."
  },
  {
   "property": "C69",
   "status": "proved",
   "theorems": [
    "Trane.Gen.Knowledge.classify_iff",
    "Trane.Gen.Knowledge.openLesson_exact",
    "Trane.Gen.Knowledge.openLesson_succeeds_iff",
    "Trane.Gen.Knowledge.generate_exact",
    "Trane.Gen.Knowledge.generate_succeeds_iff"
   ],
   "note": "File access and JSON parsing are parameters. The name and description files of an exercise with short id 'lesson' are taken for those of the lesson; the theorem says so. A directory named just .lesson becomes a lesson with an empty short id."
  },
  {
   "property": "C70",
   "status": "proved",
   "theorems": [
    "Trane.Gen.Transcription.openDirectory_iff",
    "Trane.Gen.Transcription.generate_succeeds_iff",
    "Trane.Gen.Transcription.metadata_exact",
    "Trane.Gen.Transcription.instructions_exact"
   ],
   "note": "Reading and parsing files are parameters."
  },
  {
   "property": "C71",
   "status": "proved",
   "theorems": [
    "Trane.TopLevel.restart_keeps",
    "Trane.TopLevel.restart_ok_iff"
   ],
   "note": ""
  },
  {
   "property": "C72",
   "status": "proved",
   "theorems": [
    "Trane.TopLevel.preferences_of_history",
    "Trane.TopLevel.preferred_batch_size",
    "Trane.TopLevel.restart_ok_iff",
    "Trane.TopLevel.zero_batch_size_locks"
   ],
   "note": "The preferences file is a parameter (written at once or not at all); a crash during fs::write is outside the statement."
  },
  {
   "property": "C73",
   "status": "partial",
   "theorems": [
    "Trane.Gen.Builder.simple_round_trip",
    "Trane.Gen.Builder.course_round_trip",
    "Trane.Gen.Builder.invalid_writes_nothing",
    "Trane.Gen.Builder.rebuild_same",
    "Trane.Gen.Builder.builds_iff_partial",
    "Trane.Gen.Builder.additional_kept",
    "Trane.Gen.Builder.removed_lesson_stays",
    "Trane.Gen.Builder.failed_build_loses_files",
    "Trane.Gen.Builder.slash_exercise_lost",
    "Trane.Gen.Builder.property_replaces_file",
    "Trane.Gen.Builder.same_id_merges",
    "Trane.Gen.Builder.lesson_exercise_names_lesson"
   ],
   "note": "Round trips proved when file names contain no slash, additional files are not named like files of exercises, and no lesson of an earlier build is missing from the configuration; each of these conditions is shown to be needed by a witness. JSON text is a parameter."
  },
  {
   "property": "C74",
   "status": "partial",
   "theorems": [
    "Trane.CourseBuilder.files_iff",
    "Trane.CourseBuilder.opens_as_built",
    "Trane.CourseBuilder.others_unchanged",
    "Trane.CourseBuilder.asset_written",
    "Trane.CourseBuilder.asset_replaces_nothing",
    "Trane.CourseBuilder.build_succeeds",
    "Trane.CourseBuilder.rebuild_fails",
    "Trane.CourseBuilder.missing_file_not_noticed",
    "Trane.CourseBuilder.same_directory_not_noticed",
    "Trane.CourseBuilder.wrong_course_not_noticed",
    "Trane.CourseBuilder.failed_build_leaves_files",
    "Trane.Tree.texts_open_as_built"
   ],
   "note": "All proved but the last sentence, which is false of the code: the Boolean result of verify_paths is dropped, so building succeeds although a mentioned file is missing (missing_file_not_noticed). texts_open_as_built is the round trip with the texts of the files."
  },
  {
   "property": "C75",
   "status": "partial",
   "theorems": [
    "Trane.Graph.drawing_readable",
    "Trane.Graph.drawing_contents",
    "Trane.Graph.drawing_determined",
    "Trane.Graph.course_without_lessons_not_drawn",
    "Trane.Graph.arrow_written_twice",
    "Trane.Graph.quotes_not_escaped"
   ],
   "note": "Proved for courses that have lessons. False of the code: a course without lessons and the arrows from it are not drawn, a unit that is a lesson and has lessons of its own is drawn twice, and ids are not escaped (witnesses proved)."
  },
  {
   "property": "C76",
   "status": "partial",
   "theorems": [
    "Trane.ConfigDir.open_keeps_everything",
    "Trane.ConfigDir.open_prepares",
    "Trane.ConfigDir.open_again",
    "Trane.ConfigDir.open_succeeds_iff",
    "Trane.ConfigDir.open_reads_preferences",
    "Trane.ConfigDir.set_then_get",
    "Trane.ConfigDir.set_interrupted_partial",
    "Trane.ConfigDir.open_recovers_partial",
    "Trane.ConfigDir.interrupted_opening_blocks",
    "Trane.ConfigDir.interrupted_storing_loses",
    "Trane.Json.preferencesFormat_read",
    "Trane.Json.stored_preferences_read_back"
   ],
   "note": "Interruptions outside of the write of the preferences file are recovered from. False of the code for an interruption between the creation of user_preferences.json and the end of its write: the next openings fail and earlier preferences are lost (witnesses proved). The theorems hold for every format with three properties; Trane.Json.preferencesFormat is the JSON one, for which they are proved."
  },
  {
   "property": "C77",
   "status": "partial",
   "theorems": [
    "Trane.Assets.unit_normalized_iff",
    "Trane.Assets.exercise_normalized_iff",
    "Trane.Assets.verified_iff",
    "Trane.Assets.normalized_absolute",
    "Trane.Assets.verified_normalizes",
    "Trane.Assets.absolute_paths_not_checked"
   ],
   "note": "All but the last sentence: normalisation takes absolute paths as they are, without a check that the file exists (witness proved)."
  },
  {
   "property": "C78",
   "status": "partial",
   "theorems": [
    "Trane.Conc.no_deadlock_partial",
    "Trane.Conc.schedules_end",
    "Trane.Conc.finished_free",
    "Trane.Conc.alone_finishes",
    "Trane.Conc.review_list_deadlock"
   ],
   "note": "Proved for all calls but batches from the review list, for which it is false of the code: the review list search holds the read lock of the frequency map and takes it again, while the end of another batch may wait to write (review_list_deadlock). Which branch a call takes is left open, so a proof covers every path. That &mut self calls are exclusive is Rust's rule and assumed."
  },
  {
   "property": "C79",
   "status": "partial",
   "theorems": [
    "Trane.Conc.no_clash_partial",
    "Trane.Conc.alone_finishes",
    "Trane.Conc.two_scoring_threads_clash"
   ],
   "note": "Proved when at most one thread makes calls that compute scores. False of the code for two such threads: the caches of the unit scorer are RefCells without a lock although Trane is declared Sync (two_scoring_threads_clash)."
  },
  {
   "property": "C80",
   "status": "proved",
   "theorems": [
    "Trane.Float.score_exact",
    "Trane.Float.machine_score",
    "Trane.Float.machine_rejects_iff",
    "Trane.Float.machine_score_positive",
    "Trane.Float.nearestPow_faithful"
   ],
   "note": "binary32 round to nearest even on the reals, overflow to infinity, NaN. powf is a parameter assumed faithful (nearestPow_faithful shows that the assumption can be met). The sign of zero is not modelled. score_exact ties the operation-by-operation model to the exact one of C19-C22."
  },
  {
   "property": "C81",
   "status": "proved",
   "theorems": [
    "Trane.Float.machine_propagation",
    "Trane.Float.propagated_stored",
    "Trane.Float.machine_reward",
    "Trane.Float.machine_exercise_score",
    "Trane.Float.machine_mean",
    "Trane.Float.machine_weight",
    "Trane.Float.reward_exact",
    "Trane.Float.apply_exact",
    "Trane.Float.weight_exact",
    "Trane.Float.initial_items_exact",
    "Trane.Float.next_items_exact",
    "Trane.Float.utils_average_exact",
    "Trane.Float.utils_average_between",
    "Trane.Float.utils_average_lengths",
    "Trane.Float.oversized_weights_not_a_number",
    "Trane.Float.oversized_weights_spoil_scores"
   ],
   "note": "Edge weights in [0, 1] are a hypothesis: manifests are not checked for it, and oversized_weights_not_a_number shows that far larger weights do give NaN. machine_weight assumes nothing of ln_1p and exp, and of sqrt that it is correctly rounded (IEEE 754). That sample_weighted accepts positive numbers is the contract of the rand crate. The *_exact theorems tie the operation-by-operation model to the exact models of C23, C24, C28 and C62. utils::weighted_average is public but unused in the crate; its theorems are about exact arithmetic."
  },
  {
   "property": "C82",
   "status": "partial",
   "theorems": [
    "Trane.TopLevel.score_at_time_in_force_partial",
    "Trane.TopLevel.score_at_clock_partial",
    "Trane.TopLevel.app_score_at_times_partial",
    "Trane.TopLevel.cached_score_ignores_time",
    "Trane.TopLevel.rewards_ignore_time_set"
   ],
   "note": "Proved for an exercise whose cached score was dropped by invalidate_cached_score, and for the part of the score that comes from trials and deltas. False of the code otherwise: setting the time does not clear the caches, so a score asked for before keeps its old value (cached_score_ignores_time, for every object and time), and the reward scorer reads the clock of the computer, not the time set (rewards_ignore_time_set)."
  },
  {
   "property": "C83",
   "status": "proved",
   "theorems": [
    "Trane.TopLevel.scores_always_in_range",
    "Trane.TopLevel.urgencies_always_in_range",
    "Trane.TopLevel.deltas_in_range"
   ],
   "note": "Over the reals; machine arithmetic is C80 and C81."
  },
  {
   "property": "C84",
   "status": "proved",
   "theorems": [
    "Trane.UnitScorer.asking_changes_no_answer",
    "Trane.UnitScorer.answer_unique",
    "Trane.UnitScorer.superseded_unique",
    "Trane.TopLevel.asking_keeps_scores",
    "Trane.TopLevel.score_unique"
   ],
   "note": "Which questions the search of a batch asks is arbitrary. That every question has an answer is C60."
  },
  {
   "property": "C85",
   "status": "proved",
   "theorems": [
    "Trane.TopLevel.batch_follows_scores",
    "Trane.TopLevel.low_score_holds_back",
    "Trane.TopLevel.after_batch"
   ],
   "note": "Scores are rational numbers computed without rounding; the scorer of exercises is any function. The clock does not move during a batch."
  },
  {
   "property": "C86",
   "status": "proved",
   "theorems": [
    "Trane.TopLevel.whole_batch_succeeds",
    "Trane.TopLevel.whole_batch_known",
    "Trane.TopLevel.whole_batch_not_blacklisted",
    "Trane.TopLevel.whole_batch_unlocked",
    "Trane.TopLevel.whole_batch_distinct",
    "Trane.TopLevel.whole_batch_size",
    "Trane.TopLevel.serves_exists"
   ],
   "note": "The request must be served by the unit scorer; serves_exists shows that it can be if the manifests have no cycle of superseding and containment. The empty id must be neither blacklisted nor superseded (ids of manifests are never empty). Scores are rational numbers computed without rounding."
  },
  {
   "property": "C87",
   "status": "partial",
   "theorems": [
    "Trane.Json.preferences_read_back",
    "Trane.Json.preferences_cut",
    "Trane.Json.stored_preferences_read_back",
    "Trane.Json.course_manifest_read_back_partial",
    "Trane.Json.lesson_manifest_read_back",
    "Trane.Json.exercise_manifest_read_back",
    "Trane.Json.passages_read_back",
    "Trane.Json.property_files_read_back",
    "Trane.Json.manifest_cut",
    "Trane.Json.saved_filter_read_back_partial",
    "Trane.Json.study_session_read_back_partial",
    "Trane.Json.saved_filters_from_files_partial",
    "Trane.Json.chain_read_iff",
    "Trane.Json.deep_filter_blocks_opening",
    "Trane.Json.tower_read_iff",
    "Trane.Json.infinite_weight_not_read"
   ],
   "note": "False of the code for values nested deeper than serde_json reads (128 levels): such filters and manifests are written but not read (chain_read_iff, tower_read_iff are exact), and one such file stops the opening (deep_filter_blocks_opening). serde_json and the derived code are modelled as written in Json/Text and Json/Serde; the digits of f32 are a parameter."
  },
  {
   "property": "C88",
   "status": "proved",
   "theorems": [
    "Trane.Json.preferences_lenient",
    "Trane.Json.saved_filter_lenient",
    "Trane.Json.study_session_lenient",
    "Trane.Json.course_lenient",
    "Trane.Json.lesson_lenient",
    "Trane.Json.exercise_lenient",
    "Trane.Json.passages_lenient",
    "Trane.Json.transcription_preferences_lenient",
    "Trane.Json.instrument_lenient",
    "Trane.Json.scheduler_preferences_lenient",
    "Trane.Json.config_lenient",
    "Trane.Json.passage_lenient",
    "Trane.Json.names_variants",
    "Trane.Json.unit_filter_variants",
    "Trane.Json.kv_variants",
    "Trane.Json.part_variants",
    "Trane.Json.basic_variants",
    "Trane.Json.asset_variants",
    "Trane.Json.link_variants",
    "Trane.Json.generator_variants"
   ],
   "note": "Members that are ignored are read like others here, so the limit on nesting applies to them too."
  },
  {
   "property": "C89",
   "status": "proved",
   "theorems": [
    "Trane.Json.parse_iff",
    "Trane.Json.document_unique",
    "Trane.Json.print_document"
   ],
   "note": "About the model of the reader of serde_json in Json/Text, which is written after its documentation; UTF-8 is left out: a text is a list of characters."
  },
  {
   "property": "C90",
   "status": "partial",
   "theorems": [
    "Trane.Tree.course_text_iff",
    "Trane.Tree.lesson_text_iff",
    "Trane.Tree.exercise_text_iff",
    "Trane.Tree.walk_iff",
    "Trane.Tree.served_from_texts",
    "Trane.Tree.every_text_read",
    "Trane.Tree.saved_texts_open_iff",
    "Trane.Tree.saved_texts_get",
    "Trane.Tree.config_beside_library",
    "Trane.Tree.config_elsewhere"
   ],
   "note": "All proved but the last sentence, which is false of the code if the root is relative and the working directory given is not the current one (config_elsewhere); config_beside_library says when it holds. No symbolic links, no unreadable files; what generators make is a parameter here."
  },
  {
   "property": "C91",
   "status": "partial",
   "theorems": [
    "Trane.Tree.knowledge_from_texts",
    "Trane.Tree.knowledge_readable_iff",
    "Trane.Tree.literacy_from_texts",
    "Trane.Tree.literacy_readable_iff",
    "Trane.Tree.transcription_from_texts",
    "Trane.Tree.transcription_readable_iff",
    "Trane.Tree.music_from_texts",
    "Trane.Tree.generated_served",
    "Trane.Tree.mem_mdList",
    "Trane.Tree.instructions_from_cwd",
    "Trane.Tree.instructions_not_found"
   ],
   "note": "All proved but the last sentence, which is false of the code: the instructions and material of a generated knowledge base lesson are bare file names that do not lead to the files (instructions_not_found). YAML, the iteration order of hash maps and the long instruction texts are parameters; the paths of flashcards do lead to their files (knowledge_from_texts)."
  },
  {
   "property": "C92",
   "status": "proved",
   "theorems": [
    "Trane.Tree.batch_from_texts",
    "Trane.Tree.batch_size_from_texts",
    "Trane.Tree.batch_succeeds_from_texts",
    "Trane.Tree.generated_served"
   ],
   "note": "As in C86 the request must be served from the library and the scorer (Serves; serves_exists says when there is such a request) and the empty id unused."
  },
  {
   "property": "C93",
   "status": "proved",
   "theorems": [
    "Trane.Sql.stats_sql_keeps_logs",
    "Trane.Sql.deltas_sql_keeps_logs",
    "Trane.Sql.rewards_sql_keeps_logs",
    "Trane.Sql.blacklist_sql_is_set",
    "Trane.Sql.review_sql_is_set"
   ],
   "note": "About the SQL texts in the code, run by a model of SQLite (Sql/Syntax, Sql/Engine) written after its documentation. Prefixes are matched with LIKE (C11, C15), equal timestamps are trimmed together (C14). Rewards are exact numbers."
  },
  {
   "property": "C94",
   "status": "proved",
   "theorems": [
    "Trane.Sql.earlier_release_opens",
    "Trane.Sql.answers_survive_opening",
    "Trane.Sql.stats_upgrade_keeps_logs",
    "Trane.Sql.deltas_upgrade_keeps_logs",
    "Trane.Sql.opened_file_unchanged",
    "Trane.Sql.later_release_refused"
   ],
   "note": "The number of migrations is the version that rusqlite_migration stores in the file. Questions can only be asked of files that have the tables: from two migrations on for scores, deltas and rewards, from one on for the lists."
  },
  {
   "property": "C95",
   "status": "proved",
   "theorems": [
    "Trane.Bench.grade_has_its_chance",
    "Trane.Bench.simulation_exact",
    "Trane.Bench.simulated_time_advances",
    "Trane.Bench.simulation_succeeds",
    "Trane.Bench.library_simulated",
    "Trane.Bench.object_exists",
    "Trane.Bench.verify_misses_negative",
    "Trane.Bench.simulated_time_can_go_back"
   ],
   "note": "Probabilities are exact numbers. The copy of the library directory and the threads are left out: each student has an object of their own. verify does not look at signs: a profile it accepts can make the simulation panic (verify_misses_negative)."
  },
  {
   "property": "C96",
   "status": "proved",
   "theorems": [
    "Trane.Formula.score_formula",
    "Trane.Formula.one_trial_a_day_later",
    "Trane.Formula.reward_formula",
    "Trane.Formula.weight_formula",
    "Trane.Formula.comments_disagree_on_average",
    "Trane.Formula.difficulty_reverts_to_five",
    "Trane.TopLevel.graded_score_formula"
   ],
   "note": "Over the real numbers; C80 and C81 say what is left of this in f32. Times within 2^62 seconds of the epoch. Velocity is in C25."
  },
  {
   "property": "C97",
   "status": "proved",
   "theorems": [
    "Trane.CourseBuilder.buildAll_succeeds",
    "Trane.CourseBuilder.built_library_opens",
    "Trane.CourseBuilder.built_library_serves",
    "Trane.TestLib.test_library_builds",
    "Trane.TestLib.test_library_opens",
    "Trane.TestLib.test_library_serves",
    "Trane.TestLib.test_library_manifests",
    "Trane.TestLib.random_generates",
    "Trane.TestLib.random_shape",
    "Trane.TestLib.random_opens",
    "Trane.TestLib.random_panics",
    "Trane.TestLib.ofText_text",
    "Trane.TestLib.improper_text",
    "Trane.TestLib.sample_opens"
   ],
   "note": "The courses are built one after the other. The documentation of random libraries promises a number of dependencies within a range: the first course or lesson has none, and a course drawn twice counts once, so there may be fewer (DESIGN.md, disagreement 47)."
  },
  {
   "property": "C98",
   "status": "partial",
   "theorems": [
    "Trane.TestLib.simulation_runs",
    "Trane.TestLib.library_simulation",
    "Trane.TestLib.simObject_exists",
    "Trane.TestLib.library_scores_match_partial",
    "Trane.TestLib.scores_may_differ"
   ],
   "note": "All but the comparison of scores in full. The comparison is proved to succeed if the clock moves on between grades or the exercise always gets the same grade; otherwise nothing orders grades of the same second and it may fail (scores_may_differ)."
  },
  {
   "property": "C99",
   "status": "proved",
   "theorems": [
    "Trane.Tree.session_part_unique",
    "Trane.Tree.session_batch",
    "Trane.Tree.session_batch_missing",
    "Trane.Tree.plain_batch",
    "Trane.Tree.filtered_from_texts",
    "Trane.Tree.session_from_texts",
    "Trane.Tree.session_succeeds_from_texts"
   ],
   "note": "Sessions whose parts last, taken together, less than 2^32 minutes and which began less than 2^32 minutes ago; what happens beyond is C45. The request is served from the library and the scorer as in C86 and C92. The clock is read once."
  }
 ]
}