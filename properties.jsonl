{"id": "C01", "title": "Dependents are exactly the inverse of dependencies", "statement": "After any sequence of graph edits, including rejected ones, unit d is reported as a dependency of unit u if and only if u is reported as a dependent of d.", "quantifier": "every finite sequence of add_course/add_lesson/add_exercise/add_dependencies/add_encompassed/add_superseded/update_starting_lessons calls, every pair of unit ids", "why_tests_cant": "Tests exercise a handful of edit orders; the two maps are updated separately, so agreement must be shown for every history.", "anchors": ["src/graph.rs: UnitGraph::add_dependencies, get_dependencies, get_dependents"]}
{"id": "C02", "title": "Superseding relation is symmetric with its inverse", "statement": "After any sequence of graph edits, unit u is reported as superseding v if and only if v is reported as superseded by u.", "quantifier": "every finite sequence of graph edits, every pair of unit ids", "why_tests_cant": "Two independently updated maps; all interleavings of edits must agree.", "anchors": ["src/graph.rs: add_superseded, get_supersedes, get_superseded_by"]}
{"id": "C03", "title": "Containment maps agree", "statement": "After any sequence of graph edits a lesson is listed among the lessons of course c exactly when c is reported as its course, and an exercise is listed among the exercises of lesson l exactly when l is reported as its lesson; hence each lesson has at most one course and each exercise at most one lesson.", "quantifier": "every finite sequence of graph edits, all ids", "why_tests_cant": "The forward and backward maps are separate fields; error paths mutate part of the state.", "anchors": ["src/graph.rs: add_lesson, add_exercise, get_course_lessons, get_lesson_course, get_lesson_exercises, get_exercise_lesson"]}
{"id": "C04", "title": "Unit types are permanent and ids are unique", "statement": "Once an id has been given a type (course, lesson or exercise) no later call changes or removes it, and adding a second unit under an id already known is rejected.", "quantifier": "every finite sequence of graph edits after the id became known, all ids", "why_tests_cant": "A property of all histories, including histories with failed calls.", "anchors": ["src/graph.rs: add_course, add_lesson, add_exercise, get_unit_type"]}
{"id": "C05", "title": "Encompassing weights are valid and the reverse relation matches", "statement": "After any sequence of graph edits every weight reported by the encompassing queries lies in [0,1], every dependency passed to add_encompassed that is not listed explicitly is encompassed with weight 1, and (u encompasses v with weight w) is recorded exactly as often as (v is encompassed by u with weight w).", "quantifier": "every finite sequence of graph edits, all ids and weights", "why_tests_cant": "Multiset agreement between two maps over all histories.", "anchors": ["src/graph.rs: add_encompassed, get_encompasses, get_encompassed_by, set_encompasing_equals_dependency"]}
{"id": "C06", "title": "Cycle check is exact", "statement": "For a graph built with the public edit calls, check_cycles terminates and succeeds if and only if none of the dependency, superseding and encompassing relations contains a directed cycle.", "quantifier": "every finite graph and every iteration order of its hash maps", "why_tests_cant": "Requires reasoning about depth-first search over arbitrary finite graphs and arbitrary hash orders.", "anchors": ["src/graph.rs: check_cycles, check_graph_cycles"]}
{"id": "C07", "title": "Starting lessons are exactly the lessons with no dependency inside their course", "statement": "After update_starting_lessons, the starting lessons reported for a course are exactly its lessons none of whose dependencies is a lesson of the same course.", "quantifier": "every graph, every course", "why_tests_cant": "Holds for all dependency structures.", "anchors": ["src/graph.rs: update_starting_lessons, get_starting_lessons"]}
{"id": "C08", "title": "Dependency sinks are the units from which traversal must start", "statement": "After loading any library the reported sinks are exactly the units mentioned in the dependency relation that are not lessons with a course, have no dependencies, and are not courses with a starting lesson that has known dependencies; in particular a missing course named as a dependency is a sink.", "quantifier": "every sequence of edits with the discipline used by the library loader", "why_tests_cant": "Sinks are maintained incrementally by a recursive update whose result must not depend on load order.", "anchors": ["src/graph.rs: update_dependency_sinks, update_starting_lessons, get_dependency_sinks", "src/course_library.rs: process_results"]}
{"id": "C09", "title": "No self-dependency and no exercise dependencies are accepted", "statement": "After any sequence of graph edits no unit is reported to depend on itself, and every unit reported to have dependencies has a known type; a rejected add_dependencies call leaves the graph unchanged.", "quantifier": "every finite sequence of graph edits", "why_tests_cant": "All histories, including failing calls.", "anchors": ["src/graph.rs: add_dependencies, verify_dependencies"]}
{"id": "C10", "title": "The blacklist is a durable set", "statement": "After any sequence of add, remove, prefix-remove and close/reopen operations, the blacklisted query answers true exactly for the ids in the abstract set obtained by applying the same operations, the listing has no duplicates and the same members, and the in-memory cache never disagrees with the database.", "quantifier": "every finite history of operations including reopen at any point", "why_tests_cant": "Cache and database are updated separately; agreement must hold over all histories.", "anchors": ["src/blacklist.rs: LocalBlacklist"]}
{"id": "C11", "title": "Prefix removal removes exactly the entries with that prefix", "statement": "remove_prefix_from_blacklist(p) removes every entry whose id starts with p and no other entry.", "quantifier": "every stored set of ids and every prefix string", "why_tests_cant": "Counterexamples live in special characters and letter case that tests do not enumerate.", "anchors": ["src/blacklist.rs: remove_prefix_from_blacklist_helper"]}
{"id": "C12", "title": "The review list is a durable set", "statement": "After any sequence of add/remove/reopen operations on the review list, the listing contains exactly the abstract set, each id once.", "quantifier": "every finite history", "why_tests_cant": "All histories.", "anchors": ["src/review_list.rs: LocalReviewList"]}
{"id": "C13", "title": "Score history queries return the newest trials in order", "statement": "get_scores(e,n) returns min(n, count) trials, all recorded for e with their recorded score and time, sorted by time descending, and no trial left out is newer than one returned; recording a trial for one exercise never changes the answers for another.", "quantifier": "every finite history of record/get/trim/remove/reopen and every n", "why_tests_cant": "A statement about all histories and all result limits.", "anchors": ["src/practice_stats.rs: LocalPracticeStats", "src/practice_deltas.rs: LocalPracticeDeltas"]}
{"id": "C14", "title": "Trimming keeps the newest n", "statement": "After trim_scores(n) (trim_deltas(n), trim_rewards(n)) every unit keeps exactly its min(n, count) newest entries and queries limited to n are unchanged.", "quantifier": "every history and n", "why_tests_cant": "Fails only on particular timestamp coincidences.", "anchors": ["src/practice_stats.rs: trim_scores", "src/practice_deltas.rs: trim_deltas", "src/practice_rewards.rs: trim_rewards"]}
{"id": "C15", "title": "Removing by prefix deletes exactly the matching units' history", "statement": "remove_scores_with_prefix(p) (and the deltas and rewards versions) deletes the whole history of every unit whose id starts with p and nothing else.", "quantifier": "every stored history and prefix", "why_tests_cant": "Special characters and letter case.", "anchors": ["src/practice_stats.rs: remove_scores_with_prefix", "src/practice_rewards.rs: remove_rewards_with_prefix"]}
{"id": "C16", "title": "Stored rewards per unit are bounded and the newest are kept", "statement": "After any call to record_unit_rewards the number of stored rewards of each unit in the call that was updated is at most 20, and no deleted reward is newer than a kept one.", "quantifier": "every history of reward batches", "why_tests_cant": "All histories.", "anchors": ["src/practice_rewards.rs: record_unit_rewards"]}
{"id": "C17", "title": "Near-duplicate rewards are skipped, all others are stored", "statement": "A reward is skipped only if an equal-valued reward for the same unit within a day and weight difference under 0.1 was accepted before in the same session; every reward not skipped is stored and its unit is reported as updated.", "quantifier": "every sequence of reward batches", "why_tests_cant": "Depends on a bounded cache over unbounded histories.", "anchors": ["src/practice_rewards.rs: RewardCache, record_unit_rewards"]}
{"id": "C18", "title": "Recording is atomic at every crash point", "statement": "A crash at any point during recording a trial (delta, reward batch) leaves each database either with or without the whole record; scoring an exercise writes delta, trial and rewards in that order so that a crash leaves a prefix of these writes.", "quantifier": "every crash point in every history", "why_tests_cant": "Crash points cannot be enumerated by tests.", "anchors": ["src/practice_stats.rs: record_exercise_score", "src/practice_rewards.rs", "src/scheduler.rs: score_exercise"]}
{"id": "C19", "title": "Exercise scores are well-formed", "statement": "For every trial and delta history sorted newest first, scoring returns a value in [0,5] and an urgency in [0,1]; an empty history gives value 0, urgency 1 and no velocity; a history is rejected exactly when its trials are not sorted by time descending.", "quantifier": "every list of trials (any length, scores in the grade range, any timestamps) and every current time", "why_tests_cant": "Real-valued function of unbounded histories.", "anchors": ["src/exercise_scorer.rs: PowerLawScorer::score"]}
{"id": "C20", "title": "Forgetting curve laws", "statement": "Estimated recall is in (0,1], equals 1 at zero elapsed time and 0.9 when the elapsed time equals the stability, strictly decreases with elapsed time and strictly increases with stability.", "quantifier": "all non-negative elapsed times and positive stabilities, both exercise types", "why_tests_cant": "Continuous domain.", "anchors": ["src/exercise_scorer.rs: compute_retrievability, get_curve_factor"]}
{"id": "C21", "title": "Stability and difficulty stay in range", "statement": "For every trial history the estimated difficulty stays in [1,10] and the estimated stability in [0.5,730].", "quantifier": "every trial history", "why_tests_cant": "Unbounded iteration of a nonlinear update.", "anchors": ["src/exercise_scorer.rs: compute_stability, estimate_difficulty, update_difficulty"]}
{"id": "C22", "title": "Weighted performance is a true average", "statement": "The weighted performance of a non-empty history lies between its lowest and its highest score; every trial has a positive weight; if all the scores are equal the result is that score.", "quantifier": "every non-empty trial history and time", "why_tests_cant": "Continuous, unbounded domain.", "anchors": ["src/exercise_scorer.rs: compute_weighted_avg", "src/utils.rs: weighted_average"]}
{"id": "C23", "title": "Reward scores are bounded averages", "statement": "The combined reward of a unit lies between the smallest and largest contribution (or 0); decayed rewards never exceed the original in magnitude and keep their sign; a future timestamp counts as zero age.", "quantifier": "every list of lesson and course rewards", "why_tests_cant": "Continuous, unbounded domain.", "anchors": ["src/reward_scorer.rs: WeightedRewardScorer"]}
{"id": "C24", "title": "Reward application rule", "statement": "Rewards are applied exactly when there are more than two trials and recent performance does not contradict the sign of the reward within the last week.", "quantifier": "every reward and trial list", "why_tests_cant": "Boundary conditions over a continuous domain.", "anchors": ["src/reward_scorer.rs: apply_reward"]}
{"id": "C25", "title": "Velocity is the least squares slope", "statement": "Velocity is absent exactly when there are fewer than two trials; otherwise it is 0 for constant scores or simultaneous trials and equals the slope when scores are an affine function of time.", "quantifier": "every trial history", "why_tests_cant": "Continuous, unbounded domain.", "anchors": ["src/exercise_scorer.rs: compute_velocity"]}
{"id": "C26", "title": "Unit scores are averages over the valid children", "statement": "A lesson's score is the mean over its exercises that are not blacklisted; it is absent exactly when the lesson or its course is blacklisted, the lesson is superseded, or no exercise is left; a course's score is the mean of its valid lessons' scores; every reported unit score lies in [0,5] whenever exercise scores do.", "quantifier": "every graph, blacklist and exercise score assignment", "why_tests_cant": "All graphs.", "anchors": ["src/scheduler/unit_scorer.rs: get_lesson_score, get_course_score, get_unit_score"]}
{"id": "C27", "title": "Cached scores are never stale", "statement": "After any sequence of scoring, blacklist edits and score queries through the public API, the score reported for a unit equals the score computed from scratch from the stored data at that moment.", "quantifier": "every history of operations and every unit", "why_tests_cant": "Cache invalidation bugs need specific interleavings.", "anchors": ["src/scheduler/unit_scorer.rs: invalidate_cached_score, get_unit_score", "src/lib.rs: Blacklist for Trane"]}
{"id": "C28", "title": "Reward propagation terminates with bounded, correctly signed rewards", "statement": "Scoring an exercise propagates rewards in finitely many steps on any graph (even cyclic) with weights in [0,1]; each unit receives at most one reward, with the sign of the initial reward, magnitude at least 0.2 and at most the initial magnitude, and weight at least 0.2 and at most 1.", "quantifier": "every graph, every exercise and score, every hash order", "why_tests_cant": "Arbitrary graphs.", "anchors": ["src/scheduler/reward_propagator.rs: propagate_rewards"]}
{"id": "C29", "title": "Rewards only reach encompassed or encompassing units", "statement": "A good score rewards only units reachable through the encompasses relation from the exercise's lesson or course, and a bad score only units reachable through the encompassed-by relation.", "quantifier": "every graph, exercise, score", "why_tests_cant": "Arbitrary graphs.", "anchors": ["src/scheduler/reward_propagator.rs: propagate_rewards, get_next_units"]}
{"id": "C30", "title": "Candidate search terminates", "statement": "The search for candidate exercises terminates for every graph (even with cycles or missing units), every filter, every score assignment and every random shuffle.", "quantifier": "every graph, filter, score assignment and shuffle", "why_tests_cant": "Termination over all inputs.", "anchors": ["src/scheduler.rs: get_candidates_from_graph_helper, get_all_starting_units"]}
{"id": "C31", "title": "No exercise is a candidate twice", "statement": "The candidates collected from the whole graph, from a course filter or from a metadata filter contain each exercise at most once.", "quantifier": "every graph, filter, shuffle", "why_tests_cant": "Arbitrary graphs and schedules.", "anchors": ["src/scheduler.rs: get_initial_candidates"]}
{"id": "C32", "title": "Blacklisted material is never scheduled", "statement": "No exercise in a returned batch is blacklisted or belongs to a blacklisted lesson or course.", "quantifier": "every library, blacklist, filter and history", "why_tests_cant": "All modes and histories.", "anchors": ["src/scheduler.rs: get_exercise_batch", "src/scheduler/data.rs: all_valid_exercises, inside_blacklisted"]}
{"id": "C33", "title": "Dependencies gate new material", "statement": "A lesson contributes candidates to an unfiltered search only if it is a starting point or all of its dependencies are satisfied (passing score and trials, or blacklisted/superseded/missing).", "quantifier": "every graph, score assignment, shuffle", "why_tests_cant": "Arbitrary graphs.", "anchors": ["src/scheduler.rs: get_candidates_from_graph_helper, all_satisfied_dependencies"]}
{"id": "C34", "title": "Filtered batches stay within the filter", "statement": "With a course filter all candidates belong to the requested courses, with a lesson filter to the requested lessons, and with a metadata filter to lessons that pass the filter.", "quantifier": "every library, filter, history", "why_tests_cant": "All libraries and filters.", "anchors": ["src/scheduler.rs: get_initial_candidates", "src/data/filter.rs"]}
{"id": "C35", "title": "The number of lessons in progress is capped", "statement": "The candidates taken from one search come from at most max_lessons_in_progress lessons that are new or below the target window.", "quantifier": "every graph, options", "why_tests_cant": "Arbitrary graphs.", "anchors": ["src/scheduler.rs: extend_candidates"]}
{"id": "C36", "title": "All unlocked material is found", "statement": "If the search is not stopped by the candidate limit, every lesson with satisfied dependencies that can be reached from the sinks through satisfied units is visited.", "quantifier": "every graph, score assignment, shuffle", "why_tests_cant": "Arbitrary graphs and shuffles.", "anchors": ["src/scheduler.rs: get_candidates_from_graph_helper"]}
{"id": "C37", "title": "Partially mastered lessons contribute the configured fraction", "statement": "The number of exercises a lesson contributes is all of them when its score is below the passing score or at least 4, otherwise a fraction that grows monotonically with the score from min_fraction to 1, and at least one whenever the fraction is positive.", "quantifier": "all scores, options and exercise counts", "why_tests_cant": "Continuous domain.", "anchors": ["src/scheduler.rs: select_candidates"]}
{"id": "C38", "title": "Batches contain only candidates, without duplicates, and are bounded in size", "statement": "The exercises returned by the batch filter are candidates, none is repeated when the windows do not overlap, and the batch is never larger than the configured size.", "quantifier": "every candidate list, options, random choice", "why_tests_cant": "All candidate lists and random choices.", "anchors": ["src/scheduler/filter.rs: filter_candidates"]}
{"id": "C39", "title": "Every score belongs to exactly one mastery window", "statement": "For options accepted by verification with ordered windows, every score in [0,5] is in exactly one of the five mastery windows.", "quantifier": "all accepted options and scores", "why_tests_cant": "Continuous domain.", "anchors": ["src/data.rs: MasteryWindow::in_window, SchedulerOptions::verify"]}
{"id": "C40", "title": "Final shuffle only reorders", "statement": "The final shuffle returns a permutation of the batch in which low-scoring exercises of one course appear in contiguous groups of at most three.", "quantifier": "every batch and random outcome", "why_tests_cant": "All batches and random outcomes.", "anchors": ["src/scheduler/shuffler.rs: shuffle_candidates"]}
{"id": "C41", "title": "Relearn pile holds exactly the recently failed exercises", "statement": "After any history, the relearn pile holds exactly the exercises whose most recent score was 1 or 2 (except those dropped because they became blacklisted), and the exercises it adds to a batch are not already in it.", "quantifier": "every history of scores and selections", "why_tests_cant": "All histories.", "anchors": ["src/scheduler/relearn_pile.rs"]}
{"id": "C42", "title": "Review knocking out only removes reviews covered by other units", "statement": "The knock-out step only removes candidates and sets their coverage weights; each removed candidate has a score of at least 4.5 and its lesson or course is encompassed, by units reached from the lessons and courses of the batch, with a total weight of at least 10; it never adds or reorders, and it terminates for every graph.", "quantifier": "every candidate list and graph", "why_tests_cant": "Arbitrary graphs.", "anchors": ["src/scheduler/review_knocker.rs"]}
{"id": "C43", "title": "Scoring an exercise has exactly the documented effects", "statement": "score_exercise records exactly one trial with the given score and time, updates the relearn pile, refreshes the exercise's cached score, and does not alter the trials of any other exercise.", "quantifier": "every history, exercise, score", "why_tests_cant": "All histories.", "anchors": ["src/scheduler.rs: score_exercise"]}
{"id": "C44", "title": "Key-value filters are a faithful boolean algebra", "statement": "Include filters accept exactly the units with the key-value pair, exclude filters accept exactly those without it, All/Any nodes are conjunction and disjunction, a lesson inherits nothing implicitly, and evaluation terminates on every filter tree.", "quantifier": "every filter tree and every metadata assignment", "why_tests_cant": "Recursive data type.", "anchors": ["src/data/filter.rs: KeyValueFilter"]}
{"id": "C45", "title": "Study sessions select the part for the elapsed time", "statement": "For a session with positive durations, the part returned at a time t is the unique part whose interval contains the elapsed minutes, the first part before the start, and the last part after the end.", "quantifier": "every session definition and time", "why_tests_cant": "All sessions and times, including overflow.", "anchors": ["src/data/filter.rs: StudySessionData::get_part"]}
{"id": "C46", "title": "Accepted scheduler options are usable", "statement": "Options accepted by verification have a positive batch size and lesson cap, fractions in range, and windows that start at 0, end at 5 and have no gaps.", "quantifier": "all options", "why_tests_cant": "Continuous domain.", "anchors": ["src/data.rs: SchedulerOptions::verify, PassingScoreOptions::verify"]}
{"id": "C47", "title": "An opened library is consistent", "statement": "If opening a library succeeds, every loaded lesson and exercise manifest is queryable under its id, the graph reports the same parent ids as the manifests, no id is used twice and no cycle exists; otherwise opening fails.", "quantifier": "every set of manifests in every processing order", "why_tests_cant": "All libraries and directory orders.", "anchors": ["src/course_library.rs: process_results, new"]}
{"id": "C48", "title": "A serialized library reopens to the same library", "statement": "Opening a library from its serialized form gives the same manifests and graph as the original.", "quantifier": "every library", "why_tests_cant": "All libraries.", "anchors": ["src/course_library.rs: new_from_serialized, SerializedCourseLibrary"]}
{"id": "C49", "title": "Saved filters and sessions are uniquely identified", "statement": "Opening the filter (session) manager fails exactly when two files declare the same id; otherwise each stored filter is returned under its id and the listing is sorted and complete.", "quantifier": "every directory content", "why_tests_cant": "All directory contents.", "anchors": ["src/filter_manager.rs", "src/study_session_manager.rs"]}
{"id": "C50", "title": "Library id listings are sorted and complete", "statement": "Course, lesson and exercise id listings contain exactly the ids of the loaded units of the requested scope, in sorted order, and prefix search returns exactly the ids with the prefix and type.", "quantifier": "every library and argument", "why_tests_cant": "All libraries.", "anchors": ["src/course_library.rs: get_course_ids, get_lesson_ids, get_exercise_ids, get_all_exercise_ids, get_matching_prefix"]}
{"id": "C51", "title": "Music piece generator yields a well-formed course", "statement": "For every passage tree the generated lessons have distinct ids, dependencies only on lessons generated for their sub-passages, and an acyclic dependency relation; each lesson has exactly one exercise.", "quantifier": "every passage tree and course id", "why_tests_cant": "Recursive data type.", "anchors": ["src/data/course_generator/music_piece.rs"]}
{"id": "C52", "title": "Knowledge base generator resolves short ids", "statement": "Dependencies, encompassed and superseded references that name a lesson of the course by short id become its full id, others are unchanged; generated lesson and exercise ids are distinct.", "quantifier": "every directory content", "why_tests_cant": "All directory contents.", "anchors": ["src/data/course_generator/knowledge_base.rs"]}
{"id": "C53", "title": "Literacy generator wires reading and dictation lessons", "statement": "Each literacy lesson generates a reading lesson and, if enabled, a dictation lesson that depends on it; the generated dependency relation is acyclic whenever the declared one is.", "quantifier": "every set of lessons and dependencies", "why_tests_cant": "All inputs.", "anchors": ["src/data/course_generator/literacy.rs"]}
{"id": "C54", "title": "Transcription generator is well-formed", "statement": "Generated transcription lessons have the documented dependencies, are acyclic when the course dependencies are, and every instrument gets its own lessons.", "quantifier": "every configuration and instrument list", "why_tests_cant": "All inputs.", "anchors": ["src/data/course_generator/transcription.rs"]}
{"id": "C55", "title": "Changing scheduler options takes effect", "statement": "After set_scheduler_options(o) batches are built according to o; after reset_scheduler_options according to the defaults.", "quantifier": "all options and histories", "why_tests_cant": "All histories.", "anchors": ["src/scheduler.rs: set_scheduler_options, reset_scheduler_options"]}
{"id": "C56", "title": "The public wrapper forwards every call", "statement": "Each call on the top-level object has the effect of the corresponding call on the component it wraps.", "quantifier": "all calls and states", "why_tests_cant": "All states.", "anchors": ["src/lib.rs: impl UnitGraph for Trane and others"]}
{"id": "C57", "title": "Mastery grades convert faithfully", "statement": "Each grade converts to the number 1..5 and back to itself; numbers further than the float epsilon from 1..5 are rejected.", "quantifier": "all grades and all numbers", "why_tests_cant": "Continuous domain.", "anchors": ["src/data.rs: MasteryScore"]}
{"id": "C58", "title": "Scores fade while an exercise is not practised", "statement": "For a fixed history, a later query never reports a higher score nor a lower urgency.", "quantifier": "every trial and delta history, every pair of query times", "why_tests_cant": "Continuous domain of times and unbounded histories.", "anchors": ["src/exercise_scorer.rs: PowerLawScorer::score, apply_old_good_retrievability_floor"]}
{"id": "C59", "title": "Better grades never hurt", "statement": "A review graded above 3 never lowers the estimated stability, one graded below 3 never raises it, and, all else equal, a better latest grade never lowers the score nor raises the urgency at any later time.", "quantifier": "every history, grade and query time", "why_tests_cant": "Continuous domain and unbounded histories.", "anchors": ["src/exercise_scorer.rs: apply_stability_transition, compute_stability, score"]}
{"id": "C60", "title": "Score queries terminate", "statement": "Asking for the score of any unit of a loaded library terminates, whatever the superseding relations, for every library that the loader accepts.", "quantifier": "every graph, blacklist and score assignment", "why_tests_cant": "Termination over all graphs.", "anchors": ["src/scheduler/unit_scorer.rs: get_unit_score, is_superseded, get_lesson_score, get_course_score"]}
{"id": "C61", "title": "Propagated rewards leave nothing out", "statement": "Every unit that an already rewarded unit encompasses (or is encompassed by, for low grades) also gets a reward unless it would be too weak; the reward of a unit does not depend on the order in which its neighbours are listed.", "quantifier": "every graph, exercise and grade", "why_tests_cant": "Arbitrary graphs with cycles and shared units.", "anchors": ["src/scheduler/reward_propagator.rs: propagate_rewards"]}
{"id": "C62", "title": "Selection weights are valid and follow the documented preferences", "statement": "The weight with which a candidate is drawn is a positive bounded number, so drawing never fails; greater depth, coverage, urgency or velocity and being a dead end never lower it; redundancy and repeated scheduling never raise it; stagnation helps unmastered exercises and penalises mastered ones.", "quantifier": "all candidates", "why_tests_cant": "Continuous domain in seven dimensions.", "anchors": ["src/scheduler/filter.rs: candidate_cost, candidate_weight"]}
{"id": "C63", "title": "The mix of difficulties adapts to the success rate", "statement": "A better recent success rate never lowers the share of new and target exercises and never raises the share of easy and mastered ones; adjusted shares stay at or above 5%, sum to 1 when the outer windows leave room, and no score moves to another window.", "quantifier": "all options and success rates", "why_tests_cant": "Continuous domain.", "anchors": ["src/scheduler/filter.rs: adjusted_mastery_windows"]}
{"id": "C64", "title": "Every handed-out exercise is counted", "statement": "After any session, the number of times each exercise counts as scheduled is the number of times it was in a returned batch; a failing call counts nothing and grades do not change it.", "quantifier": "all histories of grades and batch requests", "why_tests_cant": "Unbounded histories.", "anchors": ["src/scheduler.rs: get_exercise_batch", "src/scheduler/data.rs: increment_exercise_frequency"]}
{"id": "C65", "title": "There is always something to practise", "statement": "If some lesson that is not left out can be reached and offers an exercise, and the options are valid, the returned batch is not empty.", "quantifier": "all libraries, scores, filters and random choices", "why_tests_cant": "All libraries and all score assignments.", "anchors": ["src/scheduler.rs: get_exercise_batch", "src/scheduler/review_knocker.rs: knock_out_reviews", "src/scheduler/filter.rs: filter_candidates"]}
{"id": "C66", "title": "Each grade after the first is stored with its change of score", "statement": "After any history of calls in which every grading succeeds, the stored deltas of an exercise are one per grading but the first, with the times of those gradings, and each equals the grade minus the score the exercise had immediately before the grading.", "quantifier": "all libraries, all histories of gradings, queries, batches and blacklist edits, all orders SQLite may return ties in", "why_tests_cant": "The delta depends on the whole history of trials, deltas and rewards and on the caches.", "anchors": ["src/scheduler.rs: score_exercise", "src/practice_deltas.rs: record_exercise_deltas"]}
{"id": "C67", "title": "Ignored directories are left out and nothing else is", "statement": "With an absolute library root, a course manifest is loaded exactly when it would be loaded without the preference and no ignored path, taken relative to the root, is a prefix of its path; the library loads as if the course manifests below the ignored directories did not exist.", "quantifier": "all directory trees, library roots and lists of ignored paths", "why_tests_cant": "All trees and paths.", "anchors": ["src/course_library.rs: LocalCourseLibrary::new", "src/data.rs: UserPreferences::ignored_paths"]}
{"id": "C68", "title": "Literacy lessons take everything from their files and nothing else", "statement": "A directory of a literacy course becomes a lesson exactly when it is named <id>.lesson with a non-empty id; the course can be generated exactly when every recognised file can be read; the examples and exceptions of a lesson are exactly those in its files, each with the answer kept in the answer file of the same name; its references are those of its JSON files; other files are ignored.", "quantifier": "all directory trees and file contents", "why_tests_cant": "All directory trees.", "anchors": ["src/data/course_generator/literacy.rs: LiteracyFile::try_from, LiteracyLesson::create_lesson, open_lesson, generate_manifests"]}
{"id": "C69", "title": "Knowledge base lessons take everything from their files and nothing else", "statement": "A directory of a knowledge base course becomes a lesson exactly when its name ends in .lesson; the course can be generated exactly when every file that matters can be read; the lesson's fields are those of its files; it has exactly one exercise for every <id>.front.md with a non-empty id, with the back, name, description and type of the files of the same id and the documented defaults otherwise.", "quantifier": "all directory trees, file contents and iteration orders of the hash maps", "why_tests_cant": "All directory trees.", "anchors": ["src/data/course_generator/knowledge_base.rs: KnowledgeBaseFile::try_from, open_lesson, create_lesson, create_exercise, to_exercise_manifest, generate_manifests"]}
{"id": "C70", "title": "Transcription courses take exactly their passages and describe them in their metadata", "statement": "The passages of a transcription course are those of the JSON files of its passage directory followed by the inlined ones; generating fails exactly if the directory, an entry or a JSON file cannot be read or two files have the same short id; the metadata marks the course, adds the artists and albums of the passages after those already listed and keeps all other entries; instructions are added only if there are none.", "quantifier": "all directory listings and file contents, configurations, preferences and course manifests", "why_tests_cant": "All directory listings and manifests.", "anchors": ["src/data/course_generator/transcription.rs: open_passage_directory, generate_course_metadata, generate_manifests"]}
{"id": "C71", "title": "What survives closing and reopening", "statement": "Closing and reopening a library after any use keeps the blacklist, the review list, the stored trials, deltas and rewards and the user preferences; the session state (relearn pile, success rate, frequencies), the time override and the options set by set_scheduler_options are dropped, and the options are the defaults with the batch size of the preferences.", "quantifier": "all histories of calls on the object, including failing ones", "why_tests_cant": "Any history may precede the restart.", "anchors": ["src/lib.rs: Trane::new_local_helper, create_scheduler_options", "src/preferences_manager.rs"]}
{"id": "C72", "title": "User preferences", "statement": "After any history get_user_preferences returns what the last successful set_user_preferences stored; a preferred batch size has no effect on the running object and is the batch size in force after reopening; opening fails exactly if the preferred batch size is zero.", "quantifier": "all histories of calls and all preferences", "why_tests_cant": "Any history may precede; effect only shows across a restart.", "anchors": ["src/lib.rs: create_scheduler_options, new_local_helper, PreferencesManager for Trane", "src/data.rs: SchedulerOptions::verify"]}
{"id": "C73", "title": "Knowledge base courses written by the builders are read back as described", "statement": "A knowledge base course that a builder wrote successfully and that is then opened has exactly the lessons and exercises given to the builder: the fields, fronts, backs, names, descriptions and types all come back. The simple builder checks all ids before it touches the disk; building the same configuration twice gives the same files; additional files are kept.", "quantifier": "all builder configurations and all earlier contents of the course directory", "why_tests_cant": "All configurations and directory contents.", "anchors": ["src/course_builder/knowledge_base_builder.rs: CourseBuilder::build, SimpleKnowledgeBaseCourse::build, LessonBuilder, ExerciseBuilder", "src/data/course_generator/knowledge_base.rs: generate_manifests"]}
{"id": "C74", "title": "Courses written by the course builder are opened as described", "statement": "A course built in a new directory is found by the library and opens with the course manifest, lessons and exercises given to the builder, provided directories are distinct, the ids name each other correctly and every mentioned file is there. Assets get their contents and never replace a file; no file outside the course directory changes. Building fails if the manifest of a course, lesson or exercise mentions a file that does not exist.", "quantifier": "all course builders, all earlier contents of the disk, all orders of directory walks", "why_tests_cant": "All builder configurations and disk contents.", "anchors": ["src/course_builder.rs: AssetBuilder::build, ExerciseBuilder::build, LessonBuilder::build, CourseBuilder::build", "src/course_library.rs: process_course_manifest", "src/data.rs: VerifyPaths, NormalizePaths"]}
{"id": "C75", "title": "The DOT drawing shows the stored relations", "statement": "generate_dot_graph returns a text from which, when no id contains a double quote, the drawn units and arrows can be read back without ambiguity. It draws every course once, in red, and (unless only courses are asked for) every lesson of a course once, in blue; it draws an arrow from a unit to another exactly when the second depends on the first and the first is drawn; and it does not depend on the order in which units and relations were added.", "quantifier": "all sequences of graph changes, both modes", "why_tests_cant": "All graphs and all orders of insertion; hash maps give entries in any order.", "anchors": ["src/graph.rs: UnitGraph::generate_dot_graph, InMemoryUnitGraph"]}
{"id": "C76", "title": "The configuration directory and the preferences file survive interruptions", "statement": "Opening a library creates the missing parts of its .trane directory and changes nothing that exists. It succeeds exactly when the existing parts are of the right kind, and opening again changes nothing. Preferences that are set are the ones read later. If the process stops at any point during opening or setting, a later opening succeeds and reads the old or the new preferences.", "quantifier": "all file systems, all preferences, all interruption points (including in the middle of a write)", "why_tests_cant": "Crash points and disk contents.", "anchors": ["src/lib.rs: Trane::init_config_directory, new_local, new_local_from_serialized", "src/preferences_manager.rs: LocalPreferencesManager"]}
{"id": "C77", "title": "Paths in manifests are resolved against their directory and checked", "statement": "Normalising the manifest of a course, lesson or exercise replaces each path in its assets by the absolute path of the file it names relative to the manifest's directory, changes nothing else, succeeds exactly when every such file exists, and has no further effect when repeated from any directory. Verification succeeds exactly when all files exist, and a verified manifest can be normalised. No path in a normalised manifest names a missing file.", "quantifier": "all manifests with all kinds of assets, all directories, all file systems", "why_tests_cant": "All manifests and file systems.", "anchors": ["src/data.rs: NormalizePaths, VerifyPaths, normalize_path, BasicAsset, ExerciseAsset, CourseManifest, LessonManifest, ExerciseManifest"]}
{"id": "C78", "title": "Calls from several threads never block one another for good", "statement": "Trane declares that it can be shared between threads. Calls of methods that take &self, made by any number of threads in any interleaving, never reach a state in which some call is unfinished and no thread can go on, and every schedule that goes on while it can ends with all calls finished and all locks free.", "quantifier": "all numbers of threads, all sequences of calls per thread, all paths through the code of each call, all schedules, with or without priority of waiting writers", "why_tests_cant": "A deadlock depends on the schedule; tests see a few.", "anchors": ["src/lib.rs: unsafe impl Send/Sync for Trane", "src/scheduler.rs: DepthFirstScheduler", "src/scheduler/data.rs: SchedulerData", "src/scheduler/unit_scorer.rs: UnitScorer", "src/graph.rs", "src/course_library.rs: LocalCourseLibrary"]}
{"id": "C79", "title": "Calls from several threads never break a shared cell", "statement": "Calls of methods that take &self, made by several threads in any interleaving, never borrow a shared cell for writing while it is borrowed a second time; in particular no call panics because of another thread.", "quantifier": "all numbers of threads, all sequences of calls per thread, all paths through the code of each call, all schedules", "why_tests_cant": "A conflict depends on the schedule; tests see a few.", "anchors": ["src/lib.rs: unsafe impl Send/Sync for Trane", "src/scheduler/unit_scorer.rs: UnitScorer caches, get_unit_score, invalidate_cached_score"]}
{"id": "C80", "title": "Scores are numbers in range in machine arithmetic too", "statement": "With every operation rounded as f32 arithmetic rounds it, scoring an exercise whose trials are in order and whose grades lie between 1 and 5 and whose recorded score changes lie between -5 and 5 never yields NaN or an infinity: the score is a number in [0, 5], the urgency a number in [0, 1] and the velocity, when there is one, a number. Scoring fails only when the trials are out of order. A practised exercise without recorded score changes has a score above zero.", "quantifier": "all exercise types, all histories of up to 4096 trials and score changes, all timestamps, all implementations of powf that return a neighbour of the true power", "why_tests_cant": "Rounding errors, overflow and NaN depend on the exact inputs; tests sample a few.", "anchors": ["src/exercise_scorer.rs: PowerLawScorer::score, compute_stability, velocity, compute_weighted_avg"]}
{"id": "C81", "title": "Rewards, unit scores and selection weights stay numbers in machine arithmetic", "statement": "With every operation rounded as f32 arithmetic rounds it: a propagated reward is a number of size at most 1 with the sign of the grade, and reaches units at most 8 edges away, whatever the graph; the combined reward is a number, not negative if no reward is, not positive if no reward is; the score of an exercise with rewards is a number in [0, 5], never lowered by rewards that are not negative and never raised by rewards that are not positive; averages of lessons and courses are numbers in [0, 5]; the weight with which a candidate is drawn is a number between the minimum weight and 8, so that drawing never panics.", "quantifier": "all graphs, paths and edge weights in [0, 1], all reward lists of up to 2^21 entries, all trial histories as in C80, all averages of up to 2^21 scores, all candidates, all implementations of powf, ln_1p and exp", "why_tests_cant": "NaN arises only for particular combinations of inputs; tests sample a few.", "anchors": ["src/reward_scorer.rs: WeightedRewardScorer", "src/scheduler/reward_propagator.rs: propagate_rewards_helper, stop_propagation", "src/scheduler/unit_scorer.rs: get_exercise_score, get_lesson_score, get_course_score", "src/scheduler/filter.rs: candidate_cost, candidate_weight, select_candidates"]}
{"id": "C82", "title": "Scores are computed as of the time in force", "statement": "After `override_current_timestamp(Some(t))`, `get_unit_score` of an exercise answers its score as of time t, from the trials, deltas and rewards stored at that moment, until the time is overridden again or the object is closed; after `override_current_timestamp(None)`, and in an object in which the time was never overridden, it answers the score as of the time of the computer.", "quantifier": "all histories of calls before and after the override, all times, all exercises, all stored data", "why_tests_cant": "The score depends on which earlier calls left values in the caches; tests override the time on a fresh object.", "anchors": ["src/lib.rs: Trane::override_current_timestamp", "src/scheduler.rs: DepthFirstScheduler::override_current_timestamp", "src/scheduler/unit_scorer.rs: UnitScorer::set_override_timestamp, UnitScorer::now, UnitScorer::get_exercise_score"]}
{"id": "C83", "title": "Every score ever answered is in range", "statement": "Whatever calls were made before, in any order, with failed writes, directly written scores, deltas and rewards of any size, changes of the graph, stale caches and restarts, `get_unit_score` answers no score or one between 0 and 5, and the urgency of an exercise lies between 0 and 1. Deltas stored by `score_exercise` lie between -4 and 5.", "quantifier": "all histories of calls, all units, all stored values, all times", "why_tests_cant": "Cached scores were computed from earlier states; a test looks at one history.", "anchors": ["src/scheduler/unit_scorer.rs: UnitScorer::get_unit_score, UnitScorer::get_exercise_score", "src/scheduler.rs: DepthFirstScheduler::score_exercise", "src/exercise_scorer.rs: PowerLawScorer::score", "src/reward_scorer.rs: WeightedRewardScorer::score_rewards"]}
{"id": "C84", "title": "Asking changes no answer", "statement": "Asking for scores, requesting batches, asking whether units are blacklisted, editing the review list and changing preferences or options never changes the score that `get_unit_score` gives for any unit, whether the cached scores are up to date or not, and in whichever order the questions are asked. A question has only one answer.", "quantifier": "all histories of calls before, all sequences of such calls after, all units, all contents of the caches", "why_tests_cant": "Every question fills caches that later questions read, and scores of courses are computed from cached scores of lessons; a test covers a few orders of a few questions.", "anchors": ["src/scheduler/unit_scorer.rs: UnitScorer::get_unit_score, UnitScorer::get_avg_trials, UnitScorer::is_superseded", "src/scheduler.rs: DepthFirstScheduler::get_exercise_batch"]}
{"id": "C85", "title": "Batches go by the scores that are answered", "statement": "If, after a batch without filter, `get_unit_score` answers for a dependency of a lesson a score below the passing score, and the dependency has been tried and is neither blacklisted (nor its course) nor superseded, then the batch contains no exercise of that lesson except those being relearned. The batch goes by the same scores as the query, also when the cached scores are out of date.", "quantifier": "all histories of calls, libraries, requests, random choices, lessons and dependencies", "why_tests_cant": "The search reads scores through the same caches at many points and fills them while it runs; tests look at one library and one history.", "anchors": ["src/scheduler.rs: DepthFirstScheduler::get_exercise_batch, DepthFirstScheduler::satisfied_effective_dependency, DepthFirstScheduler::get_unit_score", "src/scheduler/unit_scorer.rs: UnitScorer::get_unit_score, UnitScorer::get_avg_trials"]}
{"id": "C86", "title": "From the files to a batch", "statement": "An object that opened a library from disk, whatever was stored before, and was then used without editing the library answers a batch request as follows. If all graded ids are exercises of the library, the request ends and succeeds. Every exercise of the batch has a manifest on disk, in a lesson that has one; unless the filter is the review list, neither it nor its lesson nor its course is blacklisted; without filter, if it is not being relearned, every dependency that its lesson lists is met by the scores the object answers; no exercise occurs twice unless the filter names lessons or the review list; with a preferred batch size of 10 or more the batch has at most that size and a tenth more.", "quantifier": "all disks, generated courses, ignored directories, histories before and after opening, filters, random choices and exercises of the batch", "why_tests_cant": "It spans opening, storage, scoring, search, filtering and shuffling; tests fix a library and a few histories.", "anchors": ["src/lib.rs: Trane::new_local, Trane::get_exercise_batch, Trane::score_exercise", "src/course_library.rs: LocalCourseLibrary::new", "src/scheduler.rs: DepthFirstScheduler::get_exercise_batch", "src/scheduler/filter.rs: CandidateFilter::filter_candidates", "src/scheduler/unit_scorer.rs: UnitScorer::get_unit_score"]}
{"id": "C87", "title": "What is written as JSON is read back", "statement": "User preferences, course, lesson and exercise manifests, property files of knowledge bases, transcription passages, saved filters and study sessions that are written as JSON, compactly or indented, with white space around them, are read back as exactly the same values, whatever characters their texts contain. A file of which only a beginning was written is not read as something else: reading it is an error. A directory of saved filters written this way opens if and only if the ids differ, and gives each filter back. This holds for numbers within the range of their type, finite weights and at most 40 filters inside one another (39 in study sessions, 62 passages inside one another in a music piece); deeper values are written without an error and cannot be read again.", "quantifier": "all values of the types, all texts in them, both ways of writing, all places where a file can end early", "why_tests_cant": "Round trips must hold for every value and every string, with all escapes and nestings; tests try a few.", "anchors": ["src/data.rs: UserPreferences, CourseManifest, LessonManifest, ExerciseManifest", "src/data/filter.rs: SavedFilter, StudySession, KeyValueFilter", "src/filter_manager.rs: LocalFilterManager::new", "src/preferences_manager.rs: LocalPreferencesManager", "src/course_builder.rs: CourseBuilder::build", "src/course_library.rs: LocalCourseLibrary::open_manifest"]}
{"id": "C88", "title": "Files written by hand", "statement": "In a file with preferences, a manifest, a saved filter, a study session or transcription passages, the order of the members does not matter, members with unknown names are ignored, a member whose value is the default one may be left out, a member that occurs twice is an error, and so is a required member that is missing. The values may also be given as an array in the order of the declaration; nothing else is read. The same holds for the parts of these files: assets, filters inside filters, session parts, passages and generator configurations, where exactly one of the known names of variants must be given, with its data.", "quantifier": "all JSON objects, whatever their other members are", "why_tests_cant": "It must hold for every combination of members and values.", "anchors": ["src/data.rs: UserPreferences, CourseManifest, LessonManifest, ExerciseManifest", "src/data/filter.rs: SavedFilter, StudySession", "src/data/course_generator/transcription.rs: TranscriptionPassages"]}
{"id": "C89", "title": "Files that are not JSON are refused", "statement": "A manifest, filter, study session or preferences file is read if and only if its text is JSON in the sense of RFC 8259 (objects, arrays, strings with their escapes, numbers, true, false, null, white space between them and nothing after the value) that is nested less than 128 deep; what is read is the value the text stands for. Text that is not JSON, such as a trailing comma, a comment or a missing quote, is never read as some value.", "quantifier": "all texts and all values", "why_tests_cant": "It ranges over all texts.", "anchors": ["src/course_library.rs: LocalCourseLibrary::open_manifest", "src/filter_manager.rs: LocalFilterManager::new", "src/study_session_manager.rs: LocalStudySessionManager::new", "src/preferences_manager.rs: LocalPreferencesManager::get_user_preferences"]}
{"id": "C90", "title": "The library serves what the texts of its files say", "statement": "The manifests that an opened library serves are exactly those that the texts of the manifest files below its root stand for as JSON (and those that generators make from courses): every value is the one written, apart from relative asset paths, which are served as the absolute paths of the files they lead to from the directory of the manifest, through any '.' and '..'. A manifest whose text is not JSON for a manifest, or that mentions a file that is not there, is never skipped: opening fails, unless it lies in a directory that the preferences ignore. Saved filters and study sessions are exactly those that the files in their directories stand for; everything in these directories must be one, with its own id. The preferences, filters and sessions are those beside the courses.", "quantifier": "all files and directories of the machine, all texts, all working directories and roots, all orders in which directories are listed", "why_tests_cant": "It ranges over all trees of files and all texts in them.", "anchors": ["src/lib.rs: Trane::new_local", "src/course_library.rs: LocalCourseLibrary::new, process_course_manifest, open_manifest", "src/data.rs: NormalizePaths", "src/filter_manager.rs: LocalFilterManager::new", "src/study_session_manager.rs: LocalStudySessionManager::new"]}
{"id": "C91", "title": "Generated courses are what the texts in their directories say", "statement": "For a course whose manifest asks for a generator, an opened library serves exactly the lessons and exercises that the texts in the directory of the course call for, beside those with manifests of their own. Knowledge base: a lesson for every directory s.lesson, with the dependencies, weights, superseded units, name, description and metadata that its files hold, where a name of a lesson of the course means that lesson, and an exercise for every front file whose asset leads to the front and, if it is there, the back of the card. Literacy: a reading lesson, and a dictation lesson if asked for, for every directory, whose exercise asks exactly the examples and exceptions of its files, one per file or one per line. Music: a lesson per passage that tells its start and end. Transcription: a lesson per kind and instrument in the preferences, with an exercise per interval of every passage in the manifest or in a JSON file of the passage directory, whose text tells the track and the interval. Generating fails exactly when a file that matters cannot be read. Every path in a generated manifest leads to its file.", "quantifier": "all files and directories of the machine, all texts in them, all preferences, all orders in which directories are listed and hash maps are iterated", "why_tests_cant": "It ranges over all trees of files and all texts in them.", "anchors": ["src/data/course_generator/knowledge_base.rs: KnowledgeBaseConfig::generate_manifests", "src/data/course_generator/literacy.rs: LiteracyConfig::generate_manifests", "src/data/course_generator/music_piece.rs: MusicPieceConfig::generate_manifests", "src/data/course_generator/transcription.rs: TranscriptionConfig::generate_manifests", "src/course_library.rs: process_course_manifest"]}
{"id": "C92", "title": "From the texts of the files to a batch", "statement": "An object that opened the library on a machine and was then used in any way hands out only exercises that the texts of the files describe, by a manifest of their own or by the files of a generated course. With any filter but the review list neither such an exercise nor its lesson nor its course is blacklisted. Without a filter, unless the exercise is to be relearned, every dependency that the texts give its lesson is met by the scores the object answers. The batch has at most as many exercises as the text of the preferences asks for, 50 if it does not, and a tenth more. If only exercises of the library were graded, the request succeeds.", "quantifier": "all files and texts, all data stored before, all histories of calls after the opening, all requests and random choices", "why_tests_cant": "It ranges over all trees of files, all histories and all random choices.", "anchors": ["src/lib.rs: Trane::new_local, create_scheduler_options", "src/course_library.rs: LocalCourseLibrary::new", "src/scheduler.rs: get_exercise_batch", "src/data/course_generator/knowledge_base.rs: KnowledgeBaseConfig::generate_manifests"]}
{"id": "C93", "title": "The SQL of the stores keeps the logs and lists", "statement": "The statements that the stores send to SQLite do what the calls promise. A new database file opens. Every call succeeds unless the machine fails. Recording adds the entries to the logs of their units, trimming and removing by prefix cut exactly what they should, a failed batch adds nothing. Asking for n entries of a unit gives the newest n of its log, newest first. A unit never has more than twenty rewards. The blacklist and the review list list exactly the ids that were added and not removed, each once, and the blacklist answers a question about an id accordingly. None of it depends on the order in which the engine goes through rows.", "quantifier": "all histories of calls on the five stores, with failures and reopening anywhere, all entries, all orders in which the engine may scan rows, another one for every statement", "why_tests_cant": "It ranges over all histories and over the orders the engine may choose, of which a test sees one.", "anchors": ["src/practice_stats.rs: LocalPracticeStats", "src/practice_deltas.rs: LocalPracticeDeltas", "src/practice_rewards.rs: LocalPracticeRewards", "src/blacklist.rs: LocalBlacklist", "src/review_list.rs: LocalReviewList"]}
{"id": "C94", "title": "Databases of earlier releases open with all they hold", "statement": "A database file of the scores, deltas, rewards, blacklist or review list that was made by a release with any of the earlier numbers of migrations opens, whatever rows are in it. Afterwards it has the tables, columns and indexes of a new file and exactly its old rows, and every question gets the answer it got before. Calls go on from the logs as they were. Opening again changes nothing. A file of a later release is refused.", "quantifier": "all numbers of migrations, all contents of files, all histories of calls before and after the change of release", "why_tests_cant": "It ranges over all contents of old files and all histories before and after the change.", "anchors": ["src/practice_stats.rs: LocalPracticeStats::migrations, init", "src/practice_deltas.rs: LocalPracticeDeltas::migrations", "src/practice_rewards.rs: LocalPracticeRewards::migrations", "src/blacklist.rs: LocalBlacklist::migrations", "src/review_list.rs: LocalReviewList::migrations"]}
{"id": "C95", "title": "The benchmark reports what its simulated students did", "statement": "run_benchmark lets each simulated student practice with a Trane object of their own. A student practices session after session, exercises_per_session exercises in each, taking the exercises of the batches in order and asking for a new batch when one is used up; sessions are session_frequency days apart and the exercises of a session a second apart, and the object is told the time before every batch and before mastery is checked. A grade has the probability that the profile gives it at that trial of that exercise: the initial one at first, on the way to the stable one in equal steps, with lapses only after that. The simulation ends with the first session after which the advanced course and all other courses have a score of at least mastery_threshold, after max_sessions sessions, or when a batch is empty; days_to_mastery is the day of the last session in the first case and absent otherwise, sessions_run counts the finished sessions, exercises_practiced the grades. If the probabilities of the profile are not negative and verify accepts them, the simulation of a library that opens does not fail or panic, and all exercises practiced are in the files of the library and not blacklisted.", "quantifier": "all profiles, random numbers, settings, libraries and objects", "why_tests_cant": "The one test of run_benchmark runs random students on one small library and looks at signs of life only; which grades can be given, when sessions happen and what the reported numbers count depends on the profile, the random numbers and the object.", "anchors": ["src/benchmark.rs: run_benchmark, simulate_student, get_score, interpolate_performance, check_mastery, verify, verify_probs"]}
{"id": "C96", "title": "Scores, rewards and selection weights are the documented formulas", "statement": "The value of an exercise's score is the chance of recalling it times the average of its trials (plus a quarter of the average of its deltas if there are two or more), between 0 and 5. The chance of recall is a power law of the days since the last trial that is 9/10 after as many days as the stability; stability starts at 1 and every later trial multiplies it according to its grade, the difficulty at that time, the recall reached and the days since the trial before; difficulty starts from the share of failed trials and moves with every grade. Averages count entries 5% less per week of age (four fifths) and 5% less per place (one fifth), never less than a tenth. Old, well known exercises do not fall below a recall of 3/4. Urgency is the chance of having forgotten. Rewards lose half their value and weight every fourteen days and stop counting under a weight of 1/20. Right after a grade, the score that is answered for the exercise is this value for the newest trials (with the new grade) and deltas, plus the reward (three tenths of the course, seven tenths of the lesson, or all from the one that has rewards) if there are at least three trials and the reward does not go against the last three in the week after the last. The selection weight of a candidate is its urgency over the square root of a cost that is a product of powers of depth, encompassing, encompassed and frequency, with factors for dead ends and velocity.", "quantifier": "all lists of trials, deltas and rewards, all times and candidates", "why_tests_cant": "The constants and the shape of the formulas only show in concrete values; tests compare a few histories against ranges.", "anchors": ["src/exercise_scorer.rs: PowerLawScorer::score, compute_weighted_avg, compute_stability, compute_retrievability", "src/reward_scorer.rs: WeightedRewardScorer::weighted_average", "src/scheduler/filter.rs: candidate_cost, candidate_weight"]}
{"id": "C97", "title": "Libraries of built courses, test courses and random courses open with what they describe", "statement": "Courses that builders describe without clashes (different directories, files and units) can be built one after the other in a new directory. The library of the built courses opens exactly when the weights in the manifests are between 0 and 1 and dependencies, superseding and encompassing have no cycles, and then it has exactly the courses, lessons and exercises that the builders were given. Test courses with different numbers always build, and the opened library has their units under the ids that the numbers stand for; such an id is read back as the same numbers, and different numbers have different ids. A random library with ranges that are not empty is always generated, has numbers of courses, lessons and exercises within the ranges and dependencies on earlier courses and lessons only, and always builds and opens.", "quantifier": "all courses, all texts of manifests, all machines, all random numbers", "why_tests_cant": "It ranges over all sets of courses and all random numbers.", "anchors": ["src/course_builder.rs: CourseBuilder::build", "src/test_utils.rs: TestId, TestCourse::course_builder, TestLesson::lesson_builder, RandomCourseLibrary::generate_library, all_test_exercises, init_test_simulation", "src/course_library.rs: LocalCourseLibrary::new"]}
{"id": "C98", "title": "Simulations present exercises of the library and Trane stores their grades", "statement": "A simulation first blacklists the given units, then asks for batches and presents the exercises of each, last first, until the given number of exercises was presented or a batch is empty; it gives every presented exercise the grade that the answer closure chooses, if any, at the time of the clock, and records it. On a library that opens it succeeds. The exercises that are presented are in the files; unless the filter is the review list, neither they nor their lessons or courses are blacklisted. Trane stores exactly the grades that were given, and the comparison of the recorded grades with the stored scores succeeds.", "quantifier": "all libraries, histories before, answers, clocks, random choices and units to blacklist", "why_tests_cant": "It ranges over all libraries, answers and random choices.", "anchors": ["src/test_utils.rs: TraneSimulation::run_simulation, assert_simulation_scores"]}
{"id": "C99", "title": "A batch for a study session goes by the part of the moment, and a filter selects by what the files say", "statement": "A request with a study session is answered like a request with the filter of the part in force at the time of the computer's clock: the first part before the session starts, then the part whose interval contains the whole minutes since, and after the end the last. A part without filter asks for the whole library, a part with a saved filter for the one that a file in the directory of saved filters gives under its id; if there is none, the request fails and changes nothing. Every exercise of a batch for a filter is in the files and, unless it is being relearned, selected by the filter: its course or lesson is listed, its metadata pass, it or its lesson or course is on the review list, or its lesson is reached from the listed units or their dependencies.", "quantifier": "all libraries of files, saved filters, sessions shorter than 2^32 minutes, times, histories and random choices", "why_tests_cant": "It ranges over all contents of the library, all sessions and all moments.", "anchors": ["src/scheduler.rs: get_initial_candidates, get_exercise_batch", "src/scheduler/data.rs: get_session_filter", "src/data/filter.rs: StudySessionData::get_part", "src/filter_manager.rs: LocalFilterManager"]}
{"id": "C100", "title": "In machine arithmetic, too, the windows get their shares, and batches stay within their bounds", "statement": "With single-precision arithmetic as the code uses it: whatever the shares in the options are, infinities and NaN included, a batch consists of candidates, has no duplicates if no score is in two windows, and has an exercise of each window that a candidate is in. With shares between 5% and 50%, the adjusted shares stay between 5% and 50% (the current window's at least 5%), sum to 1 but for 2^-21 if the others leave the current window its 5%, and a better success rate never lowers the shares of the harder windows nor raises those of the easier ones. With up to 2^20 graded exercises the machine makes the same one of the four adjustments as exact arithmetic. With the default shares and a batch size from 10 to 2^20 a batch is not larger than configured, the default options pass the check of the sum, and each window gets as many exercises as exact arithmetic gives it, but for the current window at a success rate from 1/2 to below 3/4, which gets one fewer where three tenths of the batch are a whole number (14 of 50). The relearn pile is asked for at most the batch size, by default for a tenth of it.", "quantifier": "all shares, counts of passed and failed grades, batch sizes, candidates and random choices", "why_tests_cant": "rounding errors show up only at some sizes and rates; tests pick a few", "anchors": ["src/scheduler/filter.rs: adjusted_mastery_windows, filter_candidates", "src/scheduler/data.rs: get_success_rate", "src/data.rs: SchedulerOptions::verify, SchedulerOptions::default", "src/scheduler/relearn_pile.rs: select_exercises_helper"]}
{"id": "C101", "title": "A library that is moved or copied to another directory stays the same library", "statement": "A library opened with an absolute root, whose manifests mention files in it (or by absolute path), whose generated courses take their passages from inside it, and whose preferences ignore relative paths only: moved or copied to another directory it opens exactly if it did before, with the same units, dependencies, encompassed units and superseded units, the same metadata and texts, and each file that a manifest mentions is the one at the same place in the new directory. An object that opened it there and went through the same calls is in the same state, so that all batches, scores and errors are the same. A path out of the library leads elsewhere after the move, and an absolute ignored path ignores nothing.", "quantifier": "all trees of files, libraries, old and new places, generators, histories of calls and requests", "why_tests_cant": "places and histories are unbounded; tests open a library where they made it", "anchors": ["src/course_library.rs: LocalCourseLibrary::new", "src/data.rs: NormalizePaths", "src/data/course_generator: KnowledgeBaseConfig, LiteracyConfig, TranscriptionConfig", "src/lib.rs: Trane::new_local"]}
{"id": "C102", "title": "The benchmark's students work on exact copies and do not disturb each other or the library", "statement": "Each student gets a copy of the library in a directory of their own: every file is there with its contents, the practice data included, and nothing else. The copy is a moved library as in C101. However the five students' steps are interleaved, the original library does not change, and each student ends with the files they would have had if they had run alone. The benchmark succeeds exactly if all five simulations do, and reports the result of each; otherwise it reports the error or panic of the first profile that failed.", "quantifier": "all trees of files, walk orders, directories that are apart, interleavings and outcomes of the threads", "why_tests_cant": "schedules of threads cannot be enumerated by tests", "anchors": ["src/benchmark.rs: copy_library_dir, run_benchmark, simulate_student"]}
{"id": "C103", "title": "The order in which files are listed does not matter", "statement": "Whether a library opens, and what it then answers, does not depend on the order in which the operating system lists files and directories nor on the iteration order of hash maps: the same courses, lessons and exercises with the same manifests, the same sorted lists of ids, the same prefix matches, and the same parents, dependencies, weights, superseded units, starting lessons and sinks. Only the values of a metadata key of a transcription course, its artists and albums, can come in another order.", "quantifier": "all trees of files, working directories, preferences, generator configurations and pairs of orders of listing and of hash maps", "why_tests_cant": "a test sees the one order that its file system and hash seed give", "anchors": ["src/course_library.rs: open_course_library, process_course_manifest, process_lesson_manifest", "src/data/course_generator/knowledge_base.rs: generate_manifests", "src/data/course_generator/literacy.rs: generate_manifests", "src/data/course_generator/transcription.rs: open_passage_directory, generate_course_metadata"]}
{"id": "C104", "title": "Scores do not depend on the order in which files are listed", "statement": "For the same stored data, the scores of units, their numbers of trials and whether they are superseded are the same whatever the order in which the files were listed when the library was opened, computed without rounding. In f32 the average of n scores from 0 to 5 is within 3(n+3)/2^24 of the exact one, and so moves by at most 6(n+3)/2^24 with the order of its terms; it does move. The rewards given for a grade are the same too if no manifest lists encompassed units.", "quantifier": "all trees of files and pairs of listing orders, stored data, caches, units, grades; all lists of one to two million f32 scores and their permutations", "why_tests_cant": "a test sees the one order that its file system and hash seed give", "anchors": ["src/scheduler/unit_scorer.rs: get_unit_score, get_lesson_score, get_course_score, get_superseding_recursive", "src/scheduler/reward_propagator.rs: propagate_rewards", "src/course_library.rs: open_course_library", "src/graph.rs: get_lesson_exercises, get_course_lessons, get_superseded_by"]}
{"id": "C105", "title": "Whatever is locked waits for something on offer", "statement": "In a library whose units, taking courses together with their lessons, do not wait for themselves, as long as some course or lesson is not yet accessible there is a lesson that the student can practise now, that offers an exercise and whose mastery is still missing; a search of the whole library offers from it. So mastering what is offered opens everything, and a library never gets stuck. The layout conditions can be read off the manifests.", "quantifier": "all libraries, stored trials, scores, options, caches and states of practice", "why_tests_cant": "a test walks one library along one course of practice; that nothing is ever stranded is a claim about all layouts and all states of practice", "anchors": ["src/scheduler.rs: all_satisfied_dependencies, get_valid_dependents, get_candidates_from_graph, skip_lesson, skip_course", "src/graph.rs: check_cycles, update_starting_lessons, get_starting_lessons, get_dependency_sinks", "src/scheduler/unit_scorer.rs: get_lesson_score, get_course_score, get_superseding_recursive"]}
{"id": "C106", "title": "What can be practised is the same however the library was opened", "statement": "For the same stored data and preferences, an object that opened a library from its files, one that opened it with the files listed in another order, and one that reopened it from its serialized form give the student access to the same units, whatever the filter, and answer the same scores, numbers of trials and superseded units. Searches that stay below the limits on candidates and on lessons in progress take the same number of exercises from every lesson, and the same exercises from lessons of which all are due, whatever the random choices.", "quantifier": "all libraries, orders of listing, serialized forms, stored data, filters and random choices", "why_tests_cant": "a test compares two runs on one machine; the claim is about all layouts of the sets in memory and all shuffles", "anchors": ["src/scheduler.rs: get_initial_candidates, get_candidates_from_graph, get_candidates_from_lesson_helper", "src/course_library.rs: new, new_from_serialized, SerializedCourseLibrary", "src/lib.rs: new_local, new_local_from_serialized"]}
{"id": "C107", "title": "The same history of calls gives the same answers however the library was opened", "statement": "Two objects on the same data, one whose library was opened from its files and one that opened it with the files listed in another order or reopened it from its serialized form, receive the same calls: grades, changes to the databases, the blacklist, the review list, preferences and options, questions for scores, waiting, closing and opening again. Whatever the order in which rewards are listed and rows are numbered, each call returns the same on both, and afterwards they answer the same scores, numbers of trials, superseded units, stored grades, deltas and rewards, and offer the student the same units.", "quantifier": "all libraries, orders of listing, serialized forms, histories of calls of any length, orders of rewards and random choices", "why_tests_cant": "differences in the order of sets could add up over a history; a test runs one history on one layout", "anchors": ["src/lib.rs: Trane", "src/scheduler.rs: score_exercise, get_exercise_batch", "src/scheduler/unit_scorer.rs: UnitScorer, invalidate_cached_score", "src/scheduler/reward_propagator.rs: propagate_rewards", "src/practice_rewards.rs: record_unit_rewards, RewardCache"]}
{"id": "C108", "title": "Spaced practice builds memory, cramming does not", "statement": "However many trials are crammed into T days, and however good, the chance of recall afterwards is at most that of something of stability exp(33/8 T): trials at one moment leave the urgency of a single trial. A good review taken later never leaves an exercise more urgent. Seven perfect trials on different days keep the urgency at or below a tenth, and the score at or above 4.5, for two years; three failures on different days make the exercise urgent within half a day. Of two exercises tried once, from a day later on the skill is less urgent and scores at least as high as the fact.", "quantifier": "all histories of trials of any length, grades and times, both types of exercises, all moments of asking", "why_tests_cant": "histories are unbounded, and the claims compare pairs of histories; a test replays a few", "anchors": ["src/exercise_scorer.rs: compute_stability, apply_stability_transition, compute_spacing_gain, compute_retrievability, get_curve_decay, score"]}
{"id": "C109", "title": "The calendar does not matter", "statement": "Scores depend on how long ago things happened and on nothing else of the time. If the same calls are made to an object the same number of seconds later or earlier, with the clock and all timestamps moved by as much, every call succeeds or fails as before, every score, number of trials, urgency and velocity is answered the same, the same batches are handed out, and what is stored is the same but for the moved timestamps.", "quantifier": "all libraries, histories of calls of any length, distances in time, units and requests", "why_tests_cant": "a fixed date hidden in any of the computations would only show for some dates and some histories; tests run on a few", "anchors": ["src/lib.rs: Trane", "src/exercise_scorer.rs: score, compute_weighted_avg, velocity", "src/reward_scorer.rs: days_since, score_rewards, apply_reward", "src/scheduler.rs: score_exercise", "src/scheduler/unit_scorer.rs: get_exercise_score", "src/practice_rewards.rs: has_similar_reward", "src/practice_stats.rs: get_scores, trim_scores"]}
{"id": "C110", "title": "Practice pays", "statement": "Whatever a student did before, and whatever else is practised in between: if the exercises of a lesson are graded five more often than a score looks back, all within the last day and after everything stored about them, then each of them has a score of at least 4.5, the lesson has a score of at least 4.5 (or none, if it is blacklisted or superseded) and as many trials as a score looks back. With passing values below these, a unit that depends on lessons practised like this only is unlocked.", "quantifier": "all libraries, histories of calls of any length, sequences of grades in any interleaving, exercises and lessons, and requests", "why_tests_cant": "an old failure, a stale cached score, a negative delta or a bad reward might keep some student below the passing score for good; tests practise from a clean slate", "anchors": ["src/lib.rs: Trane", "src/scheduler.rs: score_exercise", "src/exercise_scorer.rs: score, compute_stability, compute_delta", "src/reward_scorer.rs: apply_reward", "src/scheduler/unit_scorer.rs: get_unit_score, get_lesson_num_trials, invalidate_cached_score", "src/practice_stats.rs: get_scores"]}
{"id": "C111", "title": "A student who always succeeds opens the whole library", "statement": "Take a library with the layout of C105 in which nothing is superseded, opened with whatever was stored before. In a session a student is given batches, asks for scores, and gets fives. If, whenever there is a lesson on offer and still to be learned, the exercises offered by one such lesson are next graded five more often than a score looks back, then after at most as many rounds as the library has lessons every lesson and course is unlocked: there is no library of this kind in which such a student gets stuck. More exactly, the rounds at which something is locked are no more than the lessons. In particular, when all exercises on offer in lessons to be learned are well known, nothing is locked.", "quantifier": "all libraries of this layout, stored data, sessions of any length with the calls in any order, rounds, and answers to requests", "why_tests_cant": "a student may get stuck in some library only after a particular order of lessons, or because a cached score is not renewed; the project simulates a few libraries with a student who answers five", "anchors": ["src/lib.rs: Trane", "src/scheduler.rs: get_candidates_from_graph, satisfied_dependency, score_exercise", "src/scheduler/unit_scorer.rs: get_unit_score, invalidate_cached_score", "src/exercise_scorer.rs: score", "tests/large_tests.rs: all_exercises_scheduled_random"]}
{"id": "C112", "title": "Trimming old history changes nothing", "statement": "Scores are computed from the last 20 grades of an exercise. A student who trims the stored grades, changes of scores and rewards to 20 entries or more, as often as wanted, in between any other calls, and even when a trimming is cut short, gets exactly what a student gets who makes the same other calls and never trims: the same scores, numbers of trials, superseded units and batches, the same last 20 grades of every exercise, the same blacklist, review list, rewards, preferences, options and study session, and every other call succeeds or fails alike. This needs that no exercise was graded twice with the same timestamp. Trimming to 19 can be noticed.", "quantifier": "all libraries, histories of calls of any length (gradings, changes to the databases, library edits, questions, waiting, reopening), trimmings inserted anywhere, units and requests", "why_tests_cant": "a trimming may remove a grade that some later score needs, only for some histories and orders of timestamps; a test trims once and lists what is left", "anchors": ["src/lib.rs: Trane, trim_scores, trim_deltas, trim_rewards", "src/practice_stats.rs: trim_scores_helper, get_scores_helper", "src/practice_deltas.rs: trim_deltas_helper", "src/practice_rewards.rs: trim_rewards_helper", "src/scheduler.rs: score_exercise", "src/scheduler/unit_scorer.rs: get_exercise_score", "src/data.rs: SchedulerOptions"]}
{"id": "C113", "title": "Separate subjects do not interfere", "statement": "When nothing connects a part of the library with the rest (no lesson or exercise on the other side of its course, no unit that encompasses or supersedes one of the other side; a dependency is no such connection as long as the library says itself what encompasses what), what a student does in the rest leaves that part alone: a student who leaves out all grades, stored scores, rewards, blacklisting, removals and questions about the other units, and gets other batches instead, finds for every unit of the part the same score, number of trials and superseded state, the same stored grades, changes and rewards and the same place on the blacklist, and every remaining call succeeds or fails alike. If one lesson of the rest encompasses one of the part, practising it does change scores of the part.", "quantifier": "all libraries, parts of them, histories of calls of any length with database errors, waiting, trimming, reopening and batches in between, and units of the part", "why_tests_cant": "caches, rewards and tables are shared by all units, so an invalidation, a propagation or a statement that reaches one unit too many shows only for particular combinations of histories on both sides; tests practise in one small library and compare nothing with the history left out", "anchors": ["src/lib.rs: Trane", "src/scheduler.rs: score_exercise", "src/scheduler/unit_scorer.rs: get_unit_score, invalidate_cached_score", "src/scheduler/reward_propagator.rs: propagate_rewards", "src/practice_stats.rs: record_exercise_scores_helper", "src/practice_rewards.rs: record_unit_rewards_helper", "src/blacklist.rs: LocalBlacklist", "src/graph.rs: get_encompasses"]}
{"id": "C114", "title": "A course can be started over", "statement": "Remove the stored scores, changes of score and rewards of the ids that start with a course's prefix and open the library again: if nothing connects the course with the rest of the library and its units' ids start with the prefix, every unit of it has from then on the score, number of trials, superseded state, stored grades, changes and rewards that it has for a student who never practised anything (and set the same blacklist, preferences and so on), whatever was practised in it before and whatever is practised in the rest afterwards. Opening the library again is needed: without it the old scores are still answered, and even after invalidating the cached scores a reward like one that was removed is not stored again.", "quantifier": "all libraries, parts with a common prefix, histories of calls of any length before and after, and units of the part", "why_tests_cant": "the leftovers would be in caches, in rewards stored under other ids or in the list of recent rewards, and only particular histories put something there; the project's tests remove rows from one table at a time and look at that table only", "anchors": ["src/lib.rs: Trane::new_local", "src/practice_stats.rs: remove_scores_with_prefix", "src/practice_deltas.rs: remove_deltas_with_prefix", "src/practice_rewards.rs: remove_rewards_with_prefix", "src/scheduler/unit_scorer.rs: get_unit_score, invalidate_cached_scores_with_prefix", "src/scheduler/reward_propagator.rs: propagate_rewards"]}
{"id": "C115", "title": "Scores depend on the grades and the blacklist in force, nothing else", "statement": "Open the library after any use of the object. Two ways to use it from then on that grade the same exercises with the same grades in the same order leave the same practice data, however the batches asked for, the scores asked for, invalidations of cached scores, the edits of the blacklist and the review list, the preferences and the options differ in between. If the blacklists agree in the end, every exercise, and every lesson or course that nothing supersedes, has the same score and number of trials. So blacklisting a unit and taking it off again leaves no trace, even if it was practised in between. For lessons and courses that are superseded this fails: whether somebody asked for their score before they were superseded decides whether they have one.", "quantifier": "all libraries, histories before opening, pairs of histories after it with the same gradings, of any length, and units", "why_tests_cant": "a trace of the other calls would be left in one of the caches or in rewards that depend on a cached score, and only particular orders of calls leave one; tests make one call after another on a fresh object", "anchors": ["src/scheduler/unit_scorer.rs: get_unit_score, invalidate_cached_score", "src/scheduler.rs: score_exercise", "src/lib.rs: add_to_blacklist, remove_from_blacklist", "src/blacklist.rs"]}
{"id": "C116", "title": "The blacklist stays right when several threads use it", "statement": "Any number of threads query, list and edit the blacklist at the same time, interleaved in any way between the steps their calls consist of (looking into the cache, writing to it, each statement on the database). Then every thread's calls take effect in its order, every answer is the one that results from making all the calls one after another in the order in which they returned, and whenever no call is under way the database holds exactly the ids this order leaves. The lock around a whole call is needed: with the locks inside the blacklist alone, a query that overlaps with an addition can leave the id answered as not blacklisted for good.", "quantifier": "all databases, numbers of threads, lists of calls of each, failures of the database, and schedules of any length", "why_tests_cant": "the wrong answer needs one thread to stop between two particular lines while another runs a whole call; tests of the blacklist use one thread", "anchors": ["src/blacklist.rs: has_entry, add_to_blacklist_helper, remove_from_blacklist_helper, remove_prefix_from_blacklist_helper, all_blacklist_entries_helper", "src/lib.rs: impl Blacklist for Trane"]}
{"id": "C117", "title": "Reading while another thread grades shows no half-stored grading", "statement": "One thread grades exercises while any others ask for stored scores, changes of score and rewards, interleaved in any way. Every answer is what the same call returns on an object after the first m gradings made alone, where all gradings finished before the call began are among the m and no grading begun after it returned is. At every moment the stores hold what the finished gradings leave, except that of the grading under way the change of score may be stored, or also the grade, or also the rewards, in this order. The three stores are not read at one moment: a thread can be told a change of score and afterwards scores without the grade that belongs to it.", "quantifier": "all objects, lists of calls of the threads, failures of the database, and schedules of any length", "why_tests_cant": "what is seen depends on where between the writes of one grading the reads fall; the project has no test with two threads", "anchors": ["src/scheduler.rs: score_exercise", "src/lib.rs: impl PracticeStats for Trane, impl PracticeDeltas for Trane, impl PracticeRewards for Trane", "src/practice_stats.rs: get_scores, record_exercise_scores", "src/practice_deltas.rs: get_deltas, record_exercise_deltas", "src/practice_rewards.rs: get_rewards, record_unit_rewards"]}
{"id": "C118", "title": "A crash in the middle of a call is no worse than a failing call", "statement": "The program crashes at any point of any call on the object: between the writes of a grading, or between the statements with which a trimming or a removal by prefix goes through the ids. The library is opened again and used further. Then everything is as in a history without a crash, in which the interrupted call was not made, or was made and returned, perhaps with an error of the database. So however often the program crashes, the object is one that a history without crashes leads to, and what holds after all histories with failures holds after crashes. Not counted are crashes inside the writing of the preferences file, which can lose the file (C76).", "quantifier": "all histories before the crash, calls, crash points, libraries found when opening again, histories afterwards, and numbers of crashes", "why_tests_cant": "a test would have to stop the program between two particular writes; the project's tests never interrupt a call", "anchors": ["src/scheduler.rs: score_exercise", "src/practice_stats.rs: record_exercise_scores, trim_scores, remove_scores_with_prefix", "src/practice_deltas.rs: record_exercise_deltas", "src/practice_rewards.rs: record_unit_rewards", "src/blacklist.rs: remove_prefix_from_blacklist_helper", "src/lib.rs: Trane::new_local"]}
{"id": "C119", "title": "Several objects on one library lose nothing", "statement": "The same library is opened several times, in one program or in several, and the objects are used by turns. Then no grade is lost: every object answers get_scores alike, and the grades in store are exactly those given through any of the objects, changed only by trimmings and removals. The review list and the preferences are those of all calls together, and no unit has more than 20 rewards. An object that is opened after the others changed the blacklist answers blacklisted right, and whichever object is opened again finds the same. Until it is opened again an object does not see what others did to the blacklist or which grades they gave when it answers from memory: it goes on handing out what another one blacklisted, an addition to the blacklist can return Ok and be lost, and scores are those computed before.", "quantifier": "all numbers of objects, all interleavings of calls on them with failures of the databases, all libraries, units, numbers of grades asked for", "why_tests_cant": "the project's tests open a library once; what matters is the interleaving of the calls of several objects", "anchors": ["src/lib.rs: Trane::new_local", "src/utils.rs: new_connection", "src/blacklist.rs: LocalBlacklist, has_entry, add_to_blacklist_helper", "src/practice_stats.rs: get_scores_helper, record_exercise_scores_helper", "src/practice_rewards.rs: record_unit_rewards_helper", "src/review_list.rs: LocalReviewList", "src/scheduler/unit_scorer.rs: get_unit_score"]}
{"id": "C120", "title": "The velocity computed is the slope of the grades", "statement": "An exercise has between two and twenty trials, the default limit of the scheduler, newest first, with grades from 1 to 5 and a minute or more between the newest and the oldest. Then the velocity in its score, computed in f32 with all its roundings and cancellations, is a number, neither NaN nor infinite nor the 0 that is reported for trials at the same time, and differs from the slope of the line that fits the grades best by at most 1/200 of a grade divided by the days between the newest and the oldest trial. So if the best line gains more than 1/200 of a grade from the oldest trial to the newest the velocity reported is positive, and if it loses as much it is negative.", "quantifier": "all histories of two to twenty trials with grades from 1 to 5 and any times, in order and a minute or more apart at the ends; all kinds of exercises, changes of score and times of asking", "why_tests_cant": "the error comes from cancellation in a difference of two sums of up to twenty products; tests look at a few histories with a tolerance chosen by hand", "anchors": ["src/exercise_scorer.rs: PowerLawScorer::velocity, PowerLawScorer::score", "src/data.rs: ExerciseScore, SchedulerOptions"]}
{"id": "C121", "title": "The score computed is recall times the documented average", "statement": "An exercise has at most twenty trials, the default limit of the scheduler, with grades from 1 to 5, and at most twenty changes of score, both newest first. Then the weighted performance computed in f32 differs from the documented weighted average by less than 1/10000. Whenever the score is asked for, the score computed is, up to 1/5000, a recall between 0 and 1 times the documented average of the grades, plus a quarter of it times the documented average of the changes if there are two or more, kept within 0 and 5. If no time has passed since the newest trial the recall is 1, so right after practising the score computed is the exact score up to 1/5000.", "quantifier": "all histories of up to twenty grades and changes with any times, all kinds of exercises and times of asking, and all implementations of powf that return one of the two f32 numbers next to the true power", "why_tests_cant": "the error builds up over powers, forty weighted terms and divisions; tests look at a few histories", "anchors": ["src/exercise_scorer.rs: PowerLawScorer::compute_weighted_avg, PowerLawScorer::compute_delta, PowerLawScorer::score"]}
{"id": "C122", "title": "Without failing grades, scores and urgencies computed are the documented ones at any time", "statement": "An exercise has at most twenty trials with grades from 3 to 5, and at most twenty changes of score, both newest first. Whenever the score is asked for, the score computed in f32 differs from the documented formula evaluated exactly by at most 1/1000, and the urgency by at most 1/8000. Excepted are only scores asked for fifty days or more after the newest of two or more trials when the average of the grades is within 1/10000 of 4, where the floor for good exercises sets in.", "quantifier": "all histories of up to twenty passing grades and twenty changes with any times, all kinds of exercises and times of asking, and all implementations of powf that return one of the two f32 numbers next to the true power", "why_tests_cant": "errors in the stability feed into later stabilities through powers, up to nineteen times; tests look at a few histories and only at rough values", "anchors": ["src/exercise_scorer.rs: PowerLawScorer::score, PowerLawScorer::compute_stability, PowerLawScorer::apply_stability_transition, PowerLawScorer::update_difficulty, PowerLawScorer::compute_retrievability, PowerLawScorer::compute_spacing_gain"]}
{"id": "C123", "title": "Rewards and final scores computed are the documented ones", "statement": "A lesson and its course have at most twenty rewards each, with values from -5 to 5 and weights from 0 to 1, none of which has decayed to within a millionth of the weight of 1/20 below which rewards are dropped. The reward computed in f32 then differs from the documented one by at most 1/25000. Whatever the score from the trials, the final score computed differs by at most 1/25000 from that score moved by the documented reward, if the documented rule says that the reward counts: the decisions about the last three grades and about the week since the last one are taken exactly as documented. With the grades and changes of C122, the final score differs from the documented formula by at most 1/900.", "quantifier": "all lists of up to twenty rewards with any values, weights and times, all histories of whole grades, all times of asking, and all implementations of powf that return one of the two f32 numbers next to the true power", "why_tests_cant": "the average is cut off at a threshold and the reward is added or not by three comparisons, where the smallest error can change the result by the whole reward; tests cannot come near all of these edges", "anchors": ["src/reward_scorer.rs: WeightedRewardScorer::score_rewards, WeightedRewardScorer::apply_reward, WeightedRewardScorer::weighted_average, WeightedRewardScorer::decayed_reward", "src/scheduler/unit_scorer.rs: UnitScorer::get_exercise_score"]}
{"id": "C124", "title": "Scores of lessons and courses computed are the averages of the documented scores", "statement": "A lesson has at most a thousand exercises, each never tried or as in C123. The score computed for it in f32 differs from the average of the documented scores of its exercises by at most 1/700; the score of a course with at most a thousand such lessons differs from the average of the documented scores of the lessons by at most 1/590. So a comparison with a limit, such as the passing score, gives the documented answer unless the documented score is that close to the limit. In general, the average of n numbers within a distance of numbers from 0 to 5 is off by that distance and (n+4)/2^22 at most.", "quantifier": "all lessons of up to a thousand exercises and courses of up to a thousand lessons, with any histories and rewards as in C123, all times of asking, all implementations of powf that return one of the two f32 numbers next to the true power", "why_tests_cant": "errors add up over a million exercises in an order that the hash map chooses; no test has such a course or knows the exact scores", "anchors": ["src/scheduler/unit_scorer.rs: UnitScorer::get_lesson_score, UnitScorer::get_course_score, UnitScorer::get_exercise_score"]}
{"id": "C125", "title": "Selection weights computed in f32 match the documented formula", "statement": "For every candidate with moderate measures, the selection weight computed in single precision, every rounding included, is a number within one part in 15000 of the documented weight: urgency over the square root of the cost, with the documented coefficients and bounds. A candidate whose documented weight is larger by one part in 7000 gets the larger weight, and the chance of each candidate in a weighted draw is within one part in 7000 of its documented chance.", "quantifier": "every candidate with depth, encompassing weights and frequency between 0 and 65536, urgency between 0 and 1, any score and any f32 velocity of at least -1/2 or none; every list of such candidates; every ln_1p and exp that return a neighbour of the exact value and a correctly rounded sqrt", "why_tests_cant": "Tests check the weights of a few candidates against each other; the error of a chain of logarithms, an exponential and a square root depends on all measures together", "anchors": ["src/scheduler/filter.rs::candidate_cost", "src/scheduler/filter.rs::candidate_weight"]}
{"id": "C126", "title": "The number of exercises taken from a lesson, computed in f32, follows the documented ramp", "statement": "For every passing score, least fraction, lesson score and number of exercises, the number of exercises that the scheduler takes from a lesson, computed in single precision, differs by at most one from the documented number: all of them at a score of 4 or more or below the passing score, and in between a part that grows linearly from the least fraction to all. It is never more than there are, never 0 with a positive least fraction, never falls when the score of a passing lesson rises, and is exactly half, and at least one, for a lesson at the default passing score.", "quantifier": "every f32 passing score from 0 to below 4 (all that verification accepts), every least fraction from 0 to 1, every f32 lesson score, every lesson with up to 65536 exercises (2^24 for all but the comparison with the documented number)", "why_tests_cant": "Tests count the exercises for a few scores and sizes; six roundings precede the cut to an integer and could lose or add exercises for some combination of the four numbers", "anchors": ["src/scheduler.rs::select_candidates", "src/data.rs::PassingScoreOptions"]}
{"id": "C127", "title": "Whether a unit has enough trials is decided correctly in f32", "statement": "A lesson passes the test on trials if and only if its exact average number of trials reaches the configured minimum, although the average and the minimum are rounded to single precision; with any other minimum, a lesson that reaches it passes, and one that passes falls short of it by at most its average over 2^24. The same is claimed of courses, whose average is the average of the averages of their lessons; the computed average is within a thousandth of the exact one.", "quantifier": "lessons: every list of up to 1000 trial counts and every minimum between 1 and 20 with two decimals; courses: every list of up to 1000 such lessons with up to 20 trials per exercise", "why_tests_cant": "Tests use averages that are exact in binary; whether a quotient and a decimal minimum are rounded to the same side depends on every pair of counts", "anchors": ["src/scheduler/unit_scorer.rs::get_lesson_num_trials", "src/scheduler/unit_scorer.rs::get_course_num_trials", "src/scheduler.rs::passes_threshold"]}
{"id": "C128", "title": "Windows with any whole percentages get their shares in f32", "statement": "With shares that are whole percentages, whatever they are, and after the adjustment to the success rate, each mastery window is given as many exercises as exact arithmetic gives it, or one fewer where its exact share of the batch is a whole number, and always at least one. So a batch is never larger than configured if the adjusted shares sum to the whole and each is worth an exercise. One fewer does occur: 21% of a batch of 300 gives 62 exercises.", "quantifier": "all options with whole percentages, all counts of up to 2^20 graded exercises, all batch sizes up to 4096, all candidates and random choices", "why_tests_cant": "Each percentage and batch size rounds differently; the tests use the default shares and one size", "anchors": ["src/scheduler/filter.rs::filter_candidates", "src/scheduler/filter.rs::adjusted_mastery_windows", "src/scheduler/data.rs::get_success_rate", "src/data.rs::MasteryWindow"]}
{"id": "C129", "title": "The final shuffle recognises groups of new exercises in f32", "statement": "The final shuffle favours the end of the batch for groups of one to three exercises whose mean score is at most 1. Although sum and mean are rounded, every group with an exact mean of at most 1 is treated so, and every group treated so has an exact mean of at most 1 + 2^-18. Some slack is needed: scores of 1 and 1 + 2^-23 are treated as new.", "quantifier": "all groups of one to three single-precision scores from 0 to 5", "why_tests_cant": "Each pair or triple of scores rounds differently", "anchors": ["src/scheduler/shuffler.rs::group_sort_key"]}
{"id": "C130", "title": "Propagated rewards in f32 match the documented products", "statement": "Along every path of encompassed or encompassing units the value of the propagated reward is the reward of the grade times the weights of the edges and nine tenths for each edge after the first, and its weight the product of the edges with eight tenths for each edge after the first, up to 2^-19, however long the path. The propagation along the path goes on while both are at least 0.2 in size and ends where one is below, unless one is within 2^-18 of 0.2.", "quantifier": "all grades, all paths of any length, all edge weights in single precision from 0 to 1", "why_tests_cant": "Rounding errors accumulate along paths; tests follow a few short ones", "anchors": ["src/scheduler/reward_propagator.rs::propagate_rewards_helper", "src/scheduler/reward_propagator.rs::stop_propagation", "src/scheduler/reward_propagator.rs::initial_reward"]}
{"id": "C131", "title": "Whether a lesson or course unlocks its dependents is decided in f32 as documented", "statement": "A lesson passes if and only if the average of the documented scores of its exercises reaches the minimum score and the exact average number of their trials reaches the minimum number of trials, unless the score is within 1/700 of the minimum. The same holds of courses with the averages of their lessons, unless the score is within 1/590 or the trials within 1/500 of the minimum. A unit without score or trials passes.", "quantifier": "all courses of up to 1000 lessons of up to 1000 exercises never tried or with up to 20 grades from 3 to 5, as in C123, all minimum scores, all minima of trials between 1 and 20 with two decimals", "why_tests_cant": "Scores and trials are averages of rounded values over arbitrary histories", "anchors": ["src/scheduler.rs::passes_threshold", "src/scheduler/unit_scorer.rs::get_lesson_score", "src/scheduler/unit_scorer.rs::get_lesson_num_trials"]}
