import Verif.Conc.Locks

/-!
# Which locks and cells the calls take

Each function of the code that takes a lock or borrows a cell is described by a program that says
only this: what is taken while what else is held, in which order.  Branches are left open (`alt`),
an early return is `alt skip …`, and loops run any number of times, so a program has at least the
behaviours of the code.  A guard lives until the end of the block or statement it was made in, as
in Rust (edition 2024).
-/

namespace Trane.Conc

/-- The functions that are called by name below. -/
inductive Fn
  | hasEntry | dataBlacklisted | insideBlacklisted | unitExists | passesFilter | validInLesson
  | allValid
  | exScore | exOther | allHaveScores | isSuperseded | replaceSuperseding | supersedingRec
  | lessonScore | courseScore | unitScore | lessonTrials | courseTrials | avgTrials
  | invalidate | invalidatePrefix
  | allStarting | validStarting | initialStack | lessonHelper | lastMatching | resolve
  | satisfiedEffective | satisfied | allSatisfied | validDependents | skipCourse | skipLesson
  | graphHelper | fromCourse | fromLesson | fromReviewList | fromOther
  | select | finishBatch | scoreExercise
  deriving DecidableEq, Repr

inductive Prog
  | skip
  | seq (p q : Prog)
  | alt (p q : Prog)
  | loop (p : Prog)
  | hold (r : Res) (m : Mode) (p : Prog)
  | call (f : Fn)
  deriving DecidableEq, Repr

namespace Prog

infixr:60 " ;; " => Prog.seq

/-- Take a lock and drop it in the same statement. -/
def touch (l : Lock) (m : Mode) : Prog := hold (.lock l) m skip

/-- Borrow a cell and end the borrow in the same statement. -/
def peek (c : Cell) (m : Mode) : Prog := hold (.cell c) m skip

/-- Perhaps `p`; before `p`, the function may return. -/
def opt (p : Prog) : Prog := alt skip p

/-- One of several branches. -/
def oneOf : List Prog → Prog
  | [] => skip
  | [p] => p
  | p :: ps => alt p (oneOf ps)

/-- `unit_graph.read()` for one query. -/
def gr : Prog := touch .graph .read
/-- `course_library.read()` for one query. -/
def lib : Prog := touch .library .read

end Prog

open Prog

/-- What each function takes. -/
def body : Fn → Prog
  /- /repo/src/blacklist.rs:92-102; `blacklisted` (191-193) only calls it. -/
  | .hasEntry => touch .blacklistCache .read ;; opt (touch .blacklistCache .write)
  /- /repo/src/scheduler/data.rs:131-134. -/
  | .dataBlacklisted => hold (.lock .blacklist) .read (call .hasEntry)
  /- /repo/src/scheduler/data.rs:137-151. -/
  | .insideBlacklisted => hold (.lock .blacklist) .read
      (call .hasEntry ;; opt (gr ;; call .hasEntry ;; gr ;; call .hasEntry))
  /- /repo/src/scheduler/data.rs:225-239. -/
  | .unitExists => gr ;; opt lib
  /- /repo/src/scheduler/data.rs:268-304. -/
  | .passesFilter => opt (gr ;; oneOf [skip, lib, gr ;; lib ;; opt lib])
  /- /repo/src/scheduler/data.rs:342-361. -/
  | .validInLesson => hold (.lock .blacklist) .read
      (call .hasEntry ;; opt (gr ;; call .hasEntry ;; opt (gr ;; loop (call .hasEntry))))
  /- /repo/src/scheduler/data.rs:365-399. -/
  | .allValid => gr ;; hold (.lock .blacklist) .read (oneOf
      [skip, call .hasEntry, call .validInLesson,
       call .hasEntry ;; opt (gr ;; loop (call .validInLesson))])
  /- /repo/src/scheduler/unit_scorer.rs:179-247; the stores lock their connection
  (/repo/src/practice_stats.rs:109, practice_deltas.rs:93, practice_rewards.rs:161). -/
  | .exScore => peek .exercise .read ;; opt (lib ;;
      hold (.lock .stats) .read (touch .statsConn .write) ;;
      hold (.lock .deltas) .read (touch .deltasConn .write) ;;
      opt (hold (.lock .graph) .read (hold (.lock .rewards) .read
        (touch .rewardsConn .write ;; touch .rewardsConn .write ;; peek .exercise .write))))
  /- /repo/src/scheduler/unit_scorer.rs:250-271, 274-295 and 298-318: urgency, velocity and number
  of trials. -/
  | .exOther => peek .exercise .read ;; opt (call .exScore ;; opt (peek .exercise .read))
  /- /repo/src/scheduler/unit_scorer.rs:321-336. -/
  | .allHaveScores => call .allValid ;; loop (call .exScore)
  /- /repo/src/scheduler/unit_scorer.rs:340-359. -/
  | .isSuperseded => opt (call .allHaveScores ;; opt (loop (call .unitScore)))
  /- /repo/src/scheduler/unit_scorer.rs:363-381. -/
  | .replaceSuperseding =>
      loop (gr ;; opt (call .isSuperseded ;; opt (call .replaceSuperseding)))
  /- /repo/src/scheduler/unit_scorer.rs:385-388. -/
  | .supersedingRec => gr ;; opt (call .replaceSuperseding)
  /- /repo/src/scheduler/unit_scorer.rs:391-453. -/
  | .lessonScore => peek .lesson .read ;; opt (hold (.lock .blacklist) .read (call .hasEntry ;;
      alt (peek .lesson .write) (call .supersedingRec ;; opt (call .isSuperseded) ;;
        alt (peek .lesson .write) (gr ;; opt (loop (call .hasEntry) ;; loop (call .exScore)) ;;
          opt (peek .lesson .write)))))
  /- /repo/src/scheduler/unit_scorer.rs:456-522. -/
  | .courseScore => peek .course .read ;; opt (call .dataBlacklisted ;;
      alt (peek .course .write) (call .supersedingRec ;; opt (call .isSuperseded) ;;
        alt (peek .course .write) (gr ;; loop (call .lessonScore) ;; opt (peek .course .write))))
  /- /repo/src/scheduler/unit_scorer.rs:527-540. -/
  | .unitScore => gr ;; oneOf [skip, call .courseScore, call .lessonScore, call .exScore]
  /- /repo/src/scheduler/unit_scorer.rs:543-580. -/
  | .lessonTrials => peek .lessonTrials .read ;; opt (hold (.lock .blacklist) .read
      (hold (.lock .graph) .read (loop (call .hasEntry)) ;;
        opt (loop (call .exOther) ;; peek .lessonTrials .write)))
  /- /repo/src/scheduler/unit_scorer.rs:583-627; the guard of the graph lives until the filter has
  been applied to all lessons. -/
  | .courseTrials => peek .courseTrials .read ;; opt (hold (.lock .blacklist) .read
      (hold (.lock .graph) .read
        (loop (call .supersedingRec ;; opt (call .isSuperseded) ;; call .hasEntry)) ;;
       loop (call .lessonTrials) ;; peek .courseTrials .write))
  /- /repo/src/scheduler/unit_scorer.rs:631-638. -/
  | .avgTrials => gr ;; oneOf [skip, call .courseTrials, call .lessonTrials]
  /- /repo/src/scheduler/unit_scorer.rs:101-154. -/
  | .invalidate => peek .exercise .write ;; peek .lesson .write ;; peek .course .write ;;
      peek .lessonTrials .write ;; peek .courseTrials .write ;;
      hold (.lock .graph) .read (hold (.cell .exercise) .write (oneOf
        [skip,
         opt (peek .lesson .write ;; peek .lessonTrials .write ;;
           opt (peek .course .write ;; peek .courseTrials .write)),
         opt (peek .course .write ;; peek .courseTrials .write),
         hold (.cell .lesson) .write (peek .lessonTrials .write)]))
  /- /repo/src/scheduler/unit_scorer.rs:158-176. -/
  | .invalidatePrefix => peek .exercise .write ;; peek .lesson .write ;; peek .course .write ;;
      peek .lessonTrials .write ;; peek .courseTrials .write
  /- /repo/src/scheduler.rs:219-252. -/
  | .allStarting => hold (.lock .graph) .read
      (loop (call .unitExists ;; opt gr) ;; loop (call .unitExists))
  /- /repo/src/scheduler.rs:256-275. -/
  | .validStarting => hold (.lock .graph) .read (loop (call .allSatisfied))
  /- /repo/src/scheduler.rs:280-310. -/
  | .initialStack => call .allStarting ;; loop (call .validStarting)
  /- /repo/src/scheduler.rs:349-389. -/
  | .lessonHelper => call .validInLesson ;; opt (gr ;; hold (.lock .frequency) .read
      (loop (call .unitScore ;; opt (call .exOther ;; opt (call .exOther)))))
  /- /repo/src/scheduler.rs:394-426. -/
  | .lastMatching => hold (.lock .graph) .read (loop (call .passesFilter))
  /- /repo/src/scheduler.rs:429-520. -/
  | .resolve => opt (call .passesFilter ;; opt (hold (.lock .graph) .read (gr ;; oneOf
      [skip, gr ;; loop (call .resolve), call .lastMatching ;; loop (call .resolve)])))
  /- /repo/src/scheduler.rs:538-571. -/
  | .satisfiedEffective => call .dataBlacklisted ;; opt (gr ;; call .dataBlacklisted ;;
      opt (call .supersedingRec ;; opt (call .isSuperseded) ;;
        opt (call .unitScore ;; call .avgTrials)))
  /- /repo/src/scheduler.rs:575-589. -/
  | .satisfied => call .resolve ;; loop (call .satisfiedEffective)
  /- /repo/src/scheduler.rs:592-605. -/
  | .allSatisfied => hold (.lock .graph) .read (loop (call .satisfied))
  /- /repo/src/scheduler.rs:609-619. -/
  | .validDependents => gr ;; loop (call .allSatisfied)
  /- /repo/src/scheduler.rs:623-655. -/
  | .skipCourse => call .dataBlacklisted ;; call .passesFilter ;; opt gr ;;
      call .supersedingRec ;; call .isSuperseded
  /- /repo/src/scheduler.rs:659-691. -/
  | .skipLesson => call .dataBlacklisted ;; call .passesFilter ;;
      call .supersedingRec ;; call .isSuperseded ;; gr ;;
      call .supersedingRec ;; call .isSuperseded
  /- /repo/src/scheduler.rs:726-880. -/
  | .graphHelper => loop (opt (gr ;; oneOf
      [skip,
       call .validStarting ;; call .skipCourse ;; opt (call .validDependents),
       gr ;; opt (opt (gr ;; opt gr) ;; call .validDependents ;; call .skipLesson ;;
         opt (call .lessonHelper ;; opt (call .avgTrials)))]))
  /- /repo/src/scheduler.rs:893-909. -/
  | .fromCourse => hold (.lock .graph) .read (call .graphHelper)
  /- /repo/src/scheduler.rs:912-918. -/
  | .fromLesson => call .lessonHelper
  /- /repo/src/scheduler.rs:922-965: the frequency map stays locked for reading while the lessons
  and courses of the review list are searched. -/
  | .fromReviewList => hold (.lock .reviewList) .read (touch .reviewConn .write) ;;
      opt (hold (.lock .frequency) .read (loop (gr ;; oneOf
        [skip, call .fromCourse, call .fromLesson,
         gr ;; gr ;; call .unitScore ;; opt (call .exOther ;; opt (call .exOther))])))
  /- /repo/src/scheduler.rs:968-1033 for all filters but the review list; a study session looks up
  a saved filter (/repo/src/scheduler/data.rs:317-338) and then proceeds with it. -/
  | .fromOther => opt (touch .filters .read) ;; oneOf
      [skip, call .initialStack ;; call .graphHelper, call .fromCourse, loop (call .fromLesson),
       call .graphHelper, loop gr ;; call .graphHelper]
  /- /repo/src/scheduler/relearn_pile.rs:61-67 and 45-58. -/
  | .select => hold (.lock .pile) .write (loop (call .insideBlacklisted)) ;; touch .pile .read
  /- /repo/src/scheduler.rs:1058-1094, what follows the initial candidates: knocking out
  (/repo/src/scheduler/review_knocker.rs:200), filtering (/repo/src/scheduler/filter.rs:262 and
  data.rs:412-420), relearning, manifests and frequencies (data.rs:309-313). -/
  | .finishBatch => gr ;; touch .trialCounts .read ;; call .select ;; loop lib ;;
      opt (loop (touch .frequency .write))
  /- /repo/src/scheduler.rs:1097-1160. -/
  | .scoreExercise => call .unitScore ;; call .exOther ;;
      opt (hold (.lock .deltas) .write (touch .deltasConn .write)) ;;
      opt (hold (.lock .stats) .write (touch .statsConn .write) ;;
        opt (call .invalidate ;; touch .pile .write ;; touch .trialCounts .write ;; gr ;;
          hold (.lock .rewards) .write (touch .rewardsConn .write) ;; loop (call .invalidate)))

/-- The calls of the interface, grouped when they take the same locks. -/
inductive Api
  -- `&self`
  | blacklisted | getBlacklistEntries | getManifest | getIds | getBatch | getBatchReviewList
  | scoreExercise | getUnitScore | invalidateCachedScore | invalidateCachedScores | getOptions
  | getFilter | getRewards | getDeltas | getScores | getPreferences | getReviewList
  | getStudySession | queryGraph
  -- `&mut self`
  | addToBlacklist | removeFromBlacklist | removePrefixFromBlacklist | changeRewards
  | changeDeltas | changeScores | setPreferences | changeReviewList | changeGraph | changeOptions
  deriving DecidableEq, Repr

/-- Whether the method takes `&self`.  Rust lets a method with `&mut self` run only when no other
method is running. -/
def Api.shared : Api → Bool
  | .addToBlacklist | .removeFromBlacklist | .removePrefixFromBlacklist | .changeRewards
  | .changeDeltas | .changeScores | .setPreferences | .changeReviewList | .changeGraph
  | .changeOptions => false
  | _ => true

/-- What each call takes, /repo/src/lib.rs:368-737. -/
def Api.prog : Api → Prog
  /- lib.rs:389-391. -/
  | .blacklisted => call .dataBlacklisted
  /- lib.rs:393-395, blacklist.rs:158-172. -/
  | .getBlacklistEntries => hold (.lock .blacklist) .read (touch .blacklistConn .write)
  /- lib.rs:400-416 and 430-436. -/
  | .getManifest => lib
  /- lib.rs:418-428, course_library.rs:544-602. -/
  | .getIds => hold (.lock .library) .read gr
  /- lib.rs:439-444, scheduler.rs:1049-1094. -/
  | .getBatch => call .fromOther ;; opt (call .finishBatch)
  | .getBatchReviewList =>
      opt (touch .filters .read) ;; call .fromReviewList ;; opt (call .finishBatch)
  | .scoreExercise => call .scoreExercise
  | .getUnitScore => call .unitScore
  | .invalidateCachedScore => call .invalidate
  | .invalidateCachedScores => call .invalidatePrefix
  | .getOptions => skip
  | .getFilter => touch .filters .read
  | .getRewards => hold (.lock .rewards) .read (touch .rewardsConn .write)
  | .getDeltas => hold (.lock .deltas) .read (touch .deltasConn .write)
  | .getScores => hold (.lock .stats) .read (touch .statsConn .write)
  | .getPreferences => touch .preferences .read
  | .getReviewList => hold (.lock .reviewList) .read (touch .reviewConn .write)
  | .getStudySession => touch .sessions .read
  | .queryGraph => gr
  /- lib.rs:371-375, blacklist.rs:105-119. -/
  | .addToBlacklist => call .invalidate ;; hold (.lock .blacklist) .write (call .hasEntry ;;
      opt (hold (.lock .blacklistConn) .write (opt (touch .blacklistCache .write))))
  /- lib.rs:377-381, blacklist.rs:122-131. -/
  | .removeFromBlacklist => call .invalidate ;; hold (.lock .blacklist) .write
      (hold (.lock .blacklistConn) .write (opt (touch .blacklistCache .write)))
  /- lib.rs:383-387, blacklist.rs:134-155. -/
  | .removePrefixFromBlacklist => call .invalidatePrefix ;; hold (.lock .blacklist) .write
      (hold (.lock .blacklistConn) .write (opt (touch .blacklistCache .write)))
  | .changeRewards => hold (.lock .rewards) .write (touch .rewardsConn .write)
  | .changeDeltas => hold (.lock .deltas) .write (touch .deltasConn .write)
  | .changeScores => hold (.lock .stats) .write (touch .statsConn .write)
  | .setPreferences => touch .preferences .write
  | .changeReviewList => hold (.lock .reviewList) .write (touch .reviewConn .write)
  | .changeGraph => touch .graph .write
  | .changeOptions => skip

/-- The sequences of actions a program can do. -/
inductive Trace : Prog → List Act → Prop
  | skip : Trace .skip []
  | seq {p q a b} : Trace p a → Trace q b → Trace (.seq p q) (a ++ b)
  | left {p q a} : Trace p a → Trace (.alt p q) a
  | right {p q a} : Trace q a → Trace (.alt p q) a
  | stop {p} : Trace (.loop p) []
  | again {p a b} : Trace p a → Trace (.loop p) b → Trace (.loop p) (a ++ b)
  | hold {r m p a} : Trace p a → Trace (.hold r m p) (.take r m :: a ++ [.drop r m])
  | call {f a} : Trace (body f) a → Trace (.call f) a

/-- The sequences of actions of a thread that does some calls one after the other. -/
inductive CallsTrace : List Api → List Act → Prop
  | nil : CallsTrace [] []
  | cons {c cs a b} : Trace c.prog a → CallsTrace cs b → CallsTrace (c :: cs) (a ++ b)

end Trane.Conc
