import Verif.Conc.Spec
import Mathlib.Data.List.Basic
import Mathlib.Tactic.Common

/-! # Helper lemmas: discipline of traces -/

namespace Trane.Conc

abbrev Held := List (Res × Mode)

/-- What is held after some actions. -/
def after : Held → List Act → Held
  | h, [] => h
  | h, .take r m :: a => after ((r, m) :: h) a
  | h, .drop r m :: a => after (h.erase (r, m)) a

/-- Whenever something is taken, `ok` holds of what is held then. -/
def Disc (ok : Held → Res → Mode → Prop) : Held → List Act → Prop
  | _, [] => True
  | h, .take r m :: a => ok h r m ∧ Disc ok ((r, m) :: h) a
  | h, .drop r m :: a => Disc ok (h.erase (r, m)) a

theorem after_append (a b : List Act) : ∀ h, after h (a ++ b) = after (after h a) b := by
  induction a with
  | nil => intro h; rfl
  | cons x a ih => intro h; cases x <;> simp [after, ih]

theorem disc_append (ok : Held → Res → Mode → Prop) (a b : List Act) :
    ∀ h, Disc ok h (a ++ b) ↔ Disc ok h a ∧ Disc ok (after h a) b := by
  induction a with
  | nil => intro h; simp [Disc, after]
  | cons x a ih => intro h; cases x <;> simp [Disc, after, ih, and_assoc]

theorem disc_mono {ok ok' : Held → Res → Mode → Prop} (hk : ∀ h r m, ok h r m → ok' h r m)
    (a : List Act) : ∀ h, Disc ok h a → Disc ok' h a := by
  induction a with
  | nil => intro h _; trivial
  | cons x a ih =>
    intro h hd
    cases x with
    | take r m => exact ⟨hk _ _ _ hd.1, ih _ hd.2⟩
    | drop r m => exact ih _ hd

/-- Checks a program, given what may be held when a function is called (`H`), which functions may
be called (`used`), and what may be held now. -/
def check (ok : Held → Res → Mode → Bool) (H : Fn → Held) (used : Fn → Bool) (ctx : Held) :
    Prog → Bool
  | .skip => true
  | .seq p q => check ok H used ctx p && check ok H used ctx q
  | .alt p q => check ok H used ctx p && check ok H used ctx q
  | .loop p => check ok H used ctx p
  | .hold r m p => ok ctx r m && check ok H used ((r, m) :: ctx) p
  | .call f => used f && ctx.all (fun x => (H f).contains x)

/-- All functions. -/
def allFns : List Fn :=
  [.hasEntry, .dataBlacklisted, .insideBlacklisted, .unitExists, .passesFilter, .validInLesson,
   .allValid, .exScore, .exOther, .allHaveScores, .isSuperseded, .replaceSuperseding,
   .supersedingRec, .lessonScore, .courseScore, .unitScore, .lessonTrials, .courseTrials,
   .avgTrials, .invalidate, .invalidatePrefix, .allStarting, .validStarting, .initialStack,
   .lessonHelper, .lastMatching, .resolve, .satisfiedEffective, .satisfied, .allSatisfied,
   .validDependents, .skipCourse, .skipLesson, .graphHelper, .fromCourse, .fromLesson,
   .fromReviewList, .fromOther, .select, .finishBatch, .scoreExercise]

theorem mem_allFns (f : Fn) : f ∈ allFns := by cases f <;> decide

/-- Every function in use passes the check. -/
def checkAll (ok : Held → Res → Mode → Bool) (H : Fn → Held) (used : Fn → Bool) : Bool :=
  allFns.all (fun f => !used f || check ok H used (H f) (body f))

theorem check_sound {ok : Held → Res → Mode → Bool} {H : Fn → Held} {used : Fn → Bool}
    (hmono : ∀ h h' r m, h ⊆ h' → ok h' r m = true → ok h r m = true)
    (hall : checkAll ok H used = true) {p : Prog} {a : List Act} (ht : Trace p a) :
    ∀ ctx h : Held, h ⊆ ctx → check ok H used ctx p = true →
      Disc (fun h r m => ok h r m = true) h a ∧ after h a = h := by
  induction ht with
  | skip => intro ctx h _ _; exact ⟨trivial, rfl⟩
  | stop => intro ctx h _ _; exact ⟨trivial, rfl⟩
  | @seq p q a b _ _ iha ihb =>
    intro ctx h hs hc
    simp only [check, Bool.and_eq_true] at hc
    obtain ⟨d1, e1⟩ := iha ctx h hs hc.1
    obtain ⟨d2, e2⟩ := ihb ctx h hs hc.2
    exact ⟨(disc_append _ _ _ _).2 ⟨d1, by rw [e1]; exact d2⟩, by rw [after_append, e1, e2]⟩
  | @left p q a _ ih =>
    intro ctx h hs hc
    simp only [check, Bool.and_eq_true] at hc
    exact ih ctx h hs hc.1
  | @right p q a _ ih =>
    intro ctx h hs hc
    simp only [check, Bool.and_eq_true] at hc
    exact ih ctx h hs hc.2
  | @again p a b _ _ iha ihb =>
    intro ctx h hs hc
    obtain ⟨d1, e1⟩ := iha ctx h hs hc
    obtain ⟨d2, e2⟩ := ihb ctx h hs hc
    exact ⟨(disc_append _ _ _ _).2 ⟨d1, by rw [e1]; exact d2⟩, by rw [after_append, e1, e2]⟩
  | @hold r m p a _ ih =>
    intro ctx h hs hc
    simp only [check, Bool.and_eq_true] at hc
    obtain ⟨d, e⟩ := ih ((r, m) :: ctx) ((r, m) :: h) (List.cons_subset_cons _ hs) hc.2
    rw [List.cons_append]
    refine ⟨⟨hmono _ _ _ _ hs hc.1, ?_⟩, ?_⟩
    · exact (disc_append _ _ _ _).2 ⟨d, by trivial⟩
    · show after ((r, m) :: h) (a ++ [.drop r m]) = h
      rw [after_append, e]
      simp [after]
  | @call f a _ ih =>
    intro ctx h hs hc
    simp only [check, Bool.and_eq_true, List.all_eq_true, List.contains_iff_mem] at hc
    have hf := List.all_eq_true.1 hall f (mem_allFns f)
    rw [hc.1] at hf
    exact ih (H f) h (fun x hx => hc.2 x (hs hx)) (by simpa using hf)

/-- The same for a sequence of calls. -/
theorem calls_sound {ok : Held → Res → Mode → Bool} {H : Fn → Held} {used : Fn → Bool}
    (hmono : ∀ h h' r m, h ⊆ h' → ok h' r m = true → ok h r m = true)
    (hall : checkAll ok H used = true) {cs : List Api} {a : List Act} (ht : CallsTrace cs a)
    (hcs : ∀ c ∈ cs, check ok H used [] c.prog = true) :
    Disc (fun h r m => ok h r m = true) [] a ∧ after [] a = [] := by
  induction ht with
  | nil => exact ⟨trivial, rfl⟩
  | @cons c cs a b hc _ ih =>
    obtain ⟨d1, e1⟩ := check_sound hmono hall hc [] [] (fun _ h => h)
      (hcs c (List.mem_cons_self ..))
    obtain ⟨d2, e2⟩ := ih (fun c' h' => hcs c' (List.mem_cons_of_mem _ h'))
    exact ⟨(disc_append _ _ _ _).2 ⟨d1, by rw [e1]; exact d2⟩, by rw [after_append, e1, e2]⟩

end Trane.Conc
