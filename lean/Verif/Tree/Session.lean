import Verif.Tree.Whole
import Verif.Tree.Saved
import Verif.Tree.WholeSample
import Verif.Data.FilterProps
import Verif.Sched.BatchProps

/-!
# C99: a batch for a study session goes by the part of the moment, and a filter selects by what the texts say
-/

namespace Trane.Tree
open Trane.Store (Str)
open Trane.Library
open Trane.TopLevel
open Trane.Filters (SessionPart UnitFilter PartAt total)
open Trane.Json (Generator UserPreferences)

variable {F : Type}

/-! ### Model -/

/-- `get_exercise_batch` with any filter, /repo/src/lib.rs:439-444 and /repo/src/scheduler.rs:1050-1095, for an object
whose filter manager holds `saved`.  The filter of a study session is looked up at the time of the clock
(/repo/src/scheduler.rs:1015-1022); if that fails, so does the call, before anything is changed
(/repo/src/scheduler.rs:1053).  The outer `none` is the panic of the overflow check in `get_part` or lack of fuel. -/
def batchFor (checked : Bool) (saved : AMap Str Json.SavedFilter) (t : TopLevel.Top ℚ) (q : Request)
    (f : Option (Batch.ExerciseFilter Str)) : Option (Batch.Session Str × Option (List Str)) :=
  match Batch.filterInForce checked (fun id => (Saved.get saved id).map (·.payload)) t.clock f with
  | none => none
  | some none => some (t.session, none)
  | some (some f) => t.batch { q with filter := f }

/-! ### Specification -/

/-- The part of a session in force at a moment: the first one before the start of the session, the one whose interval
contains the whole minutes since then, and the last one after the end. -/
inductive InForce (parts : List (SessionPart Str)) (start now : Int) : SessionPart Str → Prop
  | before {p rest} : now < start → parts = p :: rest → InForce parts start now p
  | during {p} {m : Nat} : start ≤ now → (now - start) / 60 = m → PartAt parts m p → InForce parts start now p
  | after {p init} : start ≤ now → (total parts : Int) ≤ (now - start) / 60 → parts = init ++ [p] →
      InForce parts start now p

/-- What a part asks for: nothing in particular, its own filter, or the one that a text in the directory of the saved
filters gives under its id. -/
inductive AsksFor (M : Machine F) : SessionPart Str → Option (UnitFilter Str) → Prop
  | all {d} : AsksFor M (.noFilter d) none
  | own {f d} : AsksFor M (.unitFilter f d) (some f)
  | saved {n x d} : SavedText M Json.decSavedFilter filtersDir n x → AsksFor M (.savedFilter x.id d) (some x.payload)

/-- A session that the clock has not outrun: every part takes time, and neither all of them nor the time since the
start takes 2³² minutes, some 8000 years. -/
structure Sensible (parts : List (SessionPart Str)) (start now : Int) : Prop where
  some : parts ≠ []
  lasts : ∀ p ∈ parts, 0 < p.duration
  short : total parts < 2 ^ 32
  recent : (now - start) / 60 < 2 ^ 32

/-- There is a way from one of the starting units to the unit, on which every unit depends on the one before or is a
lesson of it or its course. -/
inductive Onward (g : Graph Str) (init : Str → Prop) : Str → Prop
  | start {u} : init u → Onward g init u
  | dependent {u v} : Onward g init u → Graph.DependsOn g v u → Onward g init v
  | lesson {c l} : Onward g init c → Graph.CourseHasLesson g c l → Onward g init l
  | course {c l} : Onward g init l → Graph.CourseHasLesson g c l → Onward g init c

/-- `t` is found from `u` by going to a dependency `n` times, or fewer times if there is none to go to. -/
inductive Back (g : Graph Str) : Nat → Str → Str → Prop
  | here {u} : Back g 0 u u
  | none {n u} : (∀ d, ¬ Graph.DependsOn g u d) → Back g n u u
  | step {n u d t} : Graph.DependsOn g u d → Back g n d t → Back g (n + 1) u t

/-- The filter selects the exercise `e` of the lesson `l`.  Dependents and dependencies are where a search starts. -/
def Selects (lib : Lib Rest Generator) (t : TopLevel.Top ℚ) (l : LessonM Rest) (e : ExerciseM Rest) :
    UnitFilter Str → Prop
  | .courses ids => l.courseId ∈ ids
  | .lessons ids => l.id ∈ ids
  | .metadata kv => ∃ c, lib.getCourseManifest l.courseId = some c ∧
      kv.applyToLesson (c.metadata.getD []) (l.metadata.getD []) = true
  | .reviewList => ∃ u ∈ Store.ReviewList.entries t.review, u = e.id ∨ u = l.id ∨ u = l.courseId
  | .dependents ids => Onward lib.graph (· ∈ ids) l.id
  | .dependencies ids n => Onward lib.graph (fun t => ∃ u ∈ ids, Back lib.graph n u t) l.id

/-! ### Lemmas -/

theorem getPart_of {parts : List (SessionPart Str)} {start now : Int} (checked : Bool)
    (hs : Sensible parts start now) :
    ∃ p, Filters.getPart checked parts start now = some p ∧ InForce parts start now p ∧
      ∀ p', InForce parts start now p' → p' = p := by
  obtain ⟨h0, h1, h2, h3⟩ := hs
  obtain ⟨first, rest, rfl⟩ : ∃ a l, parts = a :: l := by
    cases parts with
    | nil => exact absurd rfl h0
    | cons a l => exact ⟨a, l, rfl⟩
  have hmin : start ≤ now → (now - start).tdiv 60 = (now - start) / 60 := fun h =>
    Int.tdiv_eq_ediv_of_nonneg (by omega)
  by_cases hb : now < start
  · have hc := Filters.session_part_partial checked first rest start now h2 (by
      have : (now - start).tdiv 60 ≤ 0 := by
        have := Int.tdiv_nonneg (a := -(now - start)) (b := 60) (by omega) (by omega)
        rw [Int.neg_tdiv] at this; omega
      omega)
    refine ⟨first, hc.1 hb (h1 _ (by simp)), .before hb rfl, ?_⟩
    intro p' hp'
    cases hp' with
    | before _ e => cases e; rfl
    | during h _ _ => omega
    | after h _ _ => omega
  · have hb : start ≤ now := by omega
    have hc := Filters.session_part_partial checked first rest start now h2 (by rw [hmin hb]; exact h3)
    obtain ⟨m, hm⟩ : ∃ m : Nat, (now - start) / 60 = m :=
      ⟨((now - start) / 60).toNat, by rw [Int.toNat_of_nonneg (Int.ediv_nonneg (by omega) (by omega))]⟩
    by_cases hlt : m < total (first :: rest)
    · obtain ⟨p, e, hp⟩ := hc.2.1 m ((hmin hb).trans hm) hlt
      refine ⟨p, e, .during hb hm hp, ?_⟩
      intro p' hp'
      cases hp' with
      | before h _ => omega
      | @during m' _ h e =>
        have : m' = m := by omega
        subst this
        exact Filters.partAt_unique _ _ _ _ e hp
      | after _ h _ => omega
    · have e := hc.2.2 m ((hmin hb).trans hm) (by omega)
      obtain ⟨init, p, hl⟩ : ∃ init p, first :: rest = init ++ [p] :=
        ⟨(first :: rest).dropLast, (first :: rest).getLast (by simp), (List.dropLast_append_getLast _).symm⟩
      refine ⟨p, by rw [e, hl]; simp, .after hb (by omega) hl, ?_⟩
      intro p' hp'
      cases hp' with
      | before h _ => omega
      | @during m' _ h e' =>
        obtain ⟨a, b, hab, _, hlt'⟩ := e'
        rw [hab] at hlt
        simp [total] at hlt hlt'
        omega
      | @after init' _ _ hl' =>
        rw [hl] at hl'
        have := congrArg List.getLast? hl'
        simpa using this.symm

theorem sessionFilter_iff {M : Machine F} {saved : AMap Str Json.SavedFilter} (h : M.savedFilters = some saved)
    (p : SessionPart Str) (f : Option (UnitFilter Str)) :
    Filters.sessionFilter (fun id => (Saved.get saved id).map (·.payload)) p = some f ↔ AsksFor M p f := by
  cases p with
  | noFilter d =>
    constructor
    · intro e
      cases e
      exact .all
    · intro e
      cases e
      rfl
  | unitFilter g d =>
    constructor
    · intro e
      cases e
      exact .own
    · intro e
      cases e
      rfl
  | savedFilter id d =>
    have hg := saved_texts_get M Json.decSavedFilter filtersDir saved h id
    constructor
    · intro e
      simp only [Filters.sessionFilter, Option.map_map, Option.map_eq_some_iff, Function.comp] at e
      obtain ⟨x, hx, rfl⟩ := e
      obtain ⟨⟨n, hn⟩, rfl⟩ := (hg x).1 hx
      exact .saved hn
    · intro e
      cases e with
      | saved hn =>
        rw [Filters.sessionFilter, (hg _).2 ⟨⟨_, hn⟩, rfl⟩]
        rfl

theorem Onward.mono {g : Graph Str} {P Q : Str → Prop} (h : ∀ u, P u → Q u) {u : Str} (hu : Onward g P u) :
    Onward g Q u := by
  induction hu with
  | start h' => exact .start (h _ h')
  | dependent _ h' ih => exact .dependent ih h'
  | lesson _ h' ih => exact .lesson ih h'
  | course _ h' ih => exact .course ih h'

theorem back_of_atDepth {e : Search.Env Str} {n : Nat} {u v : Str} (h : Search.AtDepth e n u v) :
    Back e.graph n u v := by
  induction h with
  | here => exact .here
  | leaf h => exact .none h
  | step h _ ih => exact .step h ih

theorem onward_of_reached {e : Search.Env Str} (he : Search.Sane e) {mf : Option Filters.KVFilter}
    {sc : Search.Scope Str} {init : Str → Prop} {u : Str} (h : Search.Reached e mf sc init u) :
    Onward e.graph init u := by
  induction h with
  | init h => exact .start h
  | start _ _ _ h _ ih => exact .lesson ih (he.wf.startingSub _ _ h)
  | past _ _ _ _ h _ ih => exact .dependent ih h
  | pastCourse _ _ _ _ h _ ih => exact .dependent ih h
  | allLessons _ _ h _ ih =>
    obtain ⟨l, hl⟩ := h
    exact .course (ih l hl) hl
  | pastFinished _ _ _ _ h _ ih _ => exact .dependent ih h

/-- With a filter that stands for a search, every exercise of the batch is in a lesson that the search gets to, or it is
being relearned. -/
theorem batch_reached {e : Search.Env Str} (he : Search.Sane e) {options : SchedulerOptions} {ch : Batch.Choices Str}
    (hch : Batch.IsChoices ch) {fuel : Nat} {entries : List Str} {s s' : Batch.Session Str} {xs : List Str}
    {f : Option (UnitFilter Str)} (h : Batch.getBatch e options ch fuel entries s f = some (s', some xs)) {mf sc init}
    (hs : Search.SearchOf e f = some (mf, sc, init)) :
    ∀ x ∈ xs, (∃ l, Graph.LessonHasExercise e.graph l x ∧ Search.Reached e mf sc init l) ∨ x ∈ s.pile := by
  obtain ⟨cs, main, sampled, hcs, hsh, -, -⟩ := Batch.getBatch_ok hch h
  intro x hx
  rcases Batch.shape_mem hsh hx with ⟨c, hc, rfl⟩ | hx
  · obtain ⟨h1, -⟩ := Search.candidates_reached he hch.rnds hcs hs c hc
    have hf : f ≠ some .reviewList := by
      rintro rfl
      cases hs
    obtain ⟨-, -, -, h5, -⟩ := Search.candidates_not_blacklisted he hch.rnds hcs hf c hc
    exact Or.inl ⟨c.lesson, (he.wf.exercise _ _).2 h5, h1⟩
  · exact Or.inr ((Batch.mem_cleanPile he).1 hx).1

/-! ### Theorems -/

section
variable {M : Machine F} {X : Outside} {prefs : UserPreferences} {lib : Lib Rest Generator} {b : Base ℚ}
  {h : List (Call ℚ)} {t : TopLevel.Top ℚ} {q : Request} {saved : AMap Str Json.SavedFilter}
  {parts : List (SessionPart Str)} {start : Int}

/-- **C99.**  At every moment exactly one part of a session is in force. -/
theorem session_part_unique (hs : Sensible parts start t.clock) : ∃! p, InForce parts start t.clock p := by
  obtain ⟨p, _, h1, h2⟩ := getPart_of true hs
  exact ⟨p, h1, h2⟩

/-- **C99.**  A batch for a session is the batch for what the part in force asks for. -/
theorem session_batch (hf : M.savedFilters = some saved) (checked : Bool) (hs : Sensible parts start t.clock)
    {p : SessionPart Str} (hp : InForce parts start t.clock p) {f : Option (UnitFilter Str)} (ha : AsksFor M p f) :
    batchFor checked saved t q (some (.session parts start)) = t.batch { q with filter := f } := by
  obtain ⟨p', h1, _, h2⟩ := getPart_of checked hs
  cases h2 p hp
  simp only [batchFor, Batch.filterInForce, h1, Option.map_some, (sessionFilter_iff hf _ _).2 ha]

/-- **C99.**  If the part in force names a filter that no text gives, the request fails and changes nothing. -/
theorem session_batch_missing (hf : M.savedFilters = some saved) (checked : Bool) (hs : Sensible parts start t.clock)
    {p : SessionPart Str} (hp : InForce parts start t.clock p) (ha : ∀ f, ¬ AsksFor M p f) :
    batchFor checked saved t q (some (.session parts start)) = some (t.session, none) := by
  obtain ⟨p', h1, _, h2⟩ := getPart_of checked hs
  cases h2 p hp
  have : Filters.sessionFilter (fun id => (Saved.get saved id).map (·.payload)) p = none := by
    rw [Option.eq_none_iff_forall_ne_some]
    exact fun f e => ha f ((sessionFilter_iff hf _ _).1 e)
  simp only [batchFor, Batch.filterInForce, h1, Option.map_some, this]

/-- **C99.**  A session without parts, no filter and a filter of units are what they are at any time. -/
theorem plain_batch (checked : Bool) (f : UnitFilter Str) :
    batchFor checked saved t q (some (.session [] start)) = t.batch { q with filter := none } ∧
    batchFor checked saved t q none = t.batch { q with filter := none } ∧
    batchFor checked saved t q (some (.unit f)) = t.batch { q with filter := some f } := ⟨rfl, rfl, rfl⟩

/-- **C99.**  Every exercise of a batch for a filter is one that the filter selects, by what the texts say of it and of
its lesson and course, or it is being relearned. -/
theorem filtered_from_texts (hr : RunningOn M X prefs lib b h t) (hq : Serves lib b t q) (he : NoEmptyId lib t)
    (hch : Batch.IsChoices q.choices) {f : UnitFilter Str} (hf : q.filter = some f) {s : Batch.Session Str}
    {xs : List Str} (hb : t.batch q = some (s, some xs)) :
    ∀ x ∈ xs, ∃ l e, InTexts M X prefs l e ∧ e.id = x ∧ l.id = e.lessonId ∧ l.courseId = e.courseId ∧
      (Selects lib t l e f ∨ x ∈ t.session.pile) := by
  intro x hx
  have hsane := running_sane hr.running hq he
  obtain ⟨e, _, ho⟩ := whole_batch_known hr.running hq he hch hb x hx
  obtain ⟨l, h1, h2, h3, h4⟩ := in_texts hr ho.exercise
  have ho' : OnDisk (M.real X).disk (prefs.ignoredPaths.map components) x e l :=
    ⟨ho.exercise, ho.id, (((library_manifests (real_proper M X) hr.loads _).2.1 l).1 h2).1, h3, h4⟩
  refine ⟨l, e, h1, ho.id, h3, h4, ?_⟩
  have hg : (t.env q).graph = lib.graph := hr.running.graph
  obtain ⟨k1, k2, -⟩ := onDisk_lookup hr.running ho'
  have hlesson : ∀ l', Graph.LessonHasExercise (t.env q).graph l' x → l' = l.id := by
    intro l' hl'
    have := (hsane.wf.exercise _ _).1 hl'
    rw [hg, k1] at this
    cases this
    exact h3.symm
  have hcourse : ∀ k, Graph.CourseHasLesson (t.env q).graph k l.id → k = l.courseId := by
    intro k hk
    have := (hsane.wf.lesson _ _).1 hk
    rw [hg, h3, k2] at this
    cases this
    exact h4.symm
  unfold TopLevel.Top.batch at hb
  rw [hf] at hb
  cases f with
  | courses ids =>
    rcases Batch.batch_course_scope hsane hch hb x hx with ⟨l', g1, k, g2, g3⟩ | g
    · cases hlesson _ g1
      cases hcourse _ g3
      exact .inl g2
    · exact .inr g
  | lessons ids =>
    rcases Batch.batch_lesson_scope hsane hch hb x hx with ⟨l', g2, g1⟩ | g
    · cases hlesson _ g1
      exact .inl g2
    · exact .inr g
  | metadata kv =>
    rcases Batch.batch_metadata_scope hsane hch hb x hx with ⟨l', k, cm, lm, g1, g2, g3, g4, g5⟩ | g
    · cases hlesson _ g1
      cases hcourse _ g2
      left
      have g3 : q.env.courseMeta l.courseId = some cm := g3
      have g4 : q.env.lessonMeta l.id = some lm := g4
      rw [hq.course, Option.map_eq_some_iff] at g3
      rw [hq.lesson, h2] at g4
      obtain ⟨c, g6, rfl⟩ := g3
      cases g4
      exact ⟨c, g6, g5⟩
    · exact .inr g
  | reviewList =>
    rcases Batch.batch_review_scope hsane hch hb x hx with g | ⟨l', g1, g⟩ | g
    · exact .inl ⟨x, g, .inl ho.id.symm⟩
    · cases hlesson _ g1
      rcases g with g | ⟨k, g2, g3⟩
      · exact .inl ⟨_, g, .inr (.inl rfl)⟩
      · cases hcourse _ g3
        exact .inl ⟨_, g2, .inr (.inr rfl)⟩
    · exact .inr g
  | dependents ids =>
    rcases batch_reached hsane hch hb rfl x hx with ⟨l', g1, g2⟩ | g
    · cases hlesson _ g1
      have g3 := onward_of_reached hsane g2
      rw [hg] at g3
      exact .inl g3
    · exact .inr g
  | dependencies ids n =>
    rcases batch_reached hsane hch hb rfl x hx with ⟨l', g1, g2⟩ | g
    · cases hlesson _ g1
      have g3 : Onward (t.env q).graph (fun t' => ∃ u ∈ ids, Back (t.env q).graph n u t') l.id := by
        refine (onward_of_reached hsane g2).mono ?_
        rintro u ⟨v, hv, hd, -⟩
        exact ⟨v, hv, back_of_atDepth hd⟩
      rw [hg] at g3
      exact .inl g3
    · exact .inr g

/-- **C99.**  Every exercise of a batch for a session is in the texts, and selected by the filter that the part in force
asks for, if it asks for one, or being relearned. -/
theorem session_from_texts (hr : RunningOn M X prefs lib b h t) (hq : Serves lib b t q) (he : NoEmptyId lib t)
    (hch : Batch.IsChoices q.choices) (hf : M.savedFilters = some saved) (checked : Bool)
    (hs : Sensible parts start t.clock) {p : SessionPart Str} (hp : InForce parts start t.clock p)
    {s : Batch.Session Str} {xs : List Str}
    (hb : batchFor checked saved t q (some (.session parts start)) = some (s, some xs)) :
    ∃ f, AsksFor M p f ∧ ∀ x ∈ xs, ∃ l e, InTexts M X prefs l e ∧ e.id = x ∧ l.id = e.lessonId ∧
      l.courseId = e.courseId ∧ (x ∉ t.session.pile → ∀ g, f = some g → Selects lib t l e g) := by
  by_cases ha : ∃ f, AsksFor M p f
  · obtain ⟨f, ha⟩ := ha
    rw [session_batch hf checked hs hp ha] at hb
    have hq' : Serves lib b t { q with filter := f } :=
      ⟨⟨hq.reads.score, hq.reads.known, hq.reads.trials, hq.reads.superseded⟩, hq.urgency, hq.course, hq.lesson,
        hq.exercise, hq.dflt⟩
    refine ⟨f, ha, fun x hx => ?_⟩
    cases f with
    | none =>
      obtain ⟨l, e, h1, h2, h3, h4, -⟩ := batch_from_texts hr hq' he hch hb x hx
      exact ⟨l, e, h1, h2, h3, h4, fun _ g hg => by cases hg⟩
    | some g =>
      obtain ⟨l, e, h1, h2, h3, h4, h5⟩ := filtered_from_texts hr hq' he hch rfl hb x hx
      refine ⟨l, e, h1, h2, h3, h4, fun hx g' hg => ?_⟩
      cases hg
      exact h5.resolve_right hx
  · rw [session_batch_missing hf checked hs hp (fun f h' => ha ⟨f, h'⟩)] at hb
    cases hb

/-- **C99, there is one.**  If what was graded since the opening are exercises that are served and, for the review list,
the listed units are served, the request for a session whose part in force asks for something succeeds. -/
theorem session_succeeds_from_texts (hr : RunningOn M X prefs lib b h t) (hq : Serves lib b t q)
    (he : NoEmptyId lib t) (hch : Batch.IsChoices q.choices) (hf : M.savedFilters = some saved) (checked : Bool)
    (hs : Sensible parts start t.clock) {p : SessionPart Str} (hp : InForce parts start t.clock p)
    {f : Option (UnitFilter Str)} (ha : AsksFor M p f)
    (hgr : ∀ x ∈ gradedIds h, ∃ m, lib.getExerciseManifest x = some m)
    (hrev : f = some .reviewList → ∀ u ∈ Store.ReviewList.entries t.review, Graph.Known lib.graph u) :
    ∃ N s xs, ∀ fuel ≥ N,
      batchFor checked saved t { q with fuel := fuel } (some (.session parts start)) = some (s, some xs) := by
  have hq' : Serves lib b t { q with filter := f } :=
    ⟨⟨hq.reads.score, hq.reads.known, hq.reads.trials, hq.reads.superseded⟩, hq.urgency, hq.course, hq.lesson,
      hq.exercise, hq.dflt⟩
  obtain ⟨N, s, xs, hx⟩ := batch_succeeds_from_texts hr hq' he hch hgr hrev
  refine ⟨N, s, xs, fun fuel hn => ?_⟩
  rw [session_batch hf checked hs hp ha]
  exact hx fuel hn

end

/-! ### Non-trivial cases -/

/-- A saved filter, the whole library, and a filter that does not exist; five minutes each. -/
def threeParts : List (SessionPart Str) :=
  [.savedFilter "f".toList 5, .noFilter 5, .savedFilter "g".toList 5]

theorem threeParts_sensible {start now : Int} (h : (now - start) / 60 < 2 ^ 32) : Sensible threeParts start now where
  some := by simp [threeParts]
  lasts := by simp [threeParts, SessionPart.duration]
  short := by decide +kernel
  recent := h

/-- The parts of the session follow each other; the first asks for the saved filter, the last for nothing there is. -/
example : InForce threeParts 600 0 (.savedFilter "f".toList 5) ∧
    InForce threeParts 600 (600 + 299) (.savedFilter "f".toList 5) ∧
    InForce threeParts 600 (600 + 300) (.noFilter 5) ∧
    InForce threeParts 600 (600 + 9000) (.savedFilter "g".toList 5) ∧
    AsksFor savedMachine (.savedFilter "f".toList 5) (some (.courses ["c".toList])) ∧
    ∀ f, ¬ AsksFor savedMachine (.savedFilter "g".toList 5) f := by
  have hsv : ∃ m, savedMachine.savedFilters = some m ∧
      (Saved.get m "f".toList).map (·.id) = some "f".toList ∧
      (Saved.get m "g".toList).isNone = true := by
    have h1 : (savedMachine.savedFilters.map (fun m =>
        ((Saved.get m "f".toList).map (·.id), (Saved.get m "g".toList).isNone))) =
        some (some "f".toList, true) := by decide +kernel
    obtain ⟨m, hm, he⟩ := Option.map_eq_some_iff.1 h1
    exact ⟨m, hm, congrArg Prod.fst he, congrArg Prod.snd he⟩
  obtain ⟨m, hm, hid, hno⟩ := hsv
  refine ⟨.before (by decide) rfl, .during (m := 4) (by decide) (by decide) ⟨[], _, rfl, by decide +kernel, by decide +kernel⟩,
    .during (m := 5) (by decide) (by decide) ⟨[_], _, rfl, by decide +kernel, by decide +kernel⟩,
    .after (by decide) (by decide +kernel) (init := [.savedFilter "f".toList 5, .noFilter 5]) rfl, ?_, ?_⟩
  · rw [← sessionFilter_iff hm]
    have h2 : savedMachine.savedFilters.map (fun m => match
        Filters.sessionFilter (fun id => (Saved.get m id).map (·.payload)) (.savedFilter "f".toList 5) with
        | some (some (.courses ids)) => some ids
        | _ => none) = some (some ["c".toList]) := by decide +kernel
    rw [hm] at h2
    simp only [Option.map_some, Option.some.injEq] at h2
    split at h2
    · rename_i hh
      cases h2
      exact hh
    · cases h2
  · intro f hf
    rw [← sessionFilter_iff hm] at hf
    rw [Option.isNone_iff_eq_none] at hno
    rw [Filters.sessionFilter, hno] at hf
    cases hf

/-- On the library of the knowledge base a session with a course filter gets a batch that succeeds. -/
example : ∃ q s xs saved, Batch.IsChoices q.choices ∧ Serves cardsLib chainBase cardsTop q ∧
    cards.savedFilters = some saved ∧ Sensible [.unitFilter (.courses ["k".toList]) 5] 0 cardsTop.clock ∧
    InForce [.unitFilter (.courses ["k".toList]) 5] 0 cardsTop.clock (.unitFilter (.courses ["k".toList]) 5) ∧
    batchFor true saved cardsTop q (some (.session [.unitFilter (.courses ["k".toList]) 5] 0)) = some (s, some xs) := by
  obtain ⟨env, -, hs⟩ := serves_exists cards_running.running cards_acyclic { sampleRequest with filter := none }
  obtain ⟨saved, hsv⟩ : ∃ m, cards.savedFilters = some m :=
    Option.isSome_iff_exists.1 (by decide +kernel)
  have hse : Sensible [.unitFilter (.courses ["k".toList]) 5] 0 cardsTop.clock :=
    ⟨by simp, by simp [SessionPart.duration], by decide +kernel, by decide +kernel⟩
  have hp : InForce [.unitFilter (.courses ["k".toList]) 5] 0 cardsTop.clock (.unitFilter (.courses ["k".toList]) 5) :=
    .during (m := 1) (by decide +kernel) (by decide +kernel) ⟨[], [], rfl, by decide +kernel, by decide +kernel⟩
  have hgr : ∀ x ∈ gradedIds cardsCalls, ∃ m, cardsLib.getExerciseManifest x = some m := by
    intro x hx
    have h2 : ∀ x ∈ gradedIds cardsCalls, cardsGraph.getUnitType x = some .exercise := by decide +kernel
    rw [← Option.isSome_iff_exists, ← (library_types cards_running.running.proper cards_running.running.loads x).2.2]
    exact cards_graph ▸ h2 x hx
  obtain ⟨N, s, xs, hx⟩ := session_succeeds_from_texts cards_running hs cards_no_empty
    (Batch.firstOf_ok TopLevel.strOrder) hsv true hse hp .own hgr (by intro h; cases h)
  exact ⟨{ sampleRequest with filter := none, env := env, fuel := N }, s, xs, saved, Batch.firstOf_ok TopLevel.strOrder,
    ⟨⟨hs.reads.score, hs.reads.known, hs.reads.trials, hs.reads.superseded⟩, hs.urgency, hs.course, hs.lesson,
      hs.exercise, hs.dflt⟩, hsv, hse, hp, hx N (le_refl N)⟩

end Trane.Tree
