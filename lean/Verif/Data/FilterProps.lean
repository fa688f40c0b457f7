import Verif.Data.Filter
import Mathlib.Tactic.Tauto

/-! # C44 and C45: metadata filters and study sessions -/

namespace Trane.Filters
open Trane.Store (Str)

/-! ### Specification of filters -/

/-- The unit's metadata contains the pair. -/
def Has (m : Metadata) (key value : Str) : Prop := ∃ vs, AMap.find m key = some vs ∧ value ∈ vs

/-- A lesson with metadata `lm` in a course with metadata `cm` satisfies a filter: the meaning of the
filter as a boolean formula. -/
inductive Satisfies (cm lm : Metadata) : KVFilter → Prop
  | courseIncl {k v} : Has cm k v → Satisfies cm lm (.course k v .incl)
  | courseExcl {k v} : ¬ Has cm k v → Satisfies cm lm (.course k v .excl)
  | lessonIncl {k v} : Has lm k v → Satisfies cm lm (.lesson k v .incl)
  | lessonExcl {k v} : ¬ Has lm k v → Satisfies cm lm (.lesson k v .excl)
  | all {fs} : (∀ f ∈ fs, Satisfies cm lm f) → Satisfies cm lm (.combined .all fs)
  | any {f fs} : f ∈ fs → Satisfies cm lm f → Satisfies cm lm (.combined .any fs)

/-! ### Proofs -/

theorem passesFilter_incl (m : Metadata) (k v : Str) :
    passesFilter m k v .incl = true ↔ Has m k v := by
  unfold passesFilter Has
  cases AMap.find m k <;> simp

theorem passesFilter_excl (m : Metadata) (k v : Str) :
    passesFilter m k v .excl = true ↔ ¬ Has m k v := by
  rw [← passesFilter_incl]
  simp [passesFilter]

theorem satisfies_course_incl {cm lm k v} : Satisfies cm lm (.course k v .incl) ↔ Has cm k v :=
  ⟨fun h => by cases h; assumption, .courseIncl⟩
theorem satisfies_course_excl {cm lm k v} : Satisfies cm lm (.course k v .excl) ↔ ¬ Has cm k v :=
  ⟨fun h => by cases h; assumption, .courseExcl⟩
theorem satisfies_lesson_incl {cm lm k v} : Satisfies cm lm (.lesson k v .incl) ↔ Has lm k v :=
  ⟨fun h => by cases h; assumption, .lessonIncl⟩
theorem satisfies_lesson_excl {cm lm k v} : Satisfies cm lm (.lesson k v .excl) ↔ ¬ Has lm k v :=
  ⟨fun h => by cases h; assumption, .lessonExcl⟩
theorem satisfies_all {cm lm fs} :
    Satisfies cm lm (.combined .all fs) ↔ ∀ f ∈ fs, Satisfies cm lm f :=
  ⟨fun h => by cases h; assumption, .all⟩
theorem satisfies_any {cm lm fs} :
    Satisfies cm lm (.combined .any fs) ↔ ∃ f ∈ fs, Satisfies cm lm f :=
  ⟨fun h => by cases h with | any h1 h2 => exact ⟨_, h1, h2⟩, fun ⟨_, h1, h2⟩ => .any h1 h2⟩

mutual
theorem lesson_iff (cm lm : Metadata) : ∀ f : KVFilter,
    f.applyToLesson cm lm = true ↔ Satisfies cm lm f
  | .course k v .incl => by
    rw [KVFilter.applyToLesson, passesFilter_incl, satisfies_course_incl]
  | .course k v .excl => by
    rw [KVFilter.applyToLesson, passesFilter_excl, satisfies_course_excl]
  | .lesson k v .incl => by
    rw [KVFilter.applyToLesson, passesFilter_incl, satisfies_lesson_incl]
  | .lesson k v .excl => by
    rw [KVFilter.applyToLesson, passesFilter_excl, satisfies_lesson_excl]
  | .combined .all fs => by
    rw [KVFilter.applyToLesson, satisfies_all, allLesson_iff cm lm fs]
  | .combined .any fs => by
    rw [KVFilter.applyToLesson, satisfies_any, anyLesson_iff cm lm fs]
theorem allLesson_iff (cm lm : Metadata) : ∀ fs : List KVFilter,
    allLesson cm lm fs = true ↔ ∀ f ∈ fs, Satisfies cm lm f
  | [] => by simp [allLesson]
  | f :: fs => by
    rw [allLesson, Bool.and_eq_true, lesson_iff cm lm f, allLesson_iff cm lm fs]; simp
theorem anyLesson_iff (cm lm : Metadata) : ∀ fs : List KVFilter,
    anyLesson cm lm fs = true ↔ ∃ f ∈ fs, Satisfies cm lm f
  | [] => by simp [anyLesson]
  | f :: fs => by
    rw [anyLesson, Bool.or_eq_true, lesson_iff cm lm f, anyLesson_iff cm lm fs]; simp
end

/-- C44: evaluating a filter on a lesson computes the boolean formula, for every filter tree. -/
theorem filter_lesson_exact (f : KVFilter) (cm lm : Metadata) :
    f.applyToLesson cm lm = true ↔ Satisfies cm lm f := lesson_iff cm lm f

mutual
theorem course_sound (cm lm : Metadata) : ∀ f : KVFilter,
    f.applyToCourse cm = true → Satisfies cm lm f
  | .course k v .incl => by
    rw [KVFilter.applyToCourse, passesFilter_incl, satisfies_course_incl]; exact id
  | .course k v .excl => by
    rw [KVFilter.applyToCourse, passesFilter_excl, satisfies_course_excl]; exact id
  | .lesson k v t => by rw [KVFilter.applyToCourse]; intro h; cases h
  | .combined op fs => by
    have a1 := allCourse_sound cm lm true fs
    have a2 := allCourse_sound cm lm false fs
    have b1 := anyCourse_sound cm lm true fs
    intro h
    cases op with
    | all =>
      rw [KVFilter.applyToCourse] at h
      rw [satisfies_all]
      by_cases hc : fs.all KVFilter.isCourse = true
      · rw [if_pos hc] at h
        intro f hf
        exact a1 h f hf (by rw [List.all_eq_true] at hc; exact hc f hf)
      · rw [if_neg hc, Bool.and_eq_true] at h
        intro f hf
        cases hic : f.isCourse with
        | true => exact a1 h.1 f hf hic
        | false => exact a2 h.2 f hf hic
    | any =>
      rw [KVFilter.applyToCourse] at h
      rw [satisfies_any]
      by_cases hc : fs.all KVFilter.isCourse = true
      · rw [if_pos hc] at h; exact b1 h
      · rw [if_neg hc] at h; cases h
theorem allCourse_sound (cm lm : Metadata) (pick : Bool) : ∀ fs : List KVFilter,
    allCourse cm pick fs = true → ∀ f ∈ fs, f.isCourse = pick → Satisfies cm lm f
  | [] => by simp
  | f :: fs => by
    rw [allCourse, Bool.and_eq_true]
    rintro ⟨h1, h2⟩ g hg hp
    rcases List.mem_cons.1 hg with e | hg
    · rw [e] at hp ⊢
      rw [if_pos (by simp [hp])] at h1
      exact course_sound cm lm f h1
    · exact allCourse_sound cm lm pick fs h2 g hg hp
theorem anyCourse_sound (cm lm : Metadata) (pick : Bool) : ∀ fs : List KVFilter,
    anyCourse cm pick fs = true → ∃ f ∈ fs, Satisfies cm lm f
  | [] => by simp [anyCourse]
  | f :: fs => by
    rw [anyCourse, Bool.or_eq_true]
    rintro (h | h)
    · split at h
      · exact ⟨f, by simp, course_sound cm lm f h⟩
      · cases h
    · obtain ⟨g, hg, hs⟩ := anyCourse_sound cm lm pick fs h
      exact ⟨g, by simp [hg], hs⟩
end

/-- C44: a course is accepted as a whole only if every lesson of it is accepted, whatever the lesson's
metadata: the course-level decision never lets a lesson through that the filter excludes. -/
theorem filter_course_sound (f : KVFilter) (cm : Metadata) (h : f.applyToCourse cm = true)
    (lm : Metadata) : f.applyToLesson cm lm = true :=
  (filter_lesson_exact f cm lm).2 (course_sound cm lm f h)

/-- C44: the basic filters on a course. -/
theorem filter_course_basic (cm : Metadata) (k v : Str) (t : FilterType) :
    ((KVFilter.course k v .incl).applyToCourse cm = true ↔ Has cm k v) ∧
    ((KVFilter.course k v .excl).applyToCourse cm = true ↔ ¬ Has cm k v) ∧
    (KVFilter.lesson k v t).applyToCourse cm = false := by
  simp only [KVFilter.applyToCourse, passesFilter_incl, passesFilter_excl, and_self]

/-- C44: when a combined filter has only course filters, the course-level decision is the formula
itself, so a rejected course has no accepted lesson. -/
theorem filter_course_exact (op : FilterOp) (fs : List KVFilter)
    (hfs : ∀ f ∈ fs, f.isCourse = true) (cm lm : Metadata) :
    (KVFilter.combined op fs).applyToCourse cm = (KVFilter.combined op fs).applyToLesson cm lm := by
  have hall : fs.all KVFilter.isCourse = true := by rw [List.all_eq_true]; exact hfs
  have one : ∀ f : KVFilter, f.isCourse = true → f.applyToCourse cm = f.applyToLesson cm lm := by
    intro f hf
    cases f with
    | course k v t => rw [KVFilter.applyToCourse, KVFilter.applyToLesson]
    | lesson => cases hf
    | combined => cases hf
  have h1 : allCourse cm true fs = allLesson cm lm fs := by
    clear hall
    induction fs with
    | nil => simp [allCourse, allLesson]
    | cons f fs ih =>
      have hf := hfs f (by simp)
      rw [allCourse, allLesson, ih (fun g hg => hfs g (by simp [hg])), if_pos (by simp [hf]), one f hf]
  have h2 : anyCourse cm true fs = anyLesson cm lm fs := by
    clear hall h1
    induction fs with
    | nil => simp [anyCourse, anyLesson]
    | cons f fs ih =>
      have hf := hfs f (by simp)
      rw [anyCourse, anyLesson, ih (fun g hg => hfs g (by simp [hg])), if_pos (by simp [hf]), one f hf]
  cases op with
  | all => rw [KVFilter.applyToCourse, KVFilter.applyToLesson]; rw [if_pos hall, h1]
  | any => rw [KVFilter.applyToCourse, KVFilter.applyToLesson]; rw [if_pos hall, h2]

/-- A nested filter, a course and two lessons: one accepted, one not. -/
def exampleFilter : KVFilter :=
  .combined .all [.course "k".toList "piano".toList .incl,
    .combined .any [.lesson "key".toList "C".toList .incl, .lesson "key".toList "G".toList .incl],
    .lesson "level".toList "hard".toList .excl]

example : exampleFilter.applyToLesson [("k".toList, ["piano".toList])] [("key".toList, ["G".toList])]
      = true ∧
    exampleFilter.applyToLesson [("k".toList, ["piano".toList])]
      [("key".toList, ["G".toList]), ("level".toList, ["hard".toList])] = false ∧
    exampleFilter.applyToLesson [] [("key".toList, ["G".toList])] = false ∧
    exampleFilter.applyToCourse [("k".toList, ["piano".toList])] = false ∧
    (KVFilter.combined .any [.course "k".toList "x".toList .incl,
      .course "k".toList "piano".toList .incl]).applyToCourse [("k".toList, ["piano".toList])] =
      true := by decide +kernel

/-! ### Study sessions -/

/-- Total length in minutes of a list of parts. -/
def total {ι : Type} (ps : List (SessionPart ι)) : Nat := (ps.map SessionPart.duration).sum

/-- The part of the session whose interval contains the minute `m`: the parts before it take at most
`m` minutes and with it more than `m`. -/
def PartAt {ι : Type} (parts : List (SessionPart ι)) (m : Nat) (p : SessionPart ι) : Prop :=
  ∃ before after, parts = before ++ p :: after ∧ total before ≤ m ∧ m < total before + p.duration

theorem partAt_unique {ι : Type} (parts : List (SessionPart ι)) (m : Nat) (p q : SessionPart ι)
    (hp : PartAt parts m p) (hq : PartAt parts m q) : p = q := by
  obtain ⟨b1, a1, h1, l1, u1⟩ := hp
  obtain ⟨b2, a2, h2, l2, u2⟩ := hq
  rw [h1] at h2
  rcases List.append_eq_append_iff.1 h2 with ⟨c, hc1, hc2⟩ | ⟨c, hc1, hc2⟩
  · cases c with
    | nil => simp at hc2; exact hc2.1
    | cons x c =>
      simp only [List.cons_append, List.cons.injEq] at hc2
      obtain ⟨rfl, _⟩ := hc2
      rw [hc1] at l2
      simp [total] at l2 u1
      omega
  · cases c with
    | nil => simp at hc2; exact hc2.1.symm
    | cons x c =>
      simp only [List.cons_append, List.cons.injEq] at hc2
      obtain ⟨rfl, _⟩ := hc2
      rw [hc1] at l1
      simp [total] at l1 u2
      omega

theorem findPart_spec {ι : Type} (checked : Bool) (m : Nat) (last : SessionPart ι)
    (ps : List (SessionPart ι)) : ∀ len, len ≤ m → len + total ps < u32Size →
    (m < len + total ps → ∃ p before after, findPart checked m last len ps = some p ∧
      ps = before ++ p :: after ∧ len + total before ≤ m ∧ m < len + total before + p.duration) ∧
    (len + total ps ≤ m → findPart checked m last len ps = some last) := by
  induction ps with
  | nil => intro len hl hb; simp [findPart, total]; omega
  | cons p ps ih =>
    intro len hl hb
    have ht : total (p :: ps) = p.duration + total ps := by simp [total]
    rw [ht] at hb ⊢
    have hnc : ¬ (checked && decide (u32Size ≤ len + p.duration)) = true := by
      simp only [Bool.and_eq_true, decide_eq_true_eq]; omega
    have hmod : (len + p.duration) % u32Size = len + p.duration := Nat.mod_eq_of_lt (by omega)
    simp only [findPart]
    rw [if_neg hnc]
    simp only [hmod]
    by_cases hm : m < len + p.duration
    · rw [if_pos hm]
      refine ⟨fun _ => ⟨p, [], ps, rfl, rfl, by simp [total]; omega, by simp [total]; omega⟩,
        fun h => by omega⟩
    · rw [if_neg hm]
      obtain ⟨i1, i2⟩ := ih (len + p.duration) (by omega) (by omega)
      refine ⟨fun h => ?_, fun h => i2 (by omega)⟩
      obtain ⟨q, b, a, e1, e2, e3, e4⟩ := i1 (by omega)
      refine ⟨q, p :: b, a, e1, by rw [e2]; rfl, ?_, ?_⟩
      · have : total (p :: b) = p.duration + total b := by simp [total]
        omega
      · have : total (p :: b) = p.duration + total b := by simp [total]
        omega

/-- C45, full statement, for builds with and without overflow checks: before the start the first part
is returned, within the session the part whose interval contains the elapsed minutes, and after the
end the last part. -/
def SessionPartCorrect {ι : Type} (checked : Bool) (first : SessionPart ι)
    (rest : List (SessionPart ι)) (start time : Int) : Prop :=
  let parts := first :: rest
  let minutes := (time - start).tdiv 60
  (time < start → 0 < first.duration → getPart checked parts start time = some first) ∧
  (∀ m : Nat, minutes = m → m < total parts →
    ∃ p, getPart checked parts start time = some p ∧ PartAt parts m p) ∧
  (∀ m : Nat, minutes = m → total parts ≤ m →
    getPart checked parts start time = parts.getLast?)

/-- C45 for sessions shorter than 2³² minutes queried less than 2³² minutes after their start.  What
is missing: beyond that the 32-bit arithmetic wraps or panics (`session_wraps`). -/
theorem session_part_partial {ι : Type} (checked : Bool) (first : SessionPart ι)
    (rest : List (SessionPart ι)) (start time : Int)
    (ht : total (first :: rest) < 2 ^ 32) (hm : (time - start).tdiv 60 < 2 ^ 32) :
    SessionPartCorrect checked first rest start time := by
  unfold SessionPartCorrect
  intro parts minutes
  have hneg : minutes < 0 → getPart checked parts start time = some first := by
    intro h
    show getPart checked (first :: rest) start time = _
    simp only [getPart]
    rw [if_pos h]
  have hpos : ∀ m : Nat, minutes = m → getPart checked parts start time =
      findPart checked m (rest.getLastD first) 0 (first :: rest) := by
    intro m h
    show getPart checked (first :: rest) start time = _
    simp only [getPart]
    have h' : (time - start).tdiv 60 = m := h
    rw [h', if_neg (by omega)]
    have : (m : Int).toNat % u32Size = m := by
      have : m < u32Size := by
        rw [h'] at hm; unfold u32Size; exact_mod_cast hm
      rw [Int.toNat_natCast]; exact Nat.mod_eq_of_lt this
    rw [this]
  refine ⟨fun h hd => ?_, ?_, ?_⟩
  · by_cases hz : minutes = 0
    · rw [hpos 0 hz]
      have hb : total (first :: rest) = first.duration + total rest := by simp [total]
      have hl : first.duration < u32Size := by unfold u32Size; omega
      simp only [findPart, Nat.zero_add, Nat.mod_eq_of_lt hl, if_pos hd]
      rw [if_neg]
      simp only [Bool.and_eq_true, decide_eq_true_eq]
      omega
    · apply hneg
      show (time - start).tdiv 60 < 0
      have hz : (time - start).tdiv 60 ≠ 0 := hz
      have : (time - start).tdiv 60 ≤ 0 := by
        have := Int.tdiv_nonneg (a := -(time - start)) (b := 60) (by omega) (by omega)
        rw [Int.neg_tdiv] at this; omega
      omega
  · intro m h hlt
    rw [hpos m h]
    obtain ⟨p, b, a, e1, e2, e3, e4⟩ :=
      (findPart_spec checked m (rest.getLastD first) (first :: rest) 0 (by omega)
        (by unfold u32Size; omega)).1 (by simpa using hlt)
    exact ⟨p, e1, b, a, e2, by omega, by omega⟩
  · intro m h hle
    rw [hpos m h, (findPart_spec checked m (rest.getLastD first) (first :: rest) 0 (by omega)
        (by unfold u32Size; omega)).2 (by simpa using hle)]
    show some (rest.getLastD first) = (first :: rest).getLast?
    simp [List.getLast?_cons, List.getLastD_eq_getLast?]

/-- An empty session gives the dummy part with no filter. -/
theorem session_empty {ι : Type} (checked : Bool) (start time : Int) :
    getPart checked ([] : List (SessionPart ι)) start time = some (.noFilter 0) := rfl

/-- C45: the filter used for a part is the part's own filter, or the saved one, or an error when the
saved filter does not exist. -/
theorem session_filter_of_part {ι : Type} (saved : Str → Option (UnitFilter ι)) (f : UnitFilter ι)
    (id : Str) (d : Nat) :
    sessionFilter saved (.noFilter d) = some none ∧
    sessionFilter saved (.unitFilter f d) = some (some f) ∧
    (saved id = some f → sessionFilter saved (.savedFilter id d) = some (some f)) ∧
    (saved id = none → sessionFilter saved (.savedFilter id d) = none) := by
  refine ⟨rfl, rfl, ?_, ?_⟩ <;> intro h <;> simp [sessionFilter, h]

/-- A session with three parts meets the hypotheses; each part is returned at its time. -/
example : let s : List (SessionPart Nat) := [.noFilter 30, .savedFilter "a".toList 15, .noFilter 20]
    total s < 2 ^ 32 ∧ (getPart true s 1000 900).map SessionPart.duration = some 30 ∧
    (getPart true s 1000 (1000 + 60 * 29)).map SessionPart.duration = some 30 ∧
    (getPart true s 1000 (1000 + 60 * 30)).map SessionPart.duration = some 15 ∧
    (getPart true s 1000 (1000 + 60 * 44 + 59)).map SessionPart.duration = some 15 ∧
    (getPart true s 1000 (1000 + 60 * 45)).map SessionPart.duration = some 20 ∧
    (getPart true s 1000 (1000 + 60 * 1000)).map SessionPart.duration = some 20 := by
  decide +kernel

/-- Beyond 32 bits C45 fails: with durations adding up to 2³² the sum wraps in a build without overflow
checks (the last part is returned in the middle of another) and panics in a build with checks. -/
theorem session_wraps : let s : List (SessionPart Nat) :=
      [.noFilter 1, .noFilter (2 ^ 32 - 1), .noFilter 7]
    ¬ SessionPartCorrect (ι := Nat) false (.noFilter 1) [.noFilter (2 ^ 32 - 1), .noFilter 7] 0 600 ∧
    getPart true s 0 600 = none := by
  intro s
  constructor
  · intro h
    obtain ⟨p, h1, b, a, h2, h3, h4⟩ := h.2.1 10 (by decide) (by decide +kernel)
    have hg : getPart false s 0 600 = some (.noFilter 7) := by rfl
    have hp : p = .noFilter 7 := by
      have h1 : getPart false s 0 600 = some p := h1
      rw [hg] at h1; exact (Option.some.inj h1).symm
    subst hp
    -- the only part of length 7 is the third one, which starts after minute 10
    match b, h2, h3 with
    | [], h2, _ => simp at h2
    | [_], h2, _ => simp at h2
    | [x, y], h2, h3 =>
      simp only [List.cons_append, List.nil_append, List.cons.injEq] at h2
      obtain ⟨rfl, rfl, _⟩ := h2
      revert h3; decide +kernel
    | x :: y :: z :: b, h2, _ => simp at h2
  · rfl

end Trane.Filters
