import Verif.Gen.Transcription
import Verif.Gen.Accept
import Verif.Library.ListingProps

/-!
# C54: the transcription generator
-/

namespace Trane.Gen.Transcription
open Trane.Store Trane.Library Trane.Gen Trane.Graph Trane.Filters

variable {α γ : Type}

/-! ### Specification -/

/-- What follows the course id in the id of a lesson. -/
def Kind.parts : Kind → List Str
  | .singing => ["singing".toList]
  | .advancedSinging => ["advanced_singing".toList]
  | .transcription i => ["transcription".toList, i.id]
  | .advancedTranscription i => ["advanced_transcription".toList, i.id]

/-- The id of a lesson: the parts, separated by `::`. -/
def idOf (course : Str) (k : Kind) : Str := tagged course k.parts

/-- The lessons a course has. -/
def Wanted (cfg : Config) (instruments : List Instrument) : Kind → Prop
  | .singing => True
  | .advancedSinging => cfg.skipAdvanced = false
  | .transcription i => i ∈ instruments
  | .advancedTranscription i => i ∈ instruments ∧ cfg.skipAdvanced = false

/-- The documented dependencies: singing depends on singing in the courses listed as transcription
dependencies; transcription with an instrument depends on the same in those courses and on singing;
the advanced lessons depend on the basic ones. -/
def depsOf (cfg : Config) (course : Str) : Kind → List Str
  | .singing => cfg.deps.map (fun d => idOf d .singing)
  | .advancedSinging => [idOf course .singing]
  | .transcription i => cfg.deps.map (fun d => idOf d (.transcription i)) ++ [idOf course .singing]
  | .advancedTranscription i => [idOf course (.transcription i), idOf course .advancedSinging]

/-- Each advanced lesson supersedes the basic one. -/
def supOf (course : Str) : Kind → List Str
  | .singing => []
  | .advancedSinging => [idOf course .singing]
  | .transcription _ => []
  | .advancedTranscription i => [idOf course (.transcription i)]

def kindName : Kind → Str
  | .singing => "singing".toList
  | .advancedSinging => "advanced_singing".toList
  | .transcription _ => "transcription".toList
  | .advancedTranscription _ => "advanced_transcription".toList

def instrumentName : Kind → Str
  | .singing => "voice".toList
  | .advancedSinging => "voice".toList
  | .transcription i => i.id
  | .advancedTranscription i => i.id

/-- The lesson is one of the two singing lessons. -/
def Kind.Sung : Kind → Prop
  | .singing => True
  | .advancedSinging => True
  | _ => False

/-- The manifest of a lesson. -/
def IsLesson (lessonRest : Kind → α) (cfg : Config) (course : Str) (k : Kind) (l : LessonM α) : Prop :=
  l.id = idOf course k ∧ l.courseId = course ∧ l.deps = depsOf cfg course k ∧ l.enc = [] ∧
    l.sup = supOf course k ∧ l.rest = lessonRest k ∧
    ∃ m, l.metadata = some m ∧ m.find "transcription_lesson".toList = some [kindName k] ∧
      m.find "instrument".toList = some [instrumentName k] ∧
      ∀ key, key ≠ "transcription_lesson".toList → key ≠ "instrument".toList → m.find key = none

/-- The exercises of a lesson: one for each interval of each passage, and one for a passage without
intervals. -/
def IsExercise (asset : Kind → Passages → Str → Str → α) (cfg : Config) (course : Str)
    (ps : List Passages) (k : Kind) (e : ExerciseM α) : Prop :=
  ¬ (cfg.skipSinging = true ∧ k.Sung) ∧ e.lessonId = idOf course k ∧ e.courseId = course ∧
    ∃ p ∈ ps,
      (p.intervals = [] ∧ e.id = tagged (idOf course k) [p.asset.shortId] ∧
        e.rest = asset k p "Start of passage".toList "End of passage".toList) ∨
      (∃ n s t, (n, (s, t)) ∈ p.intervals ∧ e.id = tagged (idOf course k) [p.asset.shortId, dec n] ∧
        e.rest = asset k p s t)

/-- Names for which ids are distinct: ids of instruments and short ids of passages are distinct and
contain no colon.  The keys of the intervals are distinct because they come from a hash map. -/
structure Names (instruments : List Instrument) (ps : List Passages) : Prop where
  distinct : (instruments.map (·.id)).Nodup
  plain : ∀ i ∈ instruments, Plain i.id
  shortIds : (ps.map (·.asset.shortId)).Nodup
  shortPlain : ∀ p ∈ ps, Plain p.asset.shortId
  keys : ∀ p ∈ ps, (p.intervals.map (·.1)).Nodup

/-! ### Lemmas -/

section
variable (lessonRest : Kind → α) (asset : Kind → Passages → Str → Str → α)

/-- The kinds of lessons in the order they are generated. -/
def kinds (skipAdvanced : Bool) (instruments : List Instrument) : List Kind :=
  if skipAdvanced then .singing :: instruments.map .transcription
  else .singing :: .advancedSinging :: (instruments.map .transcription ++
    instruments.map .advancedTranscription)

theorem mem_kinds (cfg : Config) (is : List Instrument) (k : Kind) :
    k ∈ kinds cfg.skipAdvanced is ↔ Wanted cfg is k := by
  unfold kinds
  cases h : cfg.skipAdvanced <;> cases k <;> simp [Wanted, h]

def exParts (p : Passages) : List (List Str) :=
  if p.intervals.isEmpty then [[p.asset.shortId]]
  else p.intervals.map (fun x => [p.asset.shortId, dec x.1])

def lessonOf (cfg : Config) (course : Str) (k : Kind) : LessonM α :=
  { id := idOf course k, courseId := course, deps := depsOf cfg course k, enc := [],
    sup := supOf course k,
    metadata := some [(instrumentKey, [instrumentName k]), (lessonKey, [kindName k])],
    rest := lessonRest k }

def skips (cfg : Config) : Kind → Bool
  | .singing => cfg.skipSinging
  | .advancedSinging => cfg.skipSinging
  | _ => false

def entry (cfg : Config) (course : Str) (ps : List Passages) (k : Kind) :
    LessonM α × List (ExerciseM α) :=
  (lessonOf lessonRest cfg course k,
    if skips cfg k then [] else ps.flatMap (exercises (asset k) course (idOf course k)))

theorem id_singing (c : Str) : c ++ "::singing".toList = idOf c .singing := by
  simp [idOf, tagged, Kind.parts]
theorem id_advanced (c : Str) : c ++ "::advanced_singing".toList = idOf c .advancedSinging := by
  simp [idOf, tagged, Kind.parts]
theorem id_transcription (c : Str) (i : Instrument) :
    c ++ "::transcription::".toList ++ i.id = idOf c (.transcription i) := by
  simp [idOf, tagged, Kind.parts]
theorem id_advancedTranscription (c : Str) (i : Instrument) :
    c ++ "::advanced_transcription::".toList ++ i.id = idOf c (.advancedTranscription i) := by
  simp [idOf, tagged, Kind.parts]

theorem lessonManifests_eq (cfg : Config) (course : Str) (is : List Instrument) (ps : List Passages) :
    lessonManifests lessonRest asset cfg (some cfg) course is ps =
      (kinds cfg.skipAdvanced is).map (entry lessonRest asset cfg course ps) := by
  have e1 : (fun d : Str => d ++ "::singing".toList) = (fun d => idOf d .singing) := funext id_singing
  have e2 : ∀ i : Instrument, (fun d : Str => d ++ "::transcription::".toList ++ i.id) =
      (fun d => idOf d (.transcription i)) := fun i => funext (fun d => id_transcription d i)
  have f1 : singingId course = idOf course .singing := id_singing course
  have f2 : advancedSingingId course = idOf course .advancedSinging := id_advanced course
  have f3 : ∀ i, transcriptionId course i = idOf course (.transcription i) := id_transcription course
  have f4 : ∀ i, advancedTranscriptionId course i = idOf course (.advancedTranscription i) :=
    id_advancedTranscription course
  have h1 : singingLesson lessonRest asset cfg course ps cfg.skipSinging =
      entry lessonRest asset cfg course ps .singing := by
    unfold singingLesson
    rw [e1, f1]
    rfl
  have h2 : advancedSingingLesson lessonRest asset course ps cfg.skipSinging =
      entry lessonRest asset cfg course ps .advancedSinging := by
    unfold advancedSingingLesson
    rw [f1, f2]
    rfl
  have h3 : transcriptionLesson lessonRest asset cfg course ps =
      fun i => entry lessonRest asset cfg course ps (.transcription i) := by
    funext i
    unfold transcriptionLesson
    rw [e2, f1, f3]
    rfl
  have h4 : advancedTranscriptionLesson lessonRest asset course ps =
      fun i => entry lessonRest asset cfg course ps (.advancedTranscription i) := by
    funext i
    unfold advancedTranscriptionLesson
    rw [f2, f3, f4]
    rfl
  unfold lessonManifests kinds
  simp only [h1, h2, h3, h4]
  cases cfg.skipAdvanced <;> simp [Function.comp_def]

theorem exId_none (l s : Str) : exerciseId l s none = tagged l [s] := by
  simp [exerciseId, tagged]
theorem exId_some (l s : Str) (n : Nat) : exerciseId l s (some n) = tagged l [s, dec n] := by
  simp [exerciseId, tagged]

theorem exercises_ids (k : Kind) (course lesson : Str) (p : Passages) :
    (exercises (asset k) course lesson p).map (·.id) = (exParts p).map (tagged lesson) := by
  unfold exercises exParts
  split <;> simp [exId_none, exId_some, Function.comp_def]

theorem mem_exercises (cfg : Config) (course : Str) (ps : List Passages) (k : Kind) (e : ExerciseM α) :
    e ∈ (entry lessonRest asset cfg course ps k).2 ↔ IsExercise asset cfg course ps k e := by
  have hs : skips cfg k = true ↔ (cfg.skipSinging = true ∧ k.Sung) := by
    cases k <;> simp [skips, Kind.Sung]
  unfold entry IsExercise
  simp only
  rw [← hs]
  by_cases h : skips cfg k = true
  · simp [h]
  · rw [if_neg h, List.mem_flatMap]
    simp only [h, not_false_iff, true_and]
    have hne : ∀ (p : Passages), e ∈ exercises (asset k) course (idOf course k) p ↔
        e.lessonId = idOf course k ∧ e.courseId = course ∧
        ((p.intervals = [] ∧ e.id = tagged (idOf course k) [p.asset.shortId] ∧
        e.rest = asset k p "Start of passage".toList "End of passage".toList) ∨
      (∃ n s t, (n, (s, t)) ∈ p.intervals ∧ e.id = tagged (idOf course k) [p.asset.shortId, dec n] ∧
        e.rest = asset k p s t)) := by
      intro p
      unfold exercises
      by_cases hp : p.intervals = []
      · rw [if_pos (by simp [hp]), List.mem_singleton]
        constructor
        · rintro rfl
          exact ⟨rfl, rfl, Or.inl ⟨hp, exId_none _ _, rfl⟩⟩
        · rintro ⟨h1, h2, ⟨_, h3, h4⟩ | ⟨n, s, t, hm, _⟩⟩
          · cases e
            simp only at h1 h2 h3 h4
            subst h1 h2 h3 h4
            rw [exId_none]; rfl
          · rw [hp] at hm; cases hm
      · rw [if_neg (by simp [hp]), List.mem_map]
        constructor
        · rintro ⟨⟨n, s, t⟩, hm, rfl⟩
          exact ⟨rfl, rfl, Or.inr ⟨n, s, t, hm, exId_some _ _ _, rfl⟩⟩
        · rintro ⟨h1, h2, ⟨h3, _⟩ | ⟨n, s, t, hm, h3, h4⟩⟩
          · exact (hp h3).elim
          · refine ⟨(n, s, t), hm, ?_⟩
            cases e
            simp only at h1 h2 h3 h4
            subst h1 h2 h3 h4
            simp only [exId_some]
    constructor
    · rintro ⟨p, hp, he⟩
      obtain ⟨h1, h2, h3⟩ := (hne p).1 he
      exact ⟨by simp, h1, h2, p, hp, h3⟩
    · rintro ⟨_, h1, h2, p, hp, h3⟩
      exact ⟨p, hp, (hne p).2 ⟨h1, h2, h3⟩⟩

theorem isLesson_lessonOf (cfg : Config) (course : Str) (k : Kind) :
    IsLesson lessonRest cfg course k (lessonOf lessonRest cfg course k) := by
  have hne : instrumentKey ≠ lessonKey := by decide
  refine ⟨rfl, rfl, rfl, rfl, rfl, rfl, _, rfl, ?_, ?_, ?_⟩
  · change AMap.find _ lessonKey = _
    rw [AMap.find, if_neg hne, AMap.find, if_pos rfl]
  · change AMap.find _ instrumentKey = _
    rw [AMap.find, if_pos rfl]
  · intro key h1 h2
    change key ≠ lessonKey at h1
    change key ≠ instrumentKey at h2
    rw [AMap.find, if_neg (Ne.symm h2), AMap.find, if_neg (Ne.symm h1), AMap.find]

end

theorem plain_parts {is : List Instrument} (hp : ∀ i ∈ is, Plain i.id) {cfg : Config} {k : Kind}
    (hk : Wanted cfg is k) : ∀ p ∈ k.parts, Plain p := by
  intro p hm
  have t1 : Plain "singing".toList := by unfold Plain; decide
  have t2 : Plain "advanced_singing".toList := by unfold Plain; decide
  have t3 : Plain "transcription".toList := by unfold Plain; decide
  have t4 : Plain "advanced_transcription".toList := by unfold Plain; decide
  cases k <;> simp only [Kind.parts, List.mem_cons, List.not_mem_nil, or_false] at hm
  · rw [hm]; exact t1
  · rw [hm]; exact t2
  · rcases hm with rfl | rfl
    · exact t3
    · exact hp _ hk
  · rcases hm with rfl | rfl
    · exact t4
    · exact hp _ hk.1

theorem plain_exParts {p : Passages} (hp : Plain p.asset.shortId) : ∀ q ∈ exParts p, ∀ x ∈ q, Plain x := by
  intro q hq x hx
  unfold exParts at hq
  split at hq
  · rw [List.mem_singleton] at hq; subst hq
    rw [List.mem_singleton] at hx; subst hx; exact hp
  · obtain ⟨y, _, rfl⟩ := List.mem_map.1 hq
    simp only [List.mem_cons, List.not_mem_nil, or_false] at hx
    rcases hx with rfl | rfl
    · exact hp
    · exact dec_plain _

theorem exParts_head {p : Passages} {q : List Str} (h : q ∈ exParts p) :
    q.head? = some p.asset.shortId := by
  unfold exParts at h
  split at h
  · rw [List.mem_singleton] at h; subst h; rfl
  · obtain ⟨y, _, rfl⟩ := List.mem_map.1 h; rfl

theorem exParts_nodup {p : Passages} (h : (p.intervals.map (·.1)).Nodup) : (exParts p).Nodup := by
  unfold exParts
  split
  · simp
  · have : p.intervals.map (fun x => [p.asset.shortId, dec x.1]) =
        (p.intervals.map (·.1)).map (fun n => [p.asset.shortId, dec n]) := by
      rw [List.map_map]; rfl
    rw [this]
    refine h.map ?_
    intro a b hab
    simp only [List.cons.injEq, and_true, true_and] at hab
    exact dec_inj hab

/-- The part lists of all units of a course below the course itself. -/
def blockParts (skip : Bool) (ps : List Passages) (k : Kind) : List (List Str) :=
  k.parts :: (if skip then [] else ps.flatMap exParts).map (fun q => k.parts ++ q)

theorem block_ids (lessonRest : Kind → α) (asset : Kind → Passages → Str → Str → α) (cfg : Config)
    (course : Str) (ps : List Passages) (k : Kind) :
    (entry lessonRest asset cfg course ps k).1.id :: (entry lessonRest asset cfg course ps k).2.map (·.id) =
      (blockParts (skips cfg k) ps k).map (tagged course) := by
  unfold entry blockParts
  rw [List.map_cons]
  congr 1
  simp only
  split
  · rfl
  · rw [List.map_flatMap, List.map_map, List.map_flatMap]
    congr 1
    funext p
    rw [exercises_ids]
    apply List.map_congr_left
    intro q _
    simp only [Function.comp, idOf, tagged_append]

theorem block_nodup {is : List Instrument} {ps : List Passages} (h : Names is ps) (skip : Bool) (k : Kind) :
    (blockParts skip ps k).Nodup := by
  unfold blockParts
  have h1 : (ps.flatMap exParts).Nodup := by
    refine nodup_flatMap_disjoint _ _ (List.Nodup.of_map _ h.shortIds)
      (fun p hp => exParts_nodup (h.keys p hp)) ?_
    intro p hp q hq z hz hz'
    have := (exParts_head hz).symm.trans (exParts_head hz')
    exact List.inj_on_of_nodup_map h.shortIds hp hq (by simpa using this)
  have h2 : (if skip then [] else ps.flatMap exParts).Nodup := by split <;> simp [h1]
  rw [List.nodup_cons]
  constructor
  · intro hm
    obtain ⟨q, hq, e⟩ := List.mem_map.1 hm
    have hq' : q = [] := by
      have := congrArg List.length e
      rw [List.length_append] at this
      exact List.length_eq_zero_iff.1 (by omega)
    split at hq
    · cases hq
    · obtain ⟨p, _, hq⟩ := List.mem_flatMap.1 hq
      have := exParts_head hq
      rw [hq'] at this
      cases this
  · exact h2.map (fun a b hab => List.append_cancel_left hab)

theorem block_prefix {skip : Bool} {ps : List Passages} {k : Kind} {z : List Str}
    (h : z ∈ blockParts skip ps k) : ∃ r, z = k.parts ++ r := by
  unfold blockParts at h
  rcases List.mem_cons.1 h with rfl | h
  · exact ⟨[], by simp⟩
  · obtain ⟨q, _, rfl⟩ := List.mem_map.1 h; exact ⟨q, rfl⟩

theorem parts_prefix_inj {cfg : Config} {is : List Instrument} (hn : (is.map (·.id)).Nodup) {a b : Kind}
    (ha : Wanted cfg is a) (hb : Wanted cfg is b) {r s : List Str} (h : a.parts ++ r = b.parts ++ s) :
    a = b := by
  cases a <;> cases b <;> simp [Kind.parts] at h <;> try rfl
  · rw [List.inj_on_of_nodup_map hn ha hb h.1]
  · rw [List.inj_on_of_nodup_map hn ha.1 hb.1 h.1]

theorem kinds_nodup {is : List Instrument} (hn : (is.map (·.id)).Nodup) (b : Bool) : (kinds b is).Nodup := by
  have h := List.Nodup.of_map _ hn
  have h3 : (is.map Kind.transcription).Nodup := h.map (fun a b e => by cases e; rfl)
  have h4 : (is.map Kind.advancedTranscription).Nodup := h.map (fun a b e => by cases e; rfl)
  unfold kinds
  cases b
  · simp only [Bool.false_eq_true, if_false, List.nodup_cons, List.mem_cons, List.mem_append,
      List.mem_map, List.nodup_append]
    refine ⟨by simp, by simp, h3, h4, ?_⟩
    rintro a ⟨i, _, rfl⟩ b ⟨j, _, rfl⟩ e
    cases e
  · simp only [if_true, List.nodup_cons, List.mem_map]
    exact ⟨by simp, h3⟩

/-- All part lists of a course. -/
def courseParts (cfg : Config) (is : List Instrument) (ps : List Passages) : List (List Str) :=
  [] :: (kinds cfg.skipAdvanced is).flatMap (fun k => blockParts (skips cfg k) ps k)

theorem courseParts_nodup {cfg : Config} {is : List Instrument} {ps : List Passages} (h : Names is ps) :
    (courseParts cfg is ps).Nodup := by
  unfold courseParts
  rw [List.nodup_cons]
  constructor
  · intro hm
    obtain ⟨k, _, hz⟩ := List.mem_flatMap.1 hm
    obtain ⟨r, hr⟩ := block_prefix hz
    cases k <;> simp [Kind.parts] at hr
  · refine nodup_flatMap_disjoint _ _ (kinds_nodup h.distinct _) (fun k _ => block_nodup h _ k) ?_
    intro a ha b hb z hz hz'
    obtain ⟨r, rfl⟩ := block_prefix hz
    obtain ⟨s, hs⟩ := block_prefix hz'
    exact parts_prefix_inj h.distinct ((mem_kinds cfg is a).1 ha) ((mem_kinds cfg is b).1 hb) hs

theorem courseParts_plain {cfg : Config} {is : List Instrument} {ps : List Passages} (h : Names is ps) :
    ∀ z ∈ courseParts cfg is ps, ∀ x ∈ z, Plain x := by
  intro z hz x hx
  unfold courseParts at hz
  rcases List.mem_cons.1 hz with rfl | hz
  · cases hx
  · obtain ⟨k, hk, hz⟩ := List.mem_flatMap.1 hz
    have hk' := plain_parts h.plain ((mem_kinds cfg is k).1 hk)
    unfold blockParts at hz
    rcases List.mem_cons.1 hz with rfl | hz
    · exact hk' x hx
    · obtain ⟨q, hq, rfl⟩ := List.mem_map.1 hz
      rcases List.mem_append.1 hx with hx | hx
      · exact hk' x hx
      · split at hq
        · cases hq
        · obtain ⟨p, hp, hq⟩ := List.mem_flatMap.1 hq
          exact plain_exParts (h.shortPlain p hp) q hq x hx

theorem courseParts_head {cfg : Config} {is : List Instrument} {ps : List Passages}
    {z : List Str} (h : z ∈ courseParts cfg is ps) :
    z = [] ∨ ∃ p qs, z = p :: qs ∧ p ≠ [] := by
  unfold courseParts at h
  rcases List.mem_cons.1 h with rfl | h
  · exact Or.inl rfl
  · obtain ⟨k, _, hz⟩ := List.mem_flatMap.1 h
    obtain ⟨r, rfl⟩ := block_prefix hz
    right
    cases k <;> exact ⟨_, _, rfl, by decide⟩

/-- The unit ids of a generated course. -/
theorem unitIds_single (lessonRest : Kind → α) (asset : Kind → Passages → Str → Str → α) (cfg : Config)
    (is : List Instrument) (ps : List Passages) (c : CourseM α γ) :
    unitIds [(⟨c, lessonManifests lessonRest asset cfg (some cfg) c.id is ps⟩ : Opened α γ)] =
      (courseParts cfg is ps).map (tagged c.id) := by
  simp only [unitIds, List.flatMap_cons, List.flatMap_nil, List.append_nil, lessonManifests_eq,
    List.flatMap_map, courseParts, List.map_cons, tagged_nil, List.map_flatMap]
  congr 1
  congr 1
  funext k
  exact block_ids lessonRest asset cfg c.id ps k

/-! ### Properties of one course -/

section
variable (lessonRest : Kind → α) (asset : Kind → Passages → Str → Str → α) (intro : α)
  (asConfig : γ → Option Config) (readDir : Str → Option (List Entry)) (cfg : Config)
  (is : List Instrument) (c : CourseM α γ) (g : Generated α)

/-- Every generated lesson is one the course should have, with the documented dependencies and
exercises. -/
theorem lessons_sound (hc : c.gen.bind asConfig = some cfg)
    (hg : generate lessonRest asset intro asConfig readDir cfg is c = some g) :
    ∃ found, openDirectory readDir cfg = some found ∧ ∀ l es, (l, es) ∈ g.lessons →
      ∃ k, Wanted cfg is k ∧ IsLesson lessonRest cfg c.id k l ∧
        ∀ e, e ∈ es ↔ IsExercise asset cfg c.id (found ++ cfg.inlined) k e := by
  unfold generate at hg
  rw [Option.bind_eq_bind, Option.bind_eq_some_iff] at hg
  obtain ⟨found, hf, hg⟩ := hg
  cases hg
  refine ⟨found, hf, fun l es hm => ?_⟩
  simp only [hc, lessonManifests_eq] at hm
  obtain ⟨k, hk, he⟩ := List.mem_map.1 hm
  cases he
  exact ⟨k, (mem_kinds cfg is k).1 hk, isLesson_lessonOf _ _ _ _,
    fun e => mem_exercises lessonRest asset cfg c.id _ k e⟩

/-- Every lesson the course should have is generated: the singing lesson always, a transcription lesson
for every instrument of the user, and the advanced lessons unless the course skips them. -/
theorem lessons_complete (hc : c.gen.bind asConfig = some cfg)
    (hg : generate lessonRest asset intro asConfig readDir cfg is c = some g) (k : Kind)
    (hk : Wanted cfg is k) : ∃ found l es, openDirectory readDir cfg = some found ∧
      (l, es) ∈ g.lessons ∧ IsLesson lessonRest cfg c.id k l ∧
        ∀ e, e ∈ es ↔ IsExercise asset cfg c.id (found ++ cfg.inlined) k e := by
  unfold generate at hg
  rw [Option.bind_eq_bind, Option.bind_eq_some_iff] at hg
  obtain ⟨found, hf, hg⟩ := hg
  cases hg
  simp only [hc, lessonManifests_eq]
  exact ⟨found, _, _, hf, List.mem_map.2 ⟨k, (mem_kinds cfg is k).2 hk, rfl⟩,
    isLesson_lessonOf _ _ _ _, fun e => mem_exercises lessonRest asset cfg c.id _ k e⟩

/-- The ids of the course, its lessons and exercises are distinct. -/
theorem ids_distinct (hc : c.gen.bind asConfig = some cfg)
    (hg : generate lessonRest asset intro asConfig readDir cfg is c = some g)
    (hn : ∀ found, openDirectory readDir cfg = some found → Names is (found ++ cfg.inlined)) :
    (unitIds [(⟨c, g.lessons⟩ : Opened α γ)]).Nodup := by
  unfold generate at hg
  rw [Option.bind_eq_bind, Option.bind_eq_some_iff] at hg
  obtain ⟨found, hf, hg⟩ := hg
  cases hg
  simp only [hc]
  rw [unitIds_single]
  have h := hn found hf
  refine (List.nodup_map_iff_inj_on (courseParts_nodup h)).2 ?_
  intro a ha b hb e
  exact tagged_inj (courseParts_plain h a ha) (courseParts_plain h b hb) e

/-- The generator meets the assumption of the library theorems. -/
theorem proper (hc : c.gen.bind asConfig = some cfg)
    (hg : generate lessonRest asset intro asConfig readDir cfg is c = some g) (l : LessonM α)
    (es : List (ExerciseM α)) (h : (l, es) ∈ g.lessons) :
    l.courseId = c.id ∧ l.id ≠ [] ∧ ∀ e ∈ es, e.lessonId = l.id ∧ e.courseId = c.id ∧ e.id ≠ [] := by
  obtain ⟨found, _, hs⟩ := lessons_sound lessonRest asset intro asConfig readDir cfg is c g hc hg
  obtain ⟨k, _, ⟨h1, h2, _⟩, he⟩ := hs l es h
  have hne : ∀ k, Kind.parts k ≠ [] := by intro k; cases k <;> simp [Kind.parts]
  refine ⟨h2, by rw [h1]; exact tagged_ne_nil (hne k), fun e hm => ?_⟩
  obtain ⟨_, h3, h4, p, _, h5⟩ := (he e).1 hm
  refine ⟨by rw [h1, h3], h4, ?_⟩
  rcases h5 with ⟨_, h5, _⟩ | ⟨_, _, _, _, h5, _⟩ <;> rw [h5] <;> exact tagged_ne_nil (by simp)

end

end Trane.Gen.Transcription
