import Verif.Tree.GenKnowledge
import Verif.Tree.GenLiteracy
import Verif.Tree.GenTranscription
import Verif.Gen.Dispatch

/-!
# C91: what a library with generated courses serves
-/

namespace Trane.Tree
open Trane.Store (Str)
open Trane.Library
open Trane.Json (readAs Generator UserPreferences decUserPreferences)
open Trane.Gen

variable {F : Type}

/-! ### Specification -/

/-- The text of the preferences is JSON for these preferences. -/
def Prefers (M : Machine F) (prefs : UserPreferences) : Prop :=
  ∃ r, M.configHome = some r ∧ JsonText M.tree (r ++ prefsPath) decUserPreferences prefs

/-- The instruments in the preferences. -/
def instrumentsOf (prefs : UserPreferences) : List Transcription.Instrument :=
  (prefs.transcription.map (·.instruments)).getD []

/-- What is to be made for the course `m` in the directory `p`: `Due M X prefs p m U` if there is to be a lesson,
with its exercises, that meets `U`. -/
inductive Due (M : Machine F) (X : Outside) (prefs : UserPreferences) (p : Path) (m : CourseM Rest Generator) :
    (LessonM Rest × List (ExerciseM Rest) → Prop) → Prop
  | knowledge {inlined : Bool} {s : Str} : m.gen = some (.knowledgeBase inlined) → LessonAt M.tree p s →
      Due M X prefs p m (KnowledgeUnit M inlined p m.id s)
  | reading {dict : Bool} {s : Str} : m.gen = some (.literacy dict) → LiteracyAt M.tree p s →
      Due M X prefs p m (LiteracyUnit M X p m s .reading)
  | dictation {s : Str} : m.gen = some (.literacy true) → LiteracyAt M.tree p s →
      Due M X prefs p m (LiteracyUnit M X p m s .dictation)
  | music {a : Json.MusicAsset} {q q' : Music.Passage} {path : List Nat} : m.gen = some (.musicPiece a q) →
      Music.At q path q' → Due M X prefs p m (MusicUnit m a path q')
  | transcription {cfg : Transcription.Config} {k : Transcription.Kind} : m.gen = some (.transcription cfg) →
      Transcription.Wanted cfg (instrumentsOf prefs) k → Due M X prefs p m (TranscriptionUnit M p cfg m k)

/-! ### Lemmas -/

theorem real_proper (M : Machine F) (X : Outside) : GeneratesProper (M.real X).disk := by
  rintro cfg dir c g hg ⟨l, es⟩ hl
  have hg : M.gen X M.prefs cfg dir c = some g := hg
  cases cfg with
  | knowledgeBase b =>
    simp only [Machine.gen, Option.bind_eq_some_iff] at hg
    obtain ⟨_, _, _, _, hg⟩ := hg
    exact Knowledge.proper _ _ _ _ _ c g hg l es hl
  | literacy b =>
    simp only [Machine.gen, Literacy.generate, Option.bind_eq_bind, Option.bind_eq_some_iff] at hg
    obtain ⟨_, _, _, _, ls, _, ins, _, hg⟩ := hg
    cases hg
    exact Literacy.proper _ _ c _ _ l es hl
  | musicPiece a p =>
    cases hg
    exact Music.proper _ _ p c l es hl
  | transcription cfg =>
    simp only [Machine.gen, Transcription.generate, Option.bind_eq_bind, Option.bind_eq_some_iff] at hg
    obtain ⟨found, _, hg⟩ := hg
    cases hg
    exact Transcription.proper_any _ _ _ _ _ _ _ l es hl

theorem prefers_iff {M : Machine F} {prefs : UserPreferences} :
    Prefers M prefs ↔ (M.configContents prefsPath).bind (readAs decUserPreferences) = some prefs := by
  unfold Prefers Machine.configContents
  cases hr : M.configHome with
  | none => simp
  | some r => simp [jsonText_iff]

theorem prefs_eq {M : Machine F} {prefs : UserPreferences} (h : Prefers M prefs) : M.prefs = prefs := by
  unfold Machine.prefs
  rw [prefers_iff.mp h]
  rfl

theorem prefers_of_ignores {M : Machine F} {ignored : List Str} (h : Ignores M ignored) :
    ∃ prefs, Prefers M prefs ∧ prefs.ignoredPaths = ignored := by
  obtain ⟨r, text, v, prefs, h1, h2, h3, h4, h5, h6⟩ := h
  exact ⟨prefs, ⟨r, h1, text, v, h2, h3, h4, h5⟩, h6⟩

theorem due_of_made {M : Machine F} {X : Outside} (hX : X.Fair) {prefs : UserPreferences} {r dir : Path}
    (hr : M.home = some r) (hd : ∃ n, Entry M.tree (r ++ dir) n) {m : CourseM Rest Generator} {cfg : Generator}
    (hm : m.gen = some cfg) {g : Generated Rest} (h : M.gen X prefs cfg dir m = some g) :
    (∀ u ∈ g.lessons, ∃ U, Due M X prefs (r ++ dir) m U ∧ U u) ∧
    (∀ U, Due M X prefs (r ++ dir) m U → ∃ u ∈ g.lessons, U u) := by
  cases cfg with
  | knowledgeBase b =>
    obtain ⟨h1, h2, _⟩ := knowledge_from_texts M X hX prefs b r dir hr m g h
    constructor
    · intro u hu
      obtain ⟨s, hs⟩ := h1 u hu
      exact ⟨_, .knowledge hm hs.1, hs⟩
    · intro U hU
      cases hU with
      | knowledge e hs => rw [hm] at e; cases e; exact h2 _ hs
      | reading e => rw [hm] at e; cases e
      | dictation e => rw [hm] at e; cases e
      | music e => rw [hm] at e; cases e
      | transcription e => rw [hm] at e; cases e
  | literacy b =>
    obtain ⟨h1, h2, _⟩ := literacy_from_texts M X hX prefs b b r dir hr m hm g h
    constructor
    · intro u hu
      obtain ⟨s, k, hk, hs⟩ := h1 u hu
      rcases hk with rfl | ⟨rfl, rfl⟩
      · exact ⟨_, .reading hm hs.here, hs⟩
      · exact ⟨_, .dictation hm hs.here, hs⟩
    · intro U hU
      cases hU with
      | knowledge e => rw [hm] at e; cases e
      | reading e hs => exact h2 _ _ hs (.inl rfl)
      | dictation e hs => rw [hm] at e; cases e; exact h2 _ _ hs (.inr ⟨rfl, rfl⟩)
      | music e => rw [hm] at e; cases e
      | transcription e => rw [hm] at e; cases e
  | musicPiece a p =>
    obtain ⟨h1, h2⟩ := music_from_texts M X prefs a p dir m g h
    constructor
    · intro u hu
      obtain ⟨path, q, ha, hs⟩ := h1 u hu
      exact ⟨_, .music hm ha, hs⟩
    · intro U hU
      cases hU with
      | knowledge e => rw [hm] at e; cases e
      | reading e => rw [hm] at e; cases e
      | dictation e => rw [hm] at e; cases e
      | music e ha => rw [hm] at e; cases e; exact h2 _ _ ha
      | transcription e => rw [hm] at e; cases e
  | transcription cfg =>
    obtain ⟨h1, h2⟩ := transcription_from_texts M X prefs cfg r dir hr hd m hm g h
    constructor
    · intro u hu
      obtain ⟨k, hk, hs⟩ := h1 u hu
      exact ⟨_, .transcription hm hk, hs⟩
    · intro U hU
      cases hU with
      | knowledge e => rw [hm] at e; cases e
      | reading e => rw [hm] at e; cases e
      | dictation e => rw [hm] at e; cases e
      | music e => rw [hm] at e; cases e
      | transcription e hk => rw [hm] at e; cases e; exact h2 _ hk

theorem counts_entry {M : Machine F} {ignored : List Str} {p r : Path} (h : Counts M ignored p) (hr : M.home = some r) :
    Entry M.tree (r ++ p.dropLast) courseFile := by
  obtain ⟨⟨r', hr', hk⟩, _, hl, _⟩ := h
  rw [hr] at hr'
  cases hr'
  refine ⟨_, hk, ?_⟩
  have : p = p.dropLast ++ [courseFile] := (List.dropLast_append_getLast? _ hl).symm
  rw [List.append_assoc, ← this]
  exact List.prefix_rfl

/-! ### Theorems -/

/-- **C91, the library.**  An opened library serves, of every course whose text asks for a generator, exactly the
lessons and exercises due by the texts of its directory: whatever is due is there with its exercises, and
whatever is there and not in a lesson file is due. -/
theorem generated_served (M : Machine F) (X : Outside) (hX : X.Fair) (lib : Lib Rest Generator)
    (h : Opens (M.real X) lib) :
    ∃ prefs, Prefers M prefs ∧
    (∀ p m r, Counts M prefs.ignoredPaths p → CourseText M p m → M.home = some r →
      ∀ U, Due M X prefs (r ++ p.dropLast) m U →
        ∃ l es, U (l, es) ∧ lib.getLessonManifest l.id = some l ∧ ∀ e ∈ es, lib.getExerciseManifest e.id = some e) ∧
    (∀ u l, lib.getLessonManifest u = some l → ∃ p m r, Counts M prefs.ignoredPaths p ∧ CourseText M p m ∧
      M.home = some r ∧ ((∃ U es, Due M X prefs (r ++ p.dropLast) m U ∧ U (l, es)) ∨
        ∃ q, Beside M p.dropLast lessonFile q ∧ LessonText M q l)) ∧
    (∀ u e, lib.getExerciseManifest u = some e → ∃ p m r, Counts M prefs.ignoredPaths p ∧ CourseText M p m ∧
      M.home = some r ∧ ((∃ U l es, Due M X prefs (r ++ p.dropLast) m U ∧ U (l, es) ∧ e ∈ es) ∨
        ∃ q q', Beside M p.dropLast lessonFile q ∧ Beside M q.dropLast exerciseFile q' ∧ ExerciseText M q' e)) := by
  have hg := real_proper M X
  obtain ⟨ignored, hi, hl⟩ := opens_ignores h
  obtain ⟨prefs, hp, rfl⟩ := prefers_of_ignores (M := M) hi
  have hpe := prefs_eq hp
  have hman := library_manifests hg hl
  unfold DiskLesson DiskExercise at hman
  simp only [diskCourse_iff, isBelow_iff, lesson_text_iff, exercise_text_iff] at hman
  obtain ⟨cs, _, _, hoc, _, _, _, _⟩ := loads_inv hg hl
  have hrd := ((openCourses_exact _ _ _).1 hoc).1
  have due : ∀ {p m r cfg g}, Counts M prefs.ignoredPaths p → M.home = some r → m.gen = some cfg →
      (M.real X).disk.generate cfg p.dropLast m = some g → _ := fun {p m r cfg g} hc hr hm hgen =>
    due_of_made (M := M) hX (prefs := prefs) hr ⟨_, counts_entry hc hr⟩ hm
      (show M.gen X prefs cfg p.dropLast m = some g by rw [← hpe]; exact hgen)
  refine ⟨prefs, hp, ?_, ?_, ?_⟩
  · intro p m r hc hm hr U hU
    obtain ⟨cfg, hcfg⟩ : ∃ cfg, m.gen = some cfg := by cases hU <;> exact ⟨_, by assumption⟩
    obtain ⟨g, hgen⟩ := hrd.generates p m cfg ((isCourseFile_iff (M.real X) _ p).mpr hc)
      ((course_text_iff (M.real X) _ _).mpr hm) hcfg
    obtain ⟨⟨l, es⟩, hu, hUu⟩ := (due hc hr hcfg hgen).2 U hU
    have hat : CourseAt (M.real X) prefs.ignoredPaths p.dropLast _ g.lessons :=
      ⟨p, m, hc, rfl, hm, .inr ⟨cfg, g, hcfg, hgen, rfl, rfl⟩⟩
    exact ⟨l, es, hUu, ((hman _).2.1 l).mpr ⟨⟨_, _, _, hat, .inl ⟨es, hu⟩⟩, rfl⟩,
      fun e he => ((hman _).2.2 e).mpr ⟨⟨_, _, _, hat, .inl ⟨l, es, hu, he⟩⟩, rfl⟩⟩
  · intro u l hul
    obtain ⟨⟨dir, c, gen, ⟨p, m, hc, rfl, hm, hin⟩, hw⟩, _⟩ := ((hman u).2.1 l).mp hul
    obtain ⟨r, hr, _⟩ := hc.1
    refine ⟨p, m, r, hc, hm, hr, ?_⟩
    rcases hw with ⟨es, hw⟩ | hw
    · rcases hin with ⟨_, _, rfl⟩ | ⟨cfg, g, hcfg, hgen, rfl, _⟩
      · cases hw
      · obtain ⟨U, h1, h2⟩ := (due hc hr hcfg hgen).1 _ hw
        exact .inl ⟨U, es, h1, h2⟩
    · exact .inr hw
  · intro u e hue
    obtain ⟨⟨dir, c, gen, ⟨p, m, hc, rfl, hm, hin⟩, hw⟩, _⟩ := ((hman u).2.2 e).mp hue
    obtain ⟨r, hr, _⟩ := hc.1
    refine ⟨p, m, r, hc, hm, hr, ?_⟩
    rcases hw with ⟨l, es, hw, he⟩ | hw
    · rcases hin with ⟨_, _, rfl⟩ | ⟨cfg, g, hcfg, hgen, rfl, _⟩
      · cases hw
      · obtain ⟨U, h1, h2⟩ := (due hc hr hcfg hgen).1 _ hw
        exact .inl ⟨U, l, es, h1, h2, he⟩
    · exact .inr hw

end Trane.Tree
