import Verif.Tree.GenFiles
import Verif.Gen.KnowledgeProps

/-!
# C91: a knowledge base course is what the texts in its directory say
-/

namespace Trane.Tree
open Trane.Store (Str)
open Trane.Library
open Trane.Assets (join)
open Trane.Json (readAs Generator decStr decList decWeights decMetadata decKind UserPreferences)
open Trane.Gen

variable {F α : Type}

/-! ### Specification -/

/-- A unit named in a file of a lesson of the course `c` in the directory `p`: the short id of a lesson of the
course stands for that lesson, anything else for itself. -/
def Refers (t : Tree) (p : Path) (c ref id : Str) : Prop :=
  (LessonAt t p ref ∧ id = c ++ "::".toList ++ ref) ∨ (¬ LessonAt t p ref ∧ id = ref)

/-- The asset for a text of a lesson is the mere name of the file, if there is one. -/
def Named (t : Tree) (d : Path) (n : Str) (o : Option Assets.BasicAsset) : Prop :=
  (Entry t d n ∧ o = some (.markdown n)) ∨ (¬ Entry t d n ∧ o = none)

/-- `m` is what the files of `s.lesson` say about the lesson. -/
structure KnowledgeLesson (M : Machine F) (p : Path) (c s : Str) (m : LessonM Rest) : Prop where
  id : m.id = c ++ "::".toList ++ s
  course : m.courseId = c
  deps : ∃ ids, ListText M.tree (p ++ [s ++ ".lesson".toList]) "lesson.dependencies.json".toList (decList decStr) ids ∧
    List.Forall₂ (Refers M.tree p c) ids m.deps
  enc : ∃ ids, ListText M.tree (p ++ [s ++ ".lesson".toList]) "lesson.encompassed.json".toList
      (decWeights M.floats) ids ∧
    List.Forall₂ (fun a b => Refers M.tree p c a.1 b.1 ∧ b.2 = M.val a.2) ids m.enc
  sup : ∃ ids, ListText M.tree (p ++ [s ++ ".lesson".toList]) "lesson.superseded.json".toList (decList decStr) ids ∧
    List.Forall₂ (Refers M.tree p c) ids m.sup
  metadata : OptText M.tree (p ++ [s ++ ".lesson".toList]) "lesson.metadata.json".toList decMetadata m.metadata
  rest : ∃ name descr material instr, m.rest = .lesson (name.getD ("Lesson ".toList ++ s)) descr material instr ∧
    OptText M.tree (p ++ [s ++ ".lesson".toList]) "lesson.name.json".toList decStr name ∧
    OptText M.tree (p ++ [s ++ ".lesson".toList]) "lesson.description.json".toList decStr descr ∧
    Named M.tree (p ++ [s ++ ".lesson".toList]) "lesson.material.md".toList material ∧
    Named M.tree (p ++ [s ++ ".lesson".toList]) "lesson.instructions.md".toList instr

/-- The files of an exercise: those of an exercise with the short id `lesson` would have the names of files of
the lesson. -/
def ExerciseOpt (t : Tree) (d : Path) (x suffix : Str) (dec : Json.Json → Option α) (o : Option α) : Prop :=
  (x = "lesson".toList ∧ o = none) ∨ (x ≠ "lesson".toList ∧ OptText t d (x ++ suffix) dec o)

/-- The sides of the flashcard of the exercise `x` in the directory `d`: the texts of the files if the course is
to be inlined, else paths that lead to the files. -/
def Sides (M : Machine F) (inlined : Bool) (d : Path) (x : Str) (a : Assets.ExerciseAsset) : Prop :=
  (inlined = true ∧ ∃ f b, a = .inlineFlashcard f b ∧ M.tree.find (d ++ [x ++ ".front.md".toList]) = some f ∧
    ((∃ t, M.tree.find (d ++ [x ++ ".back.md".toList]) = some t ∧ b = some t) ∨
      (¬ Entry M.tree d (x ++ ".back.md".toList) ∧ b = none))) ∨
  (inlined = false ∧ ∃ f b, a = .flashcard f b ∧ PathTo M f (d ++ [x ++ ".front.md".toList]) ∧
    ((∃ t, Entry M.tree d (x ++ ".back.md".toList) ∧ b = some t ∧ PathTo M t (d ++ [x ++ ".back.md".toList])) ∨
      (¬ Entry M.tree d (x ++ ".back.md".toList) ∧ b = none)))

/-- `m` is what the files in `s.lesson` say about the exercise `x`. -/
structure KnowledgeExercise (M : Machine F) (inlined : Bool) (p : Path) (c s x : Str) (m : ExerciseM Rest) : Prop where
  id : m.id = c ++ "::".toList ++ s ++ "::".toList ++ x
  lesson : m.lessonId = c ++ "::".toList ++ s
  course : m.courseId = c
  rest : ∃ name descr type dflt asset,
    m.rest = .exercise (name.getD ("Exercise ".toList ++ x)) descr (type.getD (dflt.getD false)) asset ∧
    ExerciseOpt M.tree (p ++ [s ++ ".lesson".toList]) x ".name.json".toList decStr name ∧
    ExerciseOpt M.tree (p ++ [s ++ ".lesson".toList]) x ".description.json".toList decStr descr ∧
    OptText M.tree (p ++ [s ++ ".lesson".toList]) (x ++ ".type.json".toList) decKind type ∧
    OptText M.tree (p ++ [s ++ ".lesson".toList]) "lesson.default_exercise_type.json".toList decKind dflt ∧
    Sides M inlined (p ++ [s ++ ".lesson".toList]) x asset

/-- `x` is an exercise of the lesson: there is a front file. -/
def FrontAt (t : Tree) (p : Path) (s x : Str) : Prop :=
  x ≠ [] ∧ Entry t (p ++ [s ++ ".lesson".toList]) (x ++ ".front.md".toList)

/-- The lesson of `s.lesson` with its exercises. -/
def KnowledgeUnit (M : Machine F) (inlined : Bool) (p : Path) (c s : Str)
    (u : LessonM Rest × List (ExerciseM Rest)) : Prop :=
  LessonAt M.tree p s ∧ KnowledgeLesson M p c s u.1 ∧
  (∀ e ∈ u.2, ∃ x, FrontAt M.tree p s x ∧ KnowledgeExercise M inlined p c s x e) ∧
  (∀ x, FrontAt M.tree p s x → ∃ e ∈ u.2, KnowledgeExercise M inlined p c s x e)

/-- The file, if it is there, has a text that is read. -/
def ReadsAs (t : Tree) (d : Path) (n : Str) (dec : Json.Json → Option α) : Prop :=
  Entry t d n → ∃ x, JsonText t (d ++ [n]) dec x

/-- The entry, if it is there, is a file. -/
def IsText (t : Tree) (d : Path) (n : Str) : Prop := Entry t d n → ∃ text, t.find (d ++ [n]) = some text

/-- Every file in the directory of a lesson that matters can be read: those of the lesson, and those of exercises
that have a front file.  The sides of flashcards only matter if the course is to be inlined. -/
structure KnowledgeReadable (M : Machine F) (inlined : Bool) (p : Path) (s : Str) : Prop where
  deps : ReadsAs M.tree (p ++ [s ++ ".lesson".toList]) "lesson.dependencies.json".toList (decList decStr)
  enc : ReadsAs M.tree (p ++ [s ++ ".lesson".toList]) "lesson.encompassed.json".toList (decWeights M.floats)
  sup : ReadsAs M.tree (p ++ [s ++ ".lesson".toList]) "lesson.superseded.json".toList (decList decStr)
  name : ReadsAs M.tree (p ++ [s ++ ".lesson".toList]) "lesson.name.json".toList decStr
  descr : ReadsAs M.tree (p ++ [s ++ ".lesson".toList]) "lesson.description.json".toList decStr
  metadata : ReadsAs M.tree (p ++ [s ++ ".lesson".toList]) "lesson.metadata.json".toList decMetadata
  type : ReadsAs M.tree (p ++ [s ++ ".lesson".toList]) "lesson.default_exercise_type.json".toList decKind
  exName : ∀ x, FrontAt M.tree p s x → ReadsAs M.tree (p ++ [s ++ ".lesson".toList]) (x ++ ".name.json".toList) decStr
  exDescr : ∀ x, FrontAt M.tree p s x →
    ReadsAs M.tree (p ++ [s ++ ".lesson".toList]) (x ++ ".description.json".toList) decStr
  exType : ∀ x, FrontAt M.tree p s x → ReadsAs M.tree (p ++ [s ++ ".lesson".toList]) (x ++ ".type.json".toList) decKind
  sides : inlined = true → ∀ x, FrontAt M.tree p s x →
    IsText M.tree (p ++ [s ++ ".lesson".toList]) (x ++ ".front.md".toList) ∧
    IsText M.tree (p ++ [s ++ ".lesson".toList]) (x ++ ".back.md".toList)

/-! ### Lemmas -/

/-- What the generator is given for a directory. -/
def kbFiles (M : Machine F) (d : Path) : List (Str × Knowledge.Content) :=
  (M.names d).map (fun f => (f, M.knowledgeContent f (M.tree.find (d ++ [f]))))

section
variable {M : Machine F} {d : Path} {k : Knowledge.File}

theorem kb_has {ct : Knowledge.Content} : Knowledge.Has (kbFiles M d) k ct ↔
    Entry M.tree d k.fileName ∧ ct = M.knowledgeContent k.fileName (M.tree.find (d ++ [k.fileName])) ∧
      ¬ Knowledge.Taken k := by
  unfold Knowledge.Has kbFiles
  constructor
  · rintro ⟨h, ht⟩
    obtain ⟨f, hf, he⟩ := List.mem_map.mp h
    obtain ⟨rfl, rfl⟩ := Prod.mk.inj he
    exact ⟨mem_names.mp hf, rfl, ht⟩
  · rintro ⟨h, rfl, ht⟩
    exact ⟨List.mem_map.mpr ⟨_, mem_names.mpr h, rfl⟩, ht⟩

theorem kb_opt {dec : Json.Json → Option α} {β : Type} {f : α → β} {val : Knowledge.Content → Option β} {o : Option β}
    (hv : ∀ n t, val (M.knowledgeContent n t) = (t.bind (readAs dec)).map f) (hk : ¬ Knowledge.Taken k)
    (h : Knowledge.OptFrom (kbFiles M d) k val o) :
    ∃ o', OptText M.tree d k.fileName dec o' ∧ o = o'.map f := by
  rcases h with ⟨ct, x, hct, hx, rfl⟩ | ⟨hno, rfl⟩
  · obtain ⟨_, rfl, _⟩ := kb_has.mp hct
    rw [hv, Option.map_eq_some_iff] at hx
    obtain ⟨y, hy, rfl⟩ := hx
    exact ⟨some y, .inl ⟨y, jsonText_iff.mpr hy, rfl⟩, rfl⟩
  · exact ⟨none, .inr ⟨fun he => hno _ (kb_has.mpr ⟨he, rfl, hk⟩), rfl⟩, rfl⟩

theorem kb_opt_id {dec : Json.Json → Option α} {val : Knowledge.Content → Option α} {o : Option α}
    (hv : ∀ n t, val (M.knowledgeContent n t) = t.bind (readAs dec)) (hk : ¬ Knowledge.Taken k)
    (h : Knowledge.OptFrom (kbFiles M d) k val o) : OptText M.tree d k.fileName dec o := by
  obtain ⟨o', h1, rfl⟩ := kb_opt (f := id) (dec := dec) (by intro n t; rw [hv]; simp) hk h
  simpa using h1

theorem kb_list {dec : Json.Json → Option (List α)} {β : Type} {f : α → β} {val : Knowledge.Content → Option (List β)}
    {l : List β} (hv : ∀ n t, val (M.knowledgeContent n t) = (t.bind (readAs dec)).map (List.map f))
    (hk : ¬ Knowledge.Taken k) (h : Knowledge.ListFrom (kbFiles M d) k val l) :
    ∃ l', ListText M.tree d k.fileName dec l' ∧ l = l'.map f := by
  rcases h with ⟨ct, hct, hx⟩ | ⟨hno, rfl⟩
  · obtain ⟨_, rfl, _⟩ := kb_has.mp hct
    rw [hv, Option.map_eq_some_iff] at hx
    obtain ⟨y, hy, rfl⟩ := hx
    exact ⟨y, .inl (jsonText_iff.mpr hy), rfl⟩
  · exact ⟨[], .inr ⟨fun he => hno _ (kb_has.mpr ⟨he, rfl, hk⟩), rfl⟩, rfl⟩

theorem kb_list_id {dec : Json.Json → Option (List α)} {val : Knowledge.Content → Option (List α)}
    {l : List α} (hv : ∀ n t, val (M.knowledgeContent n t) = t.bind (readAs dec))
    (hk : ¬ Knowledge.Taken k) (h : Knowledge.ListFrom (kbFiles M d) k val l) :
    ListText M.tree d k.fileName dec l := by
  obtain ⟨o', h1, rfl⟩ := kb_list (f := id) (dec := dec) (by intro n t; rw [hv]; simp) hk h
  simpa using h1

theorem not_taken_lesson (h : k.exercise = none) : ¬ Knowledge.Taken k := by
  rintro (rfl | rfl) <;> cases h

theorem kb_exOpt {dec : Json.Json → Option α} {val : Knowledge.Content → Option α} {o : Option α} {x suffix : Str}
    (hv : ∀ n t, val (M.knowledgeContent n t) = t.bind (readAs dec)) (hn : k.fileName = x ++ suffix)
    (hk : Knowledge.Taken k ↔ x = "lesson".toList)
    (h : Knowledge.OptFrom (kbFiles M d) k val o) : ExerciseOpt M.tree d x suffix dec o := by
  by_cases hx : x = "lesson".toList
  · refine .inl ⟨hx, ?_⟩
    rcases h with ⟨ct, y, hct, _, _⟩ | ⟨_, h⟩
    · exact absurd (hk.mpr hx) (kb_has.mp hct).2.2
    · exact h
  · refine .inr ⟨hx, ?_⟩
    rw [← hn]
    exact kb_opt_id hv (fun e => hx (hk.mp e)) h

end

theorem means_refers {t : Tree} {p : Path} {c : Str} {short : List Str}
    (hs : ∀ s, s ∈ short ↔ LessonAt t p s) {ref id : Str} : Knowledge.Means c short ref id ↔ Refers t p c ref id := by
  unfold Knowledge.Means Refers Knowledge.lessonIdOf
  rw [hs]

theorem forall₂_imp {β γ : Type} {P Q : β → γ → Prop} (h : ∀ a b, P a b → Q a b) {l : List β} {m : List γ}
    (hl : List.Forall₂ P l m) : List.Forall₂ Q l m := List.Forall₂.imp h hl

theorem forall₂_left {β γ : Type} {P : β → γ → Prop} {l : List β} {m : List γ} (h : List.Forall₂ P l m) :
    ∀ a ∈ l, ∃ b ∈ m, P a b := by
  induction h with
  | nil => intro a ha; cases ha
  | cons hx _ ih =>
    intro a ha
    rcases List.mem_cons.mp ha with rfl | ha
    · exact ⟨_, List.mem_cons_self, hx⟩
    · obtain ⟨b, hb, hp⟩ := ih a ha
      exact ⟨b, List.mem_cons_of_mem _ hb, hp⟩

theorem forall₂_map_left {β γ δ : Type} {P : β → γ → Prop} {f : δ → β} {l : List δ} {m : List γ}
    (hl : List.Forall₂ P (l.map f) m) : List.Forall₂ (fun a b => P (f a) b) l m := by
  simpa using hl

section
variable {M : Machine F} {r dir : Path} {s x : Str}

theorem kb_card {inlined : Bool} {e : Knowledge.Exercise} {a : Knowledge.Card} (hr : M.home = some r)
    (he : Knowledge.ExerciseFrom (kbFiles M (r ++ dir ++ [s ++ ".lesson".toList])) e)
    (ha : Knowledge.IsCard inlined e a) :
    Sides M inlined (r ++ dir ++ [s ++ ".lesson".toList]) e.shortId
      (Machine.cardAsset (join (M.dirText dir) (s ++ Knowledge.lessonSuffix)) a) := by
  have hpath : ∀ n, Entry M.tree (r ++ dir ++ [s ++ ".lesson".toList]) n →
      PathTo M (join (join (M.dirText dir) (s ++ Knowledge.lessonSuffix)) n)
        (r ++ dir ++ [s ++ ".lesson".toList] ++ [n]) := by
    intro n hn
    have := pathTo_dirText (dir := dir ++ [s ++ ".lesson".toList, n]) hr (by
      obtain ⟨k, hk, hp⟩ := hn
      exact ⟨k, hk, by simpa using hp⟩)
    rw [dirText_append] at this
    rw [List.append_assoc, List.append_assoc]
    exact this
  obtain ⟨cf, hf, hfe⟩ := he.front
  obtain ⟨hf1, rfl, _⟩ := kb_has.mp hf
  rcases ha with ⟨rfl, f, h1, h2⟩ | ⟨rfl, h2⟩
  · refine .inl ⟨rfl, ?_⟩
    rw [hfe] at h1
    rcases he.back with ⟨cb, hb, hbe⟩ | ⟨hb, hbe⟩
    · obtain ⟨_, rfl, _⟩ := kb_has.mp hb
      rcases h2 with ⟨h3, _⟩ | ⟨b, h3, rfl⟩
      · rw [hbe] at h3; cases h3
      · rw [hbe] at h3
        exact ⟨f, some b, rfl, h1, .inl ⟨b, Option.some.inj h3, rfl⟩⟩
    · rcases h2 with ⟨h3, rfl⟩ | ⟨b, h3, _⟩
      · refine ⟨f, none, rfl, h1, .inr ⟨fun hb' => hb _ (kb_has.mpr ⟨hb', rfl, ?_⟩), rfl⟩⟩
        rintro (h | h) <;> cases h
      · rw [hbe] at h3; cases h3
  · refine .inr ⟨rfl, ?_⟩
    rcases he.back with ⟨cb, hb, hbe⟩ | ⟨hb, hbe⟩
    · obtain ⟨hb1, rfl, _⟩ := kb_has.mp hb
      rcases h2 with ⟨h3, _⟩ | ⟨_, rfl⟩
      · rw [hbe] at h3; cases h3
      · exact ⟨_, _, rfl, hpath _ hf1, .inl ⟨_, hb1, rfl, hpath _ hb1⟩⟩
    · rcases h2 with ⟨_, rfl⟩ | ⟨h3, _⟩
      · refine ⟨_, _, rfl, hpath _ hf1, .inr ⟨fun hb' => hb _ (kb_has.mpr ⟨hb', rfl, ?_⟩), rfl⟩⟩
        rintro (h | h) <;> cases h
      · exact absurd hbe h3

theorem kind_name (d : Bool) :
    decide ((if d then "Declarative".toList else "Procedural".toList) = "Declarative".toList) = d := by
  cases d <;> decide

theorem kb_exercise {inlined : Bool} {c : Str} {l : Knowledge.Lesson} {e : Knowledge.Exercise} {m : ExerciseM Rest}
    (hr : M.home = some r) (hl : Knowledge.LessonFrom (kbFiles M (r ++ dir ++ [s ++ ".lesson".toList])) s l)
    (he : Knowledge.ExerciseFrom (kbFiles M (r ++ dir ++ [s ++ ".lesson".toList])) e)
    (hm : Knowledge.IsExercise (M.knowledgeRest dir) inlined c s l e m) :
    FrontAt M.tree (r ++ dir) s e.shortId ∧ KnowledgeExercise M inlined (r ++ dir) c s e.shortId m := by
  obtain ⟨cf, hf, _⟩ := he.front
  refine ⟨⟨he.nonempty, (kb_has.mp hf).1⟩, hm.id, hm.lesson, hm.course, ?_⟩
  obtain ⟨name, type, a, hname, htype, hcard, hrest⟩ := hm.rest
  obtain ⟨t1, ht1, he1⟩ := kb_opt (f := fun d => if d then "Declarative".toList else "Procedural".toList)
    (dec := decKind) (by intro n t; cases t <;> rfl) (by rintro (h | h) <;> cases h) he.type
  obtain ⟨t2, ht2, he2⟩ := kb_opt (f := fun d => if d then "Declarative".toList else "Procedural".toList)
    (dec := decKind) (by intro n t; cases t <;> rfl) (not_taken_lesson rfl) hl.defaultType
  refine ⟨e.name, e.descr, t1, t2, _, ?_, ?_, ?_, ht1, ht2, kb_card hr he hcard⟩
  · rw [hrest]
    have hn : name = e.name.getD ("Exercise ".toList ++ e.shortId) := by
      rcases hname with h | ⟨h, rfl⟩ <;> rw [h] <;> rfl
    have hty : decide (type = "Declarative".toList) = t1.getD (t2.getD false) := by
      rcases htype with h | ⟨h, h'⟩ | ⟨h, h', rfl⟩
      · rw [he1] at h
        cases t1 with
        | none => cases h
        | some d => cases h; exact kind_name d
      · rw [he1] at h
        rw [he2] at h'
        cases t1 with
        | some d => cases h
        | none => cases t2 with
          | none => cases h'
          | some d => cases h'; exact kind_name d
      · rw [he1] at h
        rw [he2] at h'
        cases t1 with
        | some d => cases h
        | none => cases t2 with
          | some d => cases h'
          | none => decide
    rw [hn, ← hty]
    rfl
  · exact kb_exOpt (by intro n t; rfl) rfl (by simp [Knowledge.Taken]) he.name
  · exact kb_exOpt (by intro n t; rfl) rfl (by simp [Knowledge.Taken]) he.descr

theorem kb_lesson {c : Str} {short : List Str} {l : Knowledge.Lesson} {m : LessonM Rest}
    (hs : ∀ s, s ∈ short ↔ LessonAt M.tree (r ++ dir) s)
    (hl : Knowledge.LessonFrom (kbFiles M (r ++ dir ++ [s ++ ".lesson".toList])) s l)
    (hm : Knowledge.IsLesson (M.knowledgeRest dir) c short s l m) : KnowledgeLesson M (r ++ dir) c s m := by
  refine ⟨hm.id, hm.course, ?_, ?_, ?_, ?_, ?_⟩
  · exact ⟨l.deps, kb_list_id (by intro n t; rfl) (not_taken_lesson rfl) hl.deps,
      forall₂_imp (fun _ _ => (means_refers hs).mp) hm.deps⟩
  · obtain ⟨w, hw, he⟩ := kb_list (f := fun e : Str × F => (e.1, M.val e.2)) (dec := decWeights M.floats)
      (by intro n t; cases t <;> rfl) (not_taken_lesson rfl) hl.enc
    have h2 := hm.enc
    rw [he] at h2
    exact ⟨w, hw, forall₂_imp (fun a b h => ⟨(means_refers hs).mp h.1, h.2.symm⟩) (forall₂_map_left h2)⟩
  · exact ⟨l.sup, kb_list_id (by intro n t; rfl) (not_taken_lesson rfl) hl.sup,
      forall₂_imp (fun _ _ => (means_refers hs).mp) hm.sup⟩
  · rw [hm.metadata]
    exact kb_opt_id (by intro n t; rfl) (not_taken_lesson rfl) hl.metadata
  · obtain ⟨name, hname, hrest⟩ := hm.rest
    have hn : name = l.name.getD ("Lesson ".toList ++ s) := by
      rcases hname with h | ⟨h, rfl⟩ <;> rw [h] <;> rfl
    have hnamed : ∀ (b : Bool) (k : Knowledge.File), k.exercise = none →
        (b = true ↔ ∃ ct, Knowledge.Has (kbFiles M (r ++ dir ++ [s ++ ".lesson".toList])) k ct) →
        Named M.tree (r ++ dir ++ [s ++ ".lesson".toList]) k.fileName
          (if b then some (.markdown k.fileName) else none) := by
      intro b k hk hb
      have : b = true ↔ Entry M.tree (r ++ dir ++ [s ++ ".lesson".toList]) k.fileName :=
        hb.trans ⟨fun ⟨_, h⟩ => (kb_has.mp h).1, fun h => ⟨_, kb_has.mpr ⟨h, rfl, not_taken_lesson hk⟩⟩⟩
      cases b
      · exact .inr ⟨fun h => absurd (this.mpr h) (by decide), rfl⟩
      · exact .inl ⟨this.mp rfl, rfl⟩
    refine ⟨l.name, l.descr, _, _, ?_, kb_opt_id (by intro n t; rfl) (not_taken_lesson rfl) hl.name,
      kb_opt_id (by intro n t; rfl) (not_taken_lesson rfl) hl.descr,
      hnamed l.hasMaterial .material rfl hl.material, hnamed l.hasInstr .instr rfl hl.instr⟩
    rw [hrest, hn]
    rfl

end

section
variable {M : Machine F} {d : Path}

theorem reads_iff {dec : Json.Json → Option α} {n : Str} :
    (Entry M.tree d n → (M.tree.find (d ++ [n])).bind (readAs dec) ≠ none) ↔ ReadsAs M.tree d n dec := by
  unfold ReadsAs
  refine imp_congr Iff.rfl ?_
  rw [Option.ne_none_iff_exists']
  exact exists_congr fun x => jsonText_iff.symm

theorem isText_iff {n : Str} :
    (Entry M.tree d n → M.tree.find (d ++ [n]) ≠ none) ↔ IsText M.tree d n := by
  unfold IsText
  rw [Option.ne_none_iff_exists']

theorem kb_forall {k : Knowledge.File} {P : Knowledge.Content → Prop} (hk : ¬ Knowledge.Taken k) :
    (∀ ct, Knowledge.Has (kbFiles M d) k ct → P ct) ↔
      (Entry M.tree d k.fileName → P (M.knowledgeContent k.fileName (M.tree.find (d ++ [k.fileName])))) :=
  ⟨fun h he => h _ (kb_has.mpr ⟨he, rfl, hk⟩), fun h ct hc => by
    obtain ⟨h1, rfl, _⟩ := kb_has.mp hc
    exact h h1⟩

theorem bind_map_ne {β γ : Type} {o : Option β} {f : β → Option γ} {g : γ → α} :
    (o.bind fun t => (f t).map g) ≠ none ↔ o.bind f ≠ none := by
  cases o with
  | none => simp
  | some t => simp

theorem kb_readable {inlined : Bool} {p : Path} {s : Str} :
    Knowledge.DirReadable inlined (kbFiles M (p ++ [s ++ ".lesson".toList])) ↔ KnowledgeReadable M inlined p s := by
  have hfront : ∀ x, (x ≠ [] ∧ ∃ ct, Knowledge.Has (kbFiles M (p ++ [s ++ ".lesson".toList])) (.front x) ct) ↔
      FrontAt M.tree p s x := fun x => and_congr Iff.rfl
    ⟨fun ⟨_, h⟩ => (kb_has.mp h).1, fun h => ⟨_, kb_has.mpr ⟨h, rfl, by rintro (h | h) <;> cases h⟩⟩⟩
  constructor
  · rintro ⟨h1, h2⟩
    have h2' : ∀ x, FrontAt M.tree p s x → _ := fun x hx => h2 x ((hfront x).mpr hx).1 ((hfront x).mpr hx).2
    have hl : ∀ k, k.exercise = none → ∀ ct, Knowledge.Has (kbFiles M (p ++ [s ++ ".lesson".toList])) k ct →
      Knowledge.LessonReadable k ct := fun k hk ct hc => h1 k ct hc hk
    have hname := reads_iff.mp ((kb_forall (not_taken_lesson rfl)).mp (hl .name rfl))
    have hdescr := reads_iff.mp ((kb_forall (not_taken_lesson rfl)).mp (hl .descr rfl))
    refine ⟨reads_iff.mp ((kb_forall (not_taken_lesson rfl)).mp (hl .deps rfl)), ?_,
      reads_iff.mp ((kb_forall (not_taken_lesson rfl)).mp (hl .sup rfl)), hname, hdescr,
      reads_iff.mp ((kb_forall (not_taken_lesson rfl)).mp (hl .metadata rfl)), ?_, ?_, ?_, ?_, ?_⟩
    · exact reads_iff.mp fun he => bind_map_ne.mp ((kb_forall (not_taken_lesson rfl)).mp (hl .enc rfl) he)
    · exact reads_iff.mp fun he => bind_map_ne.mp ((kb_forall (not_taken_lesson rfl)).mp (hl .defaultType rfl) he)
    · intro x hx
      by_cases hxl : x = "lesson".toList
      · rw [hxl]; exact hname
      · exact reads_iff.mp ((kb_forall (k := .exName x) (by simpa [Knowledge.Taken] using hxl)).mp
          fun ct hc => h2' x hx (.exName x) ct hc rfl)
    · intro x hx
      by_cases hxl : x = "lesson".toList
      · rw [hxl]; exact hdescr
      · exact reads_iff.mp ((kb_forall (k := .exDescr x) (by simpa [Knowledge.Taken] using hxl)).mp
          fun ct hc => h2' x hx (.exDescr x) ct hc rfl)
    · intro x hx
      exact reads_iff.mp fun he => bind_map_ne.mp ((kb_forall (k := .exType x) (by rintro (h | h) <;> cases h)).mp
          (fun ct hc => h2' x hx (.exType x) ct hc rfl) he)
    · intro hi x hx
      exact ⟨isText_iff.mp fun he => (kb_forall (k := .front x) (by rintro (h | h) <;> cases h)).mp
          (fun ct hc => h2' x hx (.front x) ct hc rfl) he hi,
        isText_iff.mp fun he => (kb_forall (k := .back x) (by rintro (h | h) <;> cases h)).mp
          (fun ct hc => h2' x hx (.back x) ct hc rfl) he hi⟩
  · intro h
    constructor
    · intro k ct hc hk
      obtain ⟨he, rfl, ht⟩ := kb_has.mp hc
      cases k with
      | deps => exact reads_iff.mpr h.deps he
      | enc => exact bind_map_ne.mpr (reads_iff.mpr h.enc he)
      | sup => exact reads_iff.mpr h.sup he
      | name => exact reads_iff.mpr h.name he
      | descr => exact reads_iff.mpr h.descr he
      | metadata => exact reads_iff.mpr h.metadata he
      | defaultType => exact bind_map_ne.mpr (reads_iff.mpr h.type he)
      | _ => trivial
    · intro x hx hf k ct hc hk
      have hF := (hfront x).mp ⟨hx, hf⟩
      obtain ⟨he, rfl, ht⟩ := kb_has.mp hc
      cases k with
      | exName y => cases hk; exact reads_iff.mpr (h.exName x hF) he
      | exDescr y => cases hk; exact reads_iff.mpr (h.exDescr x hF) he
      | exType y => cases hk; exact bind_map_ne.mpr (reads_iff.mpr (h.exType x hF) he)
      | front y => cases hk; exact fun hi => isText_iff.mpr (h.sides hi x hF).1 he
      | back y => cases hk; exact fun hi => isText_iff.mpr (h.sides hi x hF).2 he
      | _ => trivial

end

theorem kb_dirs {M : Machine F} {p : Path} {dirs : List (Str × List (Str × Knowledge.Content))}
    (hd : M.subdirs p M.knowledgeContent = some dirs) (s : Str) (files : List (Str × Knowledge.Content)) :
    Knowledge.LessonDir dirs s files ↔ LessonAt M.tree p s ∧ files = kbFiles M (p ++ [s ++ ".lesson".toList]) := by
  unfold Knowledge.LessonDir
  rw [(subdirs_some hd).2.2]
  unfold LessonAt kbFiles
  simp

/-! ### Theorems -/

/-- **C91, knowledge base courses.**  The lessons are those of the directories `s.lesson` of the course, the exercises
those of the files `x.front.md` in them, with everything as the texts of the files say. -/
theorem knowledge_from_texts (M : Machine F) (X : Outside) (hX : X.Fair) (prefs : UserPreferences) (inlined : Bool)
    (r dir : Path) (hr : M.home = some r) (c : CourseM Rest Generator) (g : Generated Rest)
    (h : M.gen X prefs (.knowledgeBase inlined) dir c = some g) :
    (∀ u ∈ g.lessons, ∃ s, KnowledgeUnit M inlined (r ++ dir) c.id s u) ∧
    (∀ s, LessonAt M.tree (r ++ dir) s → ∃ u ∈ g.lessons, KnowledgeUnit M inlined (r ++ dir) c.id s u) ∧
    (g.lessons.map (fun u => u.1.id)).Nodup ∧ g.metadata = none ∧ g.instructions = none := by
  unfold Machine.gen at h
  dsimp only at h
  rw [hr, Option.bind_some, Option.bind_eq_some_iff] at h
  obtain ⟨dirs, hd, h⟩ := h
  obtain ⟨hn, hfiles, _⟩ := subdirs_some hd
  have hdir := kb_dirs hd
  obtain ⟨short, h1, h2, h3, h4, h5, h6⟩ :=
    Knowledge.generate_exact _ _ _ _ dirs c hX.exercises hX.lessons hn hfiles g h
  have hs : ∀ s, s ∈ short ↔ LessonAt M.tree (r ++ dir) s := by
    intro s
    rw [h1]
    exact ⟨fun ⟨f, hf⟩ => ((hdir s f).mp hf).1, fun hf => ⟨_, (hdir s _).mpr ⟨hf, rfl⟩⟩⟩
  have key : ∀ u ∈ g.lessons, ∃ s, KnowledgeUnit M inlined (r ++ dir) c.id s u := by
    rintro ⟨m, es⟩ hu
    obtain ⟨s, files, l, exs, hld, hl, hex, hm, hes⟩ := h2 m es hu
    obtain ⟨hla, rfl⟩ := (hdir s files).mp hld
    refine ⟨s, hla, kb_lesson hs hl hm, ?_, ?_⟩
    · intro e he
      obtain ⟨e0, he0, hie⟩ := forall₂_right hes e he
      exact ⟨_, kb_exercise hr hl (hex.from_files e0 he0) hie⟩
    · intro x hx
      obtain ⟨e0, he0, rfl⟩ := hex.all x hx.1 ⟨_, kb_has.mpr ⟨hx.2, rfl, by rintro (h | h) <;> cases h⟩⟩
      obtain ⟨e, he, hie⟩ : ∃ e ∈ es, Knowledge.IsExercise (M.knowledgeRest dir) inlined c.id s l e0 e := by
        exact forall₂_left hes e0 he0
      exact ⟨e, he, (kb_exercise hr hl (hex.from_files e0 he0) hie).2⟩
  refine ⟨key, ?_, h4, h5, h6⟩
  intro s hsl
  obtain ⟨m, es, hm, hid⟩ := h3 s _ ((hdir s _).mpr ⟨hsl, rfl⟩)
  obtain ⟨s', hu⟩ := key _ hm
  have : s' = s := by
    have := hu.2.1.id
    dsimp only at this
    rw [hid] at this
    exact (List.append_cancel_left this).symm
  subst this
  exact ⟨_, hm, hu⟩

/-- **C91, when a knowledge base course can be read**: exactly when every file that matters can. -/
theorem knowledge_readable_iff (M : Machine F) (X : Outside) (hX : X.Fair) (prefs : UserPreferences) (inlined : Bool)
    (r dir : Path) (hr : M.home = some r) (hd : ∃ n, Entry M.tree (r ++ dir) n) (c : CourseM Rest Generator) :
    (∃ g, M.gen X prefs (.knowledgeBase inlined) dir c = some g) ↔
      ∀ s, LessonAt M.tree (r ++ dir) s → KnowledgeReadable M inlined (r ++ dir) s := by
  obtain ⟨dirs, hds⟩ : ∃ dirs, M.subdirs (r ++ dir) M.knowledgeContent = some dirs := by
    unfold Machine.subdirs
    rw [if_pos (isDir_iff.mpr (.inr hd))]
    exact ⟨_, rfl⟩
  obtain ⟨hn, hfiles, _⟩ := subdirs_some hds
  have hg : M.gen X prefs (.knowledgeBase inlined) dir c =
      Knowledge.generate (M.knowledgeRest dir) inlined X.exerciseOrder X.lessonOrder dirs c := by
    unfold Machine.gen
    dsimp only
    rw [hr, Option.bind_some, hds, Option.bind_some]
  rw [hg, ← Option.isSome_iff_exists, Knowledge.generate_succeeds_iff _ _ _ _ _ _ hX.exercises hX.lessons hn hfiles]
  constructor
  · intro h s hs
    exact kb_readable.mp (h s _ ((kb_dirs hds s _).mpr ⟨hs, rfl⟩))
  · intro h s files hf
    obtain ⟨hs, rfl⟩ := (kb_dirs hds s files).mp hf
    exact kb_readable.mpr (h s hs)

end Trane.Tree
