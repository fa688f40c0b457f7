import Verif.Gen.BuilderLemmas

/-!
# C73: courses written by the knowledge base builders

A course written by a builder and then opened holds the lessons and exercises the builder was given. -/

namespace Trane.Gen.Builder
open Trane.Store Trane.Library Trane.Gen Trane.Filters Trane.Gen.Knowledge

variable {α γ : Type} {parse : Str → Content}

/-! ### Specification -/

/-- The assets of an exercise are its flashcard: the front, and the back if there is one. -/
def FlashCard (e : ExerciseB) (front : Str) (back : Option Str) : Prop :=
  e.assets = ⟨e.shortId ++ ".front.md".toList, front⟩ ::
    (back.toList.map (fun b => ⟨e.shortId ++ ".back.md".toList, b⟩))

/-- The further files of a lesson do not look like files of the generator, other than those with the
instructions and the material of the lesson. -/
def PlainAssets (as : List Asset) : Prop :=
  ∀ a ∈ as, ∀ k : File, a.name = k.fileName → k = .instr ∨ k = .material

/-- What the round trip asks of a lesson builder. -/
structure Tidy (l : LessonB) : Prop where
  slash : '/' ∉ l.shortId
  assets : PlainAssets l.assets
  distinct : (l.exercises.map (·.shortId)).Nodup
  exercise : ∀ e ∈ l.exercises, e.shortId ≠ [] ∧ '/' ∉ e.shortId ∧ (∃ f b, FlashCard e f b) ∧
    (e.shortId = "lesson".toList → e.name = none ∧ e.descr = none)

/-- `m` is the manifest of the exercise that `e` describes, in the lesson `l` of course `c`. -/
structure ExerciseBuilt (R : Rest α) (inlined : Bool) (c : Str) (l : LessonB) (e : ExerciseB)
    (m : ExerciseM α) : Prop where
  id : m.id = exerciseIdOf c l.shortId e.shortId
  lesson : m.lessonId = lessonIdOf c l.shortId
  course : m.courseId = c
  rest : ∃ f b, FlashCard e f b ∧ m.rest = R.exercise l.shortId
    (e.name.getD ("Exercise ".toList ++ e.shortId)) e.descr
    (e.type.getD (l.defaultType.getD "Procedural".toList))
    (if inlined then .inline f b
      else .paths (e.shortId ++ ".front.md".toList) (b.map (fun _ => e.shortId ++ ".back.md".toList)))

/-- `m` is the manifest of the lesson that `l` describes, with the exercises `es`. -/
structure LessonBuilt (R : Rest α) (inlined : Bool) (c : Str) (short : List Str) (l : LessonB)
    (m : LessonM α) (es : List (ExerciseM α)) : Prop where
  id : m.id = lessonIdOf c l.shortId
  course : m.courseId = c
  deps : List.Forall₂ (Means c short) l.deps m.deps
  enc : List.Forall₂ (fun a b => Means c short a.1 b.1 ∧ a.2 = b.2) l.enc m.enc
  sup : List.Forall₂ (Means c short) l.sup m.sup
  metadata : m.metadata = l.metadata
  rest : ∃ hi hm : Bool, (hi = true ↔ ∃ a ∈ l.assets, a.name = "lesson.instructions.md".toList) ∧
    (hm = true ↔ ∃ a ∈ l.assets, a.name = "lesson.material.md".toList) ∧
    m.rest = R.lesson (l.name.getD ("Lesson ".toList ++ l.shortId)) l.descr hi hm
  exercises : ∃ bs : List ExerciseB, bs.Perm l.exercises ∧
    List.Forall₂ (ExerciseBuilt R inlined c l) bs es

/-! ### The files of a lesson -/

/-- What a lesson builder has to say in a file of kind `k`. -/
def Declares (parse : Str → Content) (l : LessonB) : File → Content → Prop
  | .deps, ct => l.deps ≠ [] ∧ ct = { ids := some l.deps }
  | .sup, ct => l.sup ≠ [] ∧ ct = { ids := some l.sup }
  | .enc, ct => l.enc ≠ [] ∧ ct = { weights := some l.enc }
  | .name, ct => ∃ x, l.name = some x ∧ ct = { text := some x }
  | .descr, ct => ∃ x, l.descr = some x ∧ ct = { text := some x }
  | .metadata, ct => ∃ x, l.metadata = some x ∧ ct = { metadata := some x }
  | .defaultType, ct => ∃ x, l.defaultType = some x ∧ ct = { type := some x }
  | .instr, ct => ∃ a ∈ l.assets, a.name = instrFile ∧ ct = parse a.contents
  | .material, ct => ∃ a ∈ l.assets, a.name = materialFile ∧ ct = parse a.contents
  | .front s, ct => ∃ e ∈ l.exercises, e.shortId = s ∧ ∃ f b, FlashCard e f b ∧ ct = parse f
  | .back s, ct => ∃ e ∈ l.exercises, e.shortId = s ∧ ∃ f b, FlashCard e f (some b) ∧ ct = parse b
  | .exName s, ct => ∃ e ∈ l.exercises, e.shortId = s ∧ ∃ x, e.name = some x ∧ ct = { text := some x }
  | .exDescr s, ct => ∃ e ∈ l.exercises, e.shortId = s ∧ ∃ x, e.descr = some x ∧ ct = { text := some x }
  | .exType s, ct => ∃ e ∈ l.exercises, e.shortId = s ∧ ∃ x, e.type = some x ∧ ct = { type := some x }

theorem kind_unique {k k' : File} (h : k.fileName = k'.fileName) (hk : ¬ Taken k) (hk' : ¬ Taken k') :
    k = k' := by
  have h1 := (classify_iff k.fileName k).2 ⟨rfl, hk⟩
  have h2 := (classify_iff k.fileName k').2 ⟨h, hk'⟩
  rw [h1] at h2
  injection h2

/-- Every write of an exercise is of a known kind. -/
theorem exercise_write {l : LessonB} (hl : Tidy l) {e : ExerciseB} (he : e ∈ l.exercises) {w : Write}
    (hw : w ∈ exerciseWrites e) : ∃ k, ¬ Taken k ∧ w.path = k.fileName ∧
      Declares parse l k (w.result parse) := by
  obtain ⟨hne, hsl, ⟨f, b, hfb⟩, hle⟩ := hl.exercise e he
  have nt : ∀ k : File, (∀ s, k ≠ .exName s) → (∀ s, k ≠ .exDescr s) → ¬ Taken k := by
    rintro k h1 h2 (h | h)
    · exact h1 _ h
    · exact h2 _ h
  unfold exerciseWrites at hw
  simp only [List.mem_append, List.mem_map, Option.mem_toList, Option.mem_def] at hw
  rcases hw with ((⟨a, ha, rfl⟩ | ⟨x, hx, rfl⟩) | ⟨x, hx, rfl⟩) | ⟨x, hx, rfl⟩
  · have ha' := ha
    rw [hfb] at ha'
    rcases List.mem_cons.1 ha' with rfl | hb
    · exact ⟨.front e.shortId, nt _ (by simp) (by simp), rfl, e, he, rfl, f, b, hfb, rfl⟩
    · obtain ⟨b', hb', rfl⟩ := List.mem_map.1 hb
      have hb' : b = some b' := by simpa using hb'
      subst hb'
      exact ⟨.back e.shortId, nt _ (by simp) (by simp), rfl, e, he, rfl, f, b', hfb, rfl⟩
  · refine ⟨.exName e.shortId, ?_, rfl, e, he, rfl, x, hx, rfl⟩
    rintro (h | h)
    · injection h with h
      rw [(hle h).1] at hx
      cases hx
    · cases h
  · refine ⟨.exDescr e.shortId, ?_, rfl, e, he, rfl, x, hx, rfl⟩
    rintro (h | h)
    · cases h
    · injection h with h
      rw [(hle h).2] at hx
      cases hx
  · exact ⟨.exType e.shortId, nt _ (by simp) (by simp), rfl, e, he, rfl, x, hx, rfl⟩

/-- Every write of a lesson is of a known kind or of no interest to the generator. -/
theorem lesson_write {l : LessonB} (hl : Tidy l) {w : Write} (hw : w ∈ lessonWrites l) :
    (∃ k, ¬ Taken k ∧ w.path = k.fileName ∧ Declares parse l k (w.result parse)) ∨
      ∀ k : File, w.path ≠ k.fileName := by
  unfold lessonWrites at hw
  simp only [List.mem_append, List.mem_map, Option.mem_toList, Option.mem_def, List.mem_flatMap] at hw
  have nt : ∀ k : File, (∀ s, k ≠ .exName s) → (∀ s, k ≠ .exDescr s) → ¬ Taken k := by
    rintro k h1 h2 (h | h)
    · exact h1 _ h
    · exact h2 _ h
  rcases hw with (((((((⟨a, ha, rfl⟩ | ⟨e, he, hw⟩) | ⟨x, hx, rfl⟩) | ⟨x, hx, rfl⟩) | hw) | hw) | hw) |
    ⟨x, hx, rfl⟩) | ⟨x, hx, rfl⟩
  · by_cases h : ∃ k : File, a.name = k.fileName
    · obtain ⟨k, hk⟩ := h
      left
      rcases hl.assets a ha k hk with rfl | rfl
      · exact ⟨_, nt _ (by simp) (by simp), hk, a, ha, hk, rfl⟩
      · exact ⟨_, nt _ (by simp) (by simp), hk, a, ha, hk, rfl⟩
    · right
      intro k hk
      exact h ⟨k, hk⟩
  · exact Or.inl (exercise_write hl he hw)
  · exact Or.inl ⟨.name, nt _ (by simp) (by simp), rfl, x, hx, rfl⟩
  · exact Or.inl ⟨.descr, nt _ (by simp) (by simp), rfl, x, hx, rfl⟩
  · split at hw
    · cases hw
    · rename_i h
      rw [List.mem_singleton] at hw
      subst hw
      exact Or.inl ⟨.deps, nt _ (by simp) (by simp), rfl, h, rfl⟩
  · split at hw
    · cases hw
    · rename_i h
      rw [List.mem_singleton] at hw
      subst hw
      exact Or.inl ⟨.sup, nt _ (by simp) (by simp), rfl, h, rfl⟩
  · split at hw
    · cases hw
    · rename_i h
      rw [List.mem_singleton] at hw
      subst hw
      exact Or.inl ⟨.enc, nt _ (by simp) (by simp), rfl, h, rfl⟩
  · exact Or.inl ⟨.metadata, nt _ (by simp) (by simp), rfl, x, hx, rfl⟩
  · exact Or.inl ⟨.defaultType, nt _ (by simp) (by simp), rfl, x, hx, rfl⟩

/-- Everything the builder has to say is written. -/
theorem declares_write {l : LessonB} {k : File} {ct : Content} (h : Declares parse l k ct) :
    ∃ w ∈ lessonWrites l, w.path = k.fileName := by
  have hex : ∀ e ∈ l.exercises, ∀ w ∈ exerciseWrites e, w ∈ lessonWrites l := by
    intro e he w hw
    unfold lessonWrites
    simp only [List.mem_append, List.mem_flatMap]
    exact Or.inl (Or.inl (Or.inl (Or.inl (Or.inl (Or.inl (Or.inl (Or.inr ⟨e, he, hw⟩)))))))
  cases k with
  | deps =>
    refine ⟨.json depsFile { ids := some l.deps }, ?_, rfl⟩
    unfold lessonWrites
    simp [h.1]
  | sup =>
    refine ⟨.json supFile { ids := some l.sup }, ?_, rfl⟩
    unfold lessonWrites
    simp [h.1]
  | enc =>
    refine ⟨.json encFile { weights := some l.enc }, ?_, rfl⟩
    unfold lessonWrites
    simp [h.1]
  | name =>
    obtain ⟨x, hx, rfl⟩ := h
    refine ⟨.json nameFile { text := some x }, ?_, rfl⟩
    unfold lessonWrites
    simp [hx]
  | descr =>
    obtain ⟨x, hx, rfl⟩ := h
    refine ⟨.json descrFile { text := some x }, ?_, rfl⟩
    unfold lessonWrites
    simp [hx]
  | metadata =>
    obtain ⟨x, hx, rfl⟩ := h
    refine ⟨.json metadataFile { metadata := some x }, ?_, rfl⟩
    unfold lessonWrites
    simp [hx]
  | defaultType =>
    obtain ⟨x, hx, rfl⟩ := h
    refine ⟨.json defaultTypeFile { type := some x }, ?_, rfl⟩
    unfold lessonWrites
    simp [hx]
  | instr =>
    obtain ⟨a, ha, hn, rfl⟩ := h
    refine ⟨.asset a, ?_, hn⟩
    unfold lessonWrites
    simp [ha]
  | material =>
    obtain ⟨a, ha, hn, rfl⟩ := h
    refine ⟨.asset a, ?_, hn⟩
    unfold lessonWrites
    simp [ha]
  | front s =>
    obtain ⟨e, he, rfl, f, b, hfb, rfl⟩ := h
    refine ⟨.asset ⟨e.shortId ++ frontSuffix, f⟩, hex e he _ ?_, rfl⟩
    unfold exerciseWrites
    refine List.mem_append_left _ (List.mem_append_left _ (List.mem_append_left _ (List.mem_map.2
      ⟨_, ?_, rfl⟩)))
    rw [hfb]
    exact List.mem_cons_self
  | back s =>
    obtain ⟨e, he, rfl, f, b, hfb, rfl⟩ := h
    refine ⟨.asset ⟨e.shortId ++ backSuffix, b⟩, hex e he _ ?_, rfl⟩
    unfold exerciseWrites
    refine List.mem_append_left _ (List.mem_append_left _ (List.mem_append_left _ (List.mem_map.2
      ⟨_, ?_, rfl⟩)))
    rw [hfb]
    exact List.mem_cons_of_mem _ List.mem_cons_self
  | exName s =>
    obtain ⟨e, he, rfl, x, hx, rfl⟩ := h
    refine ⟨.json (e.shortId ++ exNameSuffix) { text := some x }, hex e he _ ?_, rfl⟩
    unfold exerciseWrites
    simp [hx]
  | exDescr s =>
    obtain ⟨e, he, rfl, x, hx, rfl⟩ := h
    refine ⟨.json (e.shortId ++ exDescrSuffix) { text := some x }, hex e he _ ?_, rfl⟩
    unfold exerciseWrites
    simp [hx]
  | exType s =>
    obtain ⟨e, he, rfl, x, hx, rfl⟩ := h
    refine ⟨.json (e.shortId ++ exTypeSuffix) { type := some x }, hex e he _ ?_, rfl⟩
    unfold exerciseWrites
    simp [hx]

theorem flashCard_inj {e : ExerciseB} {f f' : Str} {b b' : Option Str} (h : FlashCard e f b)
    (h' : FlashCard e f' b') : f = f' ∧ b = b' := by
  unfold FlashCard at h h'
  rw [h] at h'
  injection h' with h1 h2
  injection h1 with _ h1
  refine ⟨h1, ?_⟩
  cases b <;> cases b' <;> simp_all

theorem exercise_unique {l : LessonB} (hl : Tidy l) {e e' : ExerciseB} (he : e ∈ l.exercises)
    (he' : e' ∈ l.exercises) (h : e.shortId = e'.shortId) : e = e' :=
  List.inj_on_of_nodup_map hl.distinct he he' h

/-- A builder says one thing in each file, but for the instructions and the material. -/
theorem declares_unique {l : LessonB} (hl : Tidy l) {k : File} (h1 : k ≠ .instr) (h2 : k ≠ .material)
    {ct ct' : Content} (h : Declares parse l k ct) (h' : Declares parse l k ct') : ct = ct' := by
  cases k with
  | deps => exact h.2.trans h'.2.symm
  | sup => exact h.2.trans h'.2.symm
  | enc => exact h.2.trans h'.2.symm
  | name =>
    obtain ⟨x, hx, rfl⟩ := h
    obtain ⟨y, hy, rfl⟩ := h'
    rw [hx] at hy
    injection hy with hy
    rw [hy]
  | descr =>
    obtain ⟨x, hx, rfl⟩ := h
    obtain ⟨y, hy, rfl⟩ := h'
    rw [hx] at hy
    injection hy with hy
    rw [hy]
  | metadata =>
    obtain ⟨x, hx, rfl⟩ := h
    obtain ⟨y, hy, rfl⟩ := h'
    rw [hx] at hy
    injection hy with hy
    rw [hy]
  | defaultType =>
    obtain ⟨x, hx, rfl⟩ := h
    obtain ⟨y, hy, rfl⟩ := h'
    rw [hx] at hy
    injection hy with hy
    rw [hy]
  | instr => exact (h1 rfl).elim
  | material => exact (h2 rfl).elim
  | front s =>
    obtain ⟨e, he, hs, f, b, hfb, rfl⟩ := h
    obtain ⟨e', he', hs', f', b', hfb', rfl⟩ := h'
    obtain rfl := exercise_unique hl he he' (hs.trans hs'.symm)
    rw [(flashCard_inj hfb hfb').1]
  | back s =>
    obtain ⟨e, he, hs, f, b, hfb, rfl⟩ := h
    obtain ⟨e', he', hs', f', b', hfb', rfl⟩ := h'
    obtain rfl := exercise_unique hl he he' (hs.trans hs'.symm)
    have := (flashCard_inj hfb hfb').2
    injection this with this
    rw [this]
  | exName s =>
    obtain ⟨e, he, hs, x, hx, rfl⟩ := h
    obtain ⟨e', he', hs', y, hy, rfl⟩ := h'
    obtain rfl := exercise_unique hl he he' (hs.trans hs'.symm)
    rw [hx] at hy
    injection hy with hy
    rw [hy]
  | exDescr s =>
    obtain ⟨e, he, hs, x, hx, rfl⟩ := h
    obtain ⟨e', he', hs', y, hy, rfl⟩ := h'
    obtain rfl := exercise_unique hl he he' (hs.trans hs'.symm)
    rw [hx] at hy
    injection hy with hy
    rw [hy]
  | exType s =>
    obtain ⟨e, he, hs, x, hx, rfl⟩ := h
    obtain ⟨e', he', hs', y, hy, rfl⟩ := h'
    obtain rfl := exercise_unique hl he he' (hs.trans hs'.symm)
    rw [hx] at hy
    injection hy with hy
    rw [hy]

theorem no_slash_name {l : LessonB} (hl : Tidy l) {k : File} {ct : Content}
    (h : Declares parse l k ct) : '/' ∉ k.fileName := by
  have hex : ∀ s, (∃ e ∈ l.exercises, e.shortId = s) → '/' ∉ s := by
    rintro s ⟨e, he, rfl⟩
    exact (hl.exercise e he).2.1
  have app : ∀ s t : Str, '/' ∉ s → '/' ∉ t → '/' ∉ s ++ t := by
    intro s t h1 h2 h
    rcases List.mem_append.1 h with h | h
    · exact h1 h
    · exact h2 h
  cases k with
  | front s => exact app _ _ (hex s (by obtain ⟨e, he, hs, _⟩ := h; exact ⟨e, he, hs⟩)) (by decide +kernel)
  | back s => exact app _ _ (hex s (by obtain ⟨e, he, hs, _⟩ := h; exact ⟨e, he, hs⟩)) (by decide +kernel)
  | exName s => exact app _ _ (hex s (by obtain ⟨e, he, hs, _⟩ := h; exact ⟨e, he, hs⟩)) (by decide +kernel)
  | exDescr s => exact app _ _ (hex s (by obtain ⟨e, he, hs, _⟩ := h; exact ⟨e, he, hs⟩)) (by decide +kernel)
  | exType s => exact app _ _ (hex s (by obtain ⟨e, he, hs, _⟩ := h; exact ⟨e, he, hs⟩)) (by decide +kernel)
  | _ => decide +kernel

/-- The files of a directory listed by the generator. -/
def listed (d : Dir) : List (Str × Content) := d.filter (fun f => !f.1.contains '/')

theorem has_listed {d : Dir} (hd : d.keys.Nodup) {k : File} {ct : Content} :
    Has (listed d) k ct ↔ d.find k.fileName = some ct ∧ '/' ∉ k.fileName ∧ ¬ Taken k := by
  unfold Has listed
  rw [List.mem_filter]
  have : (k.fileName, ct) ∈ d ↔ d.find k.fileName = some ct :=
    ⟨AMap.find_of_mem hd, AMap.mem_of_find⟩
  rw [this]
  simp only [List.contains_eq_mem, Bool.not_eq_true', decide_eq_false_iff_not]
  tauto

/-- What the files of a freshly built lesson say is what the builder had to say. -/
theorem has_declares {l : LessonB} (hl : Tidy l) {d : Dir} (h : buildLesson parse [] l = (d, true))
    {k : File} {ct : Content} (hk : Has (listed d) k ct) : Declares parse l k ct := by
  have hd : d.keys.Nodup := by
    have := writeAll_nodup (parse := parse) (d := []) (ws := lessonWrites l) (by simp [AMap.keys])
    unfold buildLesson at h
    rw [h] at this
    exact this
  obtain ⟨hf, hs, ht⟩ := (has_listed hd).1 hk
  rcases writeAll_find_some h hf with ⟨w, hw, hp, hr⟩ | ⟨_, h0⟩
  · rcases lesson_write (parse := parse) hl hw with ⟨k', hk', hp', hdec⟩ | hno
    · obtain rfl := kind_unique (hp.symm.trans hp') ht hk'
      rw [hr] at hdec
      exact hdec
    · exact (hno k hp).elim
  · cases h0

theorem declares_not_taken {l : LessonB} (hl : Tidy l) {k : File} {ct : Content}
    (h : Declares parse l k ct) : ¬ Taken k := by
  rintro (rfl | rfl)
  · obtain ⟨e, he, hs, x, hx, _⟩ := h
    rw [((hl.exercise e he).2.2.2 hs).1] at hx
    cases hx
  · obtain ⟨e, he, hs, x, hx, _⟩ := h
    rw [((hl.exercise e he).2.2.2 hs).2] at hx
    cases hx

theorem declares_has {l : LessonB} (hl : Tidy l) {d : Dir} (h : buildLesson parse [] l = (d, true))
    {k : File} {ct : Content} (hk : Declares parse l k ct) : ∃ ct', Has (listed d) k ct' := by
  have hd : d.keys.Nodup := by
    have := writeAll_nodup (parse := parse) (d := []) (ws := lessonWrites l) (by simp [AMap.keys])
    unfold buildLesson at h
    rw [h] at this
    exact this
  obtain ⟨w, hw, hp⟩ := declares_write hk
  obtain ⟨ct', h'⟩ := writeAll_find h (Or.inl ⟨w, hw, hp⟩)
  exact ⟨ct', (has_listed hd).2 ⟨h', no_slash_name hl hk, declares_not_taken hl hk⟩⟩

/-- **C73, the files of a lesson**: a file other than the instructions and the material holds exactly what
the builder says. -/
theorem has_iff {l : LessonB} (hl : Tidy l) {d : Dir} (h : buildLesson parse [] l = (d, true))
    {k : File} (h1 : k ≠ .instr) (h2 : k ≠ .material) {ct : Content} :
    Has (listed d) k ct ↔ Declares parse l k ct := by
  refine ⟨has_declares hl h, fun hk => ?_⟩
  obtain ⟨ct', h'⟩ := declares_has hl h hk
  rw [declares_unique hl h1 h2 hk (has_declares hl h h')]
  exact h'

/-! ### Reading the lesson back -/

theorem list_back {X : Type} {files : List (Str × Content)} {k : File}
    {val : Content → Option (List X)} {x y : List X} (h : ListFrom files k val x)
    (hsome : ∀ ct, Has files k ct → val ct = some y) (hnone : y ≠ [] → ∃ ct, Has files k ct) :
    x = y := by
  rcases h with ⟨ct, hc, hv⟩ | ⟨hno, rfl⟩
  · rw [hsome ct hc] at hv
    injection hv with hv
    exact hv.symm
  · by_contra hne
    obtain ⟨ct, hc⟩ := hnone (Ne.symm hne)
    exact hno ct hc

theorem opt_back {X : Type} {files : List (Str × Content)} {k : File}
    {val : Content → Option X} {x y : Option X} (h : OptFrom files k val x)
    (hsome : ∀ ct, Has files k ct → val ct = y) (hnone : y ≠ none → ∃ ct, Has files k ct) :
    x = y := by
  rcases h with ⟨ct, z, hc, hv, rfl⟩ | ⟨hno, rfl⟩
  · rw [← hv, hsome ct hc]
  · by_contra hne
    obtain ⟨ct, hc⟩ := hnone (Ne.symm hne)
    exact hno ct hc

/-- The lesson read back. -/
structure ReadBack (l : LessonB) (L : Lesson) : Prop where
  shortId : L.shortId = l.shortId
  deps : L.deps = l.deps
  enc : L.enc = l.enc
  sup : L.sup = l.sup
  name : L.name = l.name
  descr : L.descr = l.descr
  metadata : L.metadata = l.metadata
  defaultType : L.defaultType = l.defaultType
  instr : L.hasInstr = true ↔ ∃ a ∈ l.assets, a.name = "lesson.instructions.md".toList
  material : L.hasMaterial = true ↔ ∃ a ∈ l.assets, a.name = "lesson.material.md".toList

theorem read_back {l : LessonB} (hl : Tidy l) {d : Dir} (h : buildLesson parse [] l = (d, true))
    {L : Lesson} (hL : LessonFrom (listed d) l.shortId L) : ReadBack l L := by
  have hd := @has_declares parse l hl d h
  have hh := @declares_has parse l hl d h
  refine ⟨hL.shortId, ?_, ?_, ?_, ?_, ?_, ?_, ?_, ?_, ?_⟩
  · refine list_back hL.deps (fun ct hc => ?_) (fun hne => hh (k := .deps) ⟨hne, rfl⟩)
    obtain ⟨_, rfl⟩ := hd hc
    rfl
  · refine list_back hL.enc (fun ct hc => ?_) (fun hne => hh (k := .enc) ⟨hne, rfl⟩)
    obtain ⟨_, rfl⟩ := hd hc
    rfl
  · refine list_back hL.sup (fun ct hc => ?_) (fun hne => hh (k := .sup) ⟨hne, rfl⟩)
    obtain ⟨_, rfl⟩ := hd hc
    rfl
  · refine opt_back hL.name (fun ct hc => ?_) (fun hne => ?_)
    · obtain ⟨x, hx, rfl⟩ := hd hc
      exact hx.symm
    · obtain ⟨x, hx⟩ := Option.ne_none_iff_exists'.1 hne
      exact hh (k := .name) ⟨x, hx, rfl⟩
  · refine opt_back hL.descr (fun ct hc => ?_) (fun hne => ?_)
    · obtain ⟨x, hx, rfl⟩ := hd hc
      exact hx.symm
    · obtain ⟨x, hx⟩ := Option.ne_none_iff_exists'.1 hne
      exact hh (k := .descr) ⟨x, hx, rfl⟩
  · refine opt_back hL.metadata (fun ct hc => ?_) (fun hne => ?_)
    · obtain ⟨x, hx, rfl⟩ := hd hc
      exact hx.symm
    · obtain ⟨x, hx⟩ := Option.ne_none_iff_exists'.1 hne
      exact hh (k := .metadata) ⟨x, hx, rfl⟩
  · refine opt_back hL.defaultType (fun ct hc => ?_) (fun hne => ?_)
    · obtain ⟨x, hx, rfl⟩ := hd hc
      exact hx.symm
    · obtain ⟨x, hx⟩ := Option.ne_none_iff_exists'.1 hne
      exact hh (k := .defaultType) ⟨x, hx, rfl⟩
  · rw [hL.instr]
    constructor
    · rintro ⟨ct, hc⟩
      obtain ⟨a, ha, hn, _⟩ := hd hc
      exact ⟨a, ha, hn⟩
    · rintro ⟨a, ha, hn⟩
      exact hh (k := .instr) ⟨a, ha, hn, rfl⟩
  · rw [hL.material]
    constructor
    · rintro ⟨ct, hc⟩
      obtain ⟨a, ha, hn, _⟩ := hd hc
      exact ⟨a, ha, hn⟩
    · rintro ⟨a, ha, hn⟩
      exact hh (k := .material) ⟨a, ha, hn, rfl⟩

/-- The exercise read back. -/
structure ExReadBack (e : ExerciseB) (E : Exercise) : Prop where
  shortId : E.shortId = e.shortId
  name : E.name = e.name
  descr : E.descr = e.descr
  type : E.type = e.type
  card : ∃ f b, FlashCard e f b ∧ E.front = some f ∧ E.back = b.map some

theorem ex_read_back (hp : ∀ t, (parse t).md = some t) {l : LessonB} (hl : Tidy l) {d : Dir}
    (h : buildLesson parse [] l = (d, true)) {E : Exercise} (hE : ExerciseFrom (listed d) E) :
    ∃ e ∈ l.exercises, ExReadBack e E := by
  have hd := @has_declares parse l hl d h
  have hh := @declares_has parse l hl d h
  obtain ⟨ct, hc, hf⟩ := hE.front
  obtain ⟨e, he, hs, f, b, hfb, rfl⟩ := hd hc
  have huniq : ∀ e' ∈ l.exercises, e'.shortId = E.shortId → e' = e := fun e' he' hs' =>
    exercise_unique hl he' he (hs'.trans hs.symm)
  refine ⟨e, he, hs.symm, ?_, ?_, ?_, f, b, hfb, by rw [hf, hp], ?_⟩
  · refine opt_back hE.name (fun ct hc => ?_) (fun hne => ?_)
    · obtain ⟨e', he', hs', x, hx, rfl⟩ := hd hc
      rw [← huniq e' he' hs']
      exact hx.symm
    · obtain ⟨x, hx⟩ := Option.ne_none_iff_exists'.1 hne
      exact hh (k := .exName E.shortId) ⟨e, he, hs, x, hx, rfl⟩
  · refine opt_back hE.descr (fun ct hc => ?_) (fun hne => ?_)
    · obtain ⟨e', he', hs', x, hx, rfl⟩ := hd hc
      rw [← huniq e' he' hs']
      exact hx.symm
    · obtain ⟨x, hx⟩ := Option.ne_none_iff_exists'.1 hne
      exact hh (k := .exDescr E.shortId) ⟨e, he, hs, x, hx, rfl⟩
  · refine opt_back hE.type (fun ct hc => ?_) (fun hne => ?_)
    · obtain ⟨e', he', hs', x, hx, rfl⟩ := hd hc
      rw [← huniq e' he' hs']
      exact hx.symm
    · obtain ⟨x, hx⟩ := Option.ne_none_iff_exists'.1 hne
      exact hh (k := .exType E.shortId) ⟨e, he, hs, x, hx, rfl⟩
  · rcases hE.back with ⟨ct, hc, hb⟩ | ⟨hno, hb⟩
    · obtain ⟨e', he', hs', f', b', hfb', rfl⟩ := hd hc
      obtain rfl := huniq e' he' hs'
      obtain ⟨_, rfl⟩ := flashCard_inj hfb hfb'
      rw [hb, hp]
      rfl
    · cases b with
      | none => exact hb
      | some b =>
        obtain ⟨ct, hc⟩ := hh (k := .back E.shortId) (ct := parse b) ⟨e, he, hs, f, b, hfb, rfl⟩
        exact (hno ct hc).elim

/-- Two lists that match by keys match one to one. -/
theorem match_perm {A B K : Type} (kA : A → K) (kB : B → K) (P : A → B → Prop) (as : List A)
    (bs : List B) (hA : (as.map kA).Nodup) (hB : (bs.map kB).Nodup)
    (h1 : ∀ b ∈ bs, ∃ a ∈ as, P a b ∧ kA a = kB b) (h2 : ∀ a ∈ as, ∃ b ∈ bs, kB b = kA a) :
    ∃ as' : List A, as'.Perm as ∧ List.Forall₂ P as' bs := by
  have key : ∀ ys : List B, (∀ b ∈ ys, b ∈ bs) →
      ∃ as' : List A, List.Forall₂ (fun a b => a ∈ as ∧ P a b ∧ kA a = kB b) as' ys := by
    intro ys
    induction ys with
    | nil => intro _; exact ⟨[], .nil⟩
    | cons b ys ih =>
      intro hsub
      obtain ⟨as', ha'⟩ := ih (fun b hb => hsub b (List.mem_cons_of_mem _ hb))
      obtain ⟨a, ha, hP, hk⟩ := h1 b (hsub b List.mem_cons_self)
      exact ⟨a :: as', .cons ⟨ha, hP, hk⟩ ha'⟩
  obtain ⟨as', ha'⟩ := key bs (fun _ h => h)
  have hk : bs.map kB = as'.map kA := forall₂_map_eq _ _ (fun a b h => h.2.2.symm) ha'
  have hn : (as'.map kA).Nodup := hk ▸ hB
  have hsub : ∀ a ∈ as', a ∈ as := by
    clear hn hk h1 h2 hB key
    induction ha' with
    | nil => simp
    | cons h _ ih =>
      intro a ha
      rcases List.mem_cons.1 ha with rfl | ha
      · exact h.1
      · exact ih a ha
  refine ⟨as', ?_, ha'.imp (fun a b h => h.2.1)⟩
  rw [List.perm_ext_iff_of_nodup (List.Nodup.of_map _ hn) (List.Nodup.of_map _ hA)]
  intro a
  refine ⟨hsub a, fun ha => ?_⟩
  obtain ⟨b, hb, hbk⟩ := h2 a ha
  have : kA a ∈ as'.map kA := by rw [← hk, ← hbk]; exact List.mem_map.2 ⟨b, hb, rfl⟩
  obtain ⟨a', ha', hak⟩ := List.mem_map.1 this
  rw [← List.inj_on_of_nodup_map hA (hsub a' ha') ha hak]
  exact ha'

theorem forall₂_comp {A B C : Type} {P : A → B → Prop} {Q : B → C → Prop} {S : A → C → Prop}
    (hS : ∀ a b c, P a b → Q b c → S a c) {xs : List A} {ys : List B} {zs : List C}
    (h1 : List.Forall₂ P xs ys) (h2 : List.Forall₂ Q ys zs) : List.Forall₂ S xs zs := by
  induction h1 generalizing zs with
  | nil => cases h2; exact .nil
  | cons h _ ih =>
    cases h2 with
    | cons h' h2 => exact .cons (hS _ _ _ h h') (ih h2)

/-- A directory freshly built can be read. -/
theorem built_readable (hp : ∀ t, (parse t).md = some t) (inlined : Bool) {l : LessonB} (hl : Tidy l)
    {d : Dir} (h : buildLesson parse [] l = (d, true)) : DirReadable inlined (listed d) := by
  constructor
  · intro k ct hk _
    have := has_declares hl h hk
    cases k with
    | deps => obtain ⟨_, rfl⟩ := this; simp [LessonReadable]
    | enc => obtain ⟨_, rfl⟩ := this; simp [LessonReadable]
    | sup => obtain ⟨_, rfl⟩ := this; simp [LessonReadable]
    | name => obtain ⟨x, _, rfl⟩ := this; simp [LessonReadable]
    | descr => obtain ⟨x, _, rfl⟩ := this; simp [LessonReadable]
    | metadata => obtain ⟨x, _, rfl⟩ := this; simp [LessonReadable]
    | defaultType => obtain ⟨x, _, rfl⟩ := this; simp [LessonReadable]
    | _ => exact trivial
  · intro x hx hfront k ct hk _
    have := has_declares hl h hk
    cases k with
    | exName s => obtain ⟨_, _, _, _, _, rfl⟩ := this; simp [ExReadable]
    | exDescr s => obtain ⟨_, _, _, _, _, rfl⟩ := this; simp [ExReadable]
    | exType s => obtain ⟨_, _, _, _, _, rfl⟩ := this; simp [ExReadable]
    | front s => obtain ⟨_, _, _, _, _, _, rfl⟩ := this; simp [ExReadable, hp]
    | back s => obtain ⟨_, _, _, _, _, _, rfl⟩ := this; simp [ExReadable, hp]
    | _ => exact trivial

/-- The lesson directories are those of the builders, freshly built. -/
def Built (parse : Str → Content) (dirs : List (Str × List (Str × Content))) (ls : List LessonB) : Prop :=
  (∀ l ∈ ls, ∃ d, buildLesson parse [] l = (d, true) ∧ LessonDir dirs l.shortId (listed d)) ∧
  ∀ s files, LessonDir dirs s files → ∃ l ∈ ls, l.shortId = s

theorem listed_nodup {l : LessonB} {d : Dir} (h : buildLesson parse [] l = (d, true)) :
    ((listed d).map (·.1)).Nodup := by
  have := writeAll_nodup (parse := parse) (d := []) (ws := lessonWrites l) (by simp [AMap.keys])
  unfold buildLesson at h
  rw [h] at this
  exact (List.Sublist.map _ List.filter_sublist).nodup this

theorem built_exercise (R : Rest α) (inlined : Bool) {c : Str} {l : LessonB} {L : Lesson}
    (hL : ReadBack l L) {e : ExerciseB} {E : Exercise} {m : ExerciseM α} (hE : ExReadBack e E)
    (hm : IsExercise R inlined c l.shortId L E m) : ExerciseBuilt R inlined c l e m := by
  obtain ⟨name, type, a, hn, ht, ha, hr⟩ := hm.rest
  obtain ⟨f, b, hfb, hf, hb⟩ := hE.card
  refine ⟨by rw [hm.id, hE.shortId], hm.lesson, hm.course, f, b, hfb, ?_⟩
  have en : name = e.name.getD ("Exercise ".toList ++ e.shortId) := by
    rw [hE.name, hE.shortId] at hn
    rcases hn with hn | ⟨hn, rfl⟩ <;> simp [hn]
  have et : type = e.type.getD (l.defaultType.getD "Procedural".toList) := by
    rw [hE.type, hL.defaultType] at ht
    rcases ht with ht | ⟨ht, h2⟩ | ⟨ht, h2, rfl⟩
    · rw [ht]; rfl
    · rw [ht, h2]; rfl
    · rw [ht, h2]; rfl
  rw [hr, en, et, hE.descr]
  congr 1
  unfold IsCard at ha
  rw [hf, hb, hE.shortId] at ha
  cases inlined with
  | true =>
    rw [if_pos rfl]
    rcases ha with ⟨_, f', hf', h⟩ | ⟨h, _⟩
    · injection hf' with hf'
      subst hf'
      cases b with
      | none =>
        rcases h with ⟨_, h⟩ | ⟨b', hb', _⟩
        · exact h
        · cases hb'
      | some b =>
        rcases h with ⟨hb', _⟩ | ⟨b', hb', h⟩
        · cases hb'
        · injection hb' with hb'
          injection hb' with hb'
          rw [h, hb']
    · cases h
  | false =>
    rw [if_neg (by decide)]
    rcases ha with ⟨h, _⟩ | ⟨_, h⟩
    · cases h
    · cases b with
      | none =>
        rcases h with ⟨_, h⟩ | ⟨h, _⟩
        · exact h
        · exact (h rfl).elim
      | some b =>
        rcases h with ⟨h, _⟩ | ⟨_, h⟩
        · cases h
        · exact h

/-- **C73, the core**: generating from directories freshly built by tidy lesson builders succeeds and
gives exactly the lessons and exercises of the builders. -/
theorem generate_built (hp : ∀ t, (parse t).md = some t) (R : Rest α) (inlined : Bool)
    (order : Groups → Groups) (order' : Lessons → Lessons) (horder : ∀ m, (order m).Perm m)
    (horder' : ∀ m, (order' m).Perm m) (dirs : List (Str × List (Str × Content)))
    (hn : (dirs.map (·.1)).Nodup) (hfn : ∀ d ∈ dirs, (d.2.map (·.1)).Nodup) (c : CourseM α γ)
    (ls : List LessonB) (hls : (ls.map (·.shortId)).Nodup) (htidy : ∀ l ∈ ls, Tidy l)
    (hb : Built parse dirs ls) :
    ∃ g, generate R inlined order order' dirs c = some g ∧ g.metadata = none ∧ g.instructions = none ∧
      ∃ ls', ls'.Perm ls ∧ List.Forall₂ (fun l y => LessonBuilt R inlined c.id (ls.map (·.shortId)) l y.1 y.2)
        ls' g.lessons := by
  have hdir : ∀ s files, LessonDir dirs s files → ∃ l ∈ ls, l.shortId = s ∧
      ∃ d, buildLesson parse [] l = (d, true) ∧ files = listed d := by
    intro s files hd
    obtain ⟨l, hl, rfl⟩ := hb.2 s files hd
    obtain ⟨d, hd1, hd2⟩ := hb.1 l hl
    exact ⟨l, hl, rfl, d, hd1, congrArg Prod.snd (List.inj_on_of_nodup_map hn hd hd2 rfl)⟩
  have hok := (generate_succeeds_iff R inlined order order' dirs c horder horder' hn hfn).2 (by
    intro s files hs
    obtain ⟨l, hl, _, d, hd, rfl⟩ := hdir s files hs
    exact built_readable hp inlined (htidy l hl) hd)
  obtain ⟨g, hg⟩ := Option.isSome_iff_exists.1 hok
  obtain ⟨short, hshort, hsound, hall, hnd, hm, hi⟩ :=
    generate_exact R inlined order order' dirs c horder horder' hn hfn g hg
  have hmem : ∀ s, s ∈ short ↔ s ∈ ls.map (·.shortId) := by
    intro s
    rw [hshort, List.mem_map]
    constructor
    · rintro ⟨files, hd⟩
      exact hb.2 s files hd
    · rintro ⟨l, hl, rfl⟩
      obtain ⟨d, _, hd⟩ := hb.1 l hl
      exact ⟨_, hd⟩
  have hmeans : ∀ r id, Means c.id short r id → Means c.id (ls.map (·.shortId)) r id := by
    intro r id h
    unfold Means at h ⊢
    rwa [hmem] at h
  refine ⟨g, hg, hm, hi, ?_⟩
  refine match_perm (fun l : LessonB => lessonIdOf c.id l.shortId) (fun y => y.1.id) _ ls g.lessons
    ?_ hnd ?_ ?_
  · have : ls.map (fun l => lessonIdOf c.id l.shortId) = (ls.map (·.shortId)).map (lessonIdOf c.id) := by
      rw [List.map_map]; rfl
    rw [this]
    exact hls.map (fun a b h => lessonIdOf_inj h)
  · rintro ⟨m, es⟩ hy
    obtain ⟨s, files, L, exs, h1, h2, h3, h4, h5⟩ := hsound m es hy
    obtain ⟨l, hl, rfl, d, hd, rfl⟩ := hdir s files h1
    have hrb := read_back (htidy l hl) hd h2
    refine ⟨l, hl, ?_, h4.id.symm⟩
    refine ⟨h4.id, h4.course, ?_, ?_, ?_, ?_, ?_, ?_⟩
    · rw [← hrb.deps]; exact h4.deps.imp (fun a b h => hmeans _ _ h)
    · rw [← hrb.enc]; exact h4.enc.imp (fun a b h => ⟨hmeans _ _ h.1, h.2⟩)
    · rw [← hrb.sup]; exact h4.sup.imp (fun a b h => hmeans _ _ h)
    · rw [h4.metadata, hrb.metadata]
    · obtain ⟨name, hname, hr⟩ := h4.rest
      refine ⟨L.hasInstr, L.hasMaterial, hrb.instr, hrb.material, ?_⟩
      rw [hr, hrb.descr]
      rw [hrb.name] at hname
      rcases hname with h | ⟨h, rfl⟩ <;> rw [h] <;> rfl
    · obtain ⟨bs, hperm, hF⟩ := match_perm (fun e : ExerciseB => e.shortId) (fun E => E.shortId)
        ExReadBack l.exercises exs (htidy l hl).distinct h3.distinct
        (fun E hE => by
          obtain ⟨e, he, hr⟩ := ex_read_back hp (htidy l hl) hd (h3.from_files E hE)
          exact ⟨e, he, hr, hr.shortId.symm⟩)
        (fun e he => by
          obtain ⟨hne, _, ⟨f, b, hfb⟩, _⟩ := (htidy l hl).exercise e he
          obtain ⟨ct, hc⟩ := declares_has (parse := parse) (htidy l hl) hd (k := .front e.shortId)
            (ct := parse f) ⟨e, he, rfl, f, b, hfb, rfl⟩
          exact h3.all _ hne ⟨ct, hc⟩)
      exact ⟨bs, hperm, forall₂_comp (P := ExReadBack)
        (Q := IsExercise R inlined c.id l.shortId L) (S := ExerciseBuilt R inlined c.id l)
        (fun e E m h h' => built_exercise R inlined hrb h h') hF h5⟩
  · intro l hl
    obtain ⟨d, _, hd⟩ := hb.1 l hl
    obtain ⟨m, es, hy, hid⟩ := hall _ _ hd
    exact ⟨(m, es), hy, hid⟩

end Trane.Gen.Builder
