import Verif.Tree.GenKnowledge
import Verif.Tree.Lines
import Verif.Gen.LiteracyFiles

/-!
# C91: a literacy course is what the texts in its directory say
-/

namespace Trane.Tree
open Trane.Store (Str)
open Trane.Library
open Trane.Json (readAs Generator decStr decList decWeights UserPreferences)
open Trane.Gen

variable {F : Type}

/-! ### Specification -/

/-- The directory of a literacy lesson. -/
def LiteracyAt (t : Tree) (p : Path) (s : Str) : Prop := s ≠ [] ∧ LessonAt t p s

/-- The word for a kind of lesson, in ids. -/
def kindTag : Literacy.Kind → Str
  | .reading => "reading".toList
  | .dictation => "dictation".toList

/-- The word for a kind of lesson, in names. -/
def kindWord : Literacy.Kind → Str
  | .reading => "Reading".toList
  | .dictation => "Dictation".toList

/-- A unit named in a file of a lesson: the short id of a lesson of the course stands for the lesson of kind `k`
made from it, anything else for itself. -/
def RefersTo (t : Tree) (p : Path) (c : Str) (k : Literacy.Kind) (ref id : Str) : Prop :=
  (LiteracyAt t p ref ∧ id = c ++ "::".toList ++ ref ++ "::".toList ++ kindTag k) ∨ (¬ LiteracyAt t p ref ∧ id = ref)

/-- The text of a file, if it is there. -/
def MdText (t : Tree) (d : Path) (n : Str) (o : Option Str) : Prop :=
  (∃ x, t.find (d ++ [n]) = some x ∧ o = some x) ∨ (¬ Entry t d n ∧ o = none)

/-- Question `q` with answer `a` is in the files of the directory `d`: it has a file of its own, and `a` is the text
of the answer file of that name; or it is an entry of the simple list, without an answer; or it is in the list
with answers. -/
def Asked (t : Tree) (d : Path) (own answer simple listed : Str) (yaml : Str → Option (List (Str × Option Str)))
    (q : Str) (a : Option Str) : Prop :=
  (∃ s, t.find (d ++ [s ++ own]) = some q ∧ ∀ x, a = some x ↔ t.find (d ++ [s ++ answer]) = some x) ∨
  (∃ text, t.find (d ++ [simple]) = some text ∧ Listed text q ∧ a = none) ∨
  (∃ text l, t.find (d ++ [listed]) = some text ∧ yaml text = some l ∧ (q, a) ∈ l)

/-- The lesson of kind `k` of the directory `s.lesson`, with its exercise. -/
structure LiteracyUnit (M : Machine F) (X : Outside) (p : Path) (c : CourseM Rest Generator) (s : Str)
    (k : Literacy.Kind) (u : LessonM Rest × List (ExerciseM Rest)) : Prop where
  here : LiteracyAt M.tree p s
  id : u.1.id = c.id ++ "::".toList ++ s ++ "::".toList ++ kindTag k
  course : u.1.courseId = c.id
  /-- The reading lesson depends on what its file names; the dictation lesson on the reading lesson and on the
  dictation lessons of the lessons of the course its file names. -/
  deps : ∃ ids, ListText M.tree (p ++ [s ++ ".lesson".toList]) "lesson.dependencies.json".toList (decList decStr) ids ∧
    (k = .reading → ∀ x, x ∈ u.1.deps ↔ ∃ d ∈ ids, RefersTo M.tree p c.id .reading d x) ∧
    (k = .dictation → ∀ x, x ∈ u.1.deps ↔ x = c.id ++ "::".toList ++ s ++ "::reading".toList ∨
      ∃ d ∈ ids, LiteracyAt M.tree p d ∧ x = c.id ++ "::".toList ++ d ++ "::dictation".toList)
  enc : ∃ ws, ListText M.tree (p ++ [s ++ ".lesson".toList]) "lesson.encompassed.json".toList
      (decWeights M.floats) ws ∧
    ∀ x w, (x, w) ∈ u.1.enc ↔ ∃ d f, (d, f) ∈ ws ∧ w = M.val f ∧ RefersTo M.tree p c.id k d x
  sup : ∃ ids, ListText M.tree (p ++ [s ++ ".lesson".toList]) "lesson.superseded.json".toList (decList decStr) ids ∧
    ∀ x, x ∈ u.1.sup ↔ ∃ d ∈ ids, RefersTo M.tree p c.id k d x
  metadata : u.1.metadata = some [("literacy_lesson".toList, [kindTag k])]
  /-- The names, the texts, and one exercise with the examples and the exceptions. -/
  rest : ∃ title name descr instr examples exceptions,
    ((c.rest.name = [] ∧ title = c.id) ∨ (c.rest.name ≠ [] ∧ title = c.rest.name)) ∧
    OptText M.tree (p ++ [s ++ ".lesson".toList]) "lesson.name.json".toList decStr name ∧
    OptText M.tree (p ++ [s ++ ".lesson".toList]) "lesson.description.json".toList decStr descr ∧
    MdText M.tree (p ++ [s ++ ".lesson".toList]) "lesson.instructions.md".toList instr ∧
    (∀ q a, (q, a) ∈ examples ↔ Asked M.tree (p ++ [s ++ ".lesson".toList]) ".example.md".toList ".answer.md".toList
      "simple_examples.md".toList "simple_examples_with_answers.yaml".toList X.examples q a) ∧
    (∀ q a, (q, a) ∈ exceptions ↔ Asked M.tree (p ++ [s ++ ".lesson".toList]) ".exception.md".toList
      ".exception_answer.md".toList "simple_exceptions.md".toList "simple_exceptions_with_answers.yaml".toList
      X.exceptions q a) ∧
    u.1.rest = .lesson (title ++ " - ".toList ++ name.getD s ++ " - ".toList ++ kindWord k) descr none
      (instr.map .inlined) ∧
    ∃ e, u.2 = [e] ∧ e.id = u.1.id ++ "::exercise".toList ∧ e.lessonId = u.1.id ∧ e.courseId = c.id ∧
      e.rest = .exercise (title ++ " - ".toList ++ name.getD s ++ " - ".toList ++ kindWord k) descr false
        (.literacy (decide (k = .dictation)) examples exceptions)

/-- Every file in the directory of a lesson that matters can be read. -/
structure LiteracyReadable (M : Machine F) (X : Outside) (p : Path) (s : Str) : Prop where
  deps : ReadsAs M.tree (p ++ [s ++ ".lesson".toList]) "lesson.dependencies.json".toList (decList decStr)
  enc : ReadsAs M.tree (p ++ [s ++ ".lesson".toList]) "lesson.encompassed.json".toList (decWeights M.floats)
  sup : ReadsAs M.tree (p ++ [s ++ ".lesson".toList]) "lesson.superseded.json".toList (decList decStr)
  name : ReadsAs M.tree (p ++ [s ++ ".lesson".toList]) "lesson.name.json".toList decStr
  descr : ReadsAs M.tree (p ++ [s ++ ".lesson".toList]) "lesson.description.json".toList decStr
  texts : ∀ n, (n ∈ ["lesson.instructions.md".toList, "simple_examples.md".toList, "simple_exceptions.md".toList] ∨
    ∃ x, n ∈ [x ++ ".example.md".toList, x ++ ".exception.md".toList, x ++ ".answer.md".toList,
      x ++ ".exception_answer.md".toList]) → IsText M.tree (p ++ [s ++ ".lesson".toList]) n
  examples : Entry M.tree (p ++ [s ++ ".lesson".toList]) "simple_examples_with_answers.yaml".toList →
    ∃ text l, M.tree.find (p ++ [s ++ ".lesson".toList] ++ ["simple_examples_with_answers.yaml".toList]) = some text ∧
      X.examples text = some l
  exceptions : Entry M.tree (p ++ [s ++ ".lesson".toList]) "simple_exceptions_with_answers.yaml".toList →
    ∃ text l, M.tree.find (p ++ [s ++ ".lesson".toList] ++ ["simple_exceptions_with_answers.yaml".toList]) = some text ∧
      X.exceptions text = some l

/-! ### Lemmas -/

/-- What the generator is given for a directory. -/
def litFiles (M : Machine F) (X : Outside) (d : Path) : List (Str × Literacy.Content) :=
  (M.names d).map (fun f => (f, M.literacyContent X f (M.tree.find (d ++ [f]))))

section
variable {M : Machine F} {X : Outside} {d : Path} {k : Literacy.File}

theorem lit_has {ct : Literacy.Content} : Literacy.Has (litFiles M X d) k ct ↔
    Entry M.tree d k.fileName ∧ ct = M.literacyContent X k.fileName (M.tree.find (d ++ [k.fileName])) := by
  unfold Literacy.Has litFiles
  constructor
  · intro h
    obtain ⟨f, hf, he⟩ := List.mem_map.mp h
    obtain ⟨rfl, rfl⟩ := Prod.mk.inj he
    exact ⟨mem_names.mp hf, rfl⟩
  · rintro ⟨h, rfl⟩
    exact List.mem_map.mpr ⟨_, mem_names.mpr h, rfl⟩

theorem nodup_litFiles : ((litFiles M X d).map (·.1)).Nodup := by
  unfold litFiles
  rw [List.map_map]
  exact (List.map_id _).symm ▸ nodup_names

theorem lit_md {t : Str} : (∃ ct, Literacy.Has (litFiles M X d) k ct ∧ ct.md = some t) ↔
    M.tree.find (d ++ [k.fileName]) = some t := by
  constructor
  · rintro ⟨ct, h, h2⟩
    obtain ⟨_, rfl⟩ := lit_has.mp h
    exact h2
  · intro h
    exact ⟨_, lit_has.mpr ⟨entry_of_find h, rfl⟩, h⟩

theorem lit_asked {qk ak : Str → Literacy.File} {simple listed : Literacy.File} {own answer : Str}
    {yaml : Str → Option (List (Str × Option Str))} (hq : ∀ s, (qk s).fileName = s ++ own)
    (ha : ∀ s, (ak s).fileName = s ++ answer)
    (hy : (if listed.fileName = Literacy.simpleExamplesAnswersFile then X.examples else X.exceptions) = yaml)
    {q : Str} {a : Option Str} : Literacy.Given (litFiles M X d) qk ak simple listed q a ↔
      Asked M.tree d own answer simple.fileName listed.fileName yaml q a := by
  unfold Literacy.Given Asked
  refine or_congr ?_ (or_congr ?_ ?_)
  · refine exists_congr fun s => ?_
    have h1 : Literacy.AnswerIs (litFiles M X d) ak s a ↔
        ∀ x, a = some x ↔ M.tree.find (d ++ [s ++ answer]) = some x := by
      unfold Literacy.AnswerIs
      refine forall_congr' fun t => ?_
      rw [lit_md, ha]
    rw [← hq s, ← lit_md (X := X), ← h1]
    constructor
    · rintro ⟨ct, h1, h2, h3⟩; exact ⟨⟨ct, h1, h2⟩, h3⟩
    · rintro ⟨⟨ct, h1, h2⟩, h3⟩; exact ⟨ct, h1, h2, h3⟩
  · constructor
    · rintro ⟨ct, ls, h1, h2, h3, h4⟩
      obtain ⟨_, rfl⟩ := lit_has.mp h1
      obtain ⟨text, h5, rfl⟩ := Option.map_eq_some_iff.mp h2
      exact ⟨text, h5, (mem_mdList _ _).mp h3, h4⟩
    · rintro ⟨text, h1, h2, h3⟩
      exact ⟨_, mdList text, lit_has.mpr ⟨entry_of_find h1, rfl⟩, Option.map_eq_some_iff.mpr ⟨text, h1, rfl⟩,
        (mem_mdList _ _).mpr h2, h3⟩
  · constructor
    · rintro ⟨ct, ls, h1, h2, h3⟩
      obtain ⟨_, rfl⟩ := lit_has.mp h1
      obtain ⟨text, h5, h6⟩ := Option.bind_eq_some_iff.mp h2
      rw [hy] at h6
      exact ⟨text, ls, h5, h6, h3⟩
    · rintro ⟨text, l, h1, h2, h3⟩
      refine ⟨_, l, lit_has.mpr ⟨entry_of_find h1, rfl⟩, Option.bind_eq_some_iff.mpr ⟨text, h1, ?_⟩, h3⟩
      rw [hy]
      exact h2

theorem lit_list {α β : Type} {dec : Json.Json → Option (List α)} {f : α → β}
    {val : Literacy.Content → Option (List β)} {l : List β}
    (hv : ∀ n t, val (M.literacyContent X n t) = (t.bind (readAs dec)).map (List.map f))
    (h : Literacy.ListFrom (litFiles M X d) k val l) : ∃ l', ListText M.tree d k.fileName dec l' ∧ l = l'.map f := by
  rcases h with ⟨ct, hct, hx⟩ | ⟨hno, rfl⟩
  · obtain ⟨_, rfl⟩ := lit_has.mp hct
    rw [hv, Option.map_eq_some_iff] at hx
    obtain ⟨y, hy, rfl⟩ := hx
    exact ⟨y, .inl (jsonText_iff.mpr hy), rfl⟩
  · exact ⟨[], .inr ⟨fun he => hno _ (lit_has.mpr ⟨he, rfl⟩), rfl⟩, rfl⟩

theorem lit_ids {val : Literacy.Content → Option (List Str)} {l : List Str}
    (hv : ∀ n t, val (M.literacyContent X n t) = t.bind (readAs (decList decStr)))
    (h : Literacy.ListFrom (litFiles M X d) k val l) : ListText M.tree d k.fileName (decList decStr) l := by
  obtain ⟨l', h1, rfl⟩ := lit_list (f := id) (dec := decList decStr) (by intro n t; rw [hv]; simp) h
  simpa using h1

theorem lit_text {o : Option Str} (h : Literacy.OptFrom (litFiles M X d) k (·.text) o) :
    OptText M.tree d k.fileName decStr o := by
  rcases h with ⟨ct, x, hct, hx, rfl⟩ | ⟨hno, rfl⟩
  · obtain ⟨_, rfl⟩ := lit_has.mp hct
    exact .inl ⟨x, jsonText_iff.mpr hx, rfl⟩
  · exact .inr ⟨fun he => hno _ (lit_has.mpr ⟨he, rfl⟩), rfl⟩

theorem lit_mdText {o : Option Str} (h : Literacy.OptFrom (litFiles M X d) k (·.md) o) :
    MdText M.tree d k.fileName o := by
  rcases h with ⟨ct, x, hct, hx, rfl⟩ | ⟨hno, rfl⟩
  · obtain ⟨_, rfl⟩ := lit_has.mp hct
    exact .inl ⟨x, hx, rfl⟩
  · exact .inr ⟨fun he => hno _ (lit_has.mpr ⟨he, rfl⟩), rfl⟩

end

theorem lit_means {t : Tree} {p : Path} {c : Str} {short : List Str} {k : Literacy.Kind}
    (hs : ∀ s, s ∈ short ↔ LiteracyAt t p s) {ref id : Str} :
    Literacy.Means c short k ref id ↔ RefersTo t p c k ref id := by
  unfold Literacy.Means RefersTo Literacy.lessonIdOf
  rw [hs]
  cases k <;> rfl

theorem lit_title (c : CourseM Rest Generator) :
    (c.rest.name = [] ∧ (if c.rest.name.isEmpty then c.id else c.rest.name) = c.id) ∨
      (c.rest.name ≠ [] ∧ (if c.rest.name.isEmpty then c.id else c.rest.name) = c.rest.name) := by
  cases h : c.rest.name with
  | nil => exact .inl ⟨rfl, rfl⟩
  | cons a l => exact .inr ⟨by simp, rfl⟩

theorem lit_unit {M : Machine F} {X : Outside} {p : Path} {c : CourseM Rest Generator} {short : List Str} {s : Str}
    {k : Literacy.Kind} {l : Literacy.Lesson} {u : LessonM Rest × List (ExerciseM Rest)}
    (hs : ∀ s, s ∈ short ↔ LiteracyAt M.tree p s) (hh : LiteracyAt M.tree p s)
    (hl : Literacy.openLesson s (litFiles M X (p ++ [s ++ ".lesson".toList])) = some l)
    (hm : Literacy.IsLesson c.id short s l k u.1) (hr : u.1.rest = literacyRest.lesson c l k)
    (he : Literacy.IsExercise c.id u.1 u.2) (hre : ∀ e ∈ u.2, e.rest = literacyRest.exercise c l k) :
    LiteracyUnit M X p c s k u := by
  have hq := Literacy.questions_exact s _ l nodup_litFiles hl
  obtain ⟨r1, r2, r3, r4⟩ := Literacy.references_exact s _ l nodup_litFiles hl
  obtain ⟨t1, t2, t3⟩ := Literacy.texts_exact s _ l nodup_litFiles hl
  refine ⟨hh, ?_, hm.course, ⟨l.deps, lit_ids (by intro n t; rfl) r1, ?_, ?_⟩, ?_,
    ⟨l.sup, lit_ids (by intro n t; rfl) r3, ?_⟩, ?_, ?_⟩
  · rw [hm.id]; cases k <;> rfl
  · intro hk x
    rw [hm.readingDeps hk]
    simp only [lit_means hs]
  · intro hk x
    rw [hm.dictationDeps hk]
    simp only [hs]
    have h1 : ∀ d, Literacy.lessonIdOf c.id d .dictation = c.id ++ "::".toList ++ d ++ "::dictation".toList := by
      intro d
      unfold Literacy.lessonIdOf
      rw [List.append_assoc]
      rfl
    have h2 : Literacy.lessonIdOf c.id s .reading = c.id ++ "::".toList ++ s ++ "::reading".toList := by
      unfold Literacy.lessonIdOf
      rw [List.append_assoc]
      rfl
    simp only [h1, h2]
  · obtain ⟨w, hw, hwe⟩ := lit_list (f := fun e : Str × F => (e.1, M.val e.2)) (dec := decWeights M.floats)
      (by intro n t; cases t <;> rfl) r2
    refine ⟨w, hw, fun x v => ?_⟩
    rw [hm.enc]
    simp only [lit_means hs, hwe, List.mem_map]
    constructor
    · rintro ⟨d, ⟨⟨d', f⟩, hf, h⟩, hd⟩
      obtain ⟨rfl, rfl⟩ := Prod.mk.inj h
      exact ⟨_, f, hf, rfl, hd⟩
    · rintro ⟨d, f, hf, rfl, hd⟩
      exact ⟨d, ⟨(d, f), hf, rfl⟩, hd⟩
  · intro x
    rw [hm.sup]
    simp only [lit_means hs]
  · rw [hm.metadata]; cases k <;> rfl
  · refine ⟨_, l.name, l.descr, l.instr, l.examples, l.exceptions, lit_title c, lit_text t1, lit_text t2, lit_mdText t3,
      fun q a => (hq q a).1.trans ?_, fun q a => (hq q a).2.trans ?_, ?_, ?_⟩
    · exact lit_asked (fun _ => rfl) (fun _ => rfl) (if_pos rfl)
    · exact lit_asked (fun _ => rfl) (fun _ => rfl) (if_neg (by decide +kernel))
    · rw [hr]
      unfold literacyRest literacyName
      dsimp only
      rw [r4]
      cases k <;> rfl
    · obtain ⟨e, h1, h2, h3, h4⟩ := he
      refine ⟨e, h1, h2, h3, h4, ?_⟩
      rw [hre e (by rw [h1]; exact List.mem_singleton_self e)]
      unfold literacyRest literacyName
      dsimp only
      rw [r4]
      cases k <;> rfl

theorem lit_rest {R : Literacy.Rest Rest Generator} {dict : Bool} {c : CourseM Rest Generator}
    {ls : AMap Str Literacy.Lesson} {ins : Option Rest} {u : LessonM Rest × List (ExerciseM Rest)} :
    u ∈ (Literacy.generated R dict c ls ins).lessons ↔
    ∃ s l, ∃ k : Literacy.Kind, (s, l) ∈ ls ∧ (k = .reading ∨ k = .dictation ∧ dict = true) ∧
      u = match k with
        | .reading => Literacy.reading R c ls.keys s l
        | .dictation => Literacy.dictation R c ls.keys s l := by
  simp only [Literacy.generated, List.mem_flatMap]
  constructor
  · rintro ⟨⟨s, l⟩, hm, h⟩
    unfold Literacy.manifests at h
    split at h
    · rename_i hd
      simp only [List.mem_cons, List.not_mem_nil, or_false] at h
      rcases h with h | h
      · exact ⟨s, l, .reading, hm, .inl rfl, h⟩
      · exact ⟨s, l, .dictation, hm, .inr ⟨rfl, hd⟩, h⟩
    · rw [List.mem_singleton] at h
      exact ⟨s, l, .reading, hm, .inl rfl, h⟩
  · rintro ⟨s, l, k, hm, hk, rfl⟩
    refine ⟨(s, l), hm, ?_⟩
    unfold Literacy.manifests
    rcases hk with rfl | ⟨rfl, hd⟩
    · split <;> simp
    · rw [if_pos hd]; simp

theorem lit_dirs {M : Machine F} {X : Outside} {p : Path} {dirs : List (Str × List (Str × Literacy.Content))}
    (hd : M.subdirs p (M.literacyContent X) = some dirs) (s : Str) (files : List (Str × Literacy.Content)) :
    Literacy.LessonDir dirs s files ↔ LiteracyAt M.tree p s ∧ files = litFiles M X (p ++ [s ++ ".lesson".toList]) := by
  unfold Literacy.LessonDir
  rw [(subdirs_some hd).2.2]
  unfold LiteracyAt LessonAt litFiles
  simp [and_assoc]

theorem sublist_heads {β : Type} (l : List (LessonM β × List (ExerciseM β))) (f : List (ExerciseM β) → List Str) :
    (l.map (fun u => u.1.id)).Sublist (l.flatMap (fun u => u.1.id :: f u.2)) := by
  induction l with
  | nil => exact List.Sublist.refl _
  | cons u l ih =>
    rw [List.map_cons, List.flatMap_cons, List.cons_append]
    exact (ih.trans (List.sublist_append_right _ _)).cons_cons _

theorem lit_forall {M : Machine F} {X : Outside} {d : Path} {k : Literacy.File} {P : Literacy.Content → Prop} :
    (∀ ct, Literacy.Has (litFiles M X d) k ct → P ct) ↔
      (Entry M.tree d k.fileName → P (M.literacyContent X k.fileName (M.tree.find (d ++ [k.fileName])))) :=
  ⟨fun h he => h _ (lit_has.mpr ⟨he, rfl⟩), fun h ct hc => by
    obtain ⟨h1, rfl⟩ := lit_has.mp hc
    exact h h1⟩

theorem yaml_iff {o : Option Str} {f : Str → Option (List (Str × Option Str))} :
    o.bind f ≠ none ↔ ∃ text l, o = some text ∧ f text = some l := by
  rw [Option.ne_none_iff_exists']
  simp only [Option.bind_eq_some_iff]
  constructor
  · rintro ⟨l, t, h1, h2⟩; exact ⟨t, l, h1, h2⟩
  · rintro ⟨t, l, h1, h2⟩; exact ⟨l, t, h1, h2⟩

theorem map_ne_none {α β : Type} {o : Option α} {f : α → β} : o.map f ≠ none ↔ o ≠ none := by
  cases o <;> simp

theorem lit_readable {M : Machine F} {X : Outside} {p : Path} {s : Str} :
    (∀ k ct, Literacy.Has (litFiles M X (p ++ [s ++ ".lesson".toList])) k ct → Literacy.Readable k ct) ↔
      LiteracyReadable M X p s := by
  constructor
  · intro h
    have md : ∀ k : Literacy.File, (∀ c, Literacy.Readable k c → c.md ≠ none) →
        IsText M.tree (p ++ [s ++ ".lesson".toList]) k.fileName := fun k hk =>
      isText_iff.mp fun he => hk _ (lit_forall.mp (h k) he)
    have ln : ∀ k : Literacy.File, (∀ c, Literacy.Readable k c → c.lines ≠ none) →
        IsText M.tree (p ++ [s ++ ".lesson".toList]) k.fileName := fun k hk =>
      isText_iff.mp fun he => map_ne_none.mp (hk _ (lit_forall.mp (h k) he))
    refine ⟨reads_iff.mp (lit_forall.mp (h .deps)), ?_, reads_iff.mp (lit_forall.mp (h .sup)),
      reads_iff.mp (lit_forall.mp (h .name)), reads_iff.mp (lit_forall.mp (h .descr)), ?_, ?_, ?_⟩
    · exact reads_iff.mp fun he => bind_map_ne.mp (lit_forall.mp (h .enc) he)
    · rintro n (hn | ⟨x, hn⟩)
      · simp only [List.mem_cons, List.not_mem_nil, or_false] at hn
        rcases hn with rfl | rfl | rfl
        · exact md .instr fun _ h => h
        · exact ln .simpleExamples fun _ h => h
        · exact ln .simpleExceptions fun _ h => h
      · simp only [List.mem_cons, List.not_mem_nil, or_false] at hn
        rcases hn with rfl | rfl | rfl | rfl
        · exact md (.example x) fun _ h => h
        · exact md (.exception x) fun _ h => h
        · exact md (.exampleAnswer x) fun _ h => h
        · exact md (.exceptionAnswer x) fun _ h => h
    · intro he
      have := lit_forall.mp (h .simpleExamplesAnswers) he
      exact yaml_iff.mp ((congrArg (fun f => Option.bind _ f ≠ none) (if_pos rfl)).mp this)
    · intro he
      have := lit_forall.mp (h .simpleExceptionsAnswers) he
      exact yaml_iff.mp ((congrArg (fun f => Option.bind _ f ≠ none) (if_neg (by decide +kernel))).mp this)
  · intro h k ct hc
    obtain ⟨he, rfl⟩ := lit_has.mp hc
    cases k with
    | deps => exact reads_iff.mpr h.deps he
    | enc => exact bind_map_ne.mpr (reads_iff.mpr h.enc he)
    | sup => exact reads_iff.mpr h.sup he
    | name => exact reads_iff.mpr h.name he
    | descr => exact reads_iff.mpr h.descr he
    | instr => exact isText_iff.mpr (h.texts _ (.inl (.head _))) he
    | «example» x => exact isText_iff.mpr (h.texts _ (.inr ⟨x, (.head _)⟩)) he
    | exception x => exact isText_iff.mpr (h.texts _ (.inr ⟨x, (.tail _ (.head _))⟩)) he
    | exampleAnswer x => exact isText_iff.mpr (h.texts _ (.inr ⟨x, (.tail _ (.tail _ (.head _)))⟩)) he
    | exceptionAnswer x => exact isText_iff.mpr (h.texts _ (.inr ⟨x, (.tail _ (.tail _ (.tail _ (.head _))))⟩)) he
    | simpleExamples =>
      exact map_ne_none.mpr (isText_iff.mpr (h.texts _ (.inl (.tail _ (.head _)))) he)
    | simpleExceptions =>
      exact map_ne_none.mpr (isText_iff.mpr (h.texts _ (.inl (.tail _ (.tail _ (.head _))))) he)
    | simpleExamplesAnswers =>
      exact (congrArg (fun f => Option.bind _ f ≠ none) (if_pos rfl)).mpr (yaml_iff.mpr (h.examples he))
    | simpleExceptionsAnswers =>
      exact (congrArg (fun f => Option.bind _ f ≠ none) (if_neg (by decide +kernel))).mpr
        (yaml_iff.mpr (h.exceptions he))

/-! ### Theorems -/

/-- **C91, literacy courses.**  The lessons are the reading lessons, and the dictation lessons if wanted, of the
directories `s.lesson` of the course, with everything as the texts of the files say. -/
theorem literacy_from_texts (M : Machine F) (X : Outside) (hX : X.Fair) (prefs : UserPreferences) (b dict : Bool)
    (r dir : Path) (hr : M.home = some r) (c : CourseM Rest Generator) (hc : c.gen = some (.literacy dict))
    (g : Generated Rest) (h : M.gen X prefs (.literacy b) dir c = some g) :
    (∀ u ∈ g.lessons, ∃ s k, (k = .reading ∨ k = .dictation ∧ dict = true) ∧ LiteracyUnit M X (r ++ dir) c s k u) ∧
    (∀ s k, LiteracyAt M.tree (r ++ dir) s → (k = .reading ∨ k = .dictation ∧ dict = true) →
      ∃ u ∈ g.lessons, LiteracyUnit M X (r ++ dir) c s k u) ∧
    (g.lessons.map (fun u => u.1.id)).Nodup ∧
    (∃ m, g.metadata = some m ∧ m.find "literacy_course".toList = some ["true".toList] ∧
      ∀ key, key ≠ "literacy_course".toList → m.find key = (c.metadata.getD []).find key) ∧
    (∀ i, g.instructions = some i ↔
      ∃ t, M.tree.find (r ++ dir ++ ["course.instructions.md".toList]) = some t ∧ i = .asset (.inlined t)) := by
  unfold Machine.gen at h
  dsimp only at h
  rw [hr, Option.bind_some, Option.bind_eq_some_iff] at h
  obtain ⟨dirs, hd, h⟩ := h
  obtain ⟨hn, hfiles, _⟩ := subdirs_some hd
  have hids := Literacy.generate_exact _ _ _ hX.literacy dirs hn _ c g h
  obtain ⟨_, _, _, _, hids, _⟩ := hids
  unfold Literacy.generate at h
  simp only [Option.bind_eq_bind, Option.bind_eq_some_iff, Option.some.injEq] at h
  obtain ⟨ls, hls, ins', rfl, rfl⟩ := h
  obtain ⟨r1, r2, r3⟩ := Literacy.openLessons_exact dirs hn ls hls
  have hp := hX.literacy ls
  have hmem : ∀ s l, (s, l) ∈ X.literacyOrder ls ↔ LiteracyAt M.tree (r ++ dir) s ∧
      Literacy.openLesson s (litFiles M X (r ++ dir ++ [s ++ ".lesson".toList])) = some l := by
    intro s l
    rw [hp.mem_iff, r3]
    constructor
    · rintro ⟨files, hf, ho⟩
      obtain ⟨h1, rfl⟩ := (lit_dirs hd s files).mp hf
      exact ⟨h1, ho⟩
    · rintro ⟨h1, ho⟩
      exact ⟨_, (lit_dirs hd s _).mpr ⟨h1, rfl⟩, ho⟩
  have hshort : ∀ s, s ∈ (X.literacyOrder ls).keys ↔ LiteracyAt M.tree (r ++ dir) s := by
    intro s
    unfold AMap.keys
    rw [List.mem_map]
    constructor
    · rintro ⟨⟨s', l⟩, hm, rfl⟩
      exact ((hmem _ _).mp hm).1
    · intro hs
      obtain ⟨l, hl⟩ := Option.isSome_iff_exists.1 (r2 s _ ((lit_dirs hd s _).mpr ⟨hs, rfl⟩))
      exact ⟨(s, l), (hmem _ _).2 ⟨hs, hl⟩, rfl⟩
  have hdict : Machine.asDictation c.gen = dict := by rw [hc]; rfl
  have hunit : ∀ s l (k : Literacy.Kind), (s, l) ∈ X.literacyOrder ls →
      LiteracyUnit M X (r ++ dir) c s k (match k with
        | .reading => Literacy.reading literacyRest c (X.literacyOrder ls).keys s l
        | .dictation => Literacy.dictation literacyRest c (X.literacyOrder ls).keys s l) := by
    intro s l k hm
    obtain ⟨h1, h2⟩ := (hmem s l).mp hm
    obtain ⟨e1, e2⟩ := Literacy.isExercise literacyRest c (X.literacyOrder ls).keys s l
    cases k with
    | reading =>
      refine lit_unit hshort h1 h2 (Literacy.isLesson_reading literacyRest c _ s l ((hshort s).mpr h1)) rfl e1 ?_
      intro e he
      rw [List.mem_singleton.mp he]
      rfl
    | dictation =>
      refine lit_unit hshort h1 h2 (Literacy.isLesson_dictation literacyRest c _ s l ((hshort s).mpr h1)) rfl e2 ?_
      intro e he
      rw [List.mem_singleton.mp he]
      rfl
  refine ⟨?_, ?_, ?_, ?_, ?_⟩
  · intro u hu
    obtain ⟨s, l, k, hm, hk, rfl⟩ := lit_rest.mp hu
    rw [hdict] at hk
    exact ⟨s, k, hk, hunit s l k hm⟩
  · intro s k hs hk
    obtain ⟨l, hl⟩ := Option.isSome_iff_exists.1 (r2 s _ ((lit_dirs hd s _).mpr ⟨hs, rfl⟩))
    have hm := (hmem s l).mpr ⟨hs, hl⟩
    refine ⟨_, lit_rest.mpr ⟨s, l, k, hm, ?_, rfl⟩, hunit s l k hm⟩
    rw [hdict]
    exact hk
  · refine List.Nodup.sublist (sublist_heads _ (fun es => es.map (·.id))) (List.Nodup.sublist ?_ hids)
    unfold unitIds
    rw [List.flatMap_cons, List.flatMap_nil, List.append_nil]
    exact List.sublist_cons_self _ _
  · exact ⟨_, rfl, AMap.find_put_self _ _ _, fun key hk => AMap.find_put_ne _ _ (fun h => hk h.symm)⟩
  · intro i
    show Option.map _ _ = _ ↔ _
    rw [Option.map_eq_some_iff]
    exact exists_congr fun t => and_congr Iff.rfl eq_comm

/-- **C91, when a literacy course can be read**: exactly when every file that matters can. -/
theorem literacy_readable_iff (M : Machine F) (X : Outside) (prefs : UserPreferences) (b : Bool)
    (r dir : Path) (hr : M.home = some r) (hd : ∃ n, Entry M.tree (r ++ dir) n) (c : CourseM Rest Generator) :
    (∃ g, M.gen X prefs (.literacy b) dir c = some g) ↔
      ∀ s, LiteracyAt M.tree (r ++ dir) s → LiteracyReadable M X (r ++ dir) s := by
  obtain ⟨dirs, hds⟩ : ∃ dirs, M.subdirs (r ++ dir) (M.literacyContent X) = some dirs := by
    unfold Machine.subdirs
    rw [if_pos (isDir_iff.mpr (.inr hd))]
    exact ⟨_, rfl⟩
  have hg : (∃ g, M.gen X prefs (.literacy b) dir c = some g) ↔ (Literacy.openLessons dirs).isSome = true := by
    unfold Machine.gen
    dsimp only
    rw [hr, Option.bind_some, hds, Option.bind_some]
    unfold Literacy.generate
    cases Literacy.openLessons dirs <;> simp
  rw [hg, Literacy.openLessons_succeeds_iff]
  constructor
  · intro h s hs
    exact lit_readable.mp ((Literacy.openLesson_succeeds_iff s _).mp (h s _ ((lit_dirs hds s _).mpr ⟨hs, rfl⟩)))
  · intro h s files hf
    obtain ⟨hs, rfl⟩ := (lit_dirs hds s files).mp hf
    exact (Literacy.openLesson_succeeds_iff s _).mpr (lit_readable.mpr (h s hs))

end Trane.Tree
