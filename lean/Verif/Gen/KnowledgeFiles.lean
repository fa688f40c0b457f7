import Verif.Gen.Knowledge
import Verif.Gen.Files

/-!
# C69: what a knowledge base course takes from the files of its directories
-/

namespace Trane.Gen.Knowledge
open Trane.Store Trane.Library Trane.Gen Trane.Graph Trane.Filters
open Trane.Gen.Literacy (stripSuffix stripSuffix_iff suffix_ne' strip_other foldlM_isSome)

/-! ### Specification -/

/-- The name of a file of each kind. -/
def File.fileName : File → Str
  | .deps => "lesson.dependencies.json".toList
  | .sup => "lesson.superseded.json".toList
  | .enc => "lesson.encompassed.json".toList
  | .name => "lesson.name.json".toList
  | .descr => "lesson.description.json".toList
  | .metadata => "lesson.metadata.json".toList
  | .material => "lesson.material.md".toList
  | .instr => "lesson.instructions.md".toList
  | .defaultType => "lesson.default_exercise_type.json".toList
  | .front s => s ++ ".front.md".toList
  | .back s => s ++ ".back.md".toList
  | .exName s => s ++ ".name.json".toList
  | .exDescr s => s ++ ".description.json".toList
  | .exType s => s ++ ".type.json".toList

/-- An exercise with short id `lesson` cannot have a name or a description file: their names are those of
the lesson. -/
def Taken (k : File) : Prop := k = .exName "lesson".toList ∨ k = .exDescr "lesson".toList

/-- The directory holds the file of kind `k` with content `ct`. -/
def Has (files : List (Str × Content)) (k : File) (ct : Content) : Prop :=
  (k.fileName, ct) ∈ files ∧ ¬ Taken k

/-- The value of an optional file. -/
def OptFrom {X : Type} (files : List (Str × Content)) (k : File) (val : Content → Option X)
    (o : Option X) : Prop :=
  (∃ ct x, Has files k ct ∧ val ct = some x ∧ o = some x) ∨ ((∀ ct, ¬ Has files k ct) ∧ o = none)

/-- The list in an optional file, empty without one. -/
def ListFrom {X : Type} (files : List (Str × Content)) (k : File) (val : Content → Option (List X))
    (l : List X) : Prop :=
  (∃ ct, Has files k ct ∧ val ct = some l) ∨ ((∀ ct, ¬ Has files k ct) ∧ l = [])

/-- `l` holds what the files say about the lesson. -/
structure LessonFrom (files : List (Str × Content)) (s : Str) (l : Lesson) : Prop where
  shortId : l.shortId = s
  deps : ListFrom files .deps (·.ids) l.deps
  enc : ListFrom files .enc (·.weights) l.enc
  sup : ListFrom files .sup (·.ids) l.sup
  name : OptFrom files .name (·.text) l.name
  descr : OptFrom files .descr (·.text) l.descr
  metadata : OptFrom files .metadata (·.metadata) l.metadata
  defaultType : OptFrom files .defaultType (·.type) l.defaultType
  instr : l.hasInstr = true ↔ ∃ ct, Has files .instr ct
  material : l.hasMaterial = true ↔ ∃ ct, Has files .material ct

/-- `e` holds what the files say about one exercise. -/
structure ExerciseFrom (files : List (Str × Content)) (e : Exercise) : Prop where
  nonempty : e.shortId ≠ []
  front : ∃ ct, Has files (.front e.shortId) ct ∧ e.front = ct.md
  back : (∃ ct, Has files (.back e.shortId) ct ∧ e.back = some ct.md) ∨
    ((∀ ct, ¬ Has files (.back e.shortId) ct) ∧ e.back = none)
  name : OptFrom files (.exName e.shortId) (·.text) e.name
  descr : OptFrom files (.exDescr e.shortId) (·.text) e.descr
  type : OptFrom files (.exType e.shortId) (·.type) e.type

/-- `es` are the exercises of a directory: one for each front file. -/
structure ExercisesFrom (files : List (Str × Content)) (es : List Exercise) : Prop where
  from_files : ∀ e ∈ es, ExerciseFrom files e
  all : ∀ x, x ≠ [] → (∃ ct, Has files (.front x) ct) → ∃ e ∈ es, e.shortId = x
  distinct : (es.map (·.shortId)).Nodup

/-- A file of the lesson can be read. -/
def LessonReadable : File → Content → Prop
  | .deps, c => c.ids ≠ none
  | .enc, c => c.weights ≠ none
  | .sup, c => c.ids ≠ none
  | .name, c => c.text ≠ none
  | .descr, c => c.text ≠ none
  | .metadata, c => c.metadata ≠ none
  | .defaultType, c => c.type ≠ none
  | _, _ => True

/-- A file of an exercise can be read; the front and back only need to be readable when inlined. -/
def ExReadable (inlined : Bool) : File → Content → Prop
  | .exName _, c => c.text ≠ none
  | .exDescr _, c => c.text ≠ none
  | .exType _, c => c.type ≠ none
  | .front _, c => inlined = true → c.md ≠ none
  | .back _, c => inlined = true → c.md ≠ none
  | _, _ => True

/-- All files of a directory that matter can be read: those of the lesson and those of exercises with a
front file. -/
def DirReadable (inlined : Bool) (files : List (Str × Content)) : Prop :=
  (∀ k ct, Has files k ct → k.exercise = none → LessonReadable k ct) ∧
  (∀ x, x ≠ [] → (∃ ct, Has files (.front x) ct) →
    ∀ k ct, Has files k ct → k.exercise = some x → ExReadable inlined k ct)

/-! ### File names -/

theorem not_fixed (suf : Str)
    (h : [depsFile, supFile, encFile, nameFile, descrFile, metadataFile, materialFile, instrFile,
      defaultTypeFile].all (fun b => !suf.isSuffixOf b) = true) (s : Str) :
    ∀ f ∈ [depsFile, supFile, encFile, nameFile, descrFile, metadataFile, materialFile, instrFile,
      defaultTypeFile], s ++ suf ≠ f := by
  intro f hf
  rw [List.all_eq_true] at h
  have := h f hf
  rw [Bool.not_eq_true'] at this
  exact suffix_ne' _ _ _ this

theorem not_fixed_but (suf t : Str) (b : Str) (hb : b = t ++ suf)
    (h : [depsFile, supFile, encFile, nameFile, descrFile, metadataFile, materialFile, instrFile,
      defaultTypeFile].all (fun f => f == b || !suf.isSuffixOf f) = true) (s : Str) (hs : s ≠ t) :
    ∀ f ∈ [depsFile, supFile, encFile, nameFile, descrFile, metadataFile, materialFile, instrFile,
      defaultTypeFile], s ++ suf ≠ f := by
  intro f hf
  rw [List.all_eq_true] at h
  have := h f hf
  rw [Bool.or_eq_true, beq_iff_eq, Bool.not_eq_true'] at this
  rcases this with rfl | h
  · intro h
    exact hs (List.append_cancel_right (h.trans hb))
  · exact suffix_ne' _ _ _ h

theorem classify_other (n : Str)
    (h : ∀ f ∈ [depsFile, supFile, encFile, nameFile, descrFile, metadataFile, materialFile, instrFile,
      defaultTypeFile], n ≠ f) :
    classify n = match stripSuffix frontSuffix n with
      | some s => some (.front s)
      | none => match stripSuffix backSuffix n with
        | some s => some (.back s)
        | none => match stripSuffix exNameSuffix n with
          | some s => some (.exName s)
          | none => match stripSuffix exDescrSuffix n with
            | some s => some (.exDescr s)
            | none => (stripSuffix exTypeSuffix n).map .exType := by
  simp only [List.forall_mem_cons, List.not_mem_nil, false_imp_iff, implies_true, and_true] at h
  obtain ⟨h1, h2, h3, h4, h5, h6, h7, h8, h9⟩ := h
  unfold classify
  rw [if_neg h1, if_neg h2, if_neg h3, if_neg h4, if_neg h5, if_neg h6, if_neg h7, if_neg h8,
    if_neg h9]
  rfl

/-- **C69, recognised names**: a file is recognised as being of a kind exactly when it has the name of that
kind, except that an exercise `lesson` cannot have a name or description. -/
theorem classify_iff (n : Str) (k : File) : classify n = some k ↔ n = k.fileName ∧ ¬ Taken k := by
  constructor
  · intro h
    have hn : n = k.fileName := by
      unfold classify at h
      repeat' split at h
      all_goals first
        | (injection h with h; subst h
           first
             | assumption
             | (rename_i h1; exact (stripSuffix_iff _ _ _).1 h1))
        | (rw [Option.map_eq_some_iff] at h
           obtain ⟨s, hs, rfl⟩ := h
           exact (stripSuffix_iff _ _ _).1 hs)
    refine ⟨hn, ?_⟩
    rintro (rfl | rfl)
    · rw [hn] at h; revert h; decide +kernel
    · rw [hn] at h; revert h; decide +kernel
  · rintro ⟨rfl, ht⟩
    cases k
    case front s =>
      have hs := (stripSuffix_iff frontSuffix (s ++ frontSuffix) s).2 rfl
      rw [show (File.front s).fileName = s ++ frontSuffix from rfl,
        classify_other _ (not_fixed frontSuffix (by decide +kernel) s)]
      simp only [hs]
    case back s =>
      have hs := (stripSuffix_iff backSuffix (s ++ backSuffix) s).2 rfl
      have o0 := strip_other backSuffix frontSuffix (by decide +kernel) s
      rw [show (File.back s).fileName = s ++ backSuffix from rfl,
        classify_other _ (not_fixed backSuffix (by decide +kernel) s)]
      simp only [hs, o0]
    case exName s =>
      have hs := (stripSuffix_iff exNameSuffix (s ++ exNameSuffix) s).2 rfl
      have o0 := strip_other exNameSuffix frontSuffix (by decide +kernel) s
      have o1 := strip_other exNameSuffix backSuffix (by decide +kernel) s
      rw [show (File.exName s).fileName = s ++ exNameSuffix from rfl,
        classify_other _ (not_fixed_but exNameSuffix "lesson".toList nameFile (by decide +kernel)
          (by decide +kernel) s (fun h => ht (Or.inl (by rw [h]))))]
      simp only [hs, o0, o1]
    case exDescr s =>
      have hs := (stripSuffix_iff exDescrSuffix (s ++ exDescrSuffix) s).2 rfl
      have o0 := strip_other exDescrSuffix frontSuffix (by decide +kernel) s
      have o1 := strip_other exDescrSuffix backSuffix (by decide +kernel) s
      have o2 := strip_other exDescrSuffix exNameSuffix (by decide +kernel) s
      rw [show (File.exDescr s).fileName = s ++ exDescrSuffix from rfl,
        classify_other _ (not_fixed_but exDescrSuffix "lesson".toList descrFile (by decide +kernel)
          (by decide +kernel) s (fun h => ht (Or.inr (by rw [h]))))]
      simp only [hs, o0, o1, o2]
    case exType s =>
      have hs := (stripSuffix_iff exTypeSuffix (s ++ exTypeSuffix) s).2 rfl
      have o0 := strip_other exTypeSuffix frontSuffix (by decide +kernel) s
      have o1 := strip_other exTypeSuffix backSuffix (by decide +kernel) s
      have o2 := strip_other exTypeSuffix exNameSuffix (by decide +kernel) s
      have o3 := strip_other exTypeSuffix exDescrSuffix (by decide +kernel) s
      rw [show (File.exType s).fileName = s ++ exTypeSuffix from rfl,
        classify_other _ (not_fixed exTypeSuffix (by decide +kernel) s)]
      simp only [hs, o0, o1, o2, o3, Option.map_some]
    all_goals decide +kernel

theorem mem_recognised (files : List (Str × Content)) (k : File) (ct : Content) :
    (k, ct) ∈ recognised files ↔ Has files k ct := by
  unfold recognised Has
  rw [List.mem_filterMap]
  constructor
  · rintro ⟨⟨n, c⟩, hm, h⟩
    rw [Option.map_eq_some_iff] at h
    obtain ⟨k', hk, h⟩ := h
    cases h
    obtain ⟨e, ht⟩ := (classify_iff _ _).1 hk
    exact ⟨e ▸ hm, ht⟩
  · rintro ⟨h, ht⟩
    exact ⟨_, h, by rw [(classify_iff _ _).2 ⟨rfl, ht⟩]; rfl⟩

theorem nodup_recognised (files : List (Str × Content)) (hn : (files.map (·.1)).Nodup) :
    ((recognised files).map (·.1)).Nodup := by
  have h : ((recognised files).map (fun x => x.1.fileName)).Sublist (files.map (·.1)) := by
    clear hn
    induction files with
    | nil => exact .slnil
    | cons f fs ih =>
      unfold recognised at ih ⊢
      rw [List.filterMap_cons, List.map_cons]
      cases hf : classify f.1 with
      | none => exact ih.cons _
      | some k =>
        simp only [Option.map_some, List.map_cons]
        rw [← ((classify_iff _ _).1 hf).1]
        exact ih.cons_cons _
  have h2 := h.nodup hn
  have e : (recognised files).map (fun x => x.1.fileName) =
      ((recognised files).map (·.1)).map File.fileName := by rw [List.map_map]; rfl
  rw [e] at h2
  exact List.Nodup.of_map _ h2

theorem nodup_kinds_filter {fs : List (File × Content)} (p : File × Content → Bool)
    (h : (fs.map (·.1)).Nodup) : ((fs.filter p).map (·.1)).Nodup :=
  (List.Sublist.map _ (List.filter_sublist)).nodup h

/-! ### The lesson -/

theorem mem_lesson_files (files : List (Str × Content)) (k : File) (hk : k.exercise = none)
    (ct : Content) :
    (k, ct) ∈ (recognised files).filter (fun f => f.1.exercise = none) ↔ Has files k ct := by
  rw [List.mem_filter, mem_recognised]
  simp [hk]

macro "keep_tac" : tactic => `(tactic| (
  intro l k c l' hk h
  cases k <;> simp only [lessonStep, exStep, Option.map_eq_some_iff, Option.some.injEq] at h <;>
    first
      | exact (hk rfl).elim
      | (obtain ⟨x, hx, he⟩ := h; subst he; rfl)
      | (subst h; rfl)))

macro "set_tac" : tactic => `(tactic| (
  intro l c l' h
  simp only [lessonStep, exStep, Option.map_eq_some_iff, Option.some.injEq] at h
  first
    | (obtain ⟨x, hx, he⟩ := h; subst he; exact hx)
    | (obtain ⟨x, hx, he⟩ := h; subst he; exact congrArg some hx)
    | (subst h; rfl)))

theorem optFrom_of {X : Type} {files : List (Str × Content)} {k : File} {val : Content → Option X}
    {o : Option X} (h : (∃ ct, Has files k ct ∧ (val ct).map some = some o) ∨
      ((∀ ct, ¬ Has files k ct) ∧ o = none)) : OptFrom files k val o := by
  rcases h with ⟨ct, h1, h2⟩ | h
  · rw [Option.map_eq_some_iff] at h2
    obtain ⟨x, h2, h3⟩ := h2
    exact Or.inl ⟨ct, x, h1, h2, h3.symm⟩
  · exact Or.inr h

theorem lesson_from_files (files : List (Str × Content)) (hn : (files.map (·.1)).Nodup) (s : Str)
    (l : Lesson)
    (h : createLesson s ((recognised files).filter (fun f => f.1.exercise = none)) = some l) :
    LessonFrom files s l := by
  have hnr := nodup_kinds_filter (fun f => decide (f.1.exercise = none)) (nodup_recognised files hn)
  unfold createLesson at h
  refine ⟨?_, ?_, ?_, ?_, ?_, ?_, ?_, ?_, ?_, ?_⟩
  · refine fold_const lessonStep (·.shortId) ?_ _ _ _ h
    rintro l ⟨k, c⟩ l' h
    cases k <;> simp only [lessonStep, Option.map_eq_some_iff, Option.some.injEq] at h <;>
      first
        | (obtain ⟨x, hx, rfl⟩ := h; rfl)
        | (subst h; rfl)
  · have := fold_field lessonStep (·.deps) .deps (·.ids) (by set_tac) (by keep_tac) _ hnr _ _ h
    simpa only [ListFrom, mem_lesson_files files .deps rfl] using this
  · have := fold_field lessonStep (·.enc) .enc (·.weights) (by set_tac) (by keep_tac) _ hnr _ _ h
    simpa only [ListFrom, mem_lesson_files files .enc rfl] using this
  · have := fold_field lessonStep (·.sup) .sup (·.ids) (by set_tac) (by keep_tac) _ hnr _ _ h
    simpa only [ListFrom, mem_lesson_files files .sup rfl] using this
  · have := fold_field lessonStep (·.name) .name (fun c => c.text.map some)
      (by intro l c l' h
          simp only [lessonStep, Option.map_eq_some_iff] at h
          obtain ⟨x, hx, rfl⟩ := h
          simp [hx]) (by keep_tac) _ hnr _ _ h
    refine optFrom_of ?_
    simpa only [mem_lesson_files files .name rfl] using this
  · have := fold_field lessonStep (·.descr) .descr (fun c => c.text.map some)
      (by intro l c l' h
          simp only [lessonStep, Option.map_eq_some_iff] at h
          obtain ⟨x, hx, rfl⟩ := h
          simp [hx]) (by keep_tac) _ hnr _ _ h
    refine optFrom_of ?_
    simpa only [mem_lesson_files files .descr rfl] using this
  · have := fold_field lessonStep (·.metadata) .metadata (fun c => c.metadata.map some)
      (by intro l c l' h
          simp only [lessonStep, Option.map_eq_some_iff] at h
          obtain ⟨x, hx, rfl⟩ := h
          simp [hx]) (by keep_tac) _ hnr _ _ h
    refine optFrom_of ?_
    simpa only [mem_lesson_files files .metadata rfl] using this
  · have := fold_field lessonStep (·.defaultType) .defaultType (fun c => c.type.map some)
      (by intro l c l' h
          simp only [lessonStep, Option.map_eq_some_iff] at h
          obtain ⟨x, hx, rfl⟩ := h
          simp [hx]) (by keep_tac) _ hnr _ _ h
    refine optFrom_of ?_
    simpa only [mem_lesson_files files .defaultType rfl] using this
  · have := fold_field lessonStep (·.hasInstr) .instr (fun _ => some true) (by set_tac) (by keep_tac)
      _ hnr _ _ h
    simp only [mem_lesson_files files .instr rfl] at this
    rcases this with ⟨ct, h1, h2⟩ | ⟨h1, h2⟩
    · injection h2 with h2
      exact ⟨fun _ => ⟨ct, h1⟩, fun _ => h2.symm⟩
    · rw [h2]
      exact ⟨(fun h => by cases h), fun ⟨ct, h⟩ => (h1 ct h).elim⟩
  · have := fold_field lessonStep (·.hasMaterial) .material (fun _ => some true) (by set_tac)
      (by keep_tac) _ hnr _ _ h
    simp only [mem_lesson_files files .material rfl] at this
    rcases this with ⟨ct, h1, h2⟩ | ⟨h1, h2⟩
    · injection h2 with h2
      exact ⟨fun _ => ⟨ct, h1⟩, fun _ => h2.symm⟩
    · rw [h2]
      exact ⟨(fun h => by cases h), fun ⟨ct, h⟩ => (h1 ct h).elim⟩

/-! ### The exercises -/

theorem groups_find (fs : List (File × Content)) (s : Str) :
    (groups fs).find s = if fs.filter (fun f => f.1.exercise = some s) = [] then none
      else some (fs.filter (fun f => f.1.exercise = some s)) := by
  induction fs using List.reverseRecOn with
  | nil => simp [groups]
  | append_singleton fs f ih =>
    have e : groups (fs ++ [f]) = match f.1.exercise with
      | some s => (groups fs).upd s [] (fun l => l ++ [f])
      | none => groups fs := by
      unfold groups
      rw [List.foldl_append, List.foldl_cons, List.foldl_nil]
      cases f.1.exercise <;> rfl
    rw [e, List.filter_append]
    cases hf : f.1.exercise with
    | none =>
      have e2 : [f].filter (fun f => decide (f.1.exercise = some s)) = [] := by simp [hf]
      rw [e2, List.append_nil]
      exact ih
    | some t =>
      by_cases ht : t = s
      · subst ht
        rw [AMap.find_upd, if_pos rfl, ih]
        simp only [hf, decide_true, List.filter_cons, if_true, List.filter_nil, List.append_eq_nil_iff,
          List.cons_ne_nil, and_false, if_false, Option.some.injEq]
        split
        · rename_i h; simp [h]
        · simp
      · have e2 : [f].filter (fun f => decide (f.1.exercise = some s)) = [] := by simp [hf, ht]
        rw [AMap.find_upd, if_neg ht, ih, e2, List.append_nil]

theorem groups_nodup (fs : List (File × Content)) : (groups fs).keys.Nodup := by
  induction fs using List.reverseRecOn with
  | nil => simp [groups, AMap.keys]
  | append_singleton fs f ih =>
    unfold groups at ih ⊢
    rw [List.foldl_append, List.foldl_cons, List.foldl_nil]
    cases f.1.exercise with
    | none => exact ih
    | some t => exact AMap.nodup_keys_put _ _ _ ih

theorem nodup_keys_filter (m : Groups) (p : Str × List (File × Content) → Bool) (h : m.keys.Nodup) :
    (AMap.keys (m.filter p)).Nodup := (List.Sublist.map _ List.filter_sublist).nodup h

/-- The groups from which exercises are made. -/
theorem mem_groups (fs : List (File × Content)) (s : Str) (g : List (File × Content)) :
    (s, g) ∈ ((groups fs).del []).filter hasFront ↔
      s ≠ [] ∧ g = fs.filter (fun f => f.1.exercise = some s) ∧ ∃ ct, (File.front s, ct) ∈ fs := by
  have hm : (s, g) ∈ groups fs ↔ (groups fs).find s = some g :=
    ⟨AMap.find_of_mem (groups_nodup fs), AMap.mem_of_find⟩
  have hfront : ∀ g, g = fs.filter (fun f => f.1.exercise = some s) →
      (hasFront (s, g) = true ↔ ∃ ct, (File.front s, ct) ∈ fs) := by
    rintro g rfl
    unfold hasFront
    rw [List.any_eq_true]
    constructor
    · rintro ⟨⟨k, ct⟩, hx, h⟩
      rw [List.mem_filter] at hx
      cases k <;> simp at h
      simp only [File.exercise, decide_eq_true_eq, Option.some.injEq] at hx
      exact ⟨ct, hx.2 ▸ hx.1⟩
    · rintro ⟨ct, h⟩
      exact ⟨_, List.mem_filter.2 ⟨h, by simp [File.exercise]⟩, rfl⟩
  rw [List.mem_filter]
  unfold AMap.del
  rw [List.mem_filter, hm, groups_find]
  constructor
  · rintro ⟨⟨h1, h2⟩, h3⟩
    have hne : s ≠ [] := by simpa using h2
    split at h1
    · cases h1
    · injection h1 with h1
      exact ⟨hne, h1.symm, (hfront g h1.symm).1 h3⟩
  · rintro ⟨h1, h2, h3⟩
    have hf := (hfront g h2).2 h3
    refine ⟨⟨?_, by simpa using h1⟩, hf⟩
    rw [if_neg, h2]
    intro he
    rw [h2, he] at hf
    cases hf

theorem mem_exercise_files (files : List (Str × Content)) (k : File) (s : Str)
    (hk : k.exercise = some s) (ct : Content) :
    (k, ct) ∈ (recognised files).filter (fun f => f.1.exercise = some s) ↔ Has files k ct := by
  rw [List.mem_filter, mem_recognised]
  simp [hk]

/-- The kind of a file that belongs to exercise `s`. -/
theorem exercise_kinds {k : File} {s : Str} (h : k.exercise = some s) :
    k = .front s ∨ k = .back s ∨ k = .exName s ∨ k = .exDescr s ∨ k = .exType s := by
  cases k <;> simp_all [File.exercise]

theorem fold_exercise {X : Type} (φ : Exercise → X) (s : Str) (k0 : File) (val : Content → Option X)
    (hset : ∀ l c l', exStep l (k0, c) = some l' → val c = some (φ l'))
    (hkeep : ∀ l k c l', k.exercise = some s → k ≠ k0 → exStep l (k, c) = some l' → φ l' = φ l)
    (fs : List (File × Content)) (hs : ∀ f ∈ fs, f.1.exercise = some s) (hn : (fs.map (·.1)).Nodup)
    (l l' : Exercise) (h : fs.foldlM exStep l = some l') :
    (∃ ct, (k0, ct) ∈ fs ∧ val ct = some (φ l')) ∨ ((∀ ct, (k0, ct) ∉ fs) ∧ φ l' = φ l) := by
  induction fs generalizing l with
  | nil =>
    have : l = l' := by simpa using h
    subst this
    simp
  | cons f fs ih =>
    rw [List.foldlM_cons, Option.bind_eq_bind, Option.bind_eq_some_iff] at h
    obtain ⟨l1, h1, h2⟩ := h
    rw [List.map_cons, List.nodup_cons] at hn
    have hk := hs f List.mem_cons_self
    obtain ⟨k, c⟩ := f
    rcases ih (fun f hf => hs f (List.mem_cons_of_mem _ hf)) hn.2 l1 h2 with ⟨ct, hm, hv⟩ | ⟨hno, he⟩
    · exact Or.inl ⟨ct, List.mem_cons_of_mem _ hm, hv⟩
    · by_cases hk' : k = k0
      · subst hk'
        exact Or.inl ⟨c, List.mem_cons_self, by rw [he]; exact hset _ _ _ h1⟩
      · refine Or.inr ⟨fun ct hm => ?_, he.trans (hkeep _ _ _ _ hk hk' h1)⟩
        rcases List.mem_cons.1 hm with h | h
        · exact hk' (congrArg Prod.fst h).symm
        · exact hno ct h

macro "ex_keep_tac" : tactic => `(tactic| (
  intro l k c l' hs hk h
  rcases exercise_kinds hs with he | he | he | he | he <;> subst he <;>
    simp only [exStep, Option.map_eq_some_iff, Option.some.injEq] at h <;>
    first
      | exact (hk rfl).elim
      | (obtain ⟨x, hx, he⟩ := h; subst he; rfl)
      | (subst h; rfl)))

theorem exercise_from_files (files : List (Str × Content)) (hn : (files.map (·.1)).Nodup) (s : Str)
    (hs : s ≠ []) (hf : ∃ ct, Has files (.front s) ct) (e : Exercise)
    (h : createExercise s ((recognised files).filter (fun f => f.1.exercise = some s)) = some e) :
    e.shortId = s ∧ ExerciseFrom files e := by
  have hnr := nodup_kinds_filter (fun f => decide (f.1.exercise = some s)) (nodup_recognised files hn)
  have hall : ∀ f ∈ (recognised files).filter (fun f => decide (f.1.exercise = some s)),
      f.1.exercise = some s := fun f hf => by simpa using (List.mem_filter.1 hf).2
  unfold createExercise at h
  have hid : e.shortId = s := by
    refine fold_const exStep (·.shortId) ?_ _ _ _ h
    rintro l ⟨k, c⟩ l' h
    cases k <;> simp only [exStep, Option.map_eq_some_iff, Option.some.injEq] at h <;>
      first
        | (obtain ⟨x, hx, rfl⟩ := h; rfl)
        | (subst h; rfl)
  refine ⟨hid, ⟨hid ▸ hs, ?_, ?_, ?_, ?_, ?_⟩⟩
  · have := fold_exercise (·.front) s (.front s) (fun c => some c.md)
      (by intro l c l' h; simp only [exStep, Option.some.injEq] at h; subst h; rfl)
      (by ex_keep_tac) _ hall hnr _ _ h
    simp only [mem_exercise_files files (.front s) s rfl] at this
    rw [hid]
    rcases this with ⟨ct, h1, h2⟩ | ⟨h1, _⟩
    · injection h2 with h2
      exact ⟨ct, h1, h2.symm⟩
    · obtain ⟨ct, h⟩ := hf
      exact (h1 ct h).elim
  · have := fold_exercise (·.back) s (.back s) (fun c => some (some c.md))
      (by intro l c l' h; simp only [exStep, Option.some.injEq] at h; subst h; rfl)
      (by ex_keep_tac) _ hall hnr _ _ h
    simp only [mem_exercise_files files (.back s) s rfl] at this
    rw [hid]
    rcases this with ⟨ct, h1, h2⟩ | h
    · injection h2 with h2
      exact Or.inl ⟨ct, h1, h2.symm⟩
    · exact Or.inr h
  · have := fold_exercise (·.name) s (.exName s) (fun c => c.text.map some)
      (by intro l c l' h
          simp only [exStep, Option.map_eq_some_iff] at h
          obtain ⟨x, hx, rfl⟩ := h
          simp [hx]) (by ex_keep_tac) _ hall hnr _ _ h
    rw [hid]
    refine optFrom_of ?_
    simpa only [mem_exercise_files files (.exName s) s rfl] using this
  · have := fold_exercise (·.descr) s (.exDescr s) (fun c => c.text.map some)
      (by intro l c l' h
          simp only [exStep, Option.map_eq_some_iff] at h
          obtain ⟨x, hx, rfl⟩ := h
          simp [hx]) (by ex_keep_tac) _ hall hnr _ _ h
    rw [hid]
    refine optFrom_of ?_
    simpa only [mem_exercise_files files (.exDescr s) s rfl] using this
  · have := fold_exercise (·.type) s (.exType s) (fun c => c.type.map some)
      (by intro l c l' h
          simp only [exStep, Option.map_eq_some_iff] at h
          obtain ⟨x, hx, rfl⟩ := h
          simp [hx]) (by ex_keep_tac) _ hall hnr _ _ h
    rw [hid]
    refine optFrom_of ?_
    simpa only [mem_exercise_files files (.exType s) s rfl] using this

theorem openLesson_eq (order : Groups → Groups) (s : Str) (files : List (Str × Content)) :
    openLesson order s files =
      (createLesson s ((recognised files).filter (fun f => f.1.exercise = none))).bind (fun l =>
        ((order (((groups (recognised files)).del []).filter hasFront)).mapM
          (fun e => createExercise e.1 e.2)).bind (fun es => some (l, es))) := rfl

/-- **C69, one directory**: an opened lesson holds what its files say, and has one exercise for every front
file, holding what the files of that exercise say. -/
theorem openLesson_exact (order : Groups → Groups) (horder : ∀ m, (order m).Perm m) (s : Str)
    (files : List (Str × Content)) (hn : (files.map (·.1)).Nodup) (l : Lesson) (es : List Exercise)
    (h : openLesson order s files = some (l, es)) : LessonFrom files s l ∧ ExercisesFrom files es := by
  rw [openLesson_eq, Option.bind_eq_some_iff] at h
  obtain ⟨l', hl, h⟩ := h
  rw [Option.bind_eq_some_iff] at h
  obtain ⟨es', hes, h⟩ := h
  injection h with h
  obtain ⟨rfl, rfl⟩ := Prod.mk.inj h
  refine ⟨lesson_from_files files hn s _ hl, ?_⟩
  have hmem : ∀ x g, (x, g) ∈ order (((groups (recognised files)).del []).filter hasFront) ↔
      x ≠ [] ∧ g = (recognised files).filter (fun f => f.1.exercise = some x) ∧
        ∃ ct, Has files (.front x) ct := by
    intro x g
    rw [(horder _).mem_iff, mem_groups]
    simp only [mem_recognised]
  have hin := mapM_mem _ _ _ hes
  refine ⟨?_, ?_, ?_⟩
  · intro e he
    obtain ⟨⟨x, g⟩, hx, hc⟩ := (hin e).1 he
    obtain ⟨h1, rfl, h3⟩ := (hmem x g).1 hx
    exact (exercise_from_files files hn x h1 h3 e hc).2
  · intro x hx hf
    have hm := (hmem x _).2 ⟨hx, rfl, hf⟩
    have hsome := (mapM_isSome _ _).1 (by rw [hes]; rfl) _ hm
    obtain ⟨e, he⟩ := Option.isSome_iff_exists.1 hsome
    exact ⟨e, (hin e).2 ⟨_, hm, he⟩, (exercise_from_files files hn x hx hf e he).1⟩
  · have h2 := mapM_forall₂ _ _ _ hes
    have hk : (AMap.keys (order (((groups (recognised files)).del []).filter hasFront))).Nodup := by
      refine ((horder _).map Prod.fst).nodup_iff.2 ?_
      refine nodup_keys_filter _ _ ?_
      exact (List.Sublist.map _ List.filter_sublist).nodup (groups_nodup _)
    have e : es'.map (·.shortId) =
        AMap.keys (order (((groups (recognised files)).del []).filter hasFront)) := by
      unfold AMap.keys
      have : ∀ xs ys, (∀ x ∈ xs, x ∈ order (((groups (recognised files)).del []).filter hasFront)) →
          List.Forall₂ (fun (x : Str × List (File × Content)) y => createExercise x.1 x.2 = some y) xs ys →
          ys.map (·.shortId) = xs.map Prod.fst := by
        intro xs ys hsub h
        induction h with
        | nil => rfl
        | @cons x y xs ys hxy _ ih =>
          rw [List.map_cons, List.map_cons, ih (fun x hx => hsub x (List.mem_cons_of_mem _ hx))]
          obtain ⟨x1, x2⟩ := x
          obtain ⟨h1, rfl, h3⟩ := (hmem x1 x2).1 (hsub _ List.mem_cons_self)
          rw [(exercise_from_files files hn x1 h1 h3 y hxy).1]
      exact this _ _ (fun _ h => h) h2
    rw [e]
    exact hk

end Trane.Gen.Knowledge
