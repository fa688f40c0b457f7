import Verif.Gen.LiteracyProps

/-!
# C68: what a literacy course takes from the files of its directories
-/

namespace Trane.Gen.Literacy
open Trane.Store Trane.Library Trane.Gen Trane.Graph Trane.Filters

/-! ### Specification -/

/-- The name of a file of each kind. -/
def File.fileName : File → Str
  | .deps => "lesson.dependencies.json".toList
  | .enc => "lesson.encompassed.json".toList
  | .sup => "lesson.superseded.json".toList
  | .name => "lesson.name.json".toList
  | .descr => "lesson.description.json".toList
  | .instr => "lesson.instructions.md".toList
  | .example s => s ++ ".example.md".toList
  | .exception s => s ++ ".exception.md".toList
  | .exampleAnswer s => s ++ ".answer.md".toList
  | .exceptionAnswer s => s ++ ".exception_answer.md".toList
  | .simpleExamples => "simple_examples.md".toList
  | .simpleExceptions => "simple_exceptions.md".toList
  | .simpleExamplesAnswers => "simple_examples_with_answers.yaml".toList
  | .simpleExceptionsAnswers => "simple_exceptions_with_answers.yaml".toList

/-- The file is readable in the way its kind asks for. -/
def Readable : File → Content → Prop
  | .deps, c => c.ids ≠ none
  | .enc, c => c.weights ≠ none
  | .sup, c => c.ids ≠ none
  | .name, c => c.text ≠ none
  | .descr, c => c.text ≠ none
  | .instr, c => c.md ≠ none
  | .example _, c => c.md ≠ none
  | .exception _, c => c.md ≠ none
  | .exampleAnswer _, c => c.md ≠ none
  | .exceptionAnswer _, c => c.md ≠ none
  | .simpleExamples, c => c.lines ≠ none
  | .simpleExceptions, c => c.lines ≠ none
  | .simpleExamplesAnswers, c => c.entries ≠ none
  | .simpleExceptionsAnswers, c => c.entries ≠ none

/-- The directory holds the file of kind `k` with content `ct`. -/
def Has (files : List (Str × Content)) (k : File) (ct : Content) : Prop := (k.fileName, ct) ∈ files

/-- The answer to the question with short id `s`, kept in the file `ak s`. -/
def AnswerIs (files : List (Str × Content)) (ak : Str → File) (s : Str) (a : Option Str) : Prop :=
  ∀ t, a = some t ↔ ∃ ct, Has files (ak s) ct ∧ ct.md = some t

/-- Question `q` with answer `a` is given by the files: in a file of its own, with the answer in the
matching answer file; as a line of the list of simple questions; or in the list of questions with
answers. -/
def Given (files : List (Str × Content)) (qk ak : Str → File) (simple listed : File)
    (q : Str) (a : Option Str) : Prop :=
  (∃ s ct, Has files (qk s) ct ∧ ct.md = some q ∧ AnswerIs files ak s a) ∨
  (∃ ct ls, Has files simple ct ∧ ct.lines = some ls ∧ q ∈ ls ∧ a = none) ∨
  (∃ ct es, Has files listed ct ∧ ct.entries = some es ∧ (q, a) ∈ es)

/-! ### File names -/

theorem stripSuffix_iff (suf n s : Str) : stripSuffix suf n = some s ↔ n = s ++ suf := by
  unfold stripSuffix
  constructor
  · intro h
    split at h
    · rename_i hs
      rw [List.isSuffixOf_iff_suffix] at hs
      obtain ⟨t, rfl⟩ := hs
      injection h with h
      rw [← h]
      simp
    · cases h
  · rintro rfl
    rw [if_pos (List.isSuffixOf_iff_suffix.2 (List.suffix_append _ _))]
    simp

theorem stripSuffix_none (suf n : Str) (h : ∀ s, n ≠ s ++ suf) : stripSuffix suf n = none := by
  cases h' : stripSuffix suf n with
  | none => rfl
  | some s => exact (h s ((stripSuffix_iff _ _ _).1 h')).elim

theorem suffix_ne (s s' a b : Str) (h1 : a.isSuffixOf b = false) (h2 : b.isSuffixOf a = false) :
    s ++ a ≠ s' ++ b := by
  intro h
  have ha : a <:+ s ++ a := List.suffix_append _ _
  have hb : b <:+ s ++ a := h ▸ List.suffix_append _ _
  rcases List.suffix_or_suffix_of_suffix ha hb with h | h
  · rw [List.isSuffixOf_iff_suffix.2 h] at h1; cases h1
  · rw [List.isSuffixOf_iff_suffix.2 h] at h2; cases h2

theorem suffix_ne' (s a b : Str) (h1 : a.isSuffixOf b = false) : s ++ a ≠ b := by
  rintro rfl
  rw [List.isSuffixOf_iff_suffix.2 (List.suffix_append _ _)] at h1
  cases h1

theorem not_fixed (suf : Str)
    (h : [depsFile, encFile, supFile, nameFile, descrFile, instrFile].all
      (fun b => !suf.isSuffixOf b) = true) (s : Str) :
    s ++ suf ≠ depsFile ∧ s ++ suf ≠ encFile ∧ s ++ suf ≠ supFile ∧ s ++ suf ≠ nameFile ∧
    s ++ suf ≠ descrFile ∧ s ++ suf ≠ instrFile := by
  simp only [List.all_cons, List.all_nil, Bool.and_true, Bool.and_eq_true, Bool.not_eq_true'] at h
  exact ⟨suffix_ne' _ _ _ h.1, suffix_ne' _ _ _ h.2.1, suffix_ne' _ _ _ h.2.2.1,
    suffix_ne' _ _ _ h.2.2.2.1, suffix_ne' _ _ _ h.2.2.2.2.1, suffix_ne' _ _ _ h.2.2.2.2.2⟩

theorem strip_other (suf suf' : Str) (h : (suf.isSuffixOf suf' || suf'.isSuffixOf suf) = false)
    (s : Str) : stripSuffix suf' (s ++ suf) = none := by
  rw [Bool.or_eq_false_iff] at h
  exact stripSuffix_none _ _ (fun s' => suffix_ne _ _ _ _ h.1 h.2)

/-- **C68, recognised names**: a file is recognised as being of a kind exactly when it has the name of that
kind. -/
theorem classify_iff (n : Str) (k : File) : classify n = some k ↔ n = k.fileName := by
  constructor
  · intro h
    unfold classify at h
    repeat' split at h
    all_goals first
      | (injection h with h; subst h
         first
           | assumption
           | (rename_i h1; exact (stripSuffix_iff _ _ _).1 h1)
           | (rename_i h1 _; exact (stripSuffix_iff _ _ _).1 h1))
      | cases h
  · rintro rfl
    cases k
    case «example» s =>
      obtain ⟨h1, h2, h3, h4, h5, h6⟩ := not_fixed exampleSuffix (by decide +kernel) s
      have hs := (stripSuffix_iff exampleSuffix (s ++ exampleSuffix) s).2 rfl
      rw [show (File.«example» s).fileName = s ++ exampleSuffix from rfl]
      simp only [classify, if_neg h1, if_neg h2, if_neg h3, if_neg h4, if_neg h5, if_neg h6, hs]
    case exception s =>
      obtain ⟨h1, h2, h3, h4, h5, h6⟩ := not_fixed exceptionSuffix (by decide +kernel) s
      have hs := (stripSuffix_iff exceptionSuffix (s ++ exceptionSuffix) s).2 rfl
      have o0 := strip_other exceptionSuffix exampleSuffix (by decide +kernel) s
      rw [show (File.exception s).fileName = s ++ exceptionSuffix from rfl]
      simp only [classify, if_neg h1, if_neg h2, if_neg h3, if_neg h4, if_neg h5, if_neg h6, hs, o0]
    case exampleAnswer s =>
      obtain ⟨h1, h2, h3, h4, h5, h6⟩ := not_fixed answerSuffix (by decide +kernel) s
      have hs := (stripSuffix_iff answerSuffix (s ++ answerSuffix) s).2 rfl
      have o0 := strip_other answerSuffix exampleSuffix (by decide +kernel) s
      have o1 := strip_other answerSuffix exceptionSuffix (by decide +kernel) s
      rw [show (File.exampleAnswer s).fileName = s ++ answerSuffix from rfl]
      simp only [classify, if_neg h1, if_neg h2, if_neg h3, if_neg h4, if_neg h5, if_neg h6, hs, o0, o1]
    case exceptionAnswer s =>
      obtain ⟨h1, h2, h3, h4, h5, h6⟩ := not_fixed exceptionAnswerSuffix (by decide +kernel) s
      have hs := (stripSuffix_iff exceptionAnswerSuffix (s ++ exceptionAnswerSuffix) s).2 rfl
      have o0 := strip_other exceptionAnswerSuffix exampleSuffix (by decide +kernel) s
      have o1 := strip_other exceptionAnswerSuffix exceptionSuffix (by decide +kernel) s
      have o2 := strip_other exceptionAnswerSuffix answerSuffix (by decide +kernel) s
      rw [show (File.exceptionAnswer s).fileName = s ++ exceptionAnswerSuffix from rfl]
      simp only [classify, if_neg h1, if_neg h2, if_neg h3, if_neg h4, if_neg h5, if_neg h6, hs, o0, o1, o2]
    all_goals decide +kernel

theorem fileName_inj {k k' : File} (h : k.fileName = k'.fileName) : k = k' := by
  have h1 := (classify_iff k.fileName k).2 rfl
  have h2 := (classify_iff k.fileName k').2 h
  rw [h1] at h2
  injection h2

/-! ### Folding over the files -/

/-- The recognised files. -/
def recognised (files : List (Str × Content)) : List (File × Content) :=
  files.filterMap (fun f => (classify f.1).map (fun k => (k, f.2)))

theorem mem_recognised (files : List (Str × Content)) (k : File) (ct : Content) :
    (k, ct) ∈ recognised files ↔ Has files k ct := by
  unfold recognised Has
  rw [List.mem_filterMap]
  constructor
  · rintro ⟨⟨n, c⟩, hm, h⟩
    rw [Option.map_eq_some_iff] at h
    obtain ⟨k', hk, h⟩ := h
    cases h
    rw [← (classify_iff _ _).1 hk]
    exact hm
  · intro h
    exact ⟨_, h, by rw [(classify_iff _ _).2 rfl]; rfl⟩

theorem nodup_recognised (files : List (Str × Content)) (hn : (files.map (·.1)).Nodup) :
    ((recognised files).map (·.1)).Nodup := by
  have h : ((recognised files).map (fun x => x.1.fileName)).Sublist (files.map (·.1)) := by
    clear hn
    induction files with
    | nil => exact .slnil
    | cons f fs ih =>
      unfold recognised at ih ⊢
      rw [List.filterMap_cons, List.map_cons]
      cases hf : classify f.1 with
      | none => exact ih.cons _
      | some k =>
        simp only [Option.map_some, List.map_cons]
        rw [← (classify_iff _ _).1 hf]
        exact ih.cons_cons _
  have h2 := h.nodup hn
  have e : (recognised files).map (fun x => x.1.fileName) =
      ((recognised files).map (·.1)).map File.fileName := by rw [List.map_map]; rfl
  rw [e] at h2
  exact List.Nodup.of_map _ h2

theorem step_isSome (ans : AMap Str Str × AMap Str Str) (l : Lesson) (acc : AMap Str Str × AMap Str Str)
    (f : File × Content) :
    ((answerStep acc f).isSome = true ∧ (fileStep ans l f).isSome = true) ↔ Readable f.1 f.2 := by
  obtain ⟨k, c⟩ := f
  cases k <;> simp [answerStep, fileStep, Readable, Option.isSome_iff_ne_none]

theorem foldlM_isSome {σ β : Type} (g : σ → β → Option σ) (P : β → Prop)
    (h : ∀ s x, (g s x).isSome = true ↔ P x) (xs : List β) (s : σ) :
    (xs.foldlM g s).isSome = true ↔ ∀ x ∈ xs, P x := by
  induction xs generalizing s with
  | nil => simp
  | cons x xs ih =>
    rw [List.foldlM_cons, List.forall_mem_cons, ← h s x]
    cases hg : g s x with
    | none => simp
    | some s' => simpa using ih s'

/-- **C68, when a lesson directory can be opened**: exactly when every recognised file in it can be read
as its kind asks. -/
theorem openLesson_succeeds_iff (s : Str) (files : List (Str × Content)) :
    (openLesson s files).isSome = true ↔ ∀ k ct, Has files k ct → Readable k ct := by
  have hA := foldlM_isSome answerStep (fun f => (answerStep ([], []) f).isSome = true)
    (fun a f => by obtain ⟨k, c⟩ := f; cases k <;> simp [answerStep]) (recognised files) ([], [])
  have hF : ∀ ans, ((recognised files).foldlM (fileStep ans) { shortId := s }).isSome = true ↔ _ :=
    fun ans => foldlM_isSome (fileStep ans)
      (fun f => (fileStep ([], []) { shortId := s } f).isSome = true)
      (fun l f => by obtain ⟨k, c⟩ := f; cases k <;> simp [fileStep]) (recognised files) _
  have hall : (∀ k ct, Has files k ct → Readable k ct) ↔
      ∀ f ∈ recognised files, Readable f.1 f.2 := by
    constructor
    · rintro h ⟨k, ct⟩ hf; exact h k ct ((mem_recognised _ _ _).1 hf)
    · intro h k ct hk; exact h (k, ct) ((mem_recognised _ _ _).2 hk)
  rw [hall]
  have hsplit : (∀ f ∈ recognised files, Readable f.1 f.2) ↔
      (∀ f ∈ recognised files, (answerStep ([], []) f).isSome = true) ∧
      (∀ f ∈ recognised files, (fileStep ([], []) { shortId := s } f).isSome = true) := by
    simp only [← step_isSome ([], []) { shortId := s } ([], [])]
    exact ⟨fun h => ⟨fun f hf => (h f hf).1, fun f hf => (h f hf).2⟩,
      fun h f hf => ⟨h.1 f hf, h.2 f hf⟩⟩
  rw [hsplit, ← hA]
  rw [show openLesson s files = createLesson s (recognised files) from rfl]
  unfold createLesson
  rw [Option.bind_eq_bind]
  cases ha : (recognised files).foldlM answerStep ([], []) with
  | none => simp
  | some ans =>
    rw [Option.bind_some, ← hF ans]
    simp only [Option.bind_eq_bind, Option.isSome_some, true_and]
    cases hf : (recognised files).foldlM (fileStep ans) { shortId := s } with
    | none => simp
    | some l => simp

/-- The answers collected by the first loop. -/
theorem answers_exact (fs : List (File × Content)) (hn : (fs.map (·.1)).Nodup)
    (acc ans : AMap Str Str × AMap Str Str) (h : fs.foldlM answerStep acc = some ans) (s t : Str) :
    (ans.1.find s = some t ↔ (∃ ct, (File.exampleAnswer s, ct) ∈ fs ∧ ct.md = some t) ∨
      ((∀ ct, (File.exampleAnswer s, ct) ∉ fs) ∧ acc.1.find s = some t)) ∧
    (ans.2.find s = some t ↔ (∃ ct, (File.exceptionAnswer s, ct) ∈ fs ∧ ct.md = some t) ∨
      ((∀ ct, (File.exceptionAnswer s, ct) ∉ fs) ∧ acc.2.find s = some t)) := by
  induction fs generalizing acc with
  | nil =>
    have : acc = ans := by simpa using h
    subst this
    simp
  | cons f fs ih =>
    rw [List.foldlM_cons, Option.bind_eq_bind, Option.bind_eq_some_iff] at h
    obtain ⟨acc', h1, h2⟩ := h
    rw [List.map_cons, List.nodup_cons] at hn
    have hnot : ∀ ct, (f.1, ct) ∉ fs := fun ct hm => hn.1 (List.mem_map.2 ⟨_, hm, rfl⟩)
    obtain ⟨i1, i2⟩ := ih hn.2 acc' h2
    rw [i1, i2]
    obtain ⟨k, c⟩ := f
    cases k
    case exampleAnswer id =>
      simp only [answerStep, Option.map_eq_some_iff] at h1
      obtain ⟨t', ht', rfl⟩ := h1
      constructor
      · by_cases hs : s = id
        · subst hs
          simp only [AMap.find_put_self, List.mem_cons, Prod.mk.injEq, true_and, not_or]
          constructor
          · rintro (⟨ct, hm, _⟩ | ⟨_, h⟩)
            · exact (hnot ct hm).elim
            · exact Or.inl ⟨c, Or.inl rfl, ht'.trans h⟩
          · rintro (⟨ct, rfl | hm, h⟩ | ⟨h, _⟩)
            · exact Or.inr ⟨hnot, by rw [← h, ht']⟩
            · exact (hnot ct hm).elim
            · exact ((h c).1 rfl).elim
        · simp [AMap.find_put_ne _ _ (Ne.symm hs), hs]
      · simp
    case exceptionAnswer id =>
      simp only [answerStep, Option.map_eq_some_iff] at h1
      obtain ⟨t', ht', rfl⟩ := h1
      constructor
      · simp
      · by_cases hs : s = id
        · subst hs
          simp only [AMap.find_put_self, List.mem_cons, Prod.mk.injEq, true_and, not_or]
          constructor
          · rintro (⟨ct, hm, _⟩ | ⟨_, h⟩)
            · exact (hnot ct hm).elim
            · exact Or.inl ⟨c, Or.inl rfl, ht'.trans h⟩
          · rintro (⟨ct, rfl | hm, h⟩ | ⟨h, _⟩)
            · exact Or.inr ⟨hnot, by rw [← h, ht']⟩
            · exact (hnot ct hm).elim
            · exact ((h c).1 rfl).elim
        · simp [AMap.find_put_ne _ _ (Ne.symm hs), hs]
    all_goals
      simp only [answerStep, Option.some.injEq] at h1
      subst h1
      simp

/-- The questions one file adds. -/
def adds (ans : AMap Str Str × AMap Str Str) (f : File × Content) :
    List (Str × Option Str) × List (Str × Option Str) :=
  match f.1 with
  | .example s => ((f.2.md.toList.map (fun q => (q, ans.1.find s))), [])
  | .exception s => ([], (f.2.md.toList.map (fun q => (q, ans.2.find s))))
  | .simpleExamples => ((f.2.lines.getD []).map (fun q => (q, none)), [])
  | .simpleExceptions => ([], (f.2.lines.getD []).map (fun q => (q, none)))
  | .simpleExamplesAnswers => (f.2.entries.getD [], [])
  | .simpleExceptionsAnswers => ([], f.2.entries.getD [])
  | _ => ([], [])

theorem questions_fold (ans : AMap Str Str × AMap Str Str) (fs : List (File × Content)) (l l' : Lesson)
    (h : fs.foldlM (fileStep ans) l = some l') :
    l'.examples = l.examples ++ fs.flatMap (fun f => (adds ans f).1) ∧
    l'.exceptions = l.exceptions ++ fs.flatMap (fun f => (adds ans f).2) ∧ l'.shortId = l.shortId := by
  induction fs generalizing l with
  | nil =>
    have : l = l' := by simpa using h
    subst this
    simp
  | cons f fs ih =>
    rw [List.foldlM_cons, Option.bind_eq_bind, Option.bind_eq_some_iff] at h
    obtain ⟨l1, h1, h2⟩ := h
    obtain ⟨e1, e2, e3⟩ := ih l1 h2
    rw [e1, e2, e3]
    obtain ⟨k, c⟩ := f
    cases k <;> simp only [fileStep, Option.map_eq_some_iff, Option.some.injEq] at h1 <;>
      first
        | (obtain ⟨x, hx, rfl⟩ := h1; simp [adds, hx])
        | (subst h1; simp [adds])

theorem openLesson_parts {s : Str} {files : List (Str × Content)} {l : Lesson}
    (h : openLesson s files = some l) :
    ∃ ans l0, (recognised files).foldlM answerStep ([], []) = some ans ∧
      (recognised files).foldlM (fileStep ans) { shortId := s } = some l0 ∧
      l = { l0 with
        examples := l0.examples.insertionSort (fun a b => pairLe a b = true)
        exceptions := l0.exceptions.insertionSort (fun a b => pairLe a b = true) } := by
  unfold openLesson createLesson at h
  simp only [Option.bind_eq_bind, Option.bind_eq_some_iff, Option.some.injEq] at h
  obtain ⟨ans, ha, l0, hl, e⟩ := h
  exact ⟨ans, l0, ha, hl, e.symm⟩

/-- **C68, examples keep their answers**: opening a lesson directory gives exactly the examples and
exceptions its files hold, each with its own answer. -/
theorem questions_exact (s : Str) (files : List (Str × Content)) (l : Lesson)
    (hn : (files.map (·.1)).Nodup) (h : openLesson s files = some l) (q : Str) (a : Option Str) :
    ((q, a) ∈ l.examples ↔
      Given files .example .exampleAnswer .simpleExamples .simpleExamplesAnswers q a) ∧
    ((q, a) ∈ l.exceptions ↔
      Given files .exception .exceptionAnswer .simpleExceptions .simpleExceptionsAnswers q a) := by
  obtain ⟨ans, l0, ha, hl, rfl⟩ := openLesson_parts h
  obtain ⟨e1, e2, _⟩ := questions_fold ans _ _ _ hl
  have hans := answers_exact _ (nodup_recognised files hn) _ _ ha
  have hA : ∀ id a, AnswerIs files .exampleAnswer id a ↔ a = ans.1.find id := by
    intro id a
    unfold AnswerIs
    simp only [← mem_recognised]
    constructor
    · intro h
      apply Option.ext
      intro t
      rw [h t, (hans id t).1]
      simp
    · rintro rfl t
      rw [(hans id t).1]
      simp
  have hE : ∀ id a, AnswerIs files .exceptionAnswer id a ↔ a = ans.2.find id := by
    intro id a
    unfold AnswerIs
    simp only [← mem_recognised]
    constructor
    · intro h
      apply Option.ext
      intro t
      rw [h t, (hans id t).2]
      simp
    · rintro rfl t
      rw [(hans id t).2]
      simp
  simp only [List.mem_insertionSort, e1, e2, List.nil_append, List.mem_flatMap, Given, hA, hE,
    ← mem_recognised]
  constructor
  · constructor
    · rintro ⟨⟨k, c⟩, hm, hq⟩
      cases k <;> simp only [adds, List.mem_map, List.not_mem_nil, Option.mem_toList,
        Prod.mk.injEq] at hq
      · obtain ⟨q', h1, rfl, rfl⟩ := hq
        exact Or.inl ⟨_, c, hm, h1, rfl⟩
      · obtain ⟨q', h1, rfl, rfl⟩ := hq
        cases hc : c.lines with
        | none => rw [hc] at h1; simp at h1
        | some ls => rw [hc] at h1; exact Or.inr (Or.inl ⟨c, ls, hm, hc, h1, rfl⟩)
      · cases hc : c.entries with
        | none => rw [hc] at hq; simp at hq
        | some es => rw [hc] at hq; exact Or.inr (Or.inr ⟨c, es, hm, hc, hq⟩)
    · rintro (⟨id, ct, hm, h1, rfl⟩ | ⟨ct, ls, hm, h1, h2, rfl⟩ | ⟨ct, es, hm, h1, h2⟩)
      · exact ⟨_, hm, by simp [adds, h1]⟩
      · exact ⟨_, hm, by simp [adds, h1, h2]⟩
      · exact ⟨_, hm, by simp [adds, h1, h2]⟩
  · constructor
    · rintro ⟨⟨k, c⟩, hm, hq⟩
      cases k <;> simp only [adds, List.mem_map, List.not_mem_nil, Option.mem_toList,
        Prod.mk.injEq] at hq
      · obtain ⟨q', h1, rfl, rfl⟩ := hq
        exact Or.inl ⟨_, c, hm, h1, rfl⟩
      · obtain ⟨q', h1, rfl, rfl⟩ := hq
        cases hc : c.lines with
        | none => rw [hc] at h1; simp at h1
        | some ls => rw [hc] at h1; exact Or.inr (Or.inl ⟨c, ls, hm, hc, h1, rfl⟩)
      · cases hc : c.entries with
        | none => rw [hc] at hq; simp at hq
        | some es => rw [hc] at hq; exact Or.inr (Or.inr ⟨c, es, hm, hc, hq⟩)
    · rintro (⟨id, ct, hm, h1, rfl⟩ | ⟨ct, ls, hm, h1, h2, rfl⟩ | ⟨ct, es, hm, h1, h2⟩)
      · exact ⟨_, hm, by simp [adds, h1]⟩
      · exact ⟨_, hm, by simp [adds, h1, h2]⟩
      · exact ⟨_, hm, by simp [adds, h1, h2]⟩

/-! ### The lists of ids -/

theorem field_fold {X : Type} (ans : AMap Str Str × AMap Str Str) (φ : Lesson → X) (K : File)
    (val : Content → Option X)
    (hset : ∀ l c l', fileStep ans l (K, c) = some l' → val c = some (φ l'))
    (hkeep : ∀ l k c l', k ≠ K → fileStep ans l (k, c) = some l' → φ l' = φ l)
    (fs : List (File × Content)) (hn : (fs.map (·.1)).Nodup) (l l' : Lesson)
    (h : fs.foldlM (fileStep ans) l = some l') :
    (∃ ct, (K, ct) ∈ fs ∧ val ct = some (φ l')) ∨ ((∀ ct, (K, ct) ∉ fs) ∧ φ l' = φ l) := by
  induction fs generalizing l with
  | nil =>
    have : l = l' := by simpa using h
    subst this
    simp
  | cons f fs ih =>
    rw [List.foldlM_cons, Option.bind_eq_bind, Option.bind_eq_some_iff] at h
    obtain ⟨l1, h1, h2⟩ := h
    rw [List.map_cons, List.nodup_cons] at hn
    have hnot : ∀ ct, (f.1, ct) ∉ fs := fun ct hm => hn.1 (List.mem_map.2 ⟨_, hm, rfl⟩)
    obtain ⟨k, c⟩ := f
    rcases ih hn.2 l1 h2 with ⟨ct, hm, hv⟩ | ⟨hno, he⟩
    · exact Or.inl ⟨ct, List.mem_cons_of_mem _ hm, hv⟩
    · by_cases hk : k = K
      · subst hk
        exact Or.inl ⟨c, List.mem_cons_self, by rw [he]; exact hset _ _ _ h1⟩
      · refine Or.inr ⟨fun ct hm => ?_, he.trans (hkeep _ _ _ _ hk h1)⟩
        rcases List.mem_cons.1 hm with h | h
        · exact hk (congrArg Prod.fst h).symm
        · exact hno ct h

/-- A list kept in an optional file of a directory: the content of the file, or nothing without one. -/
def ListFrom {X : Type} (files : List (Str × Content)) (k : File) (val : Content → Option (List X))
    (l : List X) : Prop :=
  (∃ ct, Has files k ct ∧ val ct = some l) ∨ ((∀ ct, ¬ Has files k ct) ∧ l = [])

/-- **C68, references of a lesson**: the dependencies, encompassed and superseded ids of a lesson are those
of its three JSON files. -/
theorem references_exact (s : Str) (files : List (Str × Content)) (l : Lesson)
    (hn : (files.map (·.1)).Nodup) (h : openLesson s files = some l) :
    ListFrom files .deps (·.ids) l.deps ∧ ListFrom files .enc (·.weights) l.enc ∧
    ListFrom files .sup (·.ids) l.sup ∧ l.shortId = s := by
  obtain ⟨ans, l0, ha, hl, rfl⟩ := openLesson_parts h
  have hnr := nodup_recognised files hn
  refine ⟨?_, ?_, ?_, (questions_fold ans _ _ _ hl).2.2⟩
  · have := field_fold ans (·.deps) .deps (·.ids) ?_ ?_ _ hnr _ _ hl
    · simpa only [ListFrom, ← mem_recognised] using this
    · intro l c l' h
      simp only [fileStep, Option.map_eq_some_iff] at h
      obtain ⟨x, hx, rfl⟩ := h
      exact hx
    · intro l k c l' hk h
      cases k <;> simp only [fileStep, Option.map_eq_some_iff, Option.some.injEq] at h <;>
        first
          | exact (hk rfl).elim
          | (obtain ⟨x, hx, rfl⟩ := h; rfl)
          | (subst h; rfl)
  · have := field_fold ans (·.enc) .enc (·.weights) ?_ ?_ _ hnr _ _ hl
    · simpa only [ListFrom, ← mem_recognised] using this
    · intro l c l' h
      simp only [fileStep, Option.map_eq_some_iff] at h
      obtain ⟨x, hx, rfl⟩ := h
      exact hx
    · intro l k c l' hk h
      cases k <;> simp only [fileStep, Option.map_eq_some_iff, Option.some.injEq] at h <;>
        first
          | exact (hk rfl).elim
          | (obtain ⟨x, hx, rfl⟩ := h; rfl)
          | (subst h; rfl)
  · have := field_fold ans (·.sup) .sup (·.ids) ?_ ?_ _ hnr _ _ hl
    · simpa only [ListFrom, ← mem_recognised] using this
    · intro l c l' h
      simp only [fileStep, Option.map_eq_some_iff] at h
      obtain ⟨x, hx, rfl⟩ := h
      exact hx
    · intro l k c l' hk h
      cases k <;> simp only [fileStep, Option.map_eq_some_iff, Option.some.injEq] at h <;>
        first
          | exact (hk rfl).elim
          | (obtain ⟨x, hx, rfl⟩ := h; rfl)
          | (subst h; rfl)

/-- A text kept in an optional file of a directory. -/
def OptFrom (files : List (Str × Content)) (k : File) (val : Content → Option Str) (o : Option Str) : Prop :=
  (∃ ct x, Has files k ct ∧ val ct = some x ∧ o = some x) ∨ ((∀ ct, ¬ Has files k ct) ∧ o = none)

/-- **C68, texts of a lesson**: the name, the description and the instructions are those of their files. -/
theorem texts_exact (s : Str) (files : List (Str × Content)) (l : Lesson)
    (hn : (files.map (·.1)).Nodup) (h : openLesson s files = some l) :
    OptFrom files .name (·.text) l.name ∧ OptFrom files .descr (·.text) l.descr ∧
    OptFrom files .instr (·.md) l.instr := by
  obtain ⟨ans, l0, ha, hl, rfl⟩ := openLesson_parts h
  have hnr := nodup_recognised files hn
  refine ⟨?_, ?_, ?_⟩
  · have := field_fold ans (·.name) .name (fun c => c.text.map some) ?_ ?_ _ hnr _ _ hl
    · rcases this with ⟨ct, h1, h2⟩ | ⟨h1, h2⟩
      · obtain ⟨x, hx, h2⟩ := Option.map_eq_some_iff.1 h2
        exact Or.inl ⟨ct, x, (mem_recognised _ _ _).1 h1, hx, h2.symm⟩
      · exact Or.inr ⟨fun ct h => h1 ct ((mem_recognised _ _ _).2 h), h2⟩
    · intro l c l' h
      simp only [fileStep, Option.map_eq_some_iff] at h
      obtain ⟨x, hx, rfl⟩ := h
      simp [hx]
    · intro l k c l' hk h
      cases k <;> simp only [fileStep, Option.map_eq_some_iff, Option.some.injEq] at h <;>
        first
          | exact (hk rfl).elim
          | (obtain ⟨x, hx, rfl⟩ := h; rfl)
          | (subst h; rfl)
  · have := field_fold ans (·.descr) .descr (fun c => c.text.map some) ?_ ?_ _ hnr _ _ hl
    · rcases this with ⟨ct, h1, h2⟩ | ⟨h1, h2⟩
      · obtain ⟨x, hx, h2⟩ := Option.map_eq_some_iff.1 h2
        exact Or.inl ⟨ct, x, (mem_recognised _ _ _).1 h1, hx, h2.symm⟩
      · exact Or.inr ⟨fun ct h => h1 ct ((mem_recognised _ _ _).2 h), h2⟩
    · intro l c l' h
      simp only [fileStep, Option.map_eq_some_iff] at h
      obtain ⟨x, hx, rfl⟩ := h
      simp [hx]
    · intro l k c l' hk h
      cases k <;> simp only [fileStep, Option.map_eq_some_iff, Option.some.injEq] at h <;>
        first
          | exact (hk rfl).elim
          | (obtain ⟨x, hx, rfl⟩ := h; rfl)
          | (subst h; rfl)
  · have := field_fold ans (·.instr) .instr (fun c => c.md.map some) ?_ ?_ _ hnr _ _ hl
    · rcases this with ⟨ct, h1, h2⟩ | ⟨h1, h2⟩
      · obtain ⟨x, hx, h2⟩ := Option.map_eq_some_iff.1 h2
        exact Or.inl ⟨ct, x, (mem_recognised _ _ _).1 h1, hx, h2.symm⟩
      · exact Or.inr ⟨fun ct h => h1 ct ((mem_recognised _ _ _).2 h), h2⟩
    · intro l c l' h
      simp only [fileStep, Option.map_eq_some_iff] at h
      obtain ⟨x, hx, rfl⟩ := h
      simp [hx]
    · intro l k c l' hk h
      cases k <;> simp only [fileStep, Option.map_eq_some_iff, Option.some.injEq] at h <;>
        first
          | exact (hk rfl).elim
          | (obtain ⟨x, hx, rfl⟩ := h; rfl)
          | (subst h; rfl)

/-! ### The lesson directories -/

/-- `s.lesson`, with `s` not empty, is a directory of the course with the given files. -/
def LessonDir (dirs : List (Str × List (Str × Content))) (s : Str) (files : List (Str × Content)) :
    Prop := s ≠ [] ∧ (s ++ ".lesson".toList, files) ∈ dirs

theorem openLessons_fold (dirs : List (Str × List (Str × Content))) (hn : (dirs.map (·.1)).Nodup)
    (m0 : AMap Str Lesson) (hm0 : m0.keys.Nodup) (m : AMap Str Lesson)
    (h : dirs.foldlM (fun m d =>
      match stripSuffix lessonSuffix d.1 with
      | some s => if s.isEmpty then some m else (openLesson s d.2).map (fun l => AMap.put m s l)
      | none => some m) m0 = some m) :
    m.keys.Nodup ∧ (∀ s files, LessonDir dirs s files → (openLesson s files).isSome = true) ∧
    ∀ s l, m.find s = some l ↔ (∃ files, LessonDir dirs s files ∧ openLesson s files = some l) ∨
      ((∀ files, ¬ LessonDir dirs s files) ∧ m0.find s = some l) := by
  induction dirs generalizing m0 with
  | nil =>
    have : m0 = m := by simpa using h
    subst this
    exact ⟨hm0, by simp [LessonDir], by simp [LessonDir]⟩
  | cons d dirs ih =>
    rw [List.foldlM_cons, Option.bind_eq_bind, Option.bind_eq_some_iff] at h
    obtain ⟨m1, h1, h2⟩ := h
    rw [List.map_cons, List.nodup_cons] at hn
    have hnot : ∀ fs, (d.1, fs) ∉ dirs := fun ct hm => hn.1 (List.mem_map.2 ⟨_, hm, rfl⟩)
    have hstep : (m1 = m0 ∧ ∀ s files, ¬ (s ≠ [] ∧ (s ++ ".lesson".toList, files) = d)) ∨
        ∃ s l, s ≠ [] ∧ d.1 = s ++ ".lesson".toList ∧ openLesson s d.2 = some l ∧
          m1 = m0.put s l := by
      cases hs : stripSuffix lessonSuffix d.1 with
      | none =>
        rw [hs] at h1
        injection h1 with h1
        refine Or.inl ⟨h1.symm, ?_⟩
        rintro s files ⟨_, rfl⟩
        have := (stripSuffix_iff lessonSuffix _ s).2 (rfl : s ++ ".lesson".toList = s ++ lessonSuffix)
        rw [this] at hs
        cases hs
      | some s =>
        rw [hs] at h1
        have hd := (stripSuffix_iff _ _ _).1 hs
        dsimp only at h1
        split at h1
        · rename_i he
          injection h1 with h1
          refine Or.inl ⟨h1.symm, ?_⟩
          rintro s' files ⟨hne, rfl⟩
          have : s' = s := List.append_cancel_right hd
          subst this
          exact hne (List.isEmpty_iff.1 he)
        · rename_i he
          rw [Option.map_eq_some_iff] at h1
          obtain ⟨l, hl, rfl⟩ := h1
          exact Or.inr ⟨s, l, fun h => he (List.isEmpty_iff.2 h), hd, hl, rfl⟩
    have hdir : ∀ s files, LessonDir (d :: dirs) s files ↔
        (s ≠ [] ∧ (s ++ ".lesson".toList, files) = d) ∨ LessonDir dirs s files := by
      intro s files
      unfold LessonDir
      rw [List.mem_cons]
      tauto
    rcases hstep with ⟨rfl, hno⟩ | ⟨s, l, hne, hd, hl, rfl⟩
    · obtain ⟨r1, r2, r3⟩ := ih hn.2 _ hm0 h2
      have hdir' : ∀ s files, LessonDir (d :: dirs) s files ↔ LessonDir dirs s files := fun s files => by
        rw [hdir]; exact ⟨fun h => h.resolve_left (hno s files), Or.inr⟩
      simp only [hdir']
      exact ⟨r1, r2, r3⟩
    · obtain ⟨r1, r2, r3⟩ := ih hn.2 _ (AMap.nodup_keys_put _ _ _ hm0) h2
      have hnod : ∀ files, ¬ LessonDir dirs s files := fun files h => hnot files (hd ▸ h.2)
      refine ⟨r1, ?_, ?_⟩
      · intro s' files hs'
        rcases (hdir _ _).1 hs' with ⟨_, h⟩ | h
        · have e1 := congrArg Prod.fst h
          have e2 := congrArg Prod.snd h
          have : s' = s := List.append_cancel_right (e1.trans hd)
          subst this
          rw [show files = d.2 from e2, hl]; rfl
        · exact r2 _ _ h
      · intro s' l'
        rw [r3]
        by_cases hs : s' = s
        · subst hs
          rw [AMap.find_put_self]
          have hthis : LessonDir (d :: dirs) s' d.2 := (hdir _ _).2 (Or.inl ⟨hne, by rw [← hd]⟩)
          constructor
          · rintro (⟨files, hf, _⟩ | ⟨_, h⟩)
            · exact (hnod files hf).elim
            · injection h with h
              subst h
              exact Or.inl ⟨d.2, hthis, hl⟩
          · rintro (⟨files, hf, h⟩ | ⟨h, _⟩)
            · right
              refine ⟨hnod, ?_⟩
              rcases (hdir _ _).1 hf with ⟨_, e⟩ | e
              · rw [← hl, ← h, ← show files = d.2 from congrArg Prod.snd e]
              · exact (hnod files e).elim
            · exact (h _ hthis).elim
        · rw [AMap.find_put_ne _ _ (Ne.symm hs)]
          have hdir' : ∀ files, LessonDir (d :: dirs) s' files ↔ LessonDir dirs s' files :=
            fun files => by
              rw [hdir]
              refine ⟨fun h => h.resolve_left ?_, Or.inr⟩
              rintro ⟨_, e⟩
              exact hs (List.append_cancel_right ((congrArg Prod.fst e).trans hd))
          simp only [hdir']

/-- **C68, lesson directories**: the lessons of a course are those of its directories `<id>.lesson`; a
directory that cannot be opened fails the course. -/
theorem openLessons_exact (dirs : List (Str × List (Str × Content))) (hn : (dirs.map (·.1)).Nodup)
    (m : AMap Str Lesson) (h : openLessons dirs = some m) :
    m.keys.Nodup ∧ (∀ s files, LessonDir dirs s files → (openLesson s files).isSome = true) ∧
    ∀ s l, (s, l) ∈ m ↔ ∃ files, LessonDir dirs s files ∧ openLesson s files = some l := by
  obtain ⟨r1, r2, r3⟩ := openLessons_fold dirs hn [] (by simp [AMap.keys]) m h
  refine ⟨r1, r2, fun s l => ?_⟩
  have : (s, l) ∈ m ↔ m.find s = some l := ⟨AMap.find_of_mem r1, AMap.mem_of_find⟩
  rw [this, r3]
  simp [AMap.find]

theorem openLessons_succeeds_iff (dirs : List (Str × List (Str × Content))) :
    (openLessons dirs).isSome = true ↔
      ∀ s files, LessonDir dirs s files → (openLesson s files).isSome = true := by
  unfold openLessons
  rw [foldlM_isSome _ (fun d => ∀ s, s ≠ [] → d.1 = s ++ ".lesson".toList →
    (openLesson s d.2).isSome = true)]
  · constructor
    · rintro h s files ⟨h1, h2⟩; exact h _ h2 s h1 rfl
    · rintro h ⟨n, fs⟩ hd s h1 rfl; exact h s fs ⟨h1, hd⟩
  · intro m d
    cases hs : stripSuffix lessonSuffix d.1 with
    | none =>
      simp only [Option.isSome_some, true_iff]
      intro s _ he
      rw [(stripSuffix_iff lessonSuffix _ s).2 he] at hs
      cases hs
    | some s =>
      have hd := (stripSuffix_iff _ _ _).1 hs
      dsimp only
      by_cases he : s = []
      · subst he
        simp only [List.isEmpty_nil, if_true, Option.isSome_some, true_iff]
        intro s' hne h
        exact (hne (List.append_cancel_right (h.symm.trans hd))).elim
      · rw [if_neg (by rw [List.isEmpty_iff]; exact he), Option.isSome_map]
        constructor
        · intro h s' _ h'
          rw [List.append_cancel_right (h'.symm.trans hd : s' ++ ".lesson".toList = s ++ lessonSuffix)]
          exact h
        · intro h; exact h s he hd

variable {α γ : Type}

/-- **C53, from the course directory**: the generated lessons are exactly the reading lesson and, if
enabled, the dictation lesson of every `<id>.lesson` directory. -/
theorem generate_exact (R : Rest α γ) (dict : Bool) (order : AMap Str Lesson → AMap Str Lesson)
    (horder : ∀ m, (order m).Perm m) (dirs : List (Str × List (Str × Content)))
    (hn : (dirs.map (·.1)).Nodup) (ins : Option (Option α)) (c : CourseM α γ) (g : Generated α)
    (h : generate R dict order dirs ins c = some g) :
    ∃ short : List Str, (∀ s, s ∈ short ↔ ∃ files, LessonDir dirs s files) ∧
      (∀ m es, (m, es) ∈ g.lessons → ∃ s files l k, LessonDir dirs s files ∧
        openLesson s files = some l ∧ (k = .reading ∨ dict = true) ∧
        IsLesson c.id short s l k m ∧ IsExercise c.id m es) ∧
      (∀ s files l k, LessonDir dirs s files → openLesson s files = some l →
        (k = .reading ∨ dict = true) → ∃ m es, (m, es) ∈ g.lessons ∧ IsLesson c.id short s l k m ∧
          IsExercise c.id m es) ∧
      (unitIds [(⟨c, g.lessons⟩ : Opened α γ)]).Nodup ∧
      g.metadata = some ((c.metadata.getD []).put "literacy_course".toList ["true".toList]) := by
  unfold generate at h
  simp only [Option.bind_eq_bind, Option.bind_eq_some_iff, Option.some.injEq] at h
  obtain ⟨ls, hls, ins', _, rfl⟩ := h
  obtain ⟨r1, r2, r3⟩ := openLessons_exact dirs hn ls hls
  have hp := horder ls
  have hmem : ∀ s l, (s, l) ∈ order ls ↔ ∃ files, LessonDir dirs s files ∧ openLesson s files = some l :=
    fun s l => by rw [hp.mem_iff, r3]
  refine ⟨(order ls).keys, fun s => ?_, ?_, ?_, ?_, rfl⟩
  · unfold AMap.keys
    rw [List.mem_map]
    constructor
    · rintro ⟨⟨s', l⟩, hm, rfl⟩
      obtain ⟨files, hf, _⟩ := (hmem _ _).1 hm
      exact ⟨files, hf⟩
    · rintro ⟨files, hf⟩
      obtain ⟨l, hl⟩ := Option.isSome_iff_exists.1 (r2 s files hf)
      exact ⟨(s, l), (hmem _ _).2 ⟨files, hf, hl⟩, rfl⟩
  · intro m es hm
    obtain ⟨s, l, k, h1, h2, h3, h4⟩ := lessons_sound R dict c (order ls) ins' m es hm
    obtain ⟨files, h5, h6⟩ := (hmem _ _).1 h1
    exact ⟨s, files, l, k, h5, h6, h2, h3, h4⟩
  · intro s files l k h1 h2 h3
    exact lessons_complete R dict c (order ls) ins' s l k ((hmem _ _).2 ⟨files, h1, h2⟩) h3
  · exact ids_distinct R dict c (order ls) ins' ((hp.map _).nodup_iff.2 r1)

/-! ### A course to which the theorems apply -/

section Sample

def sampleRest : Rest Nat Nat := { lesson := fun _ _ _ => 0, exercise := fun _ _ _ => 0 }

def sampleDirs : List (Str × List (Str × Content)) :=
  [ ("vowels.lesson".toList,
      [ ("a.example.md".toList, { md := some "cat".toList }),
        ("a.answer.md".toList, { md := some "/kat/".toList }),
        ("b.example.md".toList, { md := some "hen".toList }),
        ("notes.txt".toList, {}) ]),
    ("blends.lesson".toList,
      [ ("lesson.dependencies.json".toList, { ids := some ["vowels".toList, "other::x".toList] }),
        ("simple_examples.md".toList, { lines := some ["stop".toList, "flag".toList] }),
        ("q.exception.md".toList, { md := some "island".toList }),
        ("q.exception_answer.md".toList, { md := some "silent s".toList }) ]),
    ("images".toList, []), (".lesson".toList, []) ]

def sampleCourse : CourseM Nat Nat :=
  { id := "lit".toList, deps := [], enc := [], sup := [], metadata := none, rest := 0,
    instructions := none, gen := none }

/-- The directories can be opened. -/
theorem sample_opens : (openLessons sampleDirs).isSome = true := by decide +kernel

example : (sampleDirs.map (·.1)).Nodup := by decide +kernel

example : (openLessons sampleDirs).map (fun m => m.keys) =
    some ["vowels".toList, "blends".toList] := by decide +kernel

/-- The examples of the first lesson, with and without an answer. -/
example : (openLesson "vowels".toList
      [ ("a.example.md".toList, { md := some "cat".toList }),
        ("a.answer.md".toList, { md := some "/kat/".toList }),
        ("b.example.md".toList, { md := some "hen".toList }) ]).map (·.examples) =
    some [("cat".toList, some "/kat/".toList), ("hen".toList, none)] := by decide +kernel

/-- A file that cannot be read fails the lesson. -/
example : (openLesson "vowels".toList [("a.example.md".toList, {})]).isSome = false := by decide +kernel

/-- The generated lessons and what they depend on: the dictation lesson does not keep the dependency on
another course. -/
example : (generate sampleRest true id sampleDirs (some none) sampleCourse).map
      (fun g => g.lessons.map (fun x => (x.1.id, x.1.deps))) =
    some [("lit::vowels::reading".toList, []),
      ("lit::vowels::dictation".toList, ["lit::vowels::reading".toList]),
      ("lit::blends::reading".toList, ["lit::vowels::reading".toList, "other::x".toList]),
      ("lit::blends::dictation".toList,
        ["lit::blends::reading".toList, "lit::vowels::dictation".toList])] := by decide +kernel

/-- The hypotheses of `acceptable` hold for a course with a chain of two lessons. -/
example : ∃ ls : AMap Str Lesson, ls.keys.Nodup ∧ ls.length = 2 ∧
    Acceptable [(⟨sampleCourse, (generated sampleRest true sampleCourse ls none).lessons⟩ :
      Opened Nat Nat)] := by
  refine ⟨[("a".toList, { shortId := "a".toList }),
    ("b".toList, { shortId := "b".toList, deps := ["a".toList] })], by decide, rfl, ?_⟩
  have hrank : ∀ f : Lesson → Str → Prop,
      (∀ d, ¬ f { shortId := "a".toList } d) →
      (∀ d, f { shortId := "b".toList, deps := ["a".toList] } d → d = "a".toList) →
      ¬ HasCycle (Names "lit".toList [("a".toList, ({ shortId := "a".toList } : Lesson)),
        ("b".toList, { shortId := "b".toList, deps := ["a".toList] })] f) := by
    intro f h1 h2
    refine no_cycle_of_rank _ "lit".toList (fun u => if u = "a".toList then 0 else 1)
      (fun u h => absurd h.choose_spec.2.1 (by decide)) ?_
    rintro a b - ⟨l, hm, hb, d, hd, hdb⟩
    simp only [List.mem_cons, Prod.mk.injEq, List.not_mem_nil, or_false] at hm
    rcases hm with ⟨rfl, rfl⟩ | ⟨rfl, rfl⟩
    · exact (h1 _ hd).elim
    · have hda := h2 _ hd
      subst hda
      rcases hdb with rfl | ⟨k, hk⟩
      · decide
      · have := congrArg List.length hk
        simp [lessonIdOf] at this
  refine acceptable _ _ _ _ _ (by decide) (hrank _ ?_ ?_) (hrank _ ?_ ?_) ?_ ?_ ?_ ?_
  · simp
  · simp
  · simp
  · simp
  · intro x hx
    simp only [List.mem_cons, List.not_mem_nil, or_false] at hx
    rcases hx with rfl | rfl <;> simp [sampleCourse]
  · intro x hx
    simp only [List.mem_cons, List.not_mem_nil, or_false] at hx
    rcases hx with rfl | rfl <;> simp
  · simp [sampleCourse]
  · simp [sampleCourse]

end Sample

end Trane.Gen.Literacy
