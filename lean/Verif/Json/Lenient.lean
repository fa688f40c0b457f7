import Verif.Json.Codes
import Mathlib.Data.List.Perm.Basic

/-!
# Files written by hand (C88)

A user may write manifests, filters, study sessions and preferences by hand.  The specification says which
freedom they have.
-/

namespace Trane.Json
open Trane.Store (Str)
open Trane.Filters

/-- The members of a type, in the order of their declaration, each with the value that may be left out, if
any. -/
abbrev Members := List (String × Option Json)

/-- What may be changed in an object without a change of what is read, and what is an error. -/
structure Lenient {α : Type} (ms : Members) (d : Json → Option α) : Prop where
  /-- The order of the members does not matter. -/
  order : ∀ fs fs', List.Perm fs fs' → d (.obj fs) = d (.obj fs')
  /-- Members with other names are ignored. -/
  unknown : ∀ a b k v, (∀ m ∈ ms, m.1.toList ≠ k) → d (.obj (a ++ (k, v) :: b)) = d (.obj (a ++ b))
  /-- A member with its default value may be left out. -/
  omitted : ∀ n v, (n, some v) ∈ ms → ∀ a b, (∀ e ∈ a ++ b, e.1 ≠ n.toList) →
    d (.obj (a ++ (n.toList, v) :: b)) = d (.obj (a ++ b))
  /-- A member that occurs twice is an error. -/
  twice : ∀ m ∈ ms, ∀ a b c v w, d (.obj (a ++ (m.1.toList, v) :: b ++ (m.1.toList, w) :: c)) = none
  /-- All other members are required. -/
  required : ∀ n, (n, none) ∈ ms → ∀ fs : List (Str × Json), (∀ e ∈ fs, e.1 ≠ n.toList) → d (.obj fs) = none
  /-- Instead of an object there may be an array of the values in the order of the declaration. -/
  array : ∀ xs, xs.length = ms.length → d (.arr xs) = d (.obj ((ms.map (·.1.toList)).zip xs))
  /-- Nothing else is read. -/
  other : ∀ v, (∀ fs, v ≠ .obj fs) → (∀ xs, v ≠ .arr xs) → d v = none

/-! ### Readers of fields -/

theorem field_perm {α : Type} {fs fs' : List (Str × Json)} (h : fs.Perm fs') (n : String) (d : Json → Option α)
    (m : Option α) : field fs n d m = field fs' n d m := by
  unfold field
  have hp := h.filter (fun e => decide (e.1 = n.toList))
  generalize fs.filter (fun e => decide (e.1 = n.toList)) = l at hp ⊢
  generalize fs'.filter (fun e => decide (e.1 = n.toList)) = l' at hp ⊢
  match l, l' with
  | [], l' => rw [List.nil_perm] at hp; subst hp; rfl
  | [x], l' => rw [List.singleton_perm] at hp; subst hp; rfl
  | x :: y :: l, [] => exact absurd hp.length_eq (by simp)
  | x :: y :: l, [_] => exact absurd hp.length_eq (by simp)
  | x :: y :: l, _ :: _ :: _ => rfl

theorem field_skip {α : Type} (a b : List (Str × Json)) {k : Str} (v : Json) {n : String} (h : n.toList ≠ k)
    (d : Json → Option α) (m : Option α) : field (a ++ (k, v) :: b) n d m = field (a ++ b) n d m := by
  unfold field
  rw [List.filter_append, List.filter_cons_of_neg (by simpa using Ne.symm h), ← List.filter_append]

theorem field_missing {α : Type} {fs : List (Str × Json)} {n : String} (h : ∀ e ∈ fs, e.1 ≠ n.toList)
    (d : Json → Option α) (m : Option α) : field fs n d m = m := by
  unfold field
  rw [List.filter_eq_nil_iff.mpr (by simpa using h)]

theorem field_here {α : Type} {a b : List (Str × Json)} {n : String} (v : Json)
    (h : ∀ e ∈ a ++ b, e.1 ≠ n.toList) (d : Json → Option α) (m : Option α) :
    field (a ++ (n.toList, v) :: b) n d m = d v := by
  unfold field
  rw [List.filter_append, List.filter_cons_of_pos (by simp),
    List.filter_eq_nil_iff.mpr (by intro e he; simpa using h e (List.mem_append_left _ he)),
    List.filter_eq_nil_iff.mpr (by intro e he; simpa using h e (List.mem_append_right _ he))]
  rfl

theorem field_twice {α : Type} (a b c : List (Str × Json)) (n : String) (v w : Json)
    (d : Json → Option α) (m : Option α) :
    field (a ++ (n.toList, v) :: b ++ (n.toList, w) :: c) n d m = none := by
  have h := field_perm (α := α) (fs := a ++ (n.toList, v) :: b ++ (n.toList, w) :: c)
    (fs' := (n.toList, v) :: (n.toList, w) :: (a ++ b ++ c)) (by
      rw [List.append_assoc, List.cons_append]
      refine List.perm_middle.trans (List.Perm.cons _ ?_)
      rw [← List.append_assoc]
      exact List.perm_middle) n d m
  rw [h]
  unfold field
  rw [List.filter_cons_of_pos (by simp), List.filter_cons_of_pos (by simp)]

/-- Readers that read members one after the other. -/
inductive Reads {α : Type} : (List (Str × Json) → Option α) → Members → Prop
  | nil (r : Option α) : Reads (fun _ => r) []
  | required {β : Type} (n : String) (d : Json → Option β) {g : β → List (Str × Json) → Option α} {ms : Members} :
    (∀ x, Reads (g x) ms) → Reads (fun fs => (field fs n d none).bind fun x => g x fs) ((n, none) :: ms)
  | omitted {β : Type} (n : String) (d : Json → Option β) (m : Option β) (v : Json) (h : d v = m)
    {g : β → List (Str × Json) → Option α} {ms : Members} :
    (∀ x, Reads (g x) ms) → Reads (fun fs => (field fs n d m).bind fun x => g x fs) ((n, some v) :: ms)

namespace Reads
variable {α : Type} {f : List (Str × Json) → Option α} {ms : Members}

theorem order (h : Reads f ms) {fs fs' : List (Str × Json)} (hp : fs.Perm fs') : f fs = f fs' := by
  induction h with
  | nil r => rfl
  | required n d hg ih => simp only [field_perm hp, ih]
  | omitted n d m v hv hg ih => simp only [field_perm hp, ih]

theorem unknown (h : Reads f ms) (a b : List (Str × Json)) (k : Str) (v : Json)
    (hk : ∀ m ∈ ms, m.1.toList ≠ k) : f (a ++ (k, v) :: b) = f (a ++ b) := by
  induction h with
  | nil r => rfl
  | required n d hg ih =>
    dsimp only
    rw [field_skip a b v (hk (n, none) (by simp))]
    simp only [ih _ (fun m hm => hk m (List.mem_cons_of_mem _ hm))]
  | omitted n d m w hv hg ih =>
    dsimp only
    rw [field_skip a b v (hk (n, some w) (by simp))]
    simp only [ih _ (fun m hm => hk m (List.mem_cons_of_mem _ hm))]

theorem leaveOut (h : Reads f ms) (nd : (ms.map (·.1.toList)).Nodup) {n : String} {v : Json}
    (hm : (n, some v) ∈ ms) (a b : List (Str × Json)) (hn : ∀ e ∈ a ++ b, e.1 ≠ n.toList) :
    f (a ++ (n.toList, v) :: b) = f (a ++ b) := by
  induction h with
  | nil r => rfl
  | required k d hg ih =>
    rw [List.map_cons, List.nodup_cons] at nd
    rcases List.mem_cons.mp hm with he | hm
    · simp at he
    · have hne : k.toList ≠ n.toList := fun he =>
        nd.1 (he ▸ List.mem_map.mpr ⟨(n, some v), hm, rfl⟩)
      dsimp only
      rw [field_skip a b v hne]
      simp only [ih _ nd.2 hm]
  | @omitted β k d m w hv g ms hg ih =>
    rw [List.map_cons, List.nodup_cons] at nd
    rcases List.mem_cons.mp hm with he | hm
    · simp only [Prod.mk.injEq, Option.some.injEq] at he
      obtain ⟨rfl, rfl⟩ := he
      dsimp only
      rw [field_here v hn, field_missing hn, hv]
      simp only [(hg _).unknown a b _ v (fun m hm he => nd.1 (List.mem_map.mpr ⟨m, hm, he⟩))]
    · have hne : k.toList ≠ n.toList := fun he =>
        nd.1 (he ▸ List.mem_map.mpr ⟨(n, some v), hm, rfl⟩)
      dsimp only
      rw [field_skip a b v hne]
      simp only [ih _ nd.2 hm]

theorem twice (h : Reads f ms) {m : String × Option Json} (hm : m ∈ ms) (a b c : List (Str × Json)) (v w : Json) :
    f (a ++ (m.1.toList, v) :: b ++ (m.1.toList, w) :: c) = none := by
  induction h with
  | nil r => simp at hm
  | required k d hg ih =>
    dsimp only
    rcases List.mem_cons.mp hm with rfl | hm
    · rw [field_twice]; rfl
    · simp only [ih _ hm, Option.bind_fun_none]
  | omitted k d m w hv hg ih =>
    dsimp only
    rcases List.mem_cons.mp hm with rfl | hm
    · rw [field_twice]; rfl
    · simp only [ih _ hm, Option.bind_fun_none]

theorem needed (h : Reads f ms) {n : String} (hm : (n, none) ∈ ms) {fs : List (Str × Json)}
    (hn : ∀ e ∈ fs, e.1 ≠ n.toList) : f fs = none := by
  induction h with
  | nil r => simp at hm
  | required k d hg ih =>
    dsimp only
    rcases List.mem_cons.mp hm with he | hm
    · simp only [Prod.mk.injEq, and_true] at he
      subst he
      rw [field_missing hn]; rfl
    · simp only [ih _ hm, Option.bind_fun_none]
  | omitted k d m w hv hg ih =>
    dsimp only
    rcases List.mem_cons.mp hm with he | hm
    · simp at he
    · simp only [ih _ hm, Option.bind_fun_none]

theorem lenient (h : Reads f ms) (nd : (ms.map (·.1.toList)).Nodup) {names : List Str}
    (hn : names = ms.map (·.1.toList)) : Lenient ms (decStruct names f) where
  order _ _ hp := h.order hp
  unknown := h.unknown
  omitted _ _ hm := h.leaveOut nd hm
  twice _ hm := h.twice hm
  required _ hm _ hk := h.needed hm hk
  array xs hx := by
    subst hn
    show (if xs.length ≤ _ then _ else _) = _
    rw [if_pos (by rw [List.length_map]; omega)]
    rfl
  other v h1 h2 := by
    cases v with
    | obj fs => exact absurd rfl (h1 fs)
    | arr xs => exact absurd rfl (h2 xs)
    | _ => rfl

end Reads

/-! ### The types a user may write -/

/-- `UserPreferences`. -/
def preferencesMembers : Members :=
  [("transcription", some .null), ("scheduler", some .null), ("ignored_paths", some (.arr []))]

/-- `SavedFilter`. -/
def savedFilterMembers : Members := [("id", none), ("description", none), ("filter", none)]

/-- `StudySession`. -/
def studySessionMembers : Members := [("id", none), ("description", some (.str [])), ("parts", some (.arr []))]

/-- `CourseManifest`. -/
def courseMembers : Members :=
  [("id", none), ("name", some (.str [])), ("dependencies", some (.arr [])), ("encompassed", some (.arr [])),
    ("superseded", some (.arr [])), ("description", some .null), ("authors", some .null), ("metadata", some .null),
    ("course_material", some .null), ("course_instructions", some .null), ("generator_config", some .null)]

/-- `LessonManifest`. -/
def lessonMembers : Members :=
  [("id", none), ("dependencies", some (.arr [])), ("encompassed", some (.arr [])), ("superseded", some (.arr [])),
    ("course_id", none), ("name", some (.str [])), ("description", some .null), ("metadata", some .null),
    ("lesson_material", some .null), ("lesson_instructions", some .null)]

/-- `ExerciseManifest`. -/
def exerciseMembers : Members :=
  [("id", none), ("lesson_id", none), ("course_id", none), ("name", some (.str [])), ("description", some .null),
    ("exercise_type", some (.str "Procedural".toList)), ("exercise_asset", none)]

/-- `TranscriptionPassages`. -/
def passagesMembers : Members := [("asset", none), ("intervals", some (.obj []))]

theorem preferences_lenient : Lenient preferencesMembers decUserPreferences := by
  refine Reads.lenient ?_ (by decide +kernel) (by decide +kernel)
  iterate 3 (refine .omitted _ _ _ _ ?_ fun _ => ?_; rfl)
  exact .nil _

theorem saved_filter_lenient : Lenient savedFilterMembers decSavedFilter := by
  refine Reads.lenient ?_ (by decide +kernel) (by decide +kernel)
  refine .required _ _ fun _ => .required _ _ fun _ => .required _ _ fun _ => .nil _

theorem study_session_lenient : Lenient studySessionMembers decStudySession := by
  refine Reads.lenient ?_ (by decide +kernel) (by decide +kernel)
  refine .required _ _ fun _ => ?_
  iterate 2 (refine .omitted _ _ _ _ ?_ fun _ => ?_; rfl)
  exact .nil _

theorem course_lenient {F : Type} (fl : Floats F) : Lenient courseMembers (decCourse fl) := by
  refine Reads.lenient ?_ (by decide +kernel) (by decide +kernel)
  refine .required _ _ fun _ => ?_
  iterate 10 (refine .omitted _ _ _ _ ?_ fun _ => ?_; rfl)
  exact .nil _

theorem lesson_lenient {F : Type} (fl : Floats F) : Lenient lessonMembers (decLessonManifest fl) := by
  refine Reads.lenient ?_ (by decide +kernel) (by decide +kernel)
  refine .required _ _ fun _ => ?_
  iterate 3 (refine .omitted _ _ _ _ ?_ fun _ => ?_; rfl)
  refine .required _ _ fun _ => ?_
  iterate 5 (refine .omitted _ _ _ _ ?_ fun _ => ?_; rfl)
  exact .nil _

theorem exercise_lenient : Lenient exerciseMembers decExercise := by
  refine Reads.lenient ?_ (by decide +kernel) (by decide +kernel)
  iterate 3 refine .required _ _ fun _ => ?_
  iterate 2 (refine .omitted _ _ _ _ ?_ fun _ => ?_; rfl)
  refine .omitted _ _ _ _ ?_ fun _ => ?_
  · decide +kernel
  exact .required _ _ fun _ => .nil _

theorem passages_lenient : Lenient passagesMembers decPassages := by
  refine Reads.lenient ?_ (by decide +kernel) (by decide +kernel)
  refine .required _ _ fun _ => ?_
  refine .omitted _ _ _ _ ?_ fun _ => .nil _
  rfl

/-- `TranscriptionPreferences`. -/
def transcriptionPreferencesMembers : Members :=
  [("instruments", some (.arr [])), ("download_path", some .null), ("download_path_alias", some .null)]

theorem transcription_preferences_lenient :
    Lenient transcriptionPreferencesMembers decTranscriptionPreferences := by
  refine Reads.lenient ?_ (by decide +kernel) (by decide +kernel)
  iterate 3 (refine .omitted _ _ _ _ ?_ fun _ => ?_; rfl)
  exact .nil _

theorem instrument_lenient : Lenient [("name", none), ("id", none)] decInstrument := by
  refine Reads.lenient ?_ (by decide +kernel) (by decide +kernel)
  exact .required _ _ fun _ => .required _ _ fun _ => .nil _

theorem scheduler_preferences_lenient : Lenient [("batch_size", some .null)] decSchedulerPreferences := by
  refine Reads.lenient ?_ (by decide +kernel) (by decide +kernel)
  refine .omitted _ _ _ _ ?_ fun _ => .nil _
  rfl

/-- `TranscriptionConfig`. -/
def configMembers : Members :=
  [("transcription_dependencies", some (.arr [])), ("passage_directory", some (.str [])),
    ("inlined_passages", some (.arr [])), ("skip_singing_lessons", some (.bool false)),
    ("skip_advanced_lessons", some (.bool false))]

theorem config_lenient : Lenient configMembers decConfig := by
  refine Reads.lenient ?_ (by decide +kernel) (by decide +kernel)
  iterate 5 (refine .omitted _ _ _ _ ?_ fun _ => ?_; rfl)
  exact .nil _

/-! ### Enums -/

theorem Lenient.map {α β : Type} {ms : Members} {d : Json → Option α} (h : Lenient ms d) (f : α → β) :
    Lenient ms (fun v => (d v).map f) where
  order fs fs' hp := by rw [h.order fs fs' hp]
  unknown a b k v hk := by rw [h.unknown a b k v hk]
  omitted n v hm a b hn := by rw [h.omitted n v hm a b hn]
  twice m hm a b c v w := by rw [h.twice m hm a b c v w]; rfl
  required n hm fs hf := by rw [h.required n hm fs hf]; rfl
  array xs hx := by rw [h.array xs hx]
  other v h1 h2 := by rw [h.other v h1 h2]; rfl

/-- What a variant carries. -/
inductive Carries
  | nothing
  | members (ms : Members)
  | value

/-- How a value with one of several variants may be written: `"Name"`, `{"Name": null}` or `{"Name": data}`. -/
structure Variants {α : Type} (vs : List (String × Carries)) (d : Json → Option α) : Prop where
  /-- Only the names of the variants are accepted. -/
  known : ∀ v, (d v).isSome → ∃ p ∈ vs, v = .str p.1.toList ∨ ∃ w, v = .obj [(p.1.toList, w)]
  /-- A variant without data is its name. -/
  nothing : ∀ n, (n, .nothing) ∈ vs → (d (.str n.toList)).isSome ∧
    ∀ w, (d (.obj [(n.toList, w)])).isSome ↔ w = .null
  /-- The data of a variant have the freedoms of an object and are required. -/
  members : ∀ n ms, (n, .members ms) ∈ vs →
    d (.str n.toList) = none ∧ Lenient ms (fun v => d (.obj [(n.toList, v)]))
  /-- Other data are required, too. -/
  value : ∀ n, (n, .value) ∈ vs → d (.str n.toList) = none

/-- A case fits what it should carry. -/
inductive Fits {α : Type} : Carries → (Option Json → Option α) → Prop
  | nothing (x : α) : Fits .nothing (unitCase x)
  | members {ms : Members} {d : Json → Option α} : Lenient ms d → Fits (.members ms) (dataCase d)
  | value (d : Json → Option α) : Fits .value (dataCase d)

theorem pick_known {α : Type} {cases : List (String × (Option Json → Option α))} {v : Json}
    (h : (pick v cases).isSome) : ∃ c ∈ cases, v = .str c.1.toList ∨ ∃ w, v = .obj [(c.1.toList, w)] := by
  unfold pick at h
  split at h
  · cases h
  · rename_i n p hv
    split at h
    · rename_i c hc
      have hm := List.mem_of_find?_eq_some hc
      have he := List.find?_some hc
      simp only [decide_eq_true_eq] at he
      refine ⟨c, hm, ?_⟩
      unfold variant at hv
      split at hv
      · simp only [Option.some.injEq, Prod.mk.injEq] at hv
        exact .inl (by rw [he, hv.1])
      · simp only [Option.some.injEq, Prod.mk.injEq] at hv
        exact .inr ⟨_, by rw [he, hv.1]⟩
      · cases hv
    · cases h

theorem pick_at {α : Type} {cases : List (String × (Option Json → Option α))}
    (nd : (cases.map (fun c => c.1.toList)).Nodup) {n : String} {c : Option Json → Option α} (h : (n, c) ∈ cases) :
    pick (.str n.toList) cases = c none ∧ ∀ w, pick (.obj [(n.toList, w)]) cases = c (some w) := by
  obtain ⟨i, hi, e⟩ := List.getElem_of_mem h
  have hf := find_at cases i n c nd (by rw [List.getElem?_eq_getElem hi, e])
  unfold pick variant
  dsimp only
  rw [hf]
  exact ⟨rfl, fun _ => rfl⟩

theorem variants_of {α : Type} {vs : List (String × Carries)} {cases : List (String × (Option Json → Option α))}
    (nd : (cases.map (fun c => c.1.toList)).Nodup)
    (h : List.Forall₂ (fun v c => v.1 = c.1 ∧ Fits v.2 c.2) vs cases) {d : Json → Option α}
    (hd : ∀ v, d v = pick v cases) : Variants vs d := by
  have hmem : ∀ n k, (n, k) ∈ vs → ∃ c, (n, c) ∈ cases ∧ Fits k c := by
    clear nd hd
    induction h with
    | nil => intro n k hk; simp at hk
    | @cons v c vs cs hvc _ ih =>
      intro n k hk
      rcases List.mem_cons.mp hk with rfl | hk
      · exact ⟨c.2, by rw [show n = c.1 from hvc.1]; simp, hvc.2⟩
      · obtain ⟨c', h1, h2⟩ := ih n k hk
        exact ⟨c', List.mem_cons_of_mem _ h1, h2⟩
  have hmem' : ∀ c ∈ cases, ∃ v ∈ vs, v.1 = c.1 := by
    clear nd hd hmem
    induction h with
    | nil => intro c hc; simp at hc
    | @cons v c vs cs hvc _ ih =>
      intro c' hc
      rcases List.mem_cons.mp hc with rfl | hc
      · exact ⟨v, by simp, hvc.1⟩
      · obtain ⟨v', h1, h2⟩ := ih c' hc
        exact ⟨v', List.mem_cons_of_mem _ h1, h2⟩
  refine ⟨?_, ?_, ?_, ?_⟩
  · intro v hv
    rw [hd] at hv
    obtain ⟨c, hc, e⟩ := pick_known hv
    obtain ⟨p, hp, hn⟩ := hmem' c hc
    exact ⟨p, hp, by rw [hn]; exact e⟩
  · intro n hn
    obtain ⟨c, hc, hf⟩ := hmem n _ hn
    cases hf with
    | nothing x =>
      rw [hd, (pick_at nd hc).1]
      refine ⟨rfl, fun w => ?_⟩
      rw [hd, (pick_at nd hc).2]
      cases w <;> simp [unitCase]
  · intro n ms hn
    obtain ⟨c, hc, hf⟩ := hmem n _ hn
    cases hf with
    | @members ms d' hl =>
      rw [hd, (pick_at nd hc).1]
      refine ⟨rfl, ?_⟩
      have : (fun v => d (.obj [(n.toList, v)])) = d' := by
        funext v
        rw [hd, (pick_at nd hc).2]
        rfl
      rw [this]
      exact hl
  · intro n hn
    obtain ⟨c, hc, hf⟩ := hmem n _ hn
    cases hf with
    | value d' =>
      rw [hd, (pick_at nd hc).1]
      rfl

/-- `FilterOp`, `FilterType`, `ExerciseType` and `LiteracyLessonType`. -/
theorem names_variants :
    Variants [("All", .nothing), ("Any", .nothing)] decOp ∧
    Variants [("Include", .nothing), ("Exclude", .nothing)] decType ∧
    Variants [("Declarative", .nothing), ("Procedural", .nothing)] decKind ∧
    Variants [("Reading", .nothing), ("Dictation", .nothing)] decLesson := by
  refine ⟨variants_of ?_ ?_ fun _ => rfl, variants_of ?_ ?_ fun _ => rfl, variants_of ?_ ?_ fun _ => rfl,
    variants_of ?_ ?_ fun _ => rfl⟩
  all_goals first
    | exact .cons ⟨rfl, .nothing _⟩ (.cons ⟨rfl, .nothing _⟩ .nil)
    | decide +kernel

/-- `UnitFilter`. -/
def unitFilterVariants : List (String × Carries) :=
  [("CourseFilter", .members [("course_ids", none)]), ("LessonFilter", .members [("lesson_ids", none)]),
    ("MetadataFilter", .members [("filter", none)]), ("ReviewListFilter", .nothing),
    ("Dependents", .members [("unit_ids", none)]),
    ("Dependencies", .members [("unit_ids", none), ("depth", none)])]

theorem unit_filter_variants : Variants unitFilterVariants decUnitFilter := by
  refine variants_of ?_ ?_ fun _ => rfl
  · decide +kernel
  refine .cons ⟨rfl, .members ?_⟩ (.cons ⟨rfl, .members ?_⟩ (.cons ⟨rfl, .members ?_⟩ (.cons ⟨rfl, .nothing _⟩
    (.cons ⟨rfl, .members ?_⟩ (.cons ⟨rfl, .members ?_⟩ .nil)))))
  all_goals refine Reads.lenient ?_ (by decide +kernel) (by decide +kernel)
  all_goals first
    | exact .required _ _ fun _ => .nil _
    | exact .required _ _ fun _ => .required _ _ fun _ => .nil _

/-- `SessionPart`. -/
def partVariants : List (String × Carries) :=
  [("UnitFilter", .members [("filter", none), ("duration", none)]),
    ("SavedFilter", .members [("filter_id", none), ("duration", none)]), ("NoFilter", .members [("duration", none)])]

theorem part_variants : Variants partVariants decPart := by
  refine variants_of ?_ ?_ fun _ => rfl
  · decide +kernel
  refine .cons ⟨rfl, .members ?_⟩ (.cons ⟨rfl, .members ?_⟩ (.cons ⟨rfl, .members ?_⟩ .nil))
  all_goals refine Reads.lenient ?_ (by decide +kernel) (by decide +kernel)
  all_goals first
    | exact .required _ _ fun _ => .nil _
    | exact .required _ _ fun _ => .required _ _ fun _ => .nil _

/-- `BasicAsset`. -/
theorem basic_variants :
    Variants [("MarkdownAsset", .members [("path", none)]), ("InlinedAsset", .members [("content", none)]),
      ("InlinedUniqueAsset", .members [("content", none)])] decBasic := by
  refine variants_of ?_ ?_ fun _ => rfl
  · decide +kernel
  refine .cons ⟨rfl, .members ?_⟩ (.cons ⟨rfl, .members ?_⟩ (.cons ⟨rfl, .members ?_⟩ .nil))
  all_goals refine Reads.lenient ?_ (by decide +kernel) (by decide +kernel)
  all_goals exact .required _ _ fun _ => .nil _

/-- `ExerciseAsset`. -/
def assetVariants : List (String × Carries) :=
  [("BasicAsset", .value), ("FlashcardAsset", .members [("front_path", none), ("back_path", some .null)]),
    ("InlineFlashcardAsset", .members [("front_content", none), ("back_content", some .null)]),
    ("LiteracyAsset", .members [("lesson_type", none), ("examples", some (.arr [])), ("exceptions", some (.arr []))]),
    ("SoundSliceAsset", .members [("link", none), ("description", some .null), ("backup", some .null)]),
    ("TranscriptionAsset", .members [("content", some (.str [])), ("external_link", some .null)])]

theorem asset_variants : Variants assetVariants decAsset := by
  refine variants_of ?_ ?_ fun _ => rfl
  · decide +kernel
  refine .cons ⟨rfl, .value _⟩ (.cons ⟨rfl, .members ?_⟩ (.cons ⟨rfl, .members ?_⟩ (.cons ⟨rfl, .members ?_⟩
    (.cons ⟨rfl, .members ?_⟩ (.cons ⟨rfl, .members ?_⟩ .nil)))))
  all_goals refine Reads.lenient ?_ (by decide +kernel) (by decide +kernel)
  · refine .required _ _ fun _ => .omitted _ _ _ _ ?_ fun _ => .nil _; rfl
  · refine .required _ _ fun _ => .omitted _ _ _ _ ?_ fun _ => .nil _; rfl
  · refine .required _ _ fun _ => .omitted _ _ _ _ ?_ fun _ => .omitted _ _ _ _ ?_ fun _ => .nil _ <;> rfl
  · refine .required _ _ fun _ => .omitted _ _ _ _ ?_ fun _ => .omitted _ _ _ _ ?_ fun _ => .nil _ <;> rfl
  · refine .omitted _ _ _ _ ?_ fun _ => .omitted _ _ _ _ ?_ fun _ => .nil _ <;> rfl

/-- `TranscriptionAsset`, `TranscriptionLink` and `MusicAsset`. -/
theorem link_variants :
    Variants [("Track", .members [("short_id", none), ("track_name", none), ("artist_name", some .null),
      ("album_name", some .null), ("duration", some .null), ("external_link", some .null)])] decTrack ∧
    Variants [("YouTube", .value)] decLink ∧
    Variants [("SoundSlice", .value), ("LocalFile", .value)] decMusicAsset := by
  refine ⟨variants_of ?_ ?_ fun _ => rfl, variants_of ?_ ?_ fun _ => rfl, variants_of ?_ ?_ fun _ => rfl⟩
  · decide +kernel
  · refine .cons ⟨rfl, .members ?_⟩ .nil
    refine Reads.lenient ?_ (by decide +kernel) (by decide +kernel)
    refine .required _ _ fun _ => .required _ _ fun _ => ?_
    iterate 4 (refine .omitted _ _ _ _ ?_ fun _ => ?_; rfl)
    exact .nil _
  · decide +kernel
  · exact .cons ⟨rfl, .value _⟩ .nil
  · decide +kernel
  · exact .cons ⟨rfl, .value _⟩ (.cons ⟨rfl, .value _⟩ .nil)

/-- `CourseGenerator` with the configurations of the generators. -/
def generatorVariants : List (String × Carries) :=
  [("KnowledgeBase", .members [("inlined", some (.bool false))]),
    ("Literacy", .members [("generate_dictation", some (.bool false))]),
    ("MusicPiece", .members [("music_asset", none), ("passages", none)]), ("Transcription", .members configMembers)]

theorem generator_variants : Variants generatorVariants decGenerator := by
  refine variants_of ?_ ?_ fun _ => rfl
  · decide +kernel
  refine .cons ⟨rfl, .members ?_⟩ (.cons ⟨rfl, .members ?_⟩ (.cons ⟨rfl, .members ?_⟩ (.cons ⟨rfl, .members ?_⟩ .nil)))
  · refine Reads.lenient ?_ (by decide +kernel) (by decide +kernel)
    refine .omitted _ _ _ _ ?_ fun _ => .nil _; rfl
  · refine Reads.lenient ?_ (by decide +kernel) (by decide +kernel)
    refine .omitted _ _ _ _ ?_ fun _ => .nil _; rfl
  · refine Reads.lenient ?_ (by decide +kernel) (by decide +kernel)
    exact .required _ _ fun _ => .required _ _ fun _ => .nil _
  · exact config_lenient.map _

/-! ### Types that contain themselves -/

theorem depth_le_fields {fs : List (Str × Json)} {f : Str × Json} (h : f ∈ fs) : depth f.2 ≤ depthFields fs :=
  (depthFields_le fs _).mp (le_refl _) f h

theorem depth_le_items {xs : List Json} {x : Json} (h : x ∈ xs) : depth x ≤ depthItems xs :=
  (depthItems_le xs _).mp (le_refl _) x h

/-- A field is only read with values from the object. -/
theorem field_congr {α : Type} {fs : List (Str × Json)} {n : String} {d d' : Json → Option α} {m : Option α}
    (h : ∀ e ∈ fs, d e.2 = d' e.2) : field fs n d m = field fs n d' m := by
  unfold field
  split
  · rfl
  · rename_i e he
    have : e ∈ fs.filter (fun e => decide (e.1 = n.toList)) := by rw [he]; simp
    exact h e (List.mem_filter.mp this).1
  · rfl

theorem mapM_congr {α : Type} {d d' : Json → Option α} : ∀ {xs : List Json}, (∀ x ∈ xs, d x = d' x) →
    xs.mapM d = xs.mapM d'
  | [], _ => rfl
  | x :: xs, h => by
    rw [List.mapM_cons, List.mapM_cons, h x (by simp), mapM_congr fun y hy => h y (List.mem_cons_of_mem _ hy)]

theorem decList_congr {α : Type} {d d' : Json → Option α} {v : Json}
    (h : ∀ x, depth x < depth v → d x = d' x) : decList d v = decList d' v := by
  unfold decList
  split
  · rename_i xs
    refine mapM_congr fun x hx => h x ?_
    have := depth_le_items hx
    rw [depth]; omega
  · rfl

theorem decStruct_congr {α : Type} {names : List Str} {f f' : List (Str × Json) → Option α} {v : Json}
    (h : ∀ fs, (∀ e ∈ fs, depth e.2 < depth v) → f fs = f' fs) : decStruct names f v = decStruct names f' v := by
  unfold decStruct
  split
  · rename_i fs
    refine h fs fun e he => ?_
    have := depth_le_fields he
    rw [depth]; omega
  · rename_i xs
    split
    · refine h _ fun e he => ?_
      have := depth_le_items (List.of_mem_zip he).2
      rw [depth]; omega
    · rfl
  · rfl

/-- The data of `CombinedFilter`, /repo/src/data/filter.rs:68-73. -/
def decCombined (n : Nat) : Json → Option KVFilter := decStruct combinedKeys fun fs => do
  some (.combined (← field fs "op" decOp none) (← field fs "filters" (decList (decKVn n)) none))

theorem decKVn_fuel : ∀ (n m : Nat) (v : Json), depth v ≤ n → depth v ≤ m → decKVn n v = decKVn m v := by
  have nd : ∀ m, (List.map (fun c => c.1.toList)
      [("CourseFilter", dataCase (decSimple .course)), ("LessonFilter", dataCase (decSimple .lesson)),
        ("CombinedFilter", dataCase (decCombined m))]).Nodup := by
    intro m
    show ["CourseFilter".toList, "LessonFilter".toList, "CombinedFilter".toList].Nodup
    decide +kernel
  have zero : ∀ (m : Nat) (v : Json), depth v = 0 → decKVn m v = none := by
    intro m v hv
    cases m with
    | zero => rfl
    | succ m =>
      rw [decKVn]
      cases h : pick v _ with
      | none => rfl
      | some x =>
        obtain ⟨c, hc, rfl | ⟨w, rfl⟩⟩ := pick_known (by rw [h]; rfl)
        · exfalso
          simp only [List.mem_cons, List.not_mem_nil, or_false] at hc
          rcases hc with rfl | rfl | rfl
          · cases (pick_at (nd m) (List.mem_cons_self ..)).1.symm.trans h
          · cases (pick_at (nd m) (List.mem_cons_of_mem _ (List.mem_cons_self ..))).1.symm.trans h
          · cases (pick_at (nd m) (List.mem_cons_of_mem _ (List.mem_cons_of_mem _ (List.mem_cons_self ..)))).1.symm.trans h
        · rw [depth] at hv; omega
  intro n
  induction n with
  | zero => intro m v h1 h2; rw [zero 0 v (by omega), zero m v (by omega)]
  | succ n ih =>
    intro m v h1 h2
    cases m with
    | zero => rw [zero _ v (by omega), zero _ v (by omega)]
    | succ m =>
      rw [decKVn, decKVn]
      unfold pick
      cases hv : variant v with
      | none => rfl
      | some q =>
        obtain ⟨k, p⟩ := q
        have hp : ∀ w, p = some w → depth w < depth v := by
          rintro w rfl
          unfold variant at hv
          split at hv
          · simp at hv
          · simp only [Option.some.injEq, Prod.mk.injEq] at hv
            obtain ⟨_, rfl⟩ := hv
            rw [depth, depthFields, depthField, depthFields]; omega
          · cases hv
        dsimp only
        simp only [List.find?_cons, List.find?_nil]
        by_cases e1 : "CourseFilter".toList = k
        · simp only [e1, decide_true]
        simp only [e1, decide_false]
        by_cases e2 : "LessonFilter".toList = k
        · simp only [e2, decide_true]
        simp only [e2, decide_false]
        by_cases e3 : "CombinedFilter".toList = k
        · simp only [e3, decide_true]
          cases p with
          | none => rfl
          | some w =>
            have hw := hp w rfl
            show decCombined n w = decCombined m w
            refine decStruct_congr fun fs hfs => ?_
            have : field fs "filters" (decList (decKVn n)) none = field fs "filters" (decList (decKVn m)) none :=
              field_congr fun e he => decList_congr fun x hx =>
                ih m x (by have := hfs e he; omega) (by have := hfs e he; omega)
            rw [this]
        simp only [e3, decide_false]

/-- `KeyValueFilter`. -/
def kvVariants : List (String × Carries) :=
  [("CourseFilter", .members [("key", none), ("value", none), ("filter_type", none)]),
    ("LessonFilter", .members [("key", none), ("value", none), ("filter_type", none)]),
    ("CombinedFilter", .members [("op", none), ("filters", none)])]

/-- How the filters in a combined filter are read does not depend on the fuel. -/
def decFilters : Json → Option (List KVFilter) := decList decKV

theorem decKV_eq (v : Json) : decKV v =
    pick v [("CourseFilter", dataCase (decSimple .course)), ("LessonFilter", dataCase (decSimple .lesson)),
      ("CombinedFilter", dataCase (decStruct combinedKeys fun fs => do
        some (.combined (← field fs "op" decOp none) (← field fs "filters" (decList decKV) none))))] := by
  unfold decKV
  rw [decKVn_fuel (depth v) (depth v + 1) v (by omega) (by omega), decKVn]
  unfold pick
  cases hv : variant v with
  | none => rfl
  | some q =>
    obtain ⟨k, p⟩ := q
    have hp : ∀ w, p = some w → depth w < depth v := by
      rintro w rfl
      unfold variant at hv
      split at hv
      · simp at hv
      · simp only [Option.some.injEq, Prod.mk.injEq] at hv
        obtain ⟨_, rfl⟩ := hv
        rw [depth, depthFields, depthField, depthFields]; omega
      · cases hv
    dsimp only
    simp only [List.find?_cons, List.find?_nil]
    by_cases e1 : "CourseFilter".toList = k
    · simp only [e1, decide_true]
    simp only [e1, decide_false]
    by_cases e2 : "LessonFilter".toList = k
    · simp only [e2, decide_true]
    simp only [e2, decide_false]
    by_cases e3 : "CombinedFilter".toList = k
    · simp only [e3, decide_true]
      cases p with
      | none => rfl
      | some w =>
        have hw := hp w rfl
        unfold dataCase
        refine decStruct_congr fun fs hfs => ?_
        have : field fs "filters" (decList (decKVn (depth v))) none =
            field fs "filters" (decList (fun v => decKVn (depth v) v)) none :=
          field_congr fun e he => decList_congr fun x hx =>
            decKVn_fuel _ _ x (by have := hfs e he; omega) (by omega)
        rw [this]
    simp only [e3, decide_false]

theorem kv_variants : Variants kvVariants decKV := by
  refine variants_of ?_ ?_ decKV_eq
  · decide +kernel
  refine .cons ⟨rfl, .members ?_⟩ (.cons ⟨rfl, .members ?_⟩ (.cons ⟨rfl, .members ?_⟩ .nil))
  all_goals refine Reads.lenient ?_ (by decide +kernel) (by decide +kernel)
  · exact .required _ _ fun _ => .required _ _ fun _ => .required _ _ fun _ => .nil _
  · exact .required _ _ fun _ => .required _ _ fun _ => .required _ _ fun _ => .nil _
  · exact .required _ _ fun _ => .required _ _ fun _ => .nil _

theorem foldlM_congr {α β : Type} {f g : β → α → Option β} : ∀ {xs : List α}, (∀ b, ∀ x ∈ xs, f b x = g b x) →
    ∀ b, xs.foldlM f b = xs.foldlM g b
  | [], _, _ => rfl
  | x :: xs, h, b => by
    rw [List.foldlM_cons, List.foldlM_cons, h b x (by simp)]
    congr 1
    funext c
    exact foldlM_congr (fun b y hy => h b y (List.mem_cons_of_mem _ hy)) c

theorem decPassageN_fuel : ∀ (n m : Nat) (v : Json), depth v ≤ n → depth v ≤ m → decPassageN n v = decPassageN m v := by
  have zero : ∀ (m : Nat) (v : Json), depth v = 0 → decPassageN m v = none := by
    intro m v hv
    cases m with
    | zero => rfl
    | succ m =>
      rw [decPassageN]
      cases v with
      | obj fs => rw [depth] at hv; omega
      | arr xs => rw [depth] at hv; omega
      | _ => rfl
  intro n
  induction n with
  | zero => intro m v h1 h2; rw [zero 0 v (by omega), zero m v (by omega)]
  | succ n ih =>
    intro m v h1 h2
    cases m with
    | zero => rw [zero _ v (by omega), zero _ v (by omega)]
    | succ m =>
      rw [decPassageN, decPassageN]
      refine decStruct_congr fun fs hfs => ?_
      have : field fs "sub_passages" (decMap keyNat (decPassageN n)) none =
          field fs "sub_passages" (decMap keyNat (decPassageN m)) none := by
        refine field_congr fun e he => ?_
        have h3 := hfs e he
        unfold decMap
        split
        · rename_i gs hg
          refine foldlM_congr (fun b x hx => ?_) _
          rw [hg, depth] at h3
          have h4 := depth_le_fields hx
          rw [ih m x.2 (by omega) (by omega)]
        · rfl
      rw [this]

/-- `MusicPassage`. -/
theorem passage_lenient : Lenient [("start", none), ("end", none), ("sub_passages", none)] decPassage := by
  have e : decPassage = decStruct passageKeys (fun fs => do
      some (.mk (← field fs "start" decStr none) (← field fs "end" decStr none)
        (← field fs "sub_passages" (decMap keyNat decPassage) none))) := by
    funext v
    have h0 : decPassage v = decPassageN (depth v + 1) v := decPassageN_fuel _ _ v (by omega) (by omega)
    rw [h0, decPassageN]
    refine decStruct_congr fun fs hfs => ?_
    have : field fs "sub_passages" (decMap keyNat (decPassageN (depth v))) none =
        field fs "sub_passages" (decMap keyNat decPassage) none := by
      refine field_congr fun e he => ?_
      have h3 := hfs e he
      unfold decMap
      split
      · rename_i gs hg
        refine foldlM_congr (fun b x hx => ?_) _
        rw [hg, depth] at h3
        have h4 := depth_le_fields hx
        rw [show decPassageN (depth v) x.2 = decPassage x.2 from decPassageN_fuel _ _ x.2 (by omega) (by omega)]
      · rfl
    rw [this]
  rw [e]
  refine Reads.lenient ?_ (by decide +kernel) (by decide +kernel)
  exact .required _ _ fun _ => .required _ _ fun _ => .required _ _ fun _ => .nil _

/-! ### Non-trivial cases -/

/-- A lesson written by hand. -/
def handWritten : Str :=
  "{ \"name\": \"L\",\n \"comment\": [1, {}], \"course_id\": \"c\", \"id\": \"c::l\", \"dependencies\": [\"c::k\"] }".toList

def noFloats : Floats Unit where
  text _ := none
  read _ := none
  text_num _ _ h := by cases h
  read_text _ _ h := by cases h

example : (readAs (decLessonManifest noFloats) handWritten).map (fun m => (m.id, m.courseId, m.name, m.dependencies))
    = some ("c::l".toList, "c".toList, "L".toList, ["c::k".toList]) := by decide +kernel

/-- A session part with its members in another order and an unknown one; one without its duration is refused. -/
example : (readAs decPart "{\"SavedFilter\": {\"x\": 1, \"duration\": 5, \"filter_id\": \"f\"}}".toList).isSome = true ∧
    (readAs decPart "{\"SavedFilter\": {\"filter_id\": \"f\"}}".toList).isSome = false ∧
    (readAs decOp "{\"All\": null}".toList).isSome = true ∧ (readAs decOp "\"all\"".toList).isSome = false := by
  decide +kernel

end Trane.Json
