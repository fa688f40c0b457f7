import Verif.Json.Codes

/-!
# Lemmas: what is written is read back, for the types of the code
-/

namespace Trane.Json
open Trane.Store (Str)
open Trane.Filters
open Trane.Assets (BasicAsset ExerciseAsset)
open Trane.Gen.Music (Passage)
open Trane.Gen.Transcription (Track Passages Config Instrument)

theorem bind_field {α β : Type} {names : List Str} {vals : List Json} (i : Nat) {k : String} {v : Json}
    {d : Json → Option α} {m : Option α} {x : α} {g : α → Option β} {r : Option β} (hn : names.Nodup)
    (h1 : names[i]? = some k.toList) (h2 : vals[i]? = some v) (h : d v = some x) (hg : g x = r) :
    (field (names.zip vals) k d m >>= g) = r := by
  rw [field_at i hn h1 h2 h]; exact hg

theorem struct_reads {α : Type} {names : List Str} {vals : List Json} {d : Json → Option α} {x : α} {k : Nat}
    (h : d (encStruct names vals) = some x) (hv : List.Forall (fun v => Proper v ∧ depth v ≤ k) vals) :
    d (encStruct names vals) = some x ∧ Proper (encStruct names vals) ∧ depth (encStruct names vals) ≤ k + 1 := by
  rw [List.forall_iff_forall_mem] at hv
  exact ⟨h, struct_proper (fun v hm => (hv v hm).1), struct_depth (fun v hm => (hv v hm).2)⟩

theorem data_reads {α : Type} {cases : List (String × (Option Json → Option α))} (i : Nat) {n : String}
    {v : Json} {d : Json → Option α} {x : α} {k : Nat} (hn : (cases.map (fun c => c.1.toList)).Nodup)
    (h : cases[i]? = some (n, dataCase d)) (hd : d v = some x ∧ Proper v ∧ depth v ≤ k) :
    pick (encData n v) cases = some x ∧ Proper (encData n v) ∧ depth (encData n v) ≤ k + 1 :=
  ⟨pick_data i hn h hd.1, data_proper hd.2.1, by rw [data_depth]; omega⟩

theorem data_reads' {α : Type} {cases : List (String × (Option Json → Option α))} (i : Nat) {n : String}
    {v : Json} {d : Json → Option α} {x : α} {k l : Nat} (hn : (cases.map (fun c => c.1.toList)).Nodup)
    (h : cases[i]? = some (n, dataCase d)) (hk : k + 1 ≤ l) (hd : d v = some x ∧ Proper v ∧ depth v ≤ k) :
    pick (encData n v) cases = some x ∧ Proper (encData n v) ∧ depth (encData n v) ≤ l :=
  ⟨pick_data i hn h hd.1, data_proper hd.2.1, by rw [data_depth]; omega⟩

theorem unit_reads {α : Type} {cases : List (String × (Option Json → Option α))} (i : Nat) {n : String} {x : α}
    {k : Nat} (hn : (cases.map (fun c => c.1.toList)).Nodup) (h : cases[i]? = some (n, unitCase x)) :
    pick (encUnit n) cases = some x ∧ Proper (encUnit n) ∧ depth (encUnit n) ≤ k :=
  ⟨pick_unit i hn h, unit_proper n, by rw [unit_depth]; omega⟩

theorem up {α : Type} {d : Json → Option α} {v : Json} {x : α} {k l : Nat}
    (h : d v = some x ∧ Proper v ∧ depth v ≤ k) (hk : k ≤ l) : d v = some x ∧ Proper v ∧ depth v ≤ l :=
  ⟨h.1, h.2.1, le_trans h.2.2 hk⟩

theorem str_ne (s : Str) : encStr s ≠ .null := by simp [encStr]
theorem nat_ne (n : Nat) : encNat n ≠ .null := by simp [encNat]
theorem list_ne {α : Type} (e : α → Json) (xs : List α) : encList e xs ≠ .null := by simp [encList]

/-- A string. -/
theorem rs (s : Str) : decStr (encStr s) = some s ∧ Proper (encStr s) ∧ depth (encStr s) ≤ 0 :=
  codes_str s trivial
/-- An optional string. -/
theorem ros (s : Option Str) :
    decOpt decStr (encOpt encStr s) = some s ∧ Proper (encOpt encStr s) ∧ depth (encOpt encStr s) ≤ 0 :=
  codes_opt codes_str str_ne s (fun _ _ => trivial)
/-- A list of strings. -/
theorem rls (s : List Str) :
    decList decStr (encList encStr s) = some s ∧ Proper (encList encStr s) ∧ depth (encList encStr s) ≤ 1 :=
  codes_list codes_str s (fun _ _ => trivial)
/-- A truth value. -/
theorem rb (b : Bool) : decBool (encBool b) = some b ∧ Proper (encBool b) ∧ depth (encBool b) ≤ 0 :=
  codes_bool b trivial

/-! ### Preferences -/

theorem codes_instrument : Codes encInstrument decInstrument (fun _ => True) 1 := by
  intro x _
  have nd : instrumentKeys.Nodup := by decide +kernel
  refine struct_reads ?_ ⟨(rs _).2, (rs _).2⟩
  simp only [decInstrument, decStruct, encStruct]
  refine bind_field 0 nd rfl rfl (rs x.name).1 ?_
  exact bind_field 1 nd rfl rfl (rs x.id).1 rfl

theorem codes_transcriptionPreferences :
    Codes encTranscriptionPreferences decTranscriptionPreferences (fun _ => True) 3 := by
  intro x _
  have nd : transcriptionPreferencesKeys.Nodup := by decide +kernel
  have h1 := codes_list codes_instrument x.instruments (fun _ _ => trivial)
  refine struct_reads ?_ ⟨h1.2, (up (ros _) (by omega)).2, (up (ros _) (by omega)).2⟩
  simp only [decTranscriptionPreferences, decStruct, encStruct]
  refine bind_field 0 nd rfl rfl h1.1 ?_
  refine bind_field 1 nd rfl rfl (ros _).1 ?_
  exact bind_field 2 nd rfl rfl (ros _).1 rfl

theorem codes_schedulerPreferences :
    Codes encSchedulerPreferences decSchedulerPreferences (fun p => ∀ n ∈ p.batchSize, n < usizeSize) 1 := by
  intro x hx
  have nd : schedulerPreferencesKeys.Nodup := by decide +kernel
  have h1 := codes_opt (codes_nat usizeSize) nat_ne x.batchSize hx
  refine struct_reads ?_ h1.2
  simp only [decSchedulerPreferences, decStruct, encStruct]
  exact bind_field 0 nd rfl rfl h1.1 rfl

/-- The batch size, if there is one, is a `usize`. -/
def UserPreferences.Fits (p : UserPreferences) : Prop :=
  ∀ q ∈ p.scheduler, ∀ n ∈ q.batchSize, n < 2 ^ 64

theorem codes_userPreferences : Codes encUserPreferences decUserPreferences UserPreferences.Fits 4 := by
  intro x hx
  have nd : userPreferencesKeys.Nodup := by decide +kernel
  have h1 := codes_opt codes_transcriptionPreferences
    (by simp [encTranscriptionPreferences, encStruct]) x.transcription (fun _ _ => trivial)
  have h2 := codes_opt codes_schedulerPreferences
    (by simp [encSchedulerPreferences, encStruct]) x.scheduler (fun q hq => hx q hq)
  refine struct_reads ?_ ⟨h1.2, (up h2 (by omega)).2, (up (rls _) (by omega)).2⟩
  simp only [decUserPreferences, decStruct, encStruct]
  refine bind_field 0 nd rfl rfl h1.1 ?_
  refine bind_field 1 nd rfl rfl h2.1 ?_
  exact bind_field 2 nd rfl rfl (rls _).1 rfl

/-! ### Filters -/

theorem codes_op : Codes encOp decOp (fun _ => True) 0 := by
  have nd : (keys ["All", "Any"]).Nodup := by decide +kernel
  intro x _
  cases x with
  | all => exact unit_reads 0 nd rfl
  | any => exact unit_reads 1 nd rfl

theorem codes_type : Codes encType decType (fun _ => True) 0 := by
  have nd : (keys ["Include", "Exclude"]).Nodup := by decide +kernel
  intro x _
  cases x with
  | incl => exact unit_reads 0 nd rfl
  | excl => exact unit_reads 1 nd rfl

mutual
/-- How many combined filters are inside one another. -/
def nesting : KVFilter → Nat
  | .combined _ fs => nestings fs + 1
  | _ => 0
/-- The most deeply nested of several filters. -/
def nestings : List KVFilter → Nat
  | [] => 0
  | f :: fs => max (nesting f) (nestings fs)
end

theorem simple_reads (mk : Str → Str → FilterType → KVFilter) (k v : Str) (t : FilterType) :
    decSimple mk (encStruct simpleKeys [encStr k, encStr v, encType t]) = some (mk k v t) ∧
    Proper (encStruct simpleKeys [encStr k, encStr v, encType t]) ∧
    depth (encStruct simpleKeys [encStr k, encStr v, encType t]) ≤ 1 := by
  have nd : simpleKeys.Nodup := by decide +kernel
  have h := codes_type t trivial
  refine struct_reads ?_ ⟨(rs _).2, (rs _).2, h.2⟩
  simp only [decSimple, decStruct, encStruct]
  refine bind_field 0 nd rfl rfl (rs _).1 ?_
  refine bind_field 1 nd rfl rfl (rs _).1 ?_
  exact bind_field 2 nd rfl rfl h.1 rfl

theorem kvNames : (keys ["CourseFilter", "LessonFilter", "CombinedFilter"]).Nodup := by decide +kernel

mutual
theorem kv_reads : ∀ (f : KVFilter) (n : Nat), nesting f < n →
    decKVn n (encKV f) = some f ∧ Proper (encKV f) ∧ depth (encKV f) ≤ 3 * nesting f + 2
  | .course k v t, n + 1, _ => by
    rw [encKV, decKVn]
    exact data_reads' (k := 1) 0 kvNames rfl (by omega) (simple_reads .course k v t)
  | .lesson k v t, n + 1, _ => by
    rw [encKV, decKVn]
    exact data_reads' (k := 1) 1 kvNames rfl (by omega) (simple_reads .lesson k v t)
  | .combined op fs, n + 1, h => by
    rw [nesting] at h
    obtain ⟨h1, h2, h3⟩ := kvs_reads fs n (by omega)
    have h4 := codes_op op trivial
    have nd : combinedKeys.Nodup := by decide +kernel
    rw [encKV, decKVn, nesting]
    refine data_reads' (k := 3 * nestings fs + 4) 2 kvNames rfl (by omega)
      (struct_reads (k := 3 * nestings fs + 3) ?_ ⟨?_, ?_⟩)
    · simp only [decStruct, encStruct]
      refine bind_field 0 nd rfl rfl h4.1 ?_
      exact bind_field 1 nd rfl rfl (show decList (decKVn n) (.arr (encKVs fs)) = some fs from h1) rfl
    · exact (up h4 (by omega)).2
    · show Proper (.arr (encKVs fs)) ∧ depth (.arr (encKVs fs)) ≤ _
      rw [Proper, depth]
      exact ⟨h2, by omega⟩
theorem kvs_reads : ∀ (fs : List KVFilter) (n : Nat), nestings fs < n ∨ fs = [] →
    (encKVs fs).mapM (decKVn n) = some fs ∧ ProperItems (encKVs fs) ∧
    depthItems (encKVs fs) ≤ 3 * nestings fs + 2
  | [], n, _ => by
    rw [encKVs, ProperItems, depthItems]
    exact ⟨rfl, trivial, by omega⟩
  | f :: fs, n, h => by
    have h : nestings (f :: fs) < n := by
      rcases h with h | h
      · exact h
      · cases h
    rw [nestings] at h
    obtain ⟨a1, a2, a3⟩ := kv_reads f n (by omega)
    obtain ⟨b1, b2, b3⟩ := kvs_reads fs n (Or.inl (by omega))
    rw [encKVs, ProperItems, depthItems, nestings, List.mapM_cons, a1, b1]
    exact ⟨rfl, ⟨a2, b2⟩, by omega⟩
end

theorem struct_depth_ge {names : List Str} {vals : List Json} {v : Json} (hl : names.length = vals.length)
    (h : v ∈ vals) : depth v + 1 ≤ depth (encStruct names vals) := by
  unfold encStruct
  rw [depth]
  obtain ⟨i, hi⟩ := List.mem_iff_getElem?.mp h
  have hlt : i < names.length := by
    rw [hl]; exact (List.getElem?_eq_some_iff.mp hi).1
  have hm : (names[i], v) ∈ names.zip vals := by
    refine List.mem_iff_getElem?.mpr ⟨i, ?_⟩
    rw [List.getElem?_zip_eq_some]
    exact ⟨List.getElem?_eq_getElem hlt, hi⟩
  have := (depthFields_le (names.zip vals) _).mp (le_refl _) _ hm
  simp only at this
  omega

mutual
theorem kv_deep : ∀ f : KVFilter, nesting f + 2 ≤ depth (encKV f)
  | .course k v t => by
    rw [encKV, nesting, data_depth]
    have := struct_depth_ge (names := simpleKeys) (vals := [encStr k, encStr v, encType t]) (v := encStr k) rfl
      (by simp)
    omega
    all_goals simp
  | .lesson k v t => by
    rw [encKV, nesting, data_depth]
    have := struct_depth_ge (names := simpleKeys) (vals := [encStr k, encStr v, encType t]) (v := encStr k) rfl
      (by simp)
    omega
    all_goals simp
  | .combined op fs => by
    have := kvs_deep fs
    rw [encKV, nesting, data_depth]
    have h := struct_depth_ge (names := combinedKeys) (vals := [encOp op, .arr (encKVs fs)])
      (v := .arr (encKVs fs)) rfl (by simp)
    rw [depth] at h
    omega
theorem kvs_deep : ∀ fs : List KVFilter, nestings fs ≤ depthItems (encKVs fs)
  | [] => by rw [nestings]; omega
  | f :: fs => by
    have := kv_deep f
    have := kvs_deep fs
    rw [encKVs, nestings, depthItems]
    omega
end

theorem codes_kv (n : Nat) : Codes encKV decKV (fun f => nesting f ≤ n) (3 * n + 2) := by
  intro f hf
  have h := kv_deep f
  exact up (kv_reads f (depth (encKV f)) (by omega)) (by omega)

/-- The parts of a unit filter that have a limit: the nesting of metadata filters and the depth, which
is a `usize`. -/
def UnitFits (n : Nat) : UnitFilter Str → Prop
  | .metadata f => nesting f ≤ n
  | .dependencies _ d => d < 2 ^ 64
  | _ => True

theorem unitNames : (keys ["CourseFilter", "LessonFilter", "MetadataFilter", "ReviewListFilter", "Dependents",
    "Dependencies"]).Nodup := by decide +kernel

theorem codes_unitFilter (n : Nat) : Codes encUnitFilter decUnitFilter (UnitFits n) (3 * n + 4) := by
  intro x hx
  unfold decUnitFilter
  cases x with
  | courses ids =>
    have nd : (keys ["course_ids"]).Nodup := by decide +kernel
    refine data_reads' (k := 2) 0 unitNames rfl (by omega) (struct_reads (k := 1) ?_ (rls _).2)
    simp only [decStruct, encStruct]
    exact bind_field 0 nd rfl rfl (rls _).1 rfl
  | lessons ids =>
    have nd : (keys ["lesson_ids"]).Nodup := by decide +kernel
    refine data_reads' (k := 2) 1 unitNames rfl (by omega) (struct_reads (k := 1) ?_ (rls _).2)
    simp only [decStruct, encStruct]
    exact bind_field 0 nd rfl rfl (rls _).1 rfl
  | metadata f =>
    have nd : (keys ["filter"]).Nodup := by decide +kernel
    have h := codes_kv n f hx
    refine data_reads' (k := 3 * n + 3) 2 unitNames rfl (by omega)
      (struct_reads (k := 3 * n + 2) ?_ h.2)
    simp only [decStruct, encStruct]
    exact bind_field 0 nd rfl rfl h.1 rfl
  | reviewList => exact unit_reads 3 unitNames rfl
  | dependents ids =>
    have nd : (keys ["unit_ids"]).Nodup := by decide +kernel
    refine data_reads' (k := 2) 4 unitNames rfl (by omega) (struct_reads (k := 1) ?_ (rls _).2)
    simp only [decStruct, encStruct]
    exact bind_field 0 nd rfl rfl (rls _).1 rfl
  | dependencies ids d =>
    have nd : (keys ["unit_ids", "depth"]).Nodup := by decide +kernel
    have h := codes_nat usizeSize d hx
    refine data_reads' (k := 2) 5 unitNames rfl (by omega) (struct_reads (k := 1) ?_
      ⟨(rls _).2, (up h (by omega)).2⟩)
    simp only [decStruct, encStruct]
    refine bind_field 0 nd rfl rfl (rls _).1 ?_
    exact bind_field 1 nd rfl rfl h.1 rfl

theorem codes_savedFilter (n : Nat) :
    Codes encSavedFilter decSavedFilter (fun f => UnitFits n f.payload) (3 * n + 5) := by
  intro x hx
  have nd : savedFilterKeys.Nodup := by decide +kernel
  have h := codes_unitFilter n x.payload hx
  refine struct_reads ?_ ⟨(up (rs _) (by omega)).2, (up (rs _) (by omega)).2, h.2⟩
  simp only [decSavedFilter, decStruct, encStruct]
  refine bind_field 0 nd rfl rfl (rs _).1 ?_
  refine bind_field 1 nd rfl rfl (rs _).1 ?_
  exact bind_field 2 nd rfl rfl h.1 rfl

/-- The parts of a session part that have a limit. -/
def PartFits (n : Nat) : SessionPart Str → Prop
  | .unitFilter f d => UnitFits n f ∧ d < u32Size
  | .savedFilter _ d => d < u32Size
  | .noFilter d => d < u32Size

theorem partNames : (keys ["UnitFilter", "SavedFilter", "NoFilter"]).Nodup := by decide +kernel

theorem codes_part (n : Nat) : Codes encPart decPart (PartFits n) (3 * n + 6) := by
  intro x hx
  unfold decPart
  cases x with
  | unitFilter f d =>
    have nd : (keys ["filter", "duration"]).Nodup := by decide +kernel
    have h1 := codes_unitFilter n f hx.1
    have h2 := codes_nat u32Size d hx.2
    refine data_reads' (k := 3 * n + 5) 0 partNames rfl (by omega) (struct_reads (k := 3 * n + 4) ?_
      ⟨h1.2, (up h2 (by omega)).2⟩)
    simp only [decStruct, encStruct]
    refine bind_field 0 nd rfl rfl h1.1 ?_
    exact bind_field 1 nd rfl rfl h2.1 rfl
  | savedFilter i d =>
    have nd : (keys ["filter_id", "duration"]).Nodup := by decide +kernel
    have h2 := codes_nat u32Size d hx
    refine data_reads' (k := 1) 1 partNames rfl (by omega) (struct_reads (k := 0) ?_ ⟨(rs _).2, h2.2⟩)
    simp only [decStruct, encStruct]
    refine bind_field 0 nd rfl rfl (rs _).1 ?_
    exact bind_field 1 nd rfl rfl h2.1 rfl
  | noFilter d =>
    have nd : (keys ["duration"]).Nodup := by decide +kernel
    have h2 := codes_nat u32Size d hx
    refine data_reads' (k := 1) 2 partNames rfl (by omega) (struct_reads (k := 0) ?_ h2.2)
    simp only [decStruct, encStruct]
    exact bind_field 0 nd rfl rfl h2.1 rfl

theorem codes_studySession (n : Nat) :
    Codes encStudySession decStudySession (fun s => ∀ p ∈ s.payload, PartFits n p) (3 * n + 8) := by
  intro x hx
  have nd : studySessionKeys.Nodup := by decide +kernel
  have h := codes_list (codes_part n) x.payload hx
  refine struct_reads ?_ ⟨(up (rs _) (by omega)).2, (up (rs _) (by omega)).2, h.2⟩
  simp only [decStudySession, decStruct, encStruct]
  refine bind_field 0 nd rfl rfl (rs _).1 ?_
  refine bind_field 1 nd rfl rfl (rs _).1 ?_
  exact bind_field 2 nd rfl rfl h.1 rfl

/-! ### Assets -/

theorem basicNames : (keys ["MarkdownAsset", "InlinedAsset", "InlinedUniqueAsset"]).Nodup := by decide +kernel

theorem codes_basic : Codes encBasic decBasic (fun _ => True) 2 := by
  have nd : (keys ["path"]).Nodup := by decide +kernel
  have nd' : (keys ["content"]).Nodup := by decide +kernel
  intro x _
  unfold decBasic
  cases x with
  | markdown p =>
    refine data_reads (k := 1) 0 basicNames rfl (struct_reads (k := 0) ?_ (rs _).2)
    simp only [decStruct, encStruct]
    exact bind_field 0 nd rfl rfl (rs _).1 rfl
  | inlined c =>
    refine data_reads (k := 1) 1 basicNames rfl (struct_reads (k := 0) ?_ (rs _).2)
    simp only [decStruct, encStruct]
    exact bind_field 0 nd' rfl rfl (rs _).1 rfl
  | inlinedUnique c =>
    refine data_reads (k := 1) 2 basicNames rfl (struct_reads (k := 0) ?_ (rs _).2)
    simp only [decStruct, encStruct]
    exact bind_field 0 nd' rfl rfl (rs _).1 rfl

theorem basic_ne (a : BasicAsset) : encBasic a ≠ .null := by cases a <;> simp [encBasic, encData]

theorem codes_lesson : Codes encLesson decLesson (fun _ => True) 0 := by
  have nd : (keys ["Reading", "Dictation"]).Nodup := by decide +kernel
  intro x _
  cases x with
  | false => exact unit_reads 0 nd rfl
  | true => exact unit_reads 1 nd rfl

theorem codes_kind : Codes encKind decKind (fun _ => True) 0 := by
  have nd : (keys ["Declarative", "Procedural"]).Nodup := by decide +kernel
  intro x _
  cases x with
  | false => exact unit_reads 1 nd rfl
  | true => exact unit_reads 0 nd rfl

theorem codes_link : Codes encLink decLink (fun _ => True) 1 := by
  have nd : (keys ["YouTube"]).Nodup := by decide +kernel
  intro x _
  exact data_reads 0 nd rfl (rs x)

theorem link_ne (a : Str) : encLink a ≠ .null := by simp [encLink, encData]

theorem codes_examples : Codes encExamples decExamples (fun _ => True) 2 := by
  intro x _
  exact codes_list (codes_pair codes_str (codes_opt codes_str str_ne)) x
    (fun _ _ => ⟨trivial, fun _ _ => trivial⟩)

theorem assetNames : (keys ["BasicAsset", "FlashcardAsset", "InlineFlashcardAsset", "LiteracyAsset",
    "SoundSliceAsset", "TranscriptionAsset"]).Nodup := by decide +kernel

theorem codes_asset : Codes encAsset decAsset (fun _ => True) 4 := by
  intro x _
  unfold decAsset
  cases x with
  | basic a =>
    have h := codes_basic a trivial
    refine data_reads' (k := 2) 0 assetNames rfl (by omega) ⟨?_, h.2⟩
    simp only [h.1]; rfl
  | flashcard f b =>
    have nd : (keys ["front_path", "back_path"]).Nodup := by decide +kernel
    refine data_reads' (k := 1) 1 assetNames rfl (by omega) (struct_reads (k := 0) ?_ ⟨(rs _).2, (ros _).2⟩)
    simp only [decStruct, encStruct]
    refine bind_field 0 nd rfl rfl (rs _).1 ?_
    exact bind_field 1 nd rfl rfl (ros _).1 rfl
  | inlineFlashcard f b =>
    have nd : (keys ["front_content", "back_content"]).Nodup := by decide +kernel
    refine data_reads' (k := 1) 2 assetNames rfl (by omega) (struct_reads (k := 0) ?_ ⟨(rs _).2, (ros _).2⟩)
    simp only [decStruct, encStruct]
    refine bind_field 0 nd rfl rfl (rs _).1 ?_
    exact bind_field 1 nd rfl rfl (ros _).1 rfl
  | literacy t x y =>
    have nd : (keys ["lesson_type", "examples", "exceptions"]).Nodup := by decide +kernel
    have h1 := codes_lesson t trivial
    have h2 := codes_examples x trivial
    have h3 := codes_examples y trivial
    refine data_reads (k := 3) 3 assetNames rfl (struct_reads (k := 2) ?_ ⟨(up h1 (by omega)).2, h2.2, h3.2⟩)
    simp only [decStruct, encStruct]
    refine bind_field 0 nd rfl rfl h1.1 ?_
    refine bind_field 1 nd rfl rfl h2.1 ?_
    exact bind_field 2 nd rfl rfl h3.1 rfl
  | soundSlice l d b =>
    have nd : (keys ["link", "description", "backup"]).Nodup := by decide +kernel
    refine data_reads' (k := 1) 4 assetNames rfl (by omega) (struct_reads (k := 0) ?_
      ⟨(rs _).2, (ros _).2, (ros _).2⟩)
    simp only [decStruct, encStruct]
    refine bind_field 0 nd rfl rfl (rs _).1 ?_
    refine bind_field 1 nd rfl rfl (ros _).1 ?_
    exact bind_field 2 nd rfl rfl (ros _).1 rfl
  | transcription c l =>
    have nd : (keys ["content", "external_link"]).Nodup := by decide +kernel
    have h := codes_opt codes_link link_ne l (fun _ _ => trivial)
    refine data_reads' (k := 2) 5 assetNames rfl (by omega) (struct_reads (k := 1) ?_
      ⟨(up (rs _) (by omega)).2, h.2⟩)
    simp only [decStruct, encStruct]
    refine bind_field 0 nd rfl rfl (rs _).1 ?_
    exact bind_field 1 nd rfl rfl h.1 rfl

theorem codes_exercise : Codes encExercise decExercise (fun _ => True) 5 := by
  intro x _
  have nd : exerciseKeys.Nodup := by decide +kernel
  have h1 := codes_kind x.declarative trivial
  have h2 := codes_asset x.asset trivial
  refine struct_reads ?_ ⟨(up (rs _) (by omega)).2, (up (rs _) (by omega)).2, (up (rs _) (by omega)).2,
    (up (rs _) (by omega)).2, (up (ros _) (by omega)).2, (up h1 (by omega)).2, h2.2⟩
  simp only [decExercise, decStruct, encStruct]
  refine bind_field 0 nd rfl rfl (rs _).1 ?_
  refine bind_field 1 nd rfl rfl (rs _).1 ?_
  refine bind_field 2 nd rfl rfl (rs _).1 ?_
  refine bind_field 3 nd rfl rfl (rs _).1 ?_
  refine bind_field 4 nd rfl rfl (ros _).1 ?_
  refine bind_field 5 nd rfl rfl h1.1 ?_
  exact bind_field 6 nd rfl rfl h2.1 rfl

/-! ### Generators -/

theorem codes_musicAsset : Codes encMusicAsset decMusicAsset (fun _ => True) 1 := by
  have nd : (keys ["SoundSlice", "LocalFile"]).Nodup := by decide +kernel
  intro x _
  unfold decMusicAsset
  cases x with
  | soundSlice l => exact data_reads (k := 0) 0 nd rfl ⟨rfl, (rs _).2⟩
  | localFile l => exact data_reads (k := 0) 1 nd rfl ⟨rfl, (rs _).2⟩

mutual
/-- How many passages are inside one another, this one included. -/
def levels : Passage → Nat
  | .mk _ _ subs => levelsSubs subs + 1
/-- A sub-passage. -/
def levelsSub : Nat × Passage → Nat
  | (_, p) => levels p
/-- The most deeply nested sub-passage. -/
def levelsSubs : List (Nat × Passage) → Nat
  | [] => 0
  | p :: ps => max (levelsSub p) (levelsSubs ps)
end

mutual
/-- The sub-passages of every passage have different numbers, which are `usize`. -/
def PassageFits : Passage → Prop
  | .mk _ _ subs => (subs.map Prod.fst).Nodup ∧ SubsFit subs
/-- A sub-passage. -/
def SubFits : Nat × Passage → Prop
  | (n, p) => n < 2 ^ 64 ∧ PassageFits p
/-- All sub-passages. -/
def SubsFit : List (Nat × Passage) → Prop
  | [] => True
  | p :: ps => SubFits p ∧ SubsFit ps
end

theorem encSubs_map : ∀ subs : List (Nat × Passage),
    encSubs subs = subs.map (fun p => (Nat.toDigits 10 p.1, encPassage p.2))
  | [] => by rw [encSubs]; rfl
  | (n, p) :: ps => by rw [encSubs, encSub, encSubs_map ps]; rfl

mutual
theorem passage_reads : ∀ (p : Passage) (n : Nat), PassageFits p → levels p ≤ n →
    decPassageN n (encPassage p) = some p ∧ Proper (encPassage p) ∧ depth (encPassage p) ≤ 2 * levels p
  | .mk s e subs, n, hf, h => by
    rw [PassageFits] at hf
    rw [levels] at h
    obtain ⟨m, rfl⟩ : ∃ m, n = m + 1 := ⟨n - 1, by omega⟩
    have hs := subs_read subs m hf.2 (by omega)
    have nd : passageKeys.Nodup := by decide +kernel
    have hmap : decMap keyNat (decPassageN m) (.obj (encSubs subs)) = some subs := by
      unfold decMap
      rw [encSubs_map]
      have := foldlM_put (k := Nat.toDigits 10) (k' := keyNat) (e := encPassage) (d := decPassageN m) subs []
        (fun p hp => ⟨keyNat_toDigits _ (hs.1 p hp).1, (hs.1 p hp).2⟩) (by simpa using hf.1)
      simpa using this
    rw [encPassage, decPassageN, levels]
    refine struct_reads (k := 2 * levelsSubs subs + 1) ?_ ⟨(up (rs _) (by omega)).2, (up (rs _) (by omega)).2, ?_⟩
    · simp only [decStruct, encStruct]
      refine bind_field 0 nd rfl rfl (rs _).1 ?_
      refine bind_field 1 nd rfl rfl (rs _).1 ?_
      exact bind_field 2 nd rfl rfl hmap rfl
    · show Proper (.obj (encSubs subs)) ∧ depth (.obj (encSubs subs)) ≤ _
      rw [Proper, depth]
      exact ⟨hs.2.1, by omega⟩
theorem subs_read : ∀ (subs : List (Nat × Passage)) (n : Nat), SubsFit subs → levelsSubs subs ≤ n →
    (∀ p ∈ subs, p.1 < usizeSize ∧ decPassageN n (encPassage p.2) = some p.2) ∧ ProperFields (encSubs subs) ∧
    depthFields (encSubs subs) ≤ 2 * levelsSubs subs
  | [], n, _, _ => by rw [encSubs, ProperFields, depthFields]; simp
  | (k, p) :: ps, n, hf, h => by
    rw [SubsFit, SubFits] at hf
    rw [levelsSubs, levelsSub] at h
    obtain ⟨a1, a2, a3⟩ := passage_reads p n hf.1.2 (by omega)
    obtain ⟨b1, b2, b3⟩ := subs_read ps n hf.2 (by omega)
    rw [encSubs, encSub, ProperFields, ProperField, depthFields, depthField, levelsSubs, levelsSub]
    refine ⟨?_, ⟨a2, b2⟩, by omega⟩
    intro q hq
    rcases List.mem_cons.mp hq with rfl | hq
    · exact ⟨hf.1.1, a1⟩
    · exact b1 q hq
end

mutual
theorem passage_deep : ∀ p : Passage, 2 * levels p ≤ depth (encPassage p)
  | .mk s e subs => by
    have := subs_deep subs
    rw [encPassage, levels]
    have h := struct_depth_ge (names := passageKeys) (vals := [encStr s, encStr e, .obj (encSubs subs)])
      (v := .obj (encSubs subs)) rfl (by simp)
    rw [depth] at h
    omega
theorem subs_deep : ∀ subs : List (Nat × Passage), 2 * levelsSubs subs ≤ depthFields (encSubs subs)
  | [] => by rw [levelsSubs]; omega
  | (k, p) :: ps => by
    have := passage_deep p
    have := subs_deep ps
    rw [encSubs, encSub, depthFields, depthField, levelsSubs, levelsSub]
    omega
end

theorem codes_passage (n : Nat) : Codes encPassage decPassage (fun p => PassageFits p ∧ levels p ≤ n) (2 * n) := by
  intro p hp
  have h := passage_deep p
  exact up (passage_reads p (depth (encPassage p)) hp.1 (by omega)) (by omega)

theorem codes_track : Codes encTrack decTrack (fun _ => True) 3 := by
  have nd : trackKeys.Nodup := by decide +kernel
  have nd' : (keys ["Track"]).Nodup := by decide +kernel
  intro x _
  have h := codes_opt codes_link link_ne x.link (fun _ _ => trivial)
  refine data_reads (k := 2) 0 nd' rfl (struct_reads (k := 1) ?_ ⟨(up (rs _) (by omega)).2, (up (rs _) (by omega)).2,
    (up (ros _) (by omega)).2, (up (ros _) (by omega)).2, (up (ros _) (by omega)).2, h.2⟩)
  simp only [decStruct, encStruct]
  refine bind_field 0 nd rfl rfl (rs _).1 ?_
  refine bind_field 1 nd rfl rfl (rs _).1 ?_
  refine bind_field 2 nd rfl rfl (ros _).1 ?_
  refine bind_field 3 nd rfl rfl (ros _).1 ?_
  refine bind_field 4 nd rfl rfl (ros _).1 ?_
  exact bind_field 5 nd rfl rfl h.1 rfl

/-- The intervals have different numbers, which are `usize`. -/
def PassagesFit (p : Passages) : Prop :=
  (p.intervals.map Prod.fst).Nodup ∧ ∀ i ∈ p.intervals, i.1 < 2 ^ 64

theorem codes_passages : Codes encPassages decPassages PassagesFit 4 := by
  have nd : passagesKeys.Nodup := by decide +kernel
  intro x hx
  have h1 := codes_track x.asset trivial
  have h2 := codes_map (K := fun n => n < usizeSize) keyNat_toDigits (codes_pair codes_str codes_str)
    x.intervals ⟨hx.1, fun p hp => ⟨hx.2 p hp, trivial, trivial⟩⟩
  refine struct_reads (k := 3) ?_ ⟨h1.2, (up h2 (by omega)).2⟩
  simp only [decPassages, decStruct, encStruct]
  refine bind_field 0 nd rfl rfl h1.1 ?_
  exact bind_field 1 nd rfl rfl h2.1 rfl

theorem codes_config : Codes encConfig decConfig (fun c => ∀ p ∈ c.inlined, PassagesFit p) 6 := by
  have nd : configKeys.Nodup := by decide +kernel
  intro x hx
  have h := codes_list codes_passages x.inlined hx
  refine struct_reads (k := 5) ?_ ⟨(up (rls _) (by omega)).2, (up (rs _) (by omega)).2, h.2,
    (up (rb _) (by omega)).2, (up (rb _) (by omega)).2⟩
  simp only [decConfig, decStruct, encStruct]
  refine bind_field 0 nd rfl rfl (rls _).1 ?_
  refine bind_field 1 nd rfl rfl (rs _).1 ?_
  refine bind_field 2 nd rfl rfl h.1 ?_
  refine bind_field 3 nd rfl rfl (rb _).1 ?_
  exact bind_field 4 nd rfl rfl (rb _).1 rfl

/-- The parts of a generator's configuration that have a limit. -/
def GeneratorFits (n : Nat) : Generator → Prop
  | .musicPiece _ p => PassageFits p ∧ levels p ≤ n
  | .transcription c => ∀ p ∈ c.inlined, PassagesFit p
  | _ => True

theorem generatorNames : (keys ["KnowledgeBase", "Literacy", "MusicPiece", "Transcription"]).Nodup := by
  decide +kernel

theorem levels_pos : ∀ p : Passage, 1 ≤ levels p
  | .mk _ _ _ => by rw [levels]; omega

theorem codes_generator (n : Nat) : Codes encGenerator decGenerator (GeneratorFits n) (max 7 (2 * n + 2)) := by
  intro x hx
  unfold decGenerator
  cases x with
  | knowledgeBase b =>
    have nd : (keys ["inlined"]).Nodup := by decide +kernel
    refine data_reads' (k := 1) 0 generatorNames rfl (by omega) (struct_reads (k := 0) ?_ (rb _).2)
    simp only [decStruct, encStruct]
    exact bind_field 0 nd rfl rfl (rb _).1 rfl
  | literacy b =>
    have nd : (keys ["generate_dictation"]).Nodup := by decide +kernel
    refine data_reads' (k := 1) 1 generatorNames rfl (by omega) (struct_reads (k := 0) ?_ (rb _).2)
    simp only [decStruct, encStruct]
    exact bind_field 0 nd rfl rfl (rb _).1 rfl
  | musicPiece a p =>
    have nd : (keys ["music_asset", "passages"]).Nodup := by decide +kernel
    have h1 := codes_musicAsset a trivial
    have h2 := codes_passage n p hx
    have h3 := levels_pos p
    have h4 : levels p ≤ n := hx.2
    refine data_reads' (k := 2 * n + 1) 2 generatorNames rfl (by omega)
      (struct_reads (k := 2 * n) ?_ ⟨(up h1 (by omega)).2, (up h2 (by omega)).2⟩)
    simp only [decStruct, encStruct]
    refine bind_field 0 nd rfl rfl h1.1 ?_
    exact bind_field 1 nd rfl rfl h2.1 rfl
  | transcription c =>
    have h := codes_config c hx
    refine data_reads' (k := 6) 3 generatorNames rfl (by omega) ⟨?_, h.2⟩
    simp only [h.1]; rfl

theorem generator_ne (g : Generator) : encGenerator g ≠ .null := by cases g <;> simp [encGenerator, encData]

/-! ### Manifests -/

variable {F : Type}

/-- The keys of the metadata are different. -/
def MetadataFits (m : Option Metadata) : Prop := ∀ x ∈ m, (x.map Prod.fst).Nodup

theorem codes_metadata' : Codes encMetadata decMetadata (fun m : Metadata => (m.map Prod.fst).Nodup) 2 := by
  intro m hm
  exact codes_map (K := fun _ => True) (k := id) (k' := some) (fun _ _ => rfl) (codes_list codes_str) m
    ⟨hm, fun _ _ => ⟨trivial, fun _ _ => trivial⟩⟩

theorem codes_metadata : Codes (encOpt encMetadata) (decOpt decMetadata) MetadataFits 2 :=
  codes_opt codes_metadata' (by simp [encMetadata, encMap])

/-- The weights are finite. -/
def WeightsFit (fl : Floats F) (ws : List (Str × F)) : Prop := ∀ w ∈ ws, (fl.text w.2).isSome

theorem codes_weights (fl : Floats F) : Codes (encWeights fl) (decWeights fl) (WeightsFit fl) 2 := by
  intro ws hw
  exact codes_list (codes_pair codes_str (codes_float fl)) ws (fun w hm => ⟨trivial, hw w hm⟩)

/-- The parts of a course manifest that have a limit. -/
structure CourseFits (fl : Floats F) (n : Nat) (m : CourseManifest F) : Prop where
  weights : WeightsFit fl m.encompassed
  metadata : MetadataFits m.metadata
  generator : ∀ g ∈ m.generator, GeneratorFits n g

theorem codes_course (fl : Floats F) (n : Nat) :
    Codes (encCourse fl) (decCourse fl) (CourseFits fl n) (max 8 (2 * n + 3)) := by
  intro x hx
  have nd : courseKeys.Nodup := by decide +kernel
  have h1 := codes_weights fl x.encompassed hx.weights
  have h2 := codes_opt (codes_list codes_str) (list_ne encStr) x.authors (fun _ _ _ _ => trivial)
  have h3 := codes_metadata x.metadata hx.metadata
  have h4 := codes_opt codes_basic basic_ne x.material (fun _ _ => trivial)
  have h5 := codes_opt codes_basic basic_ne x.instructions (fun _ _ => trivial)
  have h6 := codes_opt (codes_generator n) generator_ne x.generator hx.generator
  rw [show max 8 (2 * n + 3) = max 7 (2 * n + 2) + 1 by omega]
  refine struct_reads ?_ ⟨(up (rs _) (by omega)).2, (up (rs _) (by omega)).2, (up (rls _) (by omega)).2,
    (up h1 (by omega)).2, (up (rls _) (by omega)).2, (up (ros _) (by omega)).2, (up h2 (by omega)).2,
    (up h3 (by omega)).2, (up h4 (by omega)).2, (up h5 (by omega)).2, h6.2⟩
  simp only [decCourse, decStruct, encStruct]
  refine bind_field 0 nd rfl rfl (rs _).1 ?_
  refine bind_field 1 nd rfl rfl (rs _).1 ?_
  refine bind_field 2 nd rfl rfl (rls _).1 ?_
  refine bind_field 3 nd rfl rfl h1.1 ?_
  refine bind_field 4 nd rfl rfl (rls _).1 ?_
  refine bind_field 5 nd rfl rfl (ros _).1 ?_
  refine bind_field 6 nd rfl rfl h2.1 ?_
  refine bind_field 7 nd rfl rfl h3.1 ?_
  refine bind_field 8 nd rfl rfl h4.1 ?_
  refine bind_field 9 nd rfl rfl h5.1 ?_
  exact bind_field 10 nd rfl rfl h6.1 rfl

/-- The parts of a lesson manifest that have a limit. -/
structure LessonFits (fl : Floats F) (m : LessonManifest F) : Prop where
  weights : WeightsFit fl m.encompassed
  metadata : MetadataFits m.metadata

theorem codes_lessonManifest (fl : Floats F) :
    Codes (encLessonManifest fl) (decLessonManifest fl) (LessonFits fl) 3 := by
  intro x hx
  have nd : lessonKeys.Nodup := by decide +kernel
  have h1 := codes_weights fl x.encompassed hx.weights
  have h3 := codes_metadata x.metadata hx.metadata
  have h4 := codes_opt codes_basic basic_ne x.material (fun _ _ => trivial)
  have h5 := codes_opt codes_basic basic_ne x.instructions (fun _ _ => trivial)
  refine struct_reads ?_ ⟨(up (rs _) (by omega)).2, (up (rls _) (by omega)).2,
    (up h1 (by omega)).2, (up (rls _) (by omega)).2, (up (rs _) (by omega)).2, (up (rs _) (by omega)).2,
    (up (ros _) (by omega)).2,
    (up h3 (by omega)).2, (up h4 (by omega)).2, (up h5 (by omega)).2⟩
  simp only [decLessonManifest, decStruct, encStruct]
  refine bind_field 0 nd rfl rfl (rs _).1 ?_
  refine bind_field 1 nd rfl rfl (rls _).1 ?_
  refine bind_field 2 nd rfl rfl h1.1 ?_
  refine bind_field 3 nd rfl rfl (rls _).1 ?_
  refine bind_field 4 nd rfl rfl (rs _).1 ?_
  refine bind_field 5 nd rfl rfl (rs _).1 ?_
  refine bind_field 6 nd rfl rfl (ros _).1 ?_
  refine bind_field 7 nd rfl rfl h3.1 ?_
  refine bind_field 8 nd rfl rfl h4.1 ?_
  exact bind_field 9 nd rfl rfl h5.1 rfl

end Trane.Json
