import Verif.Json.CodesTypes
import Verif.Top.ConfigProps

/-!
# What is written to files is read back (C87)

The statements are about texts: `print (some 0) v` is the text of `serde_json::to_string_pretty`,
`print none v` the one of `to_string`, and `readAs` is `from_str` or `from_reader`.  `Blank` is white
space.  The `…Fits` conditions say that numbers are within the range of their type, that the keys of a
map are different, that weights are finite, and how deep values are nested.
-/

namespace Trane.Json
open Trane.Store (Str)
open Trane.Filters
open Trane.Gen.Music (Passage)

variable {F : Type}

theorem Codes.text {α : Type} {e : α → Json} {d : Json → Option α} {V : α → Prop} {k : Nat}
    (h : Codes e d V k) (hk : k ≤ 127) {x : α} (hx : V x) (o : Option Nat) (w w' : Str) (hw : Blank w)
    (hw' : Blank w') : readAs d (w ++ (print o (e x) ++ w')) = some x := by
  obtain ⟨h1, h2, h3⟩ := h x hx
  unfold readAs
  rw [parse_print (e x) o w w' h2 (by omega) hw hw']
  exact h1

theorem Codes.cut {α : Type} {e : α → Json} {d : Json → Option α} {V : α → Prop} {k : Nat}
    (h : Codes e d V k) (hk : k ≤ 127) {x : α} (hx : V x) (hn : ∀ t, e x ≠ .num t) (o : Option Nat) (n : Nat)
    (hl : n < (print o (e x)).length) : readAs d ((print o (e x)).take n) = none := by
  obtain ⟨h1, h2, h3⟩ := h x hx
  unfold readAs
  rw [parse_cut (e x) o h2 (by omega) hn n hl]
  rfl

/-! ### Preferences -/

/-- User preferences are read back from what `set_user_preferences` writes, and from what the first
opening writes, which ends with a line break; however they are indented. -/
theorem preferences_read_back (p : UserPreferences) (hp : p.Fits) (o : Option Nat) (w w' : Str) (hw : Blank w)
    (hw' : Blank w') : readAs decUserPreferences (w ++ (print o (encUserPreferences p) ++ w')) = some p :=
  codes_userPreferences.text (by omega) hp o w w' hw hw'

/-- A preferences file that was only partly written is not mistaken for other preferences. -/
theorem preferences_cut (p : UserPreferences) (hp : p.Fits) (o : Option Nat) (n : Nat)
    (hn : n < (print o (encUserPreferences p)).length) :
    readAs decUserPreferences ((print o (encUserPreferences p)).take n) = none :=
  codes_userPreferences.cut (by omega) hp (by simp [encUserPreferences, encStruct]) o n hn

/-- The format of the preferences file that the model of the configuration directory (C76) is stated
for. -/
noncomputable def preferencesFormat : ConfigDir.Format {p : UserPreferences // p.Fits} where
  write p := print (some 0) (encUserPreferences p.1)
  read t := (readAs decUserPreferences t).bind fun p =>
    open Classical in if h : p.Fits then some ⟨p, h⟩ else none
  read_write p := by
    have := preferences_read_back p.1 p.2 (some 0) [] [] (by simp [Blank]) (by simp [Blank])
    simp only [List.nil_append, List.append_nil] at this
    rw [this]
    simp [p.2]
  read_line p := by
    have := preferences_read_back p.1 p.2 (some 0) [] ['\n'] (by simp [Blank]) (by simp [Blank, isSpace])
    simp only [List.nil_append] at this
    rw [this]
    simp [p.2]
  read_cut p n hn := by
    rw [preferences_cut p.1 p.2 (some 0) n hn]
    rfl

/-- Preferences that are read are within the limits of their type. -/
theorem preferences_read_fit (v : Json) (p : UserPreferences) (h : decUserPreferences v = some p) : p.Fits := by
  have hf : ∀ fs q, field fs "scheduler" (decOpt decSchedulerPreferences) (some none) = some (some q) →
      ∀ n ∈ q.batchSize, n < 2 ^ 64 := by
    intro fs q hq n hn
    have h1 : ∃ w, decSchedulerPreferences w = some q := by
      unfold field at hq
      split at hq
      · simp at hq
      · rename_i e _
        cases e with
        | mk k w =>
          refine ⟨w, ?_⟩
          cases w <;> simp [decOpt] at hq <;> exact hq
      · simp at hq
    obtain ⟨w, hw⟩ := h1
    have h2 : ∀ gs, (do some (⟨← field gs "batch_size" (decOpt (decNat usizeSize)) (some none)⟩ :
        SchedulerPreferences)) = some q → ∃ u, decNat usizeSize u = some n := by
      intro gs hg
      simp only [Option.bind_eq_bind, Option.bind_eq_some_iff, Option.some.injEq] at hg
      obtain ⟨b, hb, rfl⟩ := hg
      simp only [Option.mem_def] at hn
      subst hn
      unfold field at hb
      split at hb
      · simp at hb
      · rename_i e _
        cases e with
        | mk k u =>
          refine ⟨u, ?_⟩
          cases u <;> simp [decOpt] at hb <;> exact hb
      · simp at hb
    have h3 : ∃ u, decNat usizeSize u = some n := by
      unfold decSchedulerPreferences decStruct at hw
      split at hw
      · exact h2 _ hw
      · split at hw
        · exact h2 _ hw
        · simp at hw
      · simp at hw
    obtain ⟨u, hu⟩ := h3
    cases u <;> simp only [decNat, reduceCtorEq] at hu
    unfold natOf at hu
    split at hu
    · rename_i hc; rw [← Option.some.inj hu]; exact hc.2
    · simp at hu
  have h4 : ∀ fs, (do some (⟨← field fs "transcription" (decOpt decTranscriptionPreferences) (some none),
      ← field fs "scheduler" (decOpt decSchedulerPreferences) (some none),
      ← field fs "ignored_paths" (decList decStr) (some [])⟩ : UserPreferences)) = some p → p.Fits := by
    intro fs hfs
    simp only [Option.bind_eq_bind, Option.bind_eq_some_iff, Option.some.injEq] at hfs
    obtain ⟨a, _, b, hb, c, _, rfl⟩ := hfs
    intro q hq n hn
    simp only [Option.mem_def] at hq
    subst hq
    exact hf fs q hb n hn
  unfold decUserPreferences decStruct at h
  split at h
  · exact h4 _ h
  · split at h
    · exact h4 _ h
    · simp at h
  · simp at h

/-- So the format reads a text as `from_str` does. -/
theorem preferencesFormat_read (t : Str) :
    (preferencesFormat.read t).map Subtype.val = readAs decUserPreferences t := by
  show ((readAs decUserPreferences t).bind _).map _ = _
  cases h : readAs decUserPreferences t with
  | none => rfl
  | some p =>
    have hp : p.Fits := by
      unfold readAs at h
      obtain ⟨v, _, hv⟩ := Option.bind_eq_some_iff.mp h
      exact preferences_read_fit v p hv
    simp [hp]

/-- **C76 and C87 together.**  After `set_user_preferences` returned `Ok` the file has a text that is read
as these preferences. -/
theorem stored_preferences_read_back (root : ConfigDir.Path) (p : {p : UserPreferences // p.Fits})
    (d : ConfigDir.Disk) (h : (ConfigDir.setPreferences preferencesFormat root p d).2 = true) :
    ∃ t, (ConfigDir.setPreferences preferencesFormat root p d).1.fs (ConfigDir.prefsFile root) =
      some (.file t) ∧ readAs decUserPreferences t = some p.1 := by
  have h1 := (ConfigDir.set_then_get preferencesFormat root p d h).1
  unfold ConfigDir.getPreferences at h1
  split at h1
  · rename_i t ht
    refine ⟨t, ht, ?_⟩
    rw [← preferencesFormat_read, h1]
    rfl
  · simp at h1

example : ∃ p : UserPreferences, p.Fits ∧ p.ignoredPaths ≠ [] ∧ p.scheduler ≠ none :=
  ⟨{ scheduler := some { batchSize := some 20 }, ignoredPaths := [['a', '"', '\n']] },
    by intro q hq n hn; simp at hq; subst hq; simp at hn; subst hn; decide, by simp, by simp⟩

/-! ### Manifests -/

/-- The builders write `to_string_pretty` of the manifest and a line break
(/repo/src/course_builder.rs:87, 137 and 187); reading the file gives the same manifest.  A music piece may
have up to 62 passages inside one another. -/
theorem course_manifest_read_back_partial (fl : Floats F) (m : CourseManifest F) (hm : CourseFits fl 62 m)
    (o : Option Nat) (w w' : Str) (hw : Blank w) (hw' : Blank w') :
    readAs (decCourse fl) (w ++ (print o (encCourse fl m) ++ w')) = some m :=
  (codes_course fl 62).text (by decide) hm o w w' hw hw'

/-- The same for lessons. -/
theorem lesson_manifest_read_back (fl : Floats F) (m : LessonManifest F) (hm : LessonFits fl m)
    (o : Option Nat) (w w' : Str) (hw : Blank w) (hw' : Blank w') :
    readAs (decLessonManifest fl) (w ++ (print o (encLessonManifest fl m) ++ w')) = some m :=
  (codes_lessonManifest fl).text (by omega) hm o w w' hw hw'

/-- The same for exercises, without any condition. -/
theorem exercise_manifest_read_back (m : ExerciseManifest) (o : Option Nat) (w w' : Str) (hw : Blank w)
    (hw' : Blank w') : readAs decExercise (w ++ (print o (encExercise m) ++ w')) = some m :=
  codes_exercise.text (by omega) trivial o w w' hw hw'

/-- The same for the files of transcription passages. -/
theorem passages_read_back (p : Gen.Transcription.Passages) (hp : PassagesFit p) (o : Option Nat) (w w' : Str)
    (hw : Blank w) (hw' : Blank w') : readAs decPassages (w ++ (print o (encPassages p) ++ w')) = some p :=
  codes_passages.text (by omega) hp o w w' hw hw'

/-- The same for the files of one property each that the builder of knowledge bases writes
(/repo/src/course_builder/knowledge_base_builder.rs:41-68 and 101-143): names and descriptions, lists of units, lists
of units with weights, metadata, and types of exercises. -/
theorem property_files_read_back (fl : Floats F) (s : Str) (us : List Str) (ws : List (Str × F))
    (hw : WeightsFit fl ws) (m : Metadata) (hm : (m.map Prod.fst).Nodup) (k : Bool) (o : Option Nat) :
    readAs decStr (print o (encStr s)) = some s ∧
    readAs (decList decStr) (print o (encList encStr us)) = some us ∧
    readAs (decWeights fl) (print o (encWeights fl ws)) = some ws ∧
    readAs decMetadata (print o (encMetadata m)) = some m ∧
    readAs decKind (print o (encKind k)) = some k := by
  have h1 := codes_str.text (by omega) (x := s) trivial o [] [] (by simp [Blank]) (by simp [Blank])
  have h2 := (codes_list codes_str).text (by omega) (x := us) (fun _ _ => trivial) o [] [] (by simp [Blank])
    (by simp [Blank])
  have h3 := (codes_weights fl).text (by omega) hw o [] [] (by simp [Blank]) (by simp [Blank])
  have h4 := codes_metadata'.text (by omega) hm o [] [] (by simp [Blank]) (by simp [Blank])
  have h5 := codes_kind.text (by omega) (x := k) trivial o [] [] (by simp [Blank]) (by simp [Blank])
  simp only [List.nil_append, List.append_nil] at h1 h2 h3 h4 h5
  exact ⟨h1, h2, h3, h4, h5⟩

/-- A manifest that was only partly written is not read. -/
theorem manifest_cut (fl : Floats F) (m : CourseManifest F) (l : LessonManifest F) (e : ExerciseManifest)
    (hm : CourseFits fl 62 m) (hl : LessonFits fl l) (o : Option Nat) (n : Nat) :
    (n < (print o (encCourse fl m)).length → readAs (decCourse fl) ((print o (encCourse fl m)).take n) = none) ∧
    (n < (print o (encLessonManifest fl l)).length →
      readAs (decLessonManifest fl) ((print o (encLessonManifest fl l)).take n) = none) ∧
    (n < (print o (encExercise e)).length → readAs decExercise ((print o (encExercise e)).take n) = none) :=
  ⟨(codes_course fl 62).cut (by decide) hm (by simp [encCourse, encStruct]) o n,
    (codes_lessonManifest fl).cut (by omega) hl (by simp [encLessonManifest, encStruct]) o n,
    codes_exercise.cut (by omega) trivial (by simp [encExercise, encStruct]) o n⟩

/-- A weight that is not finite is written as `null`, and the manifest is not read again. -/
theorem infinite_weight_not_read (fl : Floats F) (m : CourseManifest F) (hm : ∃ w ∈ m.encompassed, fl.text w.2 = none) :
    decCourse fl (encCourse fl m) = none := by
  have nd : courseKeys.Nodup := by decide +kernel
  have hw : decWeights fl (encWeights fl m.encompassed) = none := by
    unfold decWeights encWeights decList encList
    dsimp only
    obtain ⟨w, hw, hn⟩ := hm
    generalize m.encompassed = ws at hw ⊢
    induction ws with
    | nil => simp at hw
    | cons x xs ih =>
      rw [List.map_cons, List.mapM_cons]
      rcases List.mem_cons.mp hw with rfl | hw
      · simp [decPair, encPair, encFloat, hn, decFloat]
      · rw [ih hw]
        cases decPair decStr (decFloat fl) (encPair encStr (encFloat fl) x) <;> rfl
  have hf : field (courseKeys.zip [encStr m.id, encStr m.name, encList encStr m.dependencies,
      encWeights fl m.encompassed, encList encStr m.superseded, encOpt encStr m.description,
      encOpt (encList encStr) m.authors, encOpt encMetadata m.metadata, encOpt encBasic m.material,
      encOpt encBasic m.instructions, encOpt encGenerator m.generator]) "encompassed" (decWeights fl) (some [])
      = none := by
    unfold field
    rw [filter_at courseKeys _ 3 _ (encWeights fl m.encompassed) nd rfl rfl]
    exact hw
  simp only [decCourse, encCourse, decStruct, encStruct]
  refine bind_field 0 nd rfl rfl (rs _).1 ?_
  refine bind_field 1 nd rfl rfl (rs _).1 ?_
  refine bind_field 2 nd rfl rfl (rls _).1 ?_
  rw [hf]
  rfl

/-! ### Filters and study sessions -/

/-- A saved filter is read back if at most 40 combined filters are inside one another. -/
theorem saved_filter_read_back_partial (f : SavedFilter) (hf : UnitFits 40 f.payload) (o : Option Nat)
    (w w' : Str) (hw : Blank w) (hw' : Blank w') :
    readAs decSavedFilter (w ++ (print o (encSavedFilter f) ++ w')) = some f :=
  (codes_savedFilter 40).text (by omega) hf o w w' hw hw'

/-- A study session is read back if at most 39 combined filters are inside one another. -/
theorem study_session_read_back_partial (s : StudySession) (hs : ∀ p ∈ s.payload, PartFits 39 p) (o : Option Nat)
    (w w' : Str) (hw : Blank w) (hw' : Blank w') :
    readAs decStudySession (w ++ (print o (encStudySession s) ++ w')) = some s :=
  (codes_studySession 39).text (by omega) hs o w w' hw hw'

/-- A directory of saved filters that were written like this can be opened if and only if their ids are
different, and then `get_filter` gives them. -/
theorem saved_filters_from_files_partial (fs : List SavedFilter) (hf : ∀ f ∈ fs, UnitFits 40 f.payload)
    (o : Option Nat) :
    ((Saved.openManager (some (fs.map fun f => readAs decSavedFilter (print o (encSavedFilter f))))).isSome ↔
      (fs.map (·.id)).Nodup) ∧
    ∀ m, Saved.openManager (some (fs.map fun f => readAs decSavedFilter (print o (encSavedFilter f)))) = some m →
      ∀ id f, Saved.get m id = some f ↔ f ∈ fs ∧ f.id = id := by
  have h : (fs.map fun f => readAs decSavedFilter (print o (encSavedFilter f))) = fs.map some := by
    refine List.map_congr_left (fun f hm => ?_)
    have := saved_filter_read_back_partial f (hf f hm) o [] [] (by simp [Blank]) (by simp [Blank])
    simpa using this
  rw [h]
  refine ⟨?_, fun m hm id f => Saved.get_exact fs m hm id f⟩
  rw [Saved.open_succeeds_iff]
  constructor
  · rintro ⟨xs, he, hn⟩
    have : xs = fs := (List.map_injective_iff.2 (Option.some_injective _) (Option.some.inj he)).symm
    rwa [this] at hn
  · intro hn; exact ⟨fs, rfl, hn⟩

/-- `n` combined filters inside one another around a filter for courses. -/
def chain : Nat → KVFilter
  | 0 => .course ['k'] ['v'] .incl
  | n + 1 => .combined .all [chain n]

theorem chain_nesting : ∀ n, nesting (chain n) = n
  | 0 => by rw [chain, nesting]; all_goals simp
  | n + 1 => by rw [chain, nesting, nestings, nestings, chain_nesting n]; simp

theorem chain_depth : ∀ n, 3 * n + 2 ≤ depth (encKV (chain n))
  | 0 => by have := kv_deep (chain 0); omega
  | n + 1 => by
    have ih := chain_depth n
    rw [chain, encKV, data_depth]
    have h := struct_depth_ge (names := combinedKeys) (vals := [encOp .all, .arr (encKVs [chain n])])
      (v := .arr (encKVs [chain n])) rfl (by simp)
    have h' : depth (encKV (chain n)) + 1 ≤ depth (.arr (encKVs [chain n])) := by
      rw [depth, encKVs, depthItems]; omega
    omega

/-- The saved filter around `chain n`. -/
def chainFilter (n : Nat) : SavedFilter := ⟨['f'], [], .metadata (chain n)⟩

/-- The limits of `saved_filter_read_back_partial` are exact: with 41 filters inside one another the file
is written but not read. -/
theorem chain_read_iff (n : Nat) (o : Option Nat) :
    readAs decSavedFilter (print o (encSavedFilter (chainFilter n))) =
      if n ≤ 40 then some (chainFilter n) else none := by
  split
  · rename_i hn
    have := saved_filter_read_back_partial (chainFilter n) (by
      show nesting (chain n) ≤ 40
      rw [chain_nesting]; exact hn) o [] [] (by simp [Blank]) (by simp [Blank])
    simpa using this
  · rename_i hn
    unfold readAs
    have hp : Proper (encSavedFilter (chainFilter n)) :=
      (codes_savedFilter n (chainFilter n) (by
        show nesting (chain n) ≤ n
        rw [chain_nesting])).2.1
    have hd : 128 ≤ depth (encSavedFilter (chainFilter n)) := by
      have h1 := chain_depth n
      have h2 := struct_depth_ge (names := keys ["filter"]) (vals := [encKV (chain n)]) (v := encKV (chain n)) rfl
        (by simp)
      have h3 := data_depth "MetadataFilter" (encStruct (keys ["filter"]) [encKV (chain n)])
      have h4 := struct_depth_ge (names := savedFilterKeys)
        (vals := [encStr ['f'], encStr [], encUnitFilter (.metadata (chain n))])
        (v := encUnitFilter (.metadata (chain n))) rfl (by simp)
      have h5 : encSavedFilter (chainFilter n) =
        encStruct savedFilterKeys [encStr ['f'], encStr [], encUnitFilter (.metadata (chain n))] := rfl
      have h6 : encUnitFilter (.metadata (chain n)) =
        encData "MetadataFilter" (encStruct (keys ["filter"]) [encKV (chain n)]) := rfl
      rw [h5]
      rw [h6] at h4 ⊢
      omega
    have := parse_deep _ o [] [] hp hd (by simp [Blank]) (by simp [Blank])
    simp only [List.nil_append, List.append_nil] at this
    rw [this]
    rfl

/-- One such file in the directory, and no saved filter can be used: the directory is not opened. -/
theorem deep_filter_blocks_opening (before after : List (Option SavedFilter)) (o : Option Nat) :
    Saved.openManager
      (some (before ++ readAs decSavedFilter (print o (encSavedFilter (chainFilter 41))) :: after)) = none := by
  rw [chain_read_iff, if_neg (by omega)]
  cases h : Saved.openManager (some (before ++ none :: after)) with
  | none => rfl
  | some m =>
    exfalso
    have := (Saved.open_succeeds_iff (some (before ++ none :: after))).mp (by rw [h]; rfl)
    obtain ⟨xs, he, _⟩ := this
    have hm : (none : Option SavedFilter) ∈ xs.map some := by
      rw [← Option.some.inj he]; simp
    simp at hm

/-- A music piece of `n + 1` passages inside one another. -/
def tower : Nat → Passage
  | 0 => .mk [] [] []
  | n + 1 => .mk [] [] [(0, tower n)]

theorem tower_levels : ∀ n, levels (tower n) = n + 1
  | 0 => by rw [tower, levels, levelsSubs]
  | n + 1 => by rw [tower, levels, levelsSubs, levelsSub, levelsSubs, tower_levels n]; simp

theorem tower_fits : ∀ n, PassageFits (tower n)
  | 0 => by rw [tower, PassageFits, SubsFit]; simp
  | n + 1 => by
    rw [tower, PassageFits, SubsFit, SubFits, SubsFit]
    exact ⟨by simp, ⟨by decide, tower_fits n⟩, trivial⟩

/-- The course around `tower n`. -/
def towerCourse (n : Nat) : CourseManifest F :=
  { id := ['c'], generator := some (.musicPiece (.localFile []) (tower n)) }

/-- The limit of `course_manifest_read_back_partial` is exact. -/
theorem tower_read_iff (fl : Floats F) (n : Nat) (o : Option Nat) :
    readAs (decCourse fl) (print o (encCourse fl (towerCourse n))) =
      if n + 1 ≤ 62 then some (towerCourse n) else none := by
  have hfit : ∀ k, n + 1 ≤ k → CourseFits fl k (towerCourse n) := fun k hk =>
    ⟨by simp [WeightsFit, towerCourse], by simp [MetadataFits, towerCourse], by
      intro g hg
      simp only [towerCourse, Option.mem_def, Option.some.injEq] at hg
      subst hg
      exact ⟨tower_fits n, by rw [tower_levels]; exact hk⟩⟩
  split
  · rename_i hn
    have := course_manifest_read_back_partial fl (towerCourse n) (hfit 62 hn) o [] [] (by simp [Blank])
      (by simp [Blank])
    simpa using this
  · rename_i hn
    unfold readAs
    have hp : Proper (encCourse fl (towerCourse n)) :=
      (codes_course fl (n + 1) (towerCourse n) (hfit _ (le_refl _))).2.1
    have hd : 128 ≤ depth (encCourse fl (towerCourse n)) := by
      have h1 := passage_deep (tower n)
      rw [tower_levels] at h1
      have h2 := struct_depth_ge (names := keys ["music_asset", "passages"])
        (vals := [encMusicAsset (.localFile []), encPassage (tower n)]) (v := encPassage (tower n)) rfl (by simp)
      have h3 := data_depth "MusicPiece" (encStruct (keys ["music_asset", "passages"])
        [encMusicAsset (.localFile []), encPassage (tower n)])
      have h4 : depth (encGenerator (.musicPiece (.localFile []) (tower n))) + 1 ≤
          depth (encCourse fl (towerCourse n)) :=
        struct_depth_ge (names := courseKeys) (v := encGenerator (.musicPiece (.localFile []) (tower n))) rfl
          (by simp [towerCourse, encOpt])
      have h5 : encGenerator (.musicPiece (.localFile []) (tower n)) =
        encData "MusicPiece" (encStruct (keys ["music_asset", "passages"])
        [encMusicAsset (.localFile []), encPassage (tower n)]) := rfl
      rw [h5] at h4
      omega
    have := parse_deep _ o [] [] hp hd (by simp [Blank]) (by simp [Blank])
    simp only [List.nil_append, List.append_nil] at this
    rw [this]
    rfl

/-! ### Non-trivial cases -/

/-- A way to write and read numbers, for the examples: whole numbers. -/
def wholeFloats : Floats Nat where
  text n := some (Nat.toDigits 10 n)
  read t := some (Nat.ofDigitChars 10 t 0)
  text_num x t h := by cases h; exact toDigits_isNum x
  read_text x t h := by
    cases h
    rw [Nat.ofDigitChars_toDigits (by omega) (by omega)]

example : ∃ m : CourseManifest Nat, CourseFits wholeFloats 62 m ∧ m.encompassed ≠ [] ∧ m.metadata ≠ none ∧
    m.generator ≠ none :=
  ⟨{ id := ['c'], encompassed := [(['d'], 1)], metadata := some [(['k'], [['v']]), (['l'], [])],
     generator := some (.musicPiece (.localFile []) (tower 3)) },
    ⟨by intro w _; rfl, by intro m hm; simp at hm; subst hm; decide, by
      intro g hg; simp at hg; subst hg
      exact ⟨tower_fits 3, by rw [tower_levels]; omega⟩⟩, by simp, by simp, by simp⟩

example : UnitFits 40 (.metadata (chain 40)) := by
  show nesting (chain 40) ≤ 40
  rw [chain_nesting]

example : ∀ p ∈ [SessionPart.unitFilter (.metadata (chain 39)) 10, .noFilter 20, .savedFilter ['f'] 5],
    PartFits 39 p := by
  intro p hp
  simp only [List.mem_cons, List.not_mem_nil, or_false] at hp
  rcases hp with rfl | rfl | rfl
  · exact ⟨by show nesting (chain 39) ≤ 39; rw [chain_nesting], by decide⟩
  · show 20 < u32Size; decide
  · show 5 < u32Size; decide

end Trane.Json
