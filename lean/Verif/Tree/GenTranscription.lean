import Verif.Tree.GenFiles
import Verif.Gen.TranscriptionFiles
import Verif.Gen.MusicProps

/-!
# C91: transcription and music courses are what the texts say
-/

namespace Trane.Tree
open Trane.Store (Str)
open Trane.Library
open Trane.Assets (join isAbsolute ExerciseAsset)
open Trane.Json (readAs Generator MusicAsset UserPreferences decPassages)
open Trane.Gen
open Trane.Gen.Transcription (Passages Config Instrument Kind)

variable {F : Type}

/-! ### Specification -/

/-- The directory `q` is the passage directory `pd` of the course in the directory `p`. -/
def PassageDir (t : Tree) (p : Path) (pd : Str) (q : Path) : Prop :=
  Leads t (if isAbsolute pd then [] else p) (split pd) q

/-- The passages of a course: those written in its manifest, and those of the JSON files of its passage
directory. -/
def PassageOf (t : Tree) (p : Path) (cfg : Config) (x : Passages) : Prop :=
  x ∈ cfg.inlined ∨ (cfg.passageDir ≠ [] ∧ ∃ q n, PassageDir t p cfg.passageDir q ∧ Transcription.JsonName n ∧
    JsonText t (q ++ [n]) decPassages x)

/-- A text has the given line. -/
def HasLine (content line : Str) : Prop := ∃ a b, content = a ++ "\n".toList ++ line ++ "\n".toList ++ b

/-- The text of an exercise tells which part of which track to transcribe, and with which instrument. -/
structure Tells (content : Str) (x : Passages) (k : Kind) (s t : Str) : Prop where
  track : HasLine content ("    - Track name: ".toList ++ x.asset.trackName)
  artist : ∀ a, x.asset.artist = some a → HasLine content ("    - Artist name: ".toList ++ a)
  album : ∀ a, x.asset.album = some a → HasLine content ("    - Album name: ".toList ++ a)
  duration : ∀ a, x.asset.duration = some a → HasLine content ("    - Track duration: ".toList ++ a)
  link : ∀ a, x.asset.link = some a → HasLine content ("    - External link: ".toList ++ a)
  interval : HasLine content ("    - Passage interval: ".toList ++ s ++ " - ".toList ++ t)
  instrument : ∀ i, (k = .transcription i ∨ k = .advancedTranscription i) →
    HasLine content ("Transcribe the passage using the instrument: ".toList ++ i.name ++ ".".toList)

/-- The title of a lesson. -/
def titleOf (course : Str) : Kind → Str
  | .singing => course ++ " - Singing".toList
  | .advancedSinging => course ++ " - Advanced Singing".toList
  | .transcription i => course ++ " - Transcription - ".toList ++ i.name
  | .advancedTranscription i => course ++ " - Advanced Transcription - ".toList ++ i.name

/-- The exercise for the part of a passage from `s` to `t`. -/
def PassageExercise (c : CourseM Rest Generator) (x : Passages) (k : Kind) (s t : Str) (e : ExerciseM Rest) : Prop :=
  e.lessonId = Transcription.idOf c.id k ∧ e.courseId = c.id ∧
  ∃ content, e.rest = .exercise (titleOf c.rest.name k) none false (.transcription content x.asset.link) ∧
    Tells content x k s t

/-- The lesson of kind `k` of a transcription course: one exercise for every interval of every passage, and one for
a passage without intervals. -/
structure TranscriptionUnit (M : Machine F) (p : Path) (cfg : Config) (c : CourseM Rest Generator) (k : Kind)
    (u : LessonM Rest × List (ExerciseM Rest)) : Prop where
  id : u.1.id = Transcription.idOf c.id k
  course : u.1.courseId = c.id
  deps : u.1.deps = Transcription.depsOf cfg c.id k
  enc : u.1.enc = []
  sup : u.1.sup = Transcription.supOf c.id k
  title : ∃ descr instr, u.1.rest = .lesson (titleOf c.rest.name k) descr none instr
  silent : cfg.skipSinging = true → k.Sung → u.2 = []
  sound : ∀ e ∈ u.2, ∃ x, PassageOf M.tree p cfg x ∧
    ((x.intervals = [] ∧ e.id = tagged (Transcription.idOf c.id k) [x.asset.shortId] ∧
      PassageExercise c x k "Start of passage".toList "End of passage".toList e) ∨
    ∃ n s t, (n, (s, t)) ∈ x.intervals ∧ e.id = tagged (Transcription.idOf c.id k) [x.asset.shortId, dec n] ∧
      PassageExercise c x k s t e)
  whole : ¬ (cfg.skipSinging = true ∧ k.Sung) → ∀ x, PassageOf M.tree p cfg x → x.intervals = [] →
    ∃ e ∈ u.2, e.id = tagged (Transcription.idOf c.id k) [x.asset.shortId] ∧
      PassageExercise c x k "Start of passage".toList "End of passage".toList e
  parts : ¬ (cfg.skipSinging = true ∧ k.Sung) → ∀ x, PassageOf M.tree p cfg x → ∀ n s t, (n, (s, t)) ∈ x.intervals →
    ∃ e ∈ u.2, e.id = tagged (Transcription.idOf c.id k) [x.asset.shortId, dec n] ∧ PassageExercise c x k s t e

/-- The text of an exercise tells which part of the piece to play, and where the music is. -/
def TellsMusic (a : MusicAsset) (s t : Str) (x : ExerciseAsset) : Prop :=
  ∃ content, HasLine content ("- Passage start: ".toList ++ s) ∧ HasLine content ("- Passage end: ".toList ++ t) ∧
    ((∃ url, a = .soundSlice url ∧ x = .soundSlice url (some content) none) ∨
     (∃ path, a = .localFile path ∧ x = .basic (.inlined content) ∧
       ∃ b d, content = b ++ path ++ d))

/-- The lesson for the passage at a path in the piece: named like the course, after the lessons for its parts,
with one exercise. -/
def MusicUnit (c : CourseM Rest Generator) (a : MusicAsset) (path : List Nat) (q : Music.Passage)
    (u : LessonM Rest × List (ExerciseM Rest)) : Prop :=
  u.1 = { id := Music.idAt c.id path, courseId := c.id,
          deps := q.subs.map (fun s => Music.idAt c.id (path ++ [s.1])),
          enc := [], sup := [], metadata := none, rest := .lesson c.rest.name none none none } ∧
  ∃ x, u.2 = [{ id := Music.idAt c.id path ++ "::exercise".toList, lessonId := Music.idAt c.id path,
                courseId := c.id, rest := .exercise c.rest.name none false x }] ∧
    TellsMusic a q.start q.stop x

/-! ### Lemmas -/

/-- The lines of a text made of lines. -/
theorem six_lines (d w1 v1 w2 v2 w3 v3 w4 v4 w5 v5 w6 v6 z : Str) (content : Str)
    (h : content = d ++ ("\n".toList ++ w1) ++ v1 ++ ("\n".toList ++ w2) ++ v2 ++ ("\n".toList ++ w3) ++ v3 ++ ("\n".toList ++ w4) ++ v4 ++ ("\n".toList ++ w5) ++ v5 ++ ("\n".toList ++ w6) ++ v6 ++ "\n".toList ++ z) :
    HasLine content (w1 ++ v1) ∧ HasLine content (w2 ++ v2) ∧ HasLine content (w3 ++ v3) ∧ HasLine content (w4 ++ v4) ∧ HasLine content (w5 ++ v5) ∧ HasLine content (w6 ++ v6) := by
  unfold HasLine
  generalize "\n".toList = n at *
  subst h
  refine ⟨?_, ?_, ?_, ?_, ?_, ?_⟩
  · exact ⟨d, w2 ++ v2 ++ (n ++ w3) ++ v3 ++ (n ++ w4) ++ v4 ++ (n ++ w5) ++ v5 ++ (n ++ w6) ++ v6 ++ n ++ z, by simp only [List.append_assoc]⟩
  · exact ⟨d ++ (n ++ w1) ++ v1, w3 ++ v3 ++ (n ++ w4) ++ v4 ++ (n ++ w5) ++ v5 ++ (n ++ w6) ++ v6 ++ n ++ z, by simp only [List.append_assoc]⟩
  · exact ⟨d ++ (n ++ w1) ++ v1 ++ (n ++ w2) ++ v2, w4 ++ v4 ++ (n ++ w5) ++ v5 ++ (n ++ w6) ++ v6 ++ n ++ z, by simp only [List.append_assoc]⟩
  · exact ⟨d ++ (n ++ w1) ++ v1 ++ (n ++ w2) ++ v2 ++ (n ++ w3) ++ v3, w5 ++ v5 ++ (n ++ w6) ++ v6 ++ n ++ z, by simp only [List.append_assoc]⟩
  · exact ⟨d ++ (n ++ w1) ++ v1 ++ (n ++ w2) ++ v2 ++ (n ++ w3) ++ v3 ++ (n ++ w4) ++ v4, w6 ++ v6 ++ n ++ z, by simp only [List.append_assoc]⟩
  · exact ⟨d ++ (n ++ w1) ++ v1 ++ (n ++ w2) ++ v2 ++ (n ++ w3) ++ v3 ++ (n ++ w4) ++ v4 ++ (n ++ w5) ++ v5, z, by simp only [List.append_assoc]⟩

theorem instrument_line (a w i dot : Str) :
    HasLine (a ++ ("\n".toList ++ w ++ i ++ (dot ++ "\n".toList))) (w ++ i ++ dot) :=
  ⟨a, [], by simp only [List.append_assoc, List.append_nil]⟩

theorem tells (k : Kind) (x : Passages) (s t : Str) :
    ∃ content, passageExercise k x s t = .transcription content x.asset.link ∧ Tells content x k s t := by
  have e1 : "\n    - Track name: ".toList = "\n".toList ++ "    - Track name: ".toList := by decide +kernel
  have e2 : "\n    - Artist name: ".toList = "\n".toList ++ "    - Artist name: ".toList := by decide +kernel
  have e3 : "\n    - Album name: ".toList = "\n".toList ++ "    - Album name: ".toList := by decide +kernel
  have e4 : "\n    - Track duration: ".toList = "\n".toList ++ "    - Track duration: ".toList := by decide +kernel
  have e5 : "\n    - External link: ".toList = "\n".toList ++ "    - External link: ".toList := by decide +kernel
  have e6 : "\n    - Passage interval: ".toList = "\n".toList ++ "    - Passage interval: ".toList := by decide +kernel
  have e7 : "\nTranscribe the passage using the instrument: ".toList =
    "\n".toList ++ "Transcribe the passage using the instrument: ".toList := by decide +kernel
  have e8 : ".\n".toList = ".".toList ++ "\n".toList := by decide +kernel
  refine ⟨passageText k x s t, rfl, ?_⟩
  generalize hz : instrumentText k = z
  have hc : passageText k x s t = kindDescription k ++ "\n\nThe passage to transcribe is the following:".toList ++
      ("\n".toList ++ "    - Track name: ".toList) ++ x.asset.trackName ++
      ("\n".toList ++ "    - Artist name: ".toList) ++ x.asset.artist.getD [] ++
      ("\n".toList ++ "    - Album name: ".toList) ++ x.asset.album.getD [] ++
      ("\n".toList ++ "    - Track duration: ".toList) ++ x.asset.duration.getD [] ++
      ("\n".toList ++ "    - External link: ".toList) ++ x.asset.link.getD [] ++
      ("\n".toList ++ "    - Passage interval: ".toList) ++ (s ++ " - ".toList ++ t) ++ "\n".toList ++ z := by
    unfold passageText
    rw [e1, e2, e3, e4, e5, e6, hz]
    generalize "    - Passage interval: ".toList = w
    generalize "\n".toList = n
    generalize " - ".toList = m
    simp only [List.append_assoc]
  obtain ⟨h1, h2, h3, h4, h5, h6⟩ := six_lines _ _ _ _ _ _ _ _ _ _ _ _ _ _ _ hc
  refine ⟨h1, ?_, ?_, ?_, ?_, ?_, ?_⟩
  · intro a ha; rw [ha] at h2; exact h2
  · intro a ha; rw [ha] at h3; exact h3
  · intro a ha; rw [ha] at h4; exact h4
  · intro a ha; rw [ha] at h5; exact h5
  · rw [List.append_assoc, List.append_assoc, ← List.append_assoc s]; exact h6
  · intro i hi
    have hk : kindInstrument k = some i := by rcases hi with rfl | rfl <;> rfl
    unfold instrumentText at hz
    rw [hk] at hz
    dsimp only at hz
    rw [e7, e8] at hz
    rw [← hz] at hc
    rw [hc]
    exact instrument_line _ _ _ _

theorem tells_music (a : MusicAsset) (s t : Str) : TellsMusic a s t (musicExercise a s t) := by
  have e1 : "\n- Passage start: ".toList = "\n".toList ++ "- Passage start: ".toList := by decide +kernel
  have e2 : "\n- Passage end: ".toList = "\n".toList ++ "- Passage end: ".toList := by decide +kernel
  have key : ∀ z, HasLine (musicInstructions ++ "\n- Passage start: ".toList ++ s ++ "\n- Passage end: ".toList ++ t ++
      "\n".toList ++ z) ("- Passage start: ".toList ++ s) ∧
      HasLine (musicInstructions ++ "\n- Passage start: ".toList ++ s ++ "\n- Passage end: ".toList ++ t ++
      "\n".toList ++ z) ("- Passage end: ".toList ++ t) := by
    intro z
    rw [e1, e2]
    unfold HasLine
    generalize "- Passage start: ".toList = w
    generalize "- Passage end: ".toList = w'
    generalize "\n".toList = n
    exact ⟨⟨musicInstructions, w' ++ t ++ n ++ z, by simp only [List.append_assoc]⟩,
      ⟨musicInstructions ++ (n ++ w) ++ s, z, by simp only [List.append_assoc]⟩⟩
  cases a with
  | soundSlice url =>
    have := key []
    rw [List.append_nil] at this
    exact ⟨_, this.1, this.2, .inl ⟨url, rfl, rfl⟩⟩
  | localFile path =>
    have := key ("\nThe file containing the music sheet is located at ".toList ++ path ++
      ". Relative paths are\nrelative to the working directory.\n".toList)
    rw [← List.append_assoc, ← List.append_assoc] at this
    exact ⟨_, this.1, this.2, .inr ⟨path, rfl, rfl, _, _, rfl⟩⟩

theorem title_eq (c : Str) (k : Kind) : kindTitle c k = titleOf c k := by cases k <;> rfl

section
variable {M : Machine F} {r dir : Path}

theorem place_below (hr : M.home = some r) (hd : ∃ k ∈ M.tree.keys, r ++ dir <+: k) (pd : Str) (hp : pd ≠ []) (q : Path) :
    M.place (join (M.dirText dir) pd) = some q ↔ PassageDir M.tree (r ++ dir) pd q := by
  obtain ⟨k, hk, hpre⟩ := hd
  unfold Machine.place PassageDir
  rw [leads_iff]
  have : (join (M.dirText dir) pd).isEmpty = false := by simp [join_ne (dirText_ne hr dir)]
  rw [this]
  simp only [Bool.false_eq_true, if_false]
  cases ha : isAbsolute pd with
  | true =>
    have : join (M.dirText dir) pd = pd := by unfold join; rw [ha]; rfl
    rw [this]
    unfold start
    rw [ha]
    rfl
  | false =>
    unfold resolve
    rw [follow_join (dirText_ne hr dir) ha, follow_dirText hr hk hpre]
    rfl

theorem reads_mem {es : List Transcription.Entry} {found : List Passages} (h : Transcription.Reads es found) (x : Passages) :
    x ∈ found ↔ ∃ n, Transcription.JsonName n ∧ .file (some n) (some x) ∈ es := by
  induction h with
  | nil => simp
  | skip _ ih => simp [ih]
  | other hn _ ih =>
    rw [ih]
    refine exists_congr fun m => and_congr_right fun hm => ?_
    rw [List.mem_cons]
    constructor
    · exact Or.inr
    · rintro (h | h)
      · cases h; exact absurd hm hn
      · exact h
  | json hn _ ih =>
    rw [List.mem_cons, ih]
    constructor
    · rintro (rfl | ⟨m, hm, h⟩)
      · exact ⟨_, hn, List.mem_cons_self⟩
      · exact ⟨m, hm, List.mem_cons_of_mem _ h⟩
    · rintro ⟨m, hm, h⟩
      rcases List.mem_cons.mp h with h | h
      · cases h; exact .inl rfl
      · exact .inr ⟨m, hm, h⟩

theorem reads_names (T : Tree) (q : Path) (ns : List Str) (ps : List Passages) :
    Transcription.Reads (ns.map fun n => match T.find (q ++ [n]) with
        | some t => .file (some n) (readAs Json.decPassages t)
        | none => .notFile) ps ↔
      (∀ n ∈ ns, Transcription.JsonName n → ∀ t, T.find (q ++ [n]) = some t → readAs Json.decPassages t ≠ none) ∧
      ps = ns.filterMap fun n => if Transcription.isJson n then (T.find (q ++ [n])).bind (readAs Json.decPassages) else none := by
  induction ns generalizing ps with
  | nil =>
    constructor
    · rintro ⟨⟩; exact ⟨by simp, rfl⟩
    · rintro ⟨_, rfl⟩; exact .nil
  | cons n ns ih =>
    rw [List.map_cons, List.filterMap_cons]
    cases ht : T.find (q ++ [n]) with
    | none =>
      dsimp only [Option.bind]
      have : (if Transcription.isJson n = true then (none : Option Passages) else none) = none := by split <;> rfl
      rw [this]
      dsimp only
      constructor
      · rintro ⟨⟩
        rename_i h
        obtain ⟨h1, h2⟩ := (ih ps).mp h
        refine ⟨?_, h2⟩
        intro m hm hj t h3
        rcases List.mem_cons.mp hm with rfl | hm
        · rw [ht] at h3; cases h3
        · exact h1 m hm hj t h3
      · rintro ⟨h1, h2⟩
        exact .skip ((ih ps).mpr ⟨fun m hm => h1 m (List.mem_cons_of_mem _ hm), h2⟩)
    | some t =>
      dsimp only [Option.bind]
      by_cases hj : Transcription.JsonName n
      · rw [if_pos ((Transcription.isJson_iff n).mpr hj)]
        cases hx : readAs Json.decPassages t with
        | none =>
          constructor
          · intro h
            cases h with
            | other h _ => exact absurd hj h
          · rintro ⟨h1, _⟩
            exact absurd hx (h1 n List.mem_cons_self hj t ht)
        | some x =>
          dsimp only
          constructor
          · intro h
            cases h with
            | other h _ => exact absurd hj h
            | json _ h =>
              obtain ⟨h1, h2⟩ := (ih _).mp h
              refine ⟨?_, congrArg (List.cons x) h2⟩
              intro m hm hj' t' h3
              rcases List.mem_cons.mp hm with rfl | hm
              · rw [ht] at h3; cases h3; rw [hx]; exact nofun
              · exact h1 m hm hj' t' h3
          · rintro ⟨h1, rfl⟩
            exact .json hj ((ih _).mpr ⟨fun m hm => h1 m (List.mem_cons_of_mem _ hm), rfl⟩)
      · rw [if_neg (fun h => hj ((Transcription.isJson_iff n).mp h))]
        dsimp only
        generalize readAs decPassages t = o
        constructor
        · intro h
          cases h with
          | json h _ => exact absurd h hj
          | other _ h =>
            obtain ⟨h1, h2⟩ := (ih _).mp h
            refine ⟨?_, h2⟩
            intro m hm hj' t' h3
            rcases List.mem_cons.mp hm with rfl | hm
            · exact absurd hj' hj
            · exact h1 m hm hj' t' h3
        · rintro ⟨h1, h2⟩
          exact .other hj ((ih _).mpr ⟨fun m hm => h1 m (List.mem_cons_of_mem _ hm), h2⟩)

theorem pairwise_or {α : Type} {R : α → α → Prop} {l : List α} (h : l.Pairwise R) {a b : α} (ha : a ∈ l) (hb : b ∈ l) :
    a = b ∨ R a b ∨ R b a := by
  induction h with
  | nil => cases ha
  | cons hx _ ih =>
    rcases List.mem_cons.mp ha with rfl | ha' <;> rcases List.mem_cons.mp hb with rfl | hb'
    · exact .inl rfl
    · exact .inr (.inl (hx _ hb'))
    · exact .inr (.inr (hx _ ha'))
    · exact ih ha' hb'

theorem nodup_filterMap {α β κ : Type} (f : α → Option β) (g : β → κ) {l : List α} (hl : l.Nodup) :
    ((l.filterMap f).map g).Nodup ↔
      ∀ a ∈ l, ∀ b ∈ l, ∀ x y, f a = some x → f b = some y → g x = g y → a = b := by
  rw [List.Nodup, List.pairwise_map, List.pairwise_filterMap]
  constructor
  · intro h a ha b hb x y hx hy hg
    rcases pairwise_or h ha hb with hab | hab | hab
    · exact hab
    · exact absurd hg (hab x hx y hy)
    · exact absurd hg.symm (hab y hy x hx)
  · intro h
    refine List.Pairwise.imp_of_mem ?_ hl
    intro a b ha hb hab x hx y hy hg
    exact hab (h a ha b hb x y hx hy hg)

theorem mem_passages (hr : M.home = some r) (hd : ∃ k ∈ M.tree.keys, r ++ dir <+: k) {cfg : Config}
    {found : List Passages} (h : Transcription.openDirectory (M.passageEntries dir) cfg = some found) (x : Passages) :
    x ∈ found ++ cfg.inlined ↔ PassageOf M.tree (r ++ dir) cfg x := by
  unfold PassageOf
  rw [List.mem_append, or_comm]
  refine or_congr Iff.rfl ?_
  rcases (Transcription.openDirectory_iff _ _ _).mp h with ⟨h1, rfl⟩ | ⟨h1, es, h2, h3, _⟩
  · simp [h1]
  · unfold Machine.passageEntries at h2
    rw [Option.bind_eq_some_iff] at h2
    obtain ⟨q, hq, h2⟩ := h2
    split at h2
    · cases h2
      have hmem := reads_mem h3
      rw [hmem]
      have hq' := (place_below hr hd _ h1 q).mp hq
      constructor
      · rintro ⟨n, hn, h⟩
        refine ⟨h1, q, n, hq', hn, ?_⟩
        obtain ⟨m, _, he⟩ := List.mem_map.mp h
        cases ht : M.tree.find (q ++ [m]) with
        | none => rw [ht] at he; cases he
        | some t =>
          rw [ht] at he
          dsimp only at he
          injection he with e1 e2
          cases e1
          rw [jsonText_iff, ht]
          exact e2
      · rintro ⟨_, q', n, hq2, hn, h⟩
        have : q' = q := by
          rw [← place_below hr hd _ h1, hq] at hq2
          exact (Option.some.inj hq2).symm
        subst this
        rw [jsonText_iff, Option.bind_eq_some_iff] at h
        obtain ⟨t, ht, he⟩ := h
        refine ⟨n, hn, List.mem_map.mpr ⟨n, mem_names.mpr (entry_of_find ht), ?_⟩⟩
        rw [ht]
        dsimp only
        rw [he]
    · cases h2

end

/-! ### Theorems -/

/-- **C91, transcription courses.**  The lessons are those documented for the passages in the texts and the
instruments of the preferences, and their exercises tell what to transcribe. -/
theorem transcription_from_texts (M : Machine F) (X : Outside) (prefs : UserPreferences) (cfg : Config)
    (r dir : Path) (hr : M.home = some r) (hd : ∃ n, Entry M.tree (r ++ dir) n)
    (c : CourseM Rest Generator) (hc : c.gen = some (.transcription cfg))
    (g : Generated Rest) (h : M.gen X prefs (.transcription cfg) dir c = some g) :
    (∀ u ∈ g.lessons, ∃ k, Transcription.Wanted cfg ((prefs.transcription.map (·.instruments)).getD []) k ∧
      TranscriptionUnit M (r ++ dir) cfg c k u) ∧
    (∀ k, Transcription.Wanted cfg ((prefs.transcription.map (·.instruments)).getD []) k →
      ∃ u ∈ g.lessons, TranscriptionUnit M (r ++ dir) cfg c k u) := by
  have hd' : ∃ k ∈ M.tree.keys, r ++ dir <+: k := by
    obtain ⟨n, k, hk, hp⟩ := hd
    exact ⟨k, hk, (List.prefix_append _ _).trans hp⟩
  have hcfg : c.gen.bind Machine.asTranscription = some cfg := by rw [hc]; rfl
  unfold Machine.gen at h
  dsimp only at h
  have key : ∀ found l es k, Transcription.openDirectory (M.passageEntries dir) cfg = some found →
      Transcription.IsLesson (fun k => Rest.lesson (kindTitle c.rest.name k) (some (kindDescription k)) none
        (some (.inlinedUnique (X.lessonInstructions k)))) cfg c.id k l →
      (∀ e, e ∈ es ↔ Transcription.IsExercise (fun k p s e => Rest.exercise (kindTitle c.rest.name k) none false
        (passageExercise k p s e)) cfg c.id (found ++ cfg.inlined) k e) →
      TranscriptionUnit M (r ++ dir) cfg c k (l, es) := by
    intro found l es k hf hl he
    have hmem := mem_passages hr hd' hf
    obtain ⟨l1, l2, l3, l4, l5, l6, _⟩ := hl
    have hex : ∀ (x : Passages) s t (e : ExerciseM Rest), e.lessonId = Transcription.idOf c.id k → e.courseId = c.id →
        e.rest = .exercise (kindTitle c.rest.name k) none false (passageExercise k x s t) →
        PassageExercise c x k s t e := by
      intro x s t e h1 h2 h3
      obtain ⟨content, h4, h5⟩ := tells k x s t
      refine ⟨h1, h2, content, ?_, h5⟩
      rw [h3, h4, title_eq]
    refine ⟨l1, l2, l3, l4, l5, ⟨_, _, l6.trans (by dsimp only; rw [title_eq])⟩, ?_, ?_, ?_, ?_⟩
    · intro hs hk
      rw [List.eq_nil_iff_forall_not_mem]
      intro e hm
      exact ((he e).mp hm).1 ⟨hs, hk⟩
    · intro e hm
      obtain ⟨_, h1, h2, x, hx, h3⟩ := (he e).mp hm
      refine ⟨x, (hmem x).mp hx, ?_⟩
      rcases h3 with ⟨h3, h4, h5⟩ | ⟨n, s, t, h3, h4, h5⟩
      · exact .inl ⟨h3, h4, hex x _ _ e h1 h2 h5⟩
      · exact .inr ⟨n, s, t, h3, h4, hex x _ _ e h1 h2 h5⟩
    · intro hs x hx hi
      refine ⟨⟨tagged (Transcription.idOf c.id k) [x.asset.shortId], Transcription.idOf c.id k, c.id, _⟩,
        (he _).mpr ⟨hs, rfl, rfl, x, (hmem x).mpr hx, .inl ⟨hi, rfl, rfl⟩⟩, rfl, hex _ _ _ _ rfl rfl rfl⟩
    · intro hs x hx n s t hi
      refine ⟨⟨tagged (Transcription.idOf c.id k) [x.asset.shortId, dec n], Transcription.idOf c.id k, c.id, _⟩,
        (he _).mpr ⟨hs, rfl, rfl, x, (hmem x).mpr hx, .inr ⟨n, s, t, hi, rfl, rfl⟩⟩, rfl, hex _ _ _ _ rfl rfl rfl⟩
  constructor
  · rintro ⟨l, es⟩ hu
    obtain ⟨found, hf, hs⟩ := Transcription.lessons_sound _ _ _ _ _ _ _ c g hcfg h
    obtain ⟨k, hk, hl, he⟩ := hs l es hu
    exact ⟨k, hk, key found l es k hf hl he⟩
  · intro k hk
    obtain ⟨found, l, es, hf, hu, hl, he⟩ := Transcription.lessons_complete _ _ _ _ _ _ _ c g hcfg h k hk
    exact ⟨_, hu, key found l es k hf hl he⟩

/-- **C91, when a transcription course can be read**: exactly when it has no passage directory, or that is a
directory in which every JSON file can be read and no two of them have the same short id. -/
theorem transcription_readable_iff (M : Machine F) (X : Outside) (prefs : UserPreferences) (cfg : Config)
    (r dir : Path) (hr : M.home = some r) (hd : ∃ n, Entry M.tree (r ++ dir) n) (c : CourseM Rest Generator) :
    (∃ g, M.gen X prefs (.transcription cfg) dir c = some g) ↔
      cfg.passageDir = [] ∨ ∃ q, PassageDir M.tree (r ++ dir) cfg.passageDir q ∧ isDir M.tree q = true ∧
        (∀ n text, Transcription.JsonName n → M.tree.find (q ++ [n]) = some text →
          ∃ x, JsonText M.tree (q ++ [n]) decPassages x) ∧
        ∀ n n' x x', Transcription.JsonName n → Transcription.JsonName n' → JsonText M.tree (q ++ [n]) decPassages x →
          JsonText M.tree (q ++ [n']) decPassages x' → x.asset.shortId = x'.asset.shortId → n = n' := by
  have hd' : ∃ k ∈ M.tree.keys, r ++ dir <+: k := by
    obtain ⟨n, k, hk, hp⟩ := hd
    exact ⟨k, hk, (List.prefix_append _ _).trans hp⟩
  have h0 : (∃ g, M.gen X prefs (.transcription cfg) dir c = some g) ↔ _ :=
    Transcription.generate_succeeds_iff _ _ _ _ _ _ _ c
  rw [h0]
  simp only [Transcription.openDirectory_iff]
  by_cases hp : cfg.passageDir = []
  · exact ⟨fun _ => .inl hp, fun _ => ⟨[], .inl ⟨hp, rfl⟩⟩⟩
  · have mem : ∀ {q : Path} {n : Str} {t}, M.tree.find (q ++ [n]) = some t → n ∈ M.names q :=
      fun h => mem_names.mpr (entry_of_find h)
    have val : ∀ {q : Path} {n : Str} {x},
        (if Transcription.isJson n then (M.tree.find (q ++ [n])).bind (readAs Json.decPassages) else none) = some x ↔
        Transcription.JsonName n ∧ JsonText M.tree (q ++ [n]) decPassages x := by
      intro q n x
      rw [jsonText_iff, ← Transcription.isJson_iff]
      split <;> simp [*]
    constructor
    · rintro ⟨ps, ⟨h, _⟩ | ⟨_, es, h1, h2, h3⟩⟩
      · exact absurd h hp
      refine .inr ?_
      unfold Machine.passageEntries at h1
      rw [Option.bind_eq_some_iff] at h1
      obtain ⟨q, hq, h1⟩ := h1
      split at h1
      case isFalse => cases h1
      rename_i hdir
      cases h1
      obtain ⟨h4, rfl⟩ := (reads_names _ _ _ _).mp h2
      rw [nodup_filterMap _ _ (nodup_names)] at h3
      refine ⟨q, (place_below hr hd' _ hp q).mp hq, hdir, ?_, ?_⟩
      · intro n t hn ht
        obtain ⟨x, hx⟩ := Option.ne_none_iff_exists'.mp (h4 n (mem ht) hn t ht)
        exact ⟨x, jsonText_iff.mpr (by rw [ht]; exact hx)⟩
      · intro n n' x x' hn hn' hx hx' he
        have e1 := hx; have e2 := hx'
        rw [jsonText_iff, Option.bind_eq_some_iff] at e1 e2
        obtain ⟨t, ht, _⟩ := e1
        obtain ⟨t', ht', _⟩ := e2
        exact h3 n (mem ht) n' (mem ht') x x' (val.mpr ⟨hn, hx⟩) (val.mpr ⟨hn', hx'⟩) he
    · rintro (h | ⟨q, h1, h2, h3, h4⟩)
      · exact absurd h hp
      refine ⟨_, .inr ⟨hp, _, ?_, (reads_names M.tree q (M.names q) _).mpr ⟨?_, rfl⟩, ?_⟩⟩
      · unfold Machine.passageEntries
        rw [(place_below hr hd' _ hp q).mpr h1, Option.bind_some, if_pos h2]
        rfl
      · intro n _ hn t ht hx
        obtain ⟨x, h⟩ := h3 n t hn ht
        rw [jsonText_iff, ht] at h
        exact absurd (h.symm.trans hx) nofun
      · rw [nodup_filterMap _ _ (nodup_names)]
        intro a _ b _ x y hx hy he
        obtain ⟨a1, a2⟩ := val.mp hx
        obtain ⟨b1, b2⟩ := val.mp hy
        exact h4 a b x y a1 b1 a2 b2 he

/-- **C91, music.**  There is a lesson for every passage of the piece, with one exercise that tells its start and
its end, and there are no other lessons. -/
theorem music_from_texts (M : Machine F) (X : Outside) (prefs : UserPreferences) (a : MusicAsset) (p : Music.Passage)
    (dir : Path) (c : CourseM Rest Generator) (g : Generated Rest)
    (h : M.gen X prefs (.musicPiece a p) dir c = some g) :
    (∀ u ∈ g.lessons, ∃ path q, Music.At p path q ∧ MusicUnit c a path q u) ∧
    (∀ path q, Music.At p path q → ∃ u ∈ g.lessons, MusicUnit c a path q u) := by
  cases h
  constructor
  · rintro ⟨l, es⟩ hu
    obtain ⟨path, q, h1, h2, h3⟩ := (Music.lessons_exact _ _ _ _ l es).mp hu
    exact ⟨path, q, h1, h2, _, h3, tells_music _ _ _⟩
  · intro path q h
    exact ⟨_, (Music.lessons_exact _ _ _ _ _ _).mpr ⟨path, q, h, rfl, rfl⟩, rfl, _, rfl, tells_music _ _ _⟩

end Trane.Tree
