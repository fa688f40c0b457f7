import Verif.Gen.TranscriptionLib
import Verif.Gen.Files
import Mathlib.Tactic.IntervalCases

/-!
# C70: passages and course metadata of transcription courses
-/

namespace Trane.Gen.Transcription
open Trane.Store Trane.Library Trane.Gen Trane.Filters

variable {α γ : Type}

/-! ### Specification -/

/-- The file name has the extension `json`, in upper or lower case, after a non-empty stem. -/
def JsonName (name : Str) : Prop :=
  ∃ stem j s o n, stem ≠ [] ∧ name = stem ++ ['.', j, s, o, n] ∧
    j ∈ ['j', 'J'] ∧ s ∈ ['s', 'S'] ∧ o ∈ ['o', 'O'] ∧ n ∈ ['n', 'N']

/-- `Reads es ps`: the passages found in a directory with the entries `es`: those of its JSON files, in
order.  There is no such list if an entry, a name or a JSON file cannot be read. -/
inductive Reads : List Entry → List Passages → Prop
  | nil : Reads [] []
  | skip {es : List Entry} {ps : List Passages} : Reads es ps → Reads (.notFile :: es) ps
  | other {es : List Entry} {ps : List Passages} {n : Str} {c : Option Passages} :
      ¬ JsonName n → Reads es ps → Reads (.file (some n) c :: es) ps
  | json {es : List Entry} {ps : List Passages} {n : Str} {p : Passages} :
      JsonName n → Reads es ps → Reads (.file (some n) (some p) :: es) (p :: ps)

/-! ### Lemmas -/

theorem lower_iff (c d u : Char) (hu : 65 ≤ u.toNat ∧ u.toNat ≤ 90) (hd : ¬ (65 ≤ d.toNat ∧ d.toNat ≤ 90))
    (h : Char.ofNat (u.toNat + 32) = d) : asciiLower c = d ↔ c ∈ [d, u] := by
  have inj : ∀ n m : Nat, 65 ≤ n → n ≤ 90 → 65 ≤ m → m ≤ 90 → Char.ofNat (n + 32) = Char.ofNat (m + 32) →
      n = m := by
    intro n m h1 h2 h3 h4 he
    have val : ∀ k, 65 ≤ k → k ≤ 90 → (Char.ofNat (k + 32)).toNat = k + 32 := by
      intro k hk1 hk2
      interval_cases k <;> rfl
    have := congrArg Char.toNat he
    rw [val n h1 h2, val m h3 h4] at this
    omega
  unfold asciiLower
  have ea : 'A'.toNat = 65 := rfl
  have ez : 'Z'.toNat = 90 := rfl
  rw [ea, ez]
  simp only [List.mem_cons, List.not_mem_nil, or_false]
  by_cases hc : 65 ≤ c.toNat ∧ c.toNat ≤ 90
  · rw [if_pos hc]
    constructor
    · intro he
      right
      rw [← h] at he
      have := inj _ _ hc.1 hc.2 hu.1 hu.2 he
      rw [← Char.ofNat_toNat c, this, Char.ofNat_toNat]
    · rintro (rfl | rfl)
      · exact (hd hc).elim
      · exact h
  · rw [if_neg hc]
    constructor
    · intro he; exact Or.inl he
    · rintro (rfl | rfl)
      · rfl
      · exact (hc hu).elim

theorem extension_some {n e : Str} (h : extension n = some e) :
    ∃ stem, stem ≠ [] ∧ n = stem ++ '.' :: e := by
  unfold extension at h
  simp only at h
  split at h
  · cases h
  · rename_i x before hd
    have hx : x = '.' := by
      have hw : n.reverse.dropWhile (· ≠ '.') ≠ [] := by rw [hd]; simp
      have := List.head_dropWhile_not (fun c => decide (c ≠ '.')) hw
      simp only [hd, List.head_cons] at this
      simpa using this
    split at h
    · cases h
    · split at h
      · cases h
      · rename_i hb _
        cases h
        refine ⟨before.reverse, by simpa using hb, ?_⟩
        have := List.takeWhile_append_dropWhile (p := fun c => decide (c ≠ '.')) (l := n.reverse)
        rw [hd, hx] at this
        have := congrArg List.reverse this
        rw [List.reverse_reverse] at this
        rw [List.reverse_append, List.reverse_cons, List.append_assoc] at this
        exact this.symm

theorem extension_of {stem e : Str} (hs : stem ≠ []) (he : e ≠ []) (hp : '.' ∉ e) :
    extension (stem ++ '.' :: e) = some e := by
  unfold extension
  have hr : (stem ++ '.' :: e).reverse = e.reverse ++ '.' :: stem.reverse := by simp
  have hall : ∀ a ∈ e.reverse, (decide (a ≠ '.')) = true := by
    intro a ha
    rw [List.mem_reverse] at ha
    simp only [ne_eq, decide_not, Bool.not_eq_true', decide_eq_false_iff_not]
    rintro rfl
    exact hp ha
  simp only [hr]
  rw [List.takeWhile_append_of_pos hall, List.dropWhile_append_of_pos hall]
  have hne : stem ++ '.' :: e ≠ ['.', '.'] := by
    intro h
    have := congrArg List.length h
    have h1 : 0 < stem.length := List.length_pos_iff.2 hs
    have h2 : 0 < e.length := List.length_pos_iff.2 he
    simp at this
    omega
  simp [hs, hne]

theorem isJson_iff (n : Str) : isJson n = true ↔ JsonName n := by
  have lj : ∀ c, asciiLower c = 'j' ↔ c ∈ ['j', 'J'] := fun c => lower_iff c _ _ (by decide) (by decide) (by decide)
  have ls : ∀ c, asciiLower c = 's' ↔ c ∈ ['s', 'S'] := fun c => lower_iff c _ _ (by decide) (by decide) (by decide)
  have lo : ∀ c, asciiLower c = 'o' ↔ c ∈ ['o', 'O'] := fun c => lower_iff c _ _ (by decide) (by decide) (by decide)
  have ln : ∀ c, asciiLower c = 'n' ↔ c ∈ ['n', 'N'] := fun c => lower_iff c _ _ (by decide) (by decide) (by decide)
  have js : "json".toList = ['j', 's', 'o', 'n'] := by decide
  unfold isJson
  constructor
  · intro h
    split at h
    · rename_i e he
      obtain ⟨stem, hs, rfl⟩ := extension_some he
      rw [js, decide_eq_true_eq] at h
      have hl : e.length = 4 := by simpa using congrArg List.length h
      match e, hl with
      | [a, b, c, d], _ =>
        simp only [List.map_cons, List.map_nil, List.cons.injEq, and_true] at h
        exact ⟨stem, a, b, c, d, hs, rfl, (lj a).1 h.1, (ls b).1 h.2.1, (lo c).1 h.2.2.1, (ln d).1 h.2.2.2⟩
    · cases h
  · rintro ⟨stem, a, b, c, d, hs, rfl, ha, hb, hc, hd⟩
    have hx : extension (stem ++ ['.', a, b, c, d]) = some [a, b, c, d] := by
      refine extension_of hs (by simp) ?_
      intro hm
      simp only [List.mem_cons, List.not_mem_nil, or_false] at hm
      rcases hm with rfl | rfl | rfl | rfl
      · revert ha; decide
      · revert hb; decide
      · revert hc; decide
      · revert hd; decide
    rw [hx, js]
    simp [(lj a).2 ha, (ls b).2 hb, (lo c).2 hc, (ln d).2 hd]

theorem readEntries_iff (es : List Entry) : ∀ (s t : List Str × List Passages),
    es.foldlM readEntry s = some t ↔ ∃ ps, Reads es ps ∧ (ps.map (·.asset.shortId)).Nodup ∧
      (∀ p ∈ ps, p.asset.shortId ∉ s.1) ∧
      t = ((ps.map (·.asset.shortId)).reverse ++ s.1, s.2 ++ ps) := by
  induction es with
  | nil =>
    intro s t
    constructor
    · intro h
      cases h
      exact ⟨[], .nil, by simp, by simp, by simp⟩
    · rintro ⟨ps, hr, _, _, rfl⟩
      cases hr
      simp
  | cons e es ih =>
    intro s t
    rw [List.foldlM_cons, Option.bind_eq_bind, Option.bind_eq_some_iff]
    constructor
    · rintro ⟨u, hu, ht⟩
      obtain ⟨ps, hr, hn, hd, rfl⟩ := (ih u t).1 ht
      match e, hu with
      | .notFile, hu => cases hu; exact ⟨ps, .skip hr, hn, hd, rfl⟩
      | .file (some n) content, hu =>
        simp only [readEntry] at hu
        by_cases hj : isJson n = true
        · rw [if_neg (by simp [hj]), Option.bind_eq_bind, Option.bind_eq_some_iff] at hu
          obtain ⟨p, rfl, hu⟩ := hu
          split at hu
          · cases hu
          · rename_i hp
            cases hu
            refine ⟨p :: ps, .json ((isJson_iff n).1 hj) hr, ?_, ?_, by simp⟩
            · rw [List.map_cons, List.nodup_cons]
              refine ⟨?_, hn⟩
              intro hm
              obtain ⟨q, hq, e⟩ := List.mem_map.1 hm
              exact hd q hq (by rw [e]; simp)
            · intro q hq
              rcases List.mem_cons.1 hq with rfl | hq
              · exact hp
              · exact fun hm => hd q hq (by simp [hm])
        · rw [if_pos (by simpa using hj)] at hu
          cases hu
          exact ⟨ps, .other (fun h => hj ((isJson_iff n).2 h)) hr, hn, hd, rfl⟩
    · rintro ⟨ps, hr, hn, hd, rfl⟩
      cases hr with
      | skip hr => exact ⟨s, rfl, (ih s _).2 ⟨ps, hr, hn, hd, rfl⟩⟩
      | @other _ _ n c hj hr =>
        refine ⟨s, ?_, (ih s _).2 ⟨ps, hr, hn, hd, rfl⟩⟩
        have : isJson n = false := by
          rw [← Bool.not_eq_true]; exact fun h => hj ((isJson_iff n).1 h)
        simp [readEntry, this]
      | @json _ ps n p hj hr =>
        rw [List.map_cons, List.nodup_cons] at hn
        refine ⟨(p.asset.shortId :: s.1, s.2 ++ [p]), ?_, (ih _ _).2 ⟨ps, hr, hn.2, ?_, by simp⟩⟩
        · simp [readEntry, (isJson_iff n).2 hj, hd p (by simp)]
        · intro q hq hm
          rcases List.mem_cons.1 hm with hm | hm
          · exact hn.1 (List.mem_map.2 ⟨q, hq, hm⟩)
          · exact hd q (by simp [hq]) hm

/-! ### Properties -/

section
variable (readDir : Str → Option (List Entry)) (cfg : Config)

/-- **C70, the passages of the directory.**  Without a directory there are none; otherwise they are
those of all its JSON files, in order, and reading fails if the directory, an entry or a JSON file
cannot be read or if two of them have the same short id. -/
theorem openDirectory_iff (ps : List Passages) : openDirectory readDir cfg = some ps ↔
    (cfg.passageDir = [] ∧ ps = []) ∨
    (cfg.passageDir ≠ [] ∧ ∃ es, readDir cfg.passageDir = some es ∧ Reads es ps ∧
      (ps.map (·.asset.shortId)).Nodup) := by
  unfold openDirectory
  by_cases h : cfg.passageDir = []
  · rw [if_pos (by simp [h])]
    simp [h, eq_comm]
  · rw [if_neg (by simpa using h)]
    simp only [h, false_and, false_or, ne_eq, not_false_iff, true_and, Option.bind_eq_bind,
      Option.bind_eq_some_iff]
    constructor
    · rintro ⟨es, he, s, hs, hp⟩
      obtain ⟨qs, hr, hn, _, rfl⟩ := (readEntries_iff es _ _).1 hs
      simp only [List.nil_append, Option.some.injEq] at hp
      subst hp
      exact ⟨es, he, hr, hn⟩
    · rintro ⟨es, he, hr, hn⟩
      exact ⟨es, he, _, (readEntries_iff es ([], []) _).2 ⟨ps, hr, hn, by simp, rfl⟩, by simp⟩

variable (lessonRest : Kind → α) (asset : Kind → Passages → Str → Str → α) (intro : α)
  (asConfig : γ → Option Config) (is : List Instrument) (c : CourseM α γ)

/-- **C70, when the course can be generated**: exactly when its directory can be read. -/
theorem generate_succeeds_iff :
    (∃ g, generate lessonRest asset intro asConfig readDir cfg is c = some g) ↔
      ∃ found, openDirectory readDir cfg = some found := by
  unfold generate
  simp only [Option.bind_eq_bind, Option.bind_eq_some_iff]
  constructor
  · rintro ⟨g, found, hf, _⟩; exact ⟨found, hf⟩
  · rintro ⟨found, hf⟩; exact ⟨_, found, hf, rfl⟩

theorem fold_push (key : Str) (f : Passages → Option Str) (ps : List Passages) :
    ∀ m : Metadata, (∀ k, k ≠ key → (ps.foldl (fun m p => pushTo key m (f p)) m).find k = m.find k) ∧
      (ps.foldl (fun m p => pushTo key m (f p)) m).find key =
        (if ps.filterMap f = [] then m.find key else some ((m.find key).getD [] ++ ps.filterMap f)) := by
  induction ps with
  | nil => intro m; simp
  | cons p ps ih =>
    intro m
    rw [List.foldl_cons]
    obtain ⟨h1, h2⟩ := ih (pushTo key m (f p))
    cases hf : f p with
    | none =>
      rw [hf] at h1 h2
      rw [List.filterMap_cons_none hf]
      exact ⟨h1, h2⟩
    | some v =>
      rw [hf] at h1 h2
      rw [List.filterMap_cons_some hf]
      constructor
      · intro k hk
        rw [h1 k hk]
        simp only [pushTo, AMap.upd]
        rw [AMap.find_put_ne _ _ (Ne.symm hk)]
      · rw [h2]
        simp only [pushTo, AMap.upd, AMap.find_put_self, Option.getD_some]
        split
        · rename_i hn; simp [hn]
        · simp

/-- **C70, the metadata.**  The generated course metadata marks the course as a transcription course,
adds the artists and albums of all its passages, in order, to those the manifest lists, and keeps every
other entry. -/
theorem metadata_exact (g : Generated α) (hg : generate lessonRest asset intro asConfig readDir cfg is c = some g) :
    ∃ found m, openDirectory readDir cfg = some found ∧ g.metadata = some m ∧
      let ps := found ++ cfg.inlined
      let old : Metadata := c.metadata.getD []
      m.find "transcription_course".toList = some ["true".toList] ∧
      m.find "transcription_artist".toList =
        (if ps.filterMap (·.asset.artist) = [] then old.find "transcription_artist".toList
         else some ((old.find "transcription_artist".toList).getD [] ++ ps.filterMap (·.asset.artist))) ∧
      m.find "transcription_album".toList =
        (if ps.filterMap (·.asset.album) = [] then old.find "transcription_album".toList
         else some ((old.find "transcription_album".toList).getD [] ++ ps.filterMap (·.asset.album))) ∧
      ∀ k, k ≠ "transcription_course".toList → k ≠ "transcription_artist".toList →
        k ≠ "transcription_album".toList → m.find k = old.find k := by
  unfold generate at hg
  rw [Option.bind_eq_bind, Option.bind_eq_some_iff] at hg
  obtain ⟨found, hf, hg⟩ := hg
  cases hg
  refine ⟨found, _, hf, rfl, ?_⟩
  intro ps old
  have n1 : courseKey ≠ artistKey := by decide
  have n2 : courseKey ≠ albumKey := by decide
  have n3 : artistKey ≠ albumKey := by decide
  obtain ⟨a1, a2⟩ := fold_push artistKey (·.asset.artist) ps (old.put courseKey ["true".toList])
  obtain ⟨b1, b2⟩ := fold_push albumKey (·.asset.album) ps
    (ps.foldl (fun m p => pushTo artistKey m p.asset.artist) (old.put courseKey ["true".toList]))
  refine ⟨?_, ?_, ?_, ?_⟩
  · exact (b1 courseKey n2).trans ((a1 courseKey n1).trans (AMap.find_put_self _ _ _))
  · refine (b1 artistKey n3).trans ?_
    rw [a2, AMap.find_put_ne _ _ n1]
    rfl
  · refine b2.trans ?_
    rw [a1 albumKey n3.symm, AMap.find_put_ne _ _ n2]
    rfl
  · intro k h1 h2 h3
    exact (b1 k h3).trans ((a1 k h2).trans (AMap.find_put_ne _ _ (Ne.symm h1)))

/-- **C70, instructions** are added only to courses without any. -/
theorem instructions_exact (g : Generated α)
    (hg : generate lessonRest asset intro asConfig readDir cfg is c = some g) :
    g.instructions = if c.instructions = none then some intro else none := by
  unfold generate at hg
  rw [Option.bind_eq_bind, Option.bind_eq_some_iff] at hg
  obtain ⟨found, hf, hg⟩ := hg
  cases hg
  cases c.instructions <;> simp

end

/-! ### A concrete directory -/

def sampleDir : Str → Option (List Entry)
  | ['p'] => some [.notFile, .file (some "readme.md".toList) none,
      .file (some "one.json".toList) (some ⟨{ shortId := ['a'], trackName := [], artist := some ['x'] }, []⟩),
      .file (some "two.JSON".toList) (some ⟨{ shortId := ['b'], trackName := [], artist := some ['y'] },
        [(3, (['0'], ['9']))]⟩),
      .file (some ".json".toList) none]
  | ['q'] => some [.file (some "one.json".toList) none]
  | ['d'] => some [.file (some "1.json".toList) (some ⟨{ shortId := ['a'], trackName := [] }, []⟩),
      .file (some "2.json".toList) (some ⟨{ shortId := ['a'], trackName := [] }, []⟩)]
  | _ => none

example : ((openDirectory sampleDir { passageDir := ['p'] }).map (·.map (·.asset.shortId))) =
    some [['a'], ['b']] := by decide +kernel
example : openDirectory sampleDir { passageDir := ['q'] } = none := by decide +kernel
example : openDirectory sampleDir { passageDir := ['d'] } = none := by decide +kernel
example : openDirectory sampleDir { passageDir := ['z'] } = none := by decide +kernel
example : openDirectory sampleDir {} = some [] := by decide +kernel

/-- The hypotheses of the theorems hold for a course with this directory. -/
theorem sample_generates : ∃ g, generate (fun _ => ()) (fun _ _ _ _ => ()) () (fun x : Config => some x)
    sampleDir { passageDir := ['p'] } sampleInstruments
    ⟨['c'], [], [], [], some [("transcription_artist".toList, [['z']])], none, some { passageDir := ['p'] }, ()⟩ =
      some g ∧
    (g.metadata.bind (fun m => m.find "transcription_artist".toList)) = some [['z'], ['x'], ['y']] ∧
    g.lessons.map (fun x => x.2.map (·.id)) =
      [["c::singing::a".toList, "c::singing::b::3".toList],
       ["c::advanced_singing::a".toList, "c::advanced_singing::b::3".toList],
       ["c::transcription::guitar::a".toList, "c::transcription::guitar::b::3".toList],
       ["c::transcription::bass::a".toList, "c::transcription::bass::b::3".toList],
       ["c::advanced_transcription::guitar::a".toList, "c::advanced_transcription::guitar::b::3".toList],
       ["c::advanced_transcription::bass::a".toList, "c::advanced_transcription::bass::b::3".toList]] := by
  refine ⟨_, rfl, by decide +kernel, by decide +kernel⟩

end Trane.Gen.Transcription
