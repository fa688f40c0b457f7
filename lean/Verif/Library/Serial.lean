import Verif.Library.Sample
import Verif.Graph.MapsOk

/-!
# C48: a serialized library reopens to the same library

`SerializedCourseLibrary` (/repo/src/course_library.rs:74-88) holds the unit graph and plain copies of
the three manifest maps.  Serialization writes a hash map or hash set as the sequence of its entries in
iteration order, a `Vec` in order and a struct field by field; deserialization inserts the entries of a
sequence one by one.  No field of the graph or of the serialized library is skipped (they derive
`Serialize` and `Deserialize` without attributes).  Iteration orders are arbitrary and may differ at
every stage.  The text format itself (JSON, numbers, strings) is not modelled: entries are read back as
they were written.
-/

namespace Trane.Library
open Trane.Store Trane.Filters Trane.Graph

variable {α γ : Type}

/-! ### Model -/

/-- Inserting a sequence of entries into an empty map: `collect()` and serde's map visitor.
Used in /repo/src/course_library.rs:91-125 and 499-522. -/
def collect {κ ν : Type} [DecidableEq κ] (es : List (κ × ν)) : AMap κ ν :=
  es.foldl (fun m e => m.put e.1 e.2) []

/-- Writing a map out in some iteration order, passing every value through `R`, and collecting. -/
def Recoded {κ ν : Type} [DecidableEq κ] (R : ν → ν → Prop) (m m' : AMap κ ν) : Prop :=
  ∃ iter iter', iter.Perm m ∧ List.Forall₂ (fun e e' => e'.1 = e.1 ∧ R e.2 e'.2) iter iter' ∧
    m' = collect iter'

/-- The same for a set. -/
def RecodedSet {ι : Type} [DecidableEq ι] (s s' : List ι) : Prop :=
  ∃ iter, iter.Perm s ∧ s' = extendSet [] iter

/-- The derived `Serialize` and `Deserialize` of `InMemoryUnitGraph`, /repo/src/graph.rs:181-221. -/
structure GraphRecoded {ι : Type} [DecidableEq ι] (g g' : Graph ι) : Prop where
  types : Recoded (· = ·) g.types g'.types
  courseLessons : Recoded RecodedSet g.courseLessons g'.courseLessons
  startingLessons : Recoded RecodedSet g.startingLessons g'.startingLessons
  lessonCourse : Recoded (· = ·) g.lessonCourse g'.lessonCourse
  lessonExercises : Recoded RecodedSet g.lessonExercises g'.lessonExercises
  exerciseLesson : Recoded (· = ·) g.exerciseLesson g'.exerciseLesson
  deps : Recoded RecodedSet g.deps g'.deps
  dependents : Recoded RecodedSet g.dependents g'.dependents
  sinks : RecodedSet g.sinks g'.sinks
  enc : Recoded (· = ·) g.enc g'.enc
  encBy : Recoded (· = ·) g.encBy g'.encBy
  sup : Recoded RecodedSet g.sup g'.sup
  supBy : Recoded RecodedSet g.supBy g'.supBy

/-- `From<&LocalCourseLibrary> for SerializedCourseLibrary`, /repo/src/course_library.rs:91-116: the
graph is cloned, the maps are collected again. -/
structure ToSerialized (lib ser : Lib α γ) : Prop where
  graph : ser.graph = lib.graph
  courses : Recoded (· = ·) lib.courses ser.courses
  lessons : Recoded (· = ·) lib.lessons ser.lessons
  exercises : Recoded (· = ·) lib.exercises ser.exercises

/-- Writing a `SerializedCourseLibrary` out and reading it back. -/
structure Wire (ser ser' : Lib α γ) : Prop where
  graph : GraphRecoded ser.graph ser'.graph
  courses : Recoded (· = ·) ser.courses ser'.courses
  lessons : Recoded (· = ·) ser.lessons ser'.lessons
  exercises : Recoded (· = ·) ser.exercises ser'.exercises

/-- `new_from_serialized`, /repo/src/course_library.rs:499-522: the graph is moved, the maps are
collected again. -/
structure FromSerialized (ser lib : Lib α γ) : Prop where
  graph : lib.graph = ser.graph
  courses : Recoded (· = ·) ser.courses lib.courses
  lessons : Recoded (· = ·) ser.lessons lib.lessons
  exercises : Recoded (· = ·) ser.exercises lib.exercises

/-- `lib'` is obtained by serializing `lib`, writing, reading and reopening. -/
def Reopened (lib lib' : Lib α γ) : Prop :=
  ∃ ser ser', ToSerialized lib ser ∧ Wire ser ser' ∧ FromSerialized ser' lib'

/-! ### Lemmas -/

theorem collect_spec {κ ν : Type} [DecidableEq κ] (es : List (κ × ν)) :
    ∀ m : AMap κ ν, m.keys.Nodup → (∀ k ∈ es.map (·.1), k ∉ m.keys) → (es.map (·.1)).Nodup →
      (es.foldl (fun m e => m.put e.1 e.2) m).keys.Nodup ∧
      ∀ k v, (es.foldl (fun m e => m.put e.1 e.2) m).find k = some v ↔
        m.find k = some v ∨ (k, v) ∈ es := by
  induction es with
  | nil => intro m hm _ _; simp [hm]
  | cons e es ih =>
    intro m hm hd hn
    rw [List.map_cons, List.nodup_cons] at hn
    have hd' : ∀ k ∈ es.map (·.1), k ∉ (m.put e.1 e.2).keys := by
      intro k hk hc
      rw [AMap.mem_keys_put] at hc
      rcases hc with rfl | hc
      · exact hn.1 hk
      · exact hd k (by simp only [List.map_cons, List.mem_cons]; exact Or.inr hk) hc
    obtain ⟨a, b⟩ := ih (m.put e.1 e.2) (AMap.nodup_keys_put _ _ _ hm) hd' hn.2
    refine ⟨a, fun k v => ?_⟩
    rw [List.foldl_cons, b, List.mem_cons]
    have hne : ∀ v, m.find e.1 ≠ some v := fun v hc =>
      hd e.1 (by simp) ((AMap.mem_keys_iff _ _).2 ⟨v, hc⟩)
    by_cases hk : e.1 = k
    · subst hk
      rw [AMap.find_put_self]
      constructor
      · rintro (h | h)
        · cases h; exact Or.inr (Or.inl rfl)
        · exact Or.inr (Or.inr h)
      · rintro (h | h | h)
        · exact (hne v h).elim
        · left; rw [← h]
        · exact Or.inr h
    · rw [AMap.find_put_ne _ _ hk]
      constructor
      · rintro (h | h)
        · exact Or.inl h
        · exact Or.inr (Or.inr h)
      · rintro (h | h | h)
        · exact Or.inl h
        · exact (hk (by rw [← h])).elim
        · exact Or.inr h

theorem find_eq_none_iff {κ ν : Type} [DecidableEq κ] (m : AMap κ ν) (k : κ) :
    m.find k = none ↔ k ∉ m.keys := by
  rw [AMap.mem_keys_iff]
  cases m.find k <;> simp

/-- What recoding does to a map with unique keys. -/
theorem recoded_spec {κ ν : Type} [DecidableEq κ] {R : ν → ν → Prop} {m m' : AMap κ ν}
    (h : Recoded R m m') (hm : m.keys.Nodup) :
    m'.keys.Nodup ∧ m'.keys.Perm m.keys ∧ ∀ k, Option.Rel R (m.find k) (m'.find k) := by
  obtain ⟨iter, iter', hp, hf, rfl⟩ := h
  have hk : iter'.map (·.1) = iter.map (·.1) := by
    clear hp
    induction hf with
    | nil => rfl
    | cons h _ ih => rw [List.map_cons, List.map_cons, ih, h.1]
  have hn : (iter.map (·.1)).Nodup := (hp.map _).nodup_iff.2 hm
  obtain ⟨a, b⟩ := collect_spec iter' [] (by simp [AMap.keys]) (by simp [AMap.keys]) (by rw [hk]; exact hn)
  have hmem : ∀ k, k ∈ (collect iter').keys ↔ k ∈ m.keys := by
    intro k
    rw [AMap.mem_keys_iff]
    have : k ∈ m.keys ↔ k ∈ iter'.map (·.1) := by
      rw [hk]; exact ((hp.map _).mem_iff).symm
    rw [this, List.mem_map]
    constructor
    · rintro ⟨v, hv⟩
      rcases (b k v).1 hv with hv | hv
      · simp at hv
      · exact ⟨_, hv, rfl⟩
    · rintro ⟨⟨k', v⟩, hv, rfl⟩
      exact ⟨v, (b _ _).2 (Or.inr hv)⟩
  refine ⟨a, (List.perm_ext_iff_of_nodup a hm).2 hmem, fun k => ?_⟩
  cases hq : m.find k with
  | none =>
    have : AMap.find (collect iter') k = none := by
      rw [find_eq_none_iff, hmem, ← find_eq_none_iff]; exact hq
    rw [this]; exact Option.Rel.none
  | some v =>
    have h1 : (k, v) ∈ iter := hp.mem_iff.2 (AMap.mem_of_find hq)
    obtain ⟨e', h2, h3, h4⟩ : ∃ e' ∈ iter', e'.1 = k ∧ R v e'.2 := by
      clear hp hk hn a b hmem hq
      induction hf with
      | nil => simp at h1
      | cons h _ ih =>
        rcases List.mem_cons.1 h1 with h1 | h1
        · subst h1; exact ⟨_, by simp, h⟩
        · obtain ⟨e', x, y⟩ := ih h1; exact ⟨e', by simp [x], y⟩
    have : AMap.find (collect iter') k = some e'.2 := (b k _).2 (Or.inr (by rw [← h3]; exact h2))
    rw [this]; exact Option.Rel.some h4

theorem recoded_eq {κ ν : Type} [DecidableEq κ] {m m' : AMap κ ν}
    (h : Recoded (· = ·) m m') (hm : m.keys.Nodup) :
    m'.keys.Nodup ∧ m'.keys.Perm m.keys ∧ ∀ k, m'.find k = m.find k := by
  obtain ⟨a, b, c⟩ := recoded_spec h hm
  refine ⟨a, b, fun k => ?_⟩
  have := c k
  cases h1 : m.find k with
  | none => rw [h1] at this; cases h2 : m'.find k with
    | none => rfl
    | some v => rw [h2] at this; cases this
  | some v => rw [h1] at this; cases h2 : m'.find k with
    | none => rw [h2] at this; cases this
    | some v' => rw [h2] at this; cases this with | some h => rw [h]

theorem recodedSet_perm {ι : Type} [DecidableEq ι] {s s' : List ι} (h : RecodedSet s s')
    (hn : s.Nodup) : s.Perm s' := by
  obtain ⟨iter, hp, rfl⟩ := h
  refine hp.symm.trans ((List.perm_ext_iff_of_nodup (hp.nodup_iff.2 hn)
    (nodup_extendSet _ _ (by simp))).2 fun x => ?_)
  rw [mem_extendSet]; simp

theorem recoded_set {ι : Type} [DecidableEq ι] {m m' : AMap ι (List ι)}
    (h : Recoded RecodedSet m m') (hm : SetMapOk m) :
    ∀ k, Option.Rel List.Perm (m.find k) (m'.find k) := by
  intro k
  have := (recoded_spec h hm.1).2.2 k
  cases h1 : m.find k with
  | none => rw [h1] at this; cases h2 : m'.find k with
    | none => exact Option.Rel.none
    | some v => rw [h2] at this; cases this
  | some v => rw [h1] at this; cases h2 : m'.find k with
    | none => rw [h2] at this; cases this
    | some v' =>
      rw [h2] at this
      cases this with | some h => exact Option.Rel.some (recodedSet_perm h (hm.2 _ _ h1))

theorem recoded_isEmpty {κ ν : Type} [DecidableEq κ] {m m' : AMap κ ν}
    (h : Recoded (· = ·) m m') (hm : m.keys.Nodup) : m'.isEmpty = m.isEmpty := by
  obtain ⟨_, b, _⟩ := recoded_eq h hm
  have := b.length_eq
  unfold AMap.keys at this
  rw [List.length_map, List.length_map] at this
  cases m <;> cases m' <;> simp_all

/-! ### Properties -/

/-- Two graphs answer every query alike: the same types and parents, the same sets (in any order) and
the same encompassing entries. -/
structure SameAnswers {ι : Type} [DecidableEq ι] (g g' : Graph ι) : Prop where
  unitType : ∀ u, g'.getUnitType u = g.getUnitType u
  lessonCourse : ∀ u, g'.getLessonCourse u = g.getLessonCourse u
  exerciseLesson : ∀ u, g'.getExerciseLesson u = g.getExerciseLesson u
  courseLessons : ∀ u, Option.Rel List.Perm (g.getCourseLessons u) (g'.getCourseLessons u)
  startingLessons : ∀ u, Option.Rel List.Perm (g.getStartingLessons u) (g'.getStartingLessons u)
  lessonExercises : ∀ u, Option.Rel List.Perm (g.getLessonExercises u) (g'.getLessonExercises u)
  dependencies : ∀ u, Option.Rel List.Perm (g.getDependencies u) (g'.getDependencies u)
  dependents : ∀ u, Option.Rel List.Perm (g.getDependents u) (g'.getDependents u)
  sinks : g.getDependencySinks.Perm g'.getDependencySinks
  encompasses : ∀ u, Option.Rel List.Perm (g.getEncompasses u) (g'.getEncompasses u)
  encompassedBy : ∀ u, Option.Rel List.Perm (g.getEncompassedBy u) (g'.getEncompassedBy u)
  equalsDependency : g'.encompassingEqualsDependency = g.encompassingEqualsDependency
  supersedes : ∀ u, Option.Rel List.Perm (g.getSupersedes u) (g'.getSupersedes u)
  supersededBy : ∀ u, Option.Rel List.Perm (g.getSupersededBy u) (g'.getSupersededBy u)

theorem rel_map {β δ : Type} (f : β → δ) {a b : Option (List β)} (h : Option.Rel List.Perm a b) :
    Option.Rel List.Perm (a.map (List.map f)) (b.map (List.map f)) := by
  cases h with
  | some h => exact Option.Rel.some (h.map f)
  | none => exact Option.Rel.none

theorem rel_refl {β : Type} (a : Option (List β)) : Option.Rel List.Perm a a := by
  cases a with
  | some h => exact Option.Rel.some (List.Perm.refl _)
  | none => exact Option.Rel.none

/-- **C48, the graph.**  Every graph produced by any history of calls answers every query alike after
it was written out and read back. -/
theorem graph_reopens {ι : Type} [DecidableEq ι] (ops : List (Op ι)) (g' : Graph ι)
    (h : GraphRecoded (run ops) g') : SameAnswers (run ops) g' := by
  have ok := mapsOk_run ops
  have hd := recoded_set h.deps ok.deps
  have hb := recoded_set h.dependents ok.dependents
  have e1 := recoded_isEmpty h.enc ok.enc
  have e2 := recoded_isEmpty h.encBy ok.encBy
  refine ⟨(recoded_eq h.types ok.types).2.2, (recoded_eq h.lessonCourse ok.lessonCourse).2.2,
    (recoded_eq h.exerciseLesson ok.exerciseLesson).2.2, recoded_set h.courseLessons ok.courseLessons,
    recoded_set h.startingLessons ok.startingLessons, recoded_set h.lessonExercises ok.lessonExercises,
    hd, hb, recodedSet_perm h.sinks ok.sinks, fun u => ?_, fun u => ?_, ?_,
    recoded_set h.sup ok.sup, recoded_set h.supBy ok.supBy⟩
  · unfold getEncompasses
    rw [e1]
    split
    · exact rel_map _ (hd u)
    · rw [(recoded_eq h.enc ok.enc).2.2]; exact rel_refl _
  · unfold getEncompassedBy
    rw [e2]
    split
    · exact rel_map _ (hb u)
    · rw [(recoded_eq h.encBy ok.encBy).2.2]; exact rel_refl _
  · unfold encompassingEqualsDependency
    rw [e1, e2]

variable {d : Disk α γ} {ig : List FPath} {lib lib' : Lib α γ}

theorem loads_run (hg : GeneratesProper d) (h : Loads d ig lib) : ∃ ops, lib.graph = run ops := by
  obtain ⟨cs, s, flag, _, _, hi, rfl, _⟩ := loads_inv hg h
  exact ⟨_, rfl⟩

theorem reopened_maps (hg : GeneratesProper d) (h : Loads d ig lib) (hr : Reopened lib lib') :
    (lib'.courses.keys.Perm lib.courses.keys ∧ ∀ u, lib'.courses.find u = lib.courses.find u) ∧
    (lib'.lessons.keys.Perm lib.lessons.keys ∧ ∀ u, lib'.lessons.find u = lib.lessons.find u) ∧
    (lib'.exercises.keys.Perm lib.exercises.keys ∧
      ∀ u, lib'.exercises.find u = lib.exercises.find u) := by
  obtain ⟨_, k1, k2, k3⟩ := loads_wf hg h
  obtain ⟨s, s', a, b, c⟩ := hr
  have key : ∀ {ν : Type} {m0 m1 m2 m3 : AMap Str ν}, m0.keys.Nodup → Recoded (· = ·) m0 m1 →
      Recoded (· = ·) m1 m2 → Recoded (· = ·) m2 m3 →
      m3.keys.Perm m0.keys ∧ ∀ u, m3.find u = m0.find u := by
    intro ν m0 m1 m2 m3 hn h1 h2 h3
    obtain ⟨a1, a2, a3⟩ := recoded_eq h1 hn
    obtain ⟨b1, b2, b3⟩ := recoded_eq h2 a1
    obtain ⟨c1, c2, c3⟩ := recoded_eq h3 b1
    exact ⟨(c2.trans b2).trans a2, fun u => by rw [c3, b3, a3]⟩
  exact ⟨key k1 a.courses b.courses c.courses, key k2 a.lessons b.lessons c.lessons,
    key k3 a.exercises b.exercises c.exercises⟩

/-- **C48, manifests.** -/
theorem reopened_manifests (hg : GeneratesProper d) (h : Loads d ig lib) (hr : Reopened lib lib')
    (u : Str) :
    lib'.getCourseManifest u = lib.getCourseManifest u ∧
    lib'.getLessonManifest u = lib.getLessonManifest u ∧
    lib'.getExerciseManifest u = lib.getExerciseManifest u := by
  obtain ⟨a, b, c⟩ := reopened_maps hg h hr
  exact ⟨a.2 u, b.2 u, c.2 u⟩

/-- **C48, the graph of a library.** -/
theorem reopened_graph (hg : GeneratesProper d) (h : Loads d ig lib) (hr : Reopened lib lib') :
    SameAnswers lib.graph lib'.graph := by
  obtain ⟨ops, e⟩ := loads_run hg h
  obtain ⟨s, s', a, b, c⟩ := hr
  have := b.graph
  rw [a.graph, e] at this
  rw [e, c.graph]
  exact graph_reopens ops _ this

theorem sort_rel {a b : Option (List Str)} (h : Option.Rel List.Perm a b) :
    b.map sortIds = a.map sortIds := by
  cases h with
  | some h => simp only [Option.map_some]; rw [sortIds_congr h]
  | none => rfl

theorem perm_getD {β : Type} {a b : Option (List β)} (h : Option.Rel List.Perm a b) :
    (a.getD []).Perm (b.getD []) := by
  cases h with
  | some h => exact h
  | none => exact List.Perm.refl _

/-- **C48, the listings.**  The reopened library lists the same ids in the same order; the prefix
search returns the same set. -/
theorem reopened_listings (hg : GeneratesProper d) (h : Loads d ig lib) (hr : Reopened lib lib')
    (u : Str) (o : Option Str) (t : Option UnitType) :
    lib'.getCourseIds = lib.getCourseIds ∧ lib'.getLessonIds u = lib.getLessonIds u ∧
    lib'.getExerciseIds u = lib.getExerciseIds u ∧
    lib'.getAllExerciseIds o = lib.getAllExerciseIds o ∧
    (lib'.getMatchingPrefix u t).Perm (lib.getMatchingPrefix u t) := by
  obtain ⟨⟨a, _⟩, ⟨b, _⟩, c, _⟩ := reopened_maps hg h hr
  have hs := reopened_graph hg h hr
  refine ⟨sortIds_congr a, sort_rel (hs.courseLessons u), sort_rel (hs.lessonExercises u), ?_, ?_⟩
  · cases o with
    | none => exact sortIds_congr c
    | some v =>
      unfold Lib.getAllExerciseIds
      simp only [hs.unitType]
      cases lib.graph.getUnitType v with
      | none => rfl
      | some t =>
        cases t with
        | exercise => rfl
        | lesson => exact sortIds_congr (perm_getD (hs.lessonExercises v)).symm
        | course =>
          refine sortIds_congr (List.Perm.symm ?_)
          exact List.Perm.flatMap (perm_getD (hs.courseLessons v))
            (fun l _ => perm_getD (hs.lessonExercises l))
  · have key : ∀ {x y : List Str}, x.Perm y →
        (extendSet [] (x.filter (u.isPrefixOf ·))).Perm (extendSet [] (y.filter (u.isPrefixOf ·))) := by
      intro x y hp
      refine (List.perm_ext_iff_of_nodup (nodup_extendSet _ _ (by simp))
        (nodup_extendSet _ _ (by simp))).2 fun z => ?_
      simp only [mem_extendSet, List.mem_filter, hp.mem_iff]
    cases t with
    | none => exact key ((a.append b).append c)
    | some t =>
      cases t with
      | course => exact key a
      | lesson => exact key b
      | exercise => exact key c

/-- Every library can be written out and read back, in any order: for example in the order of the
model's lists. -/
theorem recoded_self {κ ν : Type} [DecidableEq κ] {R : ν → ν → Prop} (m : AMap κ ν)
    (f : ν → ν) (hf : ∀ v, R v (f v)) :
    Recoded R m (collect (m.reverse.map (fun e => (e.1, f e.2)))) :=
  ⟨m.reverse, m.reverse.map (fun e => (e.1, f e.2)), List.reverse_perm m, by
    rw [List.forall₂_map_right_iff]
    exact List.forall₂_same.2 (fun e _ => ⟨rfl, hf _⟩), rfl⟩

theorem recodedSet_self {ι : Type} [DecidableEq ι] (s : List ι) :
    RecodedSet s (extendSet [] s.reverse) := ⟨s.reverse, List.reverse_perm s, rfl⟩

/-- Every library can be reopened, for example writing every map and set in reverse order. -/
theorem can_reopen (l : Lib α γ) : ∃ lib', Reopened l lib' := by
  let r : ∀ {ν : Type}, AMap Str ν → AMap Str ν := fun m => collect (m.reverse.map (fun e => (e.1, id e.2)))
  let q : AMap Str (List Str) → AMap Str (List Str) := fun m =>
    collect (m.reverse.map (fun e => (e.1, (fun s : List Str => extendSet [] s.reverse) e.2)))
  have hr : ∀ {ν : Type} (m : AMap Str ν), Recoded (· = ·) m (r m) := fun m => recoded_self m id (fun _ => rfl)
  have hq : ∀ m : AMap Str (List Str), Recoded RecodedSet m (q m) := fun m =>
    recoded_self m _ (fun s => recodedSet_self s)
  let g := l.graph
  exact ⟨⟨⟨r g.types, q g.courseLessons, q g.startingLessons, r g.lessonCourse, q g.lessonExercises,
      r g.exerciseLesson, q g.deps, q g.dependents, extendSet [] g.sinks.reverse, r g.enc, r g.encBy,
      q g.sup, q g.supBy⟩, r (r (r l.courses)), r (r (r l.lessons)), r (r (r l.exercises))⟩,
    ⟨g, r l.courses, r l.lessons, r l.exercises⟩,
    ⟨_, r (r l.courses), r (r l.lessons), r (r l.exercises)⟩,
    ⟨rfl, hr _, hr _, hr _⟩,
    ⟨⟨hr _, hq _, hq _, hr _, hq _, hr _, hq _, hq _, recodedSet_self _, hr _, hr _, hq _, hq _⟩,
      hr _, hr _, hr _⟩,
    ⟨rfl, hr _, hr _, hr _⟩⟩

example : ∃ lib', Loads sampleDisk [] (sampleLib []) ∧ Reopened (sampleLib []) lib' :=
  (can_reopen _).imp fun _ h => ⟨sample_loads, h⟩

end Trane.Library
