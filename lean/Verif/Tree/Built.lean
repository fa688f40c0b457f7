import Verif.Tree.Props
import Verif.Library.BuilderOpen
import Verif.Library.BuilderAssets
import Verif.Json.Props

/-!
# Courses written by the builders, as texts (C74, C90)

The theorem `opens_as_built` is about manifests in files.  Here the files have texts: a builder writes what
`serde_json::to_string_pretty` makes of a manifest, and a line break.
-/

namespace Trane.Tree
open Trane.Store (Str)
open Trane.Library
open Trane.CourseBuilder
open Trane.Assets (isAbsolute join BasicAsset ExerciseAsset resolved)
open Trane.Json (Generator)

variable {F : Type}

/-! ### Specification -/

/-- The paths in an asset of a manifest. -/
def Rest.paths : Rest → List Str
  | .course _ _ _ material => material.elim [] BasicAsset.paths
  | .lesson _ _ material instructions => instructions.elim [] BasicAsset.paths ++ material.elim [] BasicAsset.paths
  | .exercise _ _ _ x => x.paths
  | .asset a => a.paths

/-- Other paths in the assets of a manifest. -/
def Rest.mapPaths (f : Str → Str) : Rest → Rest
  | .course n d a material => .course n d a (material.map (BasicAsset.mapPaths f))
  | .lesson n d material instructions =>
    .lesson n d (material.map (BasicAsset.mapPaths f)) (instructions.map (BasicAsset.mapPaths f))
  | .exercise n d k x => .exercise n d k (x.mapPaths f)
  | .asset a => .asset (a.mapPaths f)

/-- The paths in a course manifest. -/
def coursePaths (m : CourseM Rest Generator) : List Str := m.instructions.elim [] Rest.paths ++ m.rest.paths

/-- The relative paths, as their parts. -/
def relative (ss : List Str) : List Path := (ss.filter (fun s => !isAbsolute s)).map split

/-- A path in a manifest in the given directory of the library at `r`. -/
def placed (r dir : Path) (s : Str) : Str := if isAbsolute s then s else render (r ++ dir ++ split s)

/-- Which files manifests mention, and what they are served as, in a library at `r`. -/
def mentions (r : Path) : Mentions Rest Generator where
  course m := relative (coursePaths m)
  lesson m := relative m.rest.paths
  exercise m := relative m.rest.paths
  courseAt dir m := { m with
    instructions := m.instructions.map (Rest.mapPaths (placed r dir))
    rest := m.rest.mapPaths (placed r dir) }
  lessonAt dir m := { m with rest := m.rest.mapPaths (placed r dir) }
  exerciseAt dir m := { m with rest := m.rest.mapPaths (placed r dir) }

/-- A path whose parts are all names. -/
def Plain (s : Str) : Prop := isAbsolute s = true ∨ ∀ n ∈ split s, GoodName n

/-- The text that the builders write for a manifest. -/
inductive Text (M : Machine F) : Entry Rest Generator → Str → Prop
  | course (m : Json.CourseManifest F) : Json.CourseFits M.floats 62 m →
      (∀ s ∈ assetPaths m.instructions m.material, Plain s) →
      Text M (.course (courseM M.val m)) (Json.print (some 0) (Json.encCourse M.floats m) ++ ['\n'])
  | lesson (m : Json.LessonManifest F) : Json.LessonFits M.floats m →
      (∀ s ∈ assetPaths m.instructions m.material, Plain s) →
      Text M (.lesson (lessonM M.val m)) (Json.print (some 0) (Json.encLessonManifest M.floats m) ++ ['\n'])
  | exercise (m : Json.ExerciseManifest) : (∀ s ∈ m.asset.paths, Plain s) →
      Text M (.exercise (exerciseM m)) (Json.print (some 0) (Json.encExercise m) ++ ['\n'])
  | text (t : Str) : Text M (.text t) t

/-- The library on the machine has the given files. -/
structure Holds (M : Machine F) (r : Path) (fs : FS Rest Generator) : Prop where
  home : M.home = some r
  distinct : M.tree.keys.Nodup
  notRoot : fs.find [] = none
  nothing : ∀ p, fs.find p = none → M.tree.find (r ++ p) = none
  text : ∀ p e, fs.find p = some e → ∃ s, M.tree.find (r ++ p) = some s ∧ Text M e s

/-! ### Lemmas -/

theorem keeps_ids (r : Path) : KeepsIds (mentions r) :=
  ⟨fun _ _ => rfl, fun _ _ => ⟨rfl, rfl⟩, fun _ _ => ⟨rfl, rfl, rfl⟩⟩

section
variable {M : Machine F} {r : Path} {fs : FS Rest Generator}

theorem Holds.keys (h : Holds M r fs) (p : Path) : r ++ p ∈ M.tree.keys ↔ p ∈ fs.keys := by
  rw [AMap.mem_keys_iff, AMap.mem_keys_iff]
  constructor
  · rintro ⟨s, hs⟩
    cases hf : fs.find p with
    | none => rw [h.nothing p hf] at hs; cases hs
    | some e => exact ⟨e, rfl⟩
  · rintro ⟨e, he⟩
    obtain ⟨s, hs, _⟩ := h.text p e he
    exact ⟨s, hs⟩

theorem Holds.walk (h : Holds M r fs) (hn : fs.keys.Nodup) (dir : Path) :
    (M.disk.walk dir).Perm (fs.keys.filter (fun p => dir.isPrefixOf p)) := by
  have e : M.disk.walk dir =
      M.order ((M.tree.keys.filter (fun p => (r ++ dir).isPrefixOf p)).map (fun p => p.drop r.length)) := by
    show M.walk dir = _
    unfold Machine.walk
    rw [h.home]
  have hnd : ((M.tree.keys.filter (fun p => (r ++ dir).isPrefixOf p)).map (fun p => p.drop r.length)).Nodup := by
    refine List.Nodup.map_on ?_ (h.distinct.filter _)
    intro a ha b hb hab
    rw [List.mem_filter, List.isPrefixOf_iff_prefix] at ha hb
    obtain ⟨a', rfl⟩ := (List.prefix_append r dir).trans ha.2
    obtain ⟨b', rfl⟩ := (List.prefix_append r dir).trans hb.2
    rw [List.drop_left, List.drop_left] at hab
    rw [hab]
  rw [List.perm_ext_iff_of_nodup]
  · intro p
    rw [walk_iff, List.mem_filter, List.isPrefixOf_iff_prefix, ← h.keys]
    unfold HasFile
    rw [h.home]
    simp
  · rw [e]
    exact (M.perm _).nodup_iff.mpr hnd
  · exact hn.filter _

/-- A plain path leads to the file it names, if it is there. -/
theorem Holds.leads (h : Holds M r fs) {p : Path} (hp : p ∈ fs.keys) {dir ns : Path} (hd : dir <+: p) (hne : dir ≠ p)
    (hn : ∀ n ∈ ns, GoodName n) (q : Path) :
    Leads M.tree (r ++ dir) ns q ↔ q = r ++ dir ++ ns ∧ pathExists fs (dir ++ ns) = true := by
  have hkey := (h.keys p).mpr hp
  have hex : pathExists fs (dir ++ ns) = true ↔ exist M.tree (r ++ dir ++ ns) = true ∨ False := by
    rw [or_false, pathExists_iff, exist_iff]
    constructor
    · intro hx
      obtain ⟨k, hk, hpre⟩ := hx
      refine .inr ⟨r ++ k, (h.keys k).mpr hk, ?_⟩
      rw [List.append_assoc]
      exact (List.prefix_append_right_inj r).mpr hpre
    · rintro (he | ⟨k, hk, hpre⟩)
      · have hr : r = [] := by simp at he; exact he.1
        have hd0 : dir = [] := by simp at he; exact he.2.1
        have hn0 : ns = [] := by simp at he; exact he.2.2
        subst hr hd0 hn0
        exact ⟨p, hp, List.nil_prefix⟩
      · rw [List.append_assoc] at hpre
        obtain ⟨k', rfl⟩ := (List.prefix_append r _).trans hpre
        rw [h.keys] at hk
        exact ⟨k', hk, (List.prefix_append_right_inj r).mp hpre⟩
  rw [hex, or_false]
  have hdir : isDir M.tree (r ++ dir) = true :=
    isDir_of_prefix hkey ((List.prefix_append_right_inj r).mpr hd) (fun e => hne (List.append_cancel_left e).symm)
  constructor
  · intro hl
    have : ∀ (ns : List Str) (a : Path), (∀ n ∈ ns, GoodName n) → Leads M.tree a ns q → q = a ++ ns ∧ exist M.tree q = true := by
      intro ns
      induction ns with
      | nil => intro a _ hl; cases hl with | arrive he => exact ⟨by simp, he⟩
      | cons n ns ih =>
        intro a hn hl
        have g := hn n (by simp)
        cases hl with
        | stay _ h1 _ => rcases h1 with rfl | rfl <;> simp [GoodName] at g
        | up _ _ => simp [GoodName] at g
        | down _ _ _ _ hl =>
          obtain ⟨e1, e2⟩ := ih _ (fun m hm => hn m (List.mem_cons_of_mem _ hm)) hl
          exact ⟨by rw [e1, List.append_assoc]; rfl, e2⟩
    obtain ⟨e1, e2⟩ := this ns _ hn hl
    exact ⟨e1, e1 ▸ e2⟩
  · rintro ⟨rfl, he⟩
    rw [leads_iff]
    unfold resolve
    rw [follow_names hn]
    · show (if exist M.tree (r ++ dir ++ ns) = true then _ else _) = _
      rw [if_pos he]
    · intro q hq hqn
      by_cases h0 : q = []
      · rw [h0, List.append_nil]; exact hdir
      · rcases exist_iff.mp he with e | ⟨k, hk, hpre⟩
        · simp at e
          rw [e.2.2] at hq
          exact absurd (List.prefix_nil.mp hq) h0
        · refine isDir_of_prefix hk (((List.prefix_append_right_inj _).mpr hq).trans hpre) (fun e => hqn ?_)
          subst e
          have hl := hpre.length_le
          simp only [List.length_append] at hl
          exact hq.eq_of_length_le (by omega)

theorem Holds.served (h : Holds M r fs) {p : Path} (hp : p ∈ fs.keys) {s : Str} (hs : Plain s) (s' : Str) :
    ServedAs M.tree (r ++ p.dropLast) s s' ↔
      (isAbsolute s = false → pathExists fs (p.dropLast ++ split s) = true) ∧ s' = placed r p.dropLast s := by
  have hne : p ≠ [] := by
    rintro rfl
    obtain ⟨x, hx⟩ := (AMap.mem_keys_iff _ _).mp hp
    rw [h.notRoot] at hx
    cases hx
  have hdl : p.dropLast ≠ p := by
    intro e
    have := congrArg List.length e
    rw [List.length_dropLast] at this
    have : p.length ≠ 0 := by simpa using hne
    omega
  unfold ServedAs placed
  cases ha : isAbsolute s with
  | true => simp
  | false =>
    have hn : ∀ n ∈ split s, GoodName n := by
      rcases hs with e | e
      · rw [ha] at e; cases e
      · exact e
    simp only [h.leads hp (List.dropLast_prefix p) hdl hn, Bool.false_eq_true, false_and, false_or, true_and,
      if_false, forall_const]
    constructor
    · rintro ⟨q, ⟨rfl, he⟩, rfl⟩; exact ⟨he, rfl⟩
    · rintro ⟨he, rfl⟩; exact ⟨_, ⟨rfl, he⟩, rfl⟩

/-- All paths of a manifest are served, or it is not read. -/
theorem Holds.all (h : Holds M r fs) {p : Path} (hp : p ∈ fs.keys) {ss : List Str} (hs : ∀ s ∈ ss, Plain s) {α : Type}
    (g : (Str → Str) → α) (hg : ∀ f f', (∀ s ∈ ss, f s = f' s) → g f = g f') (x : α) :
    (∃ f, (∀ s ∈ ss, ServedAs M.tree (r ++ p.dropLast) s (f s)) ∧ x = g f) ↔
      (if (relative ss).all (fun q => pathExists fs (p.dropLast ++ q)) then some (g (placed r p.dropLast)) else none) =
        some x := by
  have hall : (relative ss).all (fun q => pathExists fs (p.dropLast ++ q)) = true ↔
      ∀ s ∈ ss, isAbsolute s = false → pathExists fs (p.dropLast ++ split s) = true := by
    unfold relative
    simp only [List.all_eq_true, List.mem_map, List.mem_filter, Bool.not_eq_true', forall_exists_index, and_imp]
    constructor
    · intro h s hs ha; exact h _ s hs ha rfl
    · rintro h _ s hs ha rfl; exact h s hs ha
  constructor
  · rintro ⟨f, hf, rfl⟩
    have h1 := fun s hm => (h.served hp (hs s hm) (f s)).mp (hf s hm)
    rw [if_pos (hall.mpr fun s hm => (h1 s hm).1)]
    exact congrArg some (hg _ _ fun s hm => (h1 s hm).2.symm)
  · intro hx
    split at hx
    · rename_i hc
      refine ⟨placed r p.dropLast, fun s hm => (h.served hp (hs s hm) _).mpr ⟨hall.mp hc s hm, rfl⟩, ?_⟩
      exact (Option.some.inj hx).symm
    · cases hx

theorem read_text {α : Type} {d : Json.Json → Option α} {p : Path} {s : Str} {x : α} (hr : M.home = some r)
    (hs : M.tree.find (r ++ p) = some s) (hx : Json.readAs d s = some x) (Q : Path → α → Prop) :
    (∃ r v m0, HasText M r p v ∧ d v = some m0 ∧ Q r m0) ↔ Q r x := by
  constructor
  · rintro ⟨r', v, m0, ⟨hr', s', hs', hv, hd⟩, hm, hq⟩
    rw [hr] at hr'
    obtain rfl := Option.some.inj hr'
    rw [hs] at hs'
    obtain rfl := Option.some.inj hs'
    have := (readAs_iff d s m0).mpr ⟨v, hv, hd, hm⟩
    rw [hx] at this
    rw [Option.some.inj this]
    exact hq
  · intro hq
    obtain ⟨v, hv, hd, hm⟩ := (readAs_iff d s x).mp hx
    exact ⟨r, v, x, ⟨hr, s, hs, hv, hd⟩, hm, hq⟩

/-- The library sees the manifests whose texts are in the files. -/
theorem Holds.shows (h : Holds M r fs) (hn : fs.keys.Nodup) : Shows (mentions r) fs M.disk where
  walk := h.walk hn
  course p m hm := by
    obtain ⟨s, hs, ht⟩ := h.text p _ hm
    have hp : p ∈ fs.keys := (AMap.mem_keys_iff _ _).mpr ⟨_, hm⟩
    cases ht with
    | course m0 hfit hpl =>
      have hread := Json.course_manifest_read_back_partial M.floats m0 hfit (some 0) [] ['\n'] (by simp [Json.Blank])
        (by simp [Json.Blank, Json.isSpace])
      rw [List.nil_append] at hread
      ext x
      rw [course_text_iff]
      unfold CourseText
      have hr := read_text h.home hs hread (fun r m0 => ∃ f, (∀ s ∈ assetPaths m0.instructions m0.material,
        ServedAs M.tree (r ++ p.dropLast) s (f s)) ∧ x = courseM M.val { m0 with
          instructions := m0.instructions.map (BasicAsset.mapPaths f)
          material := m0.material.map (BasicAsset.mapPaths f) })
      refine Iff.trans
        ⟨fun ⟨r, v, m0, f, a, b, c⟩ => ⟨r, v, m0, a, b, f, c⟩, fun ⟨r, v, m0, a, b, f, c⟩ => ⟨r, v, m0, f, a, b, c⟩⟩ (hr.trans ?_)
      rw [h.all hp hpl (fun f => courseM M.val { m0 with
          instructions := m0.instructions.map (BasicAsset.mapPaths f)
          material := m0.material.map (BasicAsset.mapPaths f) }) (fun f f' hff => by
        have h1 := option_mapPaths_congr (a := m0.instructions) fun x hx => hff x (List.mem_append_left _ hx)
        have h2 := option_mapPaths_congr (a := m0.material) fun x hx => hff x (List.mem_append_right _ hx)
        rw [h1, h2])]
      unfold CourseBuilder.readCourse
      rw [hm]
      have e2 : (mentions r).course (courseM M.val m0) = relative (assetPaths m0.instructions m0.material) := by
        show relative (coursePaths (courseM M.val m0)) = _
        unfold coursePaths courseM assetPaths
        cases m0.instructions <;> rfl
      have e3 : (mentions r).courseAt p.dropLast (courseM M.val m0) = courseM M.val { m0 with
          instructions := m0.instructions.map (BasicAsset.mapPaths (placed r p.dropLast))
          material := m0.material.map (BasicAsset.mapPaths (placed r p.dropLast)) } := by
        unfold mentions courseM
        cases m0.instructions <;> rfl
      dsimp only
      rw [e2, e3]
  lesson p m hm := by
    obtain ⟨s, hs, ht⟩ := h.text p _ hm
    have hp : p ∈ fs.keys := (AMap.mem_keys_iff _ _).mpr ⟨_, hm⟩
    cases ht with
    | lesson m0 hfit hpl =>
      have hread := Json.lesson_manifest_read_back M.floats m0 hfit (some 0) [] ['\n'] (by simp [Json.Blank])
        (by simp [Json.Blank, Json.isSpace])
      rw [List.nil_append] at hread
      ext x
      rw [lesson_text_iff]
      unfold LessonText
      have hr := read_text h.home hs hread (fun r m0 => ∃ f, (∀ s ∈ assetPaths m0.instructions m0.material,
        ServedAs M.tree (r ++ p.dropLast) s (f s)) ∧ x = lessonM M.val { m0 with
          instructions := m0.instructions.map (BasicAsset.mapPaths f)
          material := m0.material.map (BasicAsset.mapPaths f) })
      refine Iff.trans
        ⟨fun ⟨r, v, m0, f, a, b, c⟩ => ⟨r, v, m0, a, b, f, c⟩, fun ⟨r, v, m0, a, b, f, c⟩ => ⟨r, v, m0, f, a, b, c⟩⟩ (hr.trans ?_)
      rw [h.all hp hpl (fun f => lessonM M.val { m0 with
          instructions := m0.instructions.map (BasicAsset.mapPaths f)
          material := m0.material.map (BasicAsset.mapPaths f) }) (fun f f' hff => by
        have h1 := option_mapPaths_congr (a := m0.instructions) fun x hx => hff x (List.mem_append_left _ hx)
        have h2 := option_mapPaths_congr (a := m0.material) fun x hx => hff x (List.mem_append_right _ hx)
        rw [h1, h2])]
      unfold CourseBuilder.readLesson
      rw [hm]
      rfl
  exercise p m hm := by
    obtain ⟨s, hs, ht⟩ := h.text p _ hm
    have hp : p ∈ fs.keys := (AMap.mem_keys_iff _ _).mpr ⟨_, hm⟩
    cases ht with
    | exercise m0 hpl =>
      have hread := Json.exercise_manifest_read_back m0 (some 0) [] ['\n'] (by simp [Json.Blank])
        (by simp [Json.Blank, Json.isSpace])
      rw [List.nil_append] at hread
      ext x
      rw [exercise_text_iff]
      unfold ExerciseText
      have hr := read_text h.home hs hread (fun r m0 => ∃ f, (∀ s ∈ m0.asset.paths,
        ServedAs M.tree (r ++ p.dropLast) s (f s)) ∧ x = exerciseM { m0 with asset := m0.asset.mapPaths f })
      refine Iff.trans
        ⟨fun ⟨r, v, m0, f, a, b, c⟩ => ⟨r, v, m0, a, b, f, c⟩, fun ⟨r, v, m0, a, b, f, c⟩ => ⟨r, v, m0, f, a, b, c⟩⟩ (hr.trans ?_)
      rw [h.all hp hpl (fun f => exerciseM { m0 with asset := m0.asset.mapPaths f }) (fun f f' hff => by
        rw [ExerciseAsset.mapPaths_congr hff])]
      unfold CourseBuilder.readExercise
      rw [hm]
      rfl

end

/-! ### Theorem -/

/-- **C74 with texts.**  A course built in a new directory of the library at `r` is found and opened from the
texts the builders wrote: with the course manifest, the lessons and the exercises described, their relative
paths replaced by those of the files. -/
theorem texts_open_as_built {parent : Path} {c : CourseB Rest Generator} {fs fs' : FS Rest Generator}
    (hn : fs.keys.Nodup) (hfresh : ∀ p x, fs.find p = some x → ¬ c.root parent <+: p)
    (h : build fs parent c = (fs', true)) (ht : Tidy c) (hc : Consistent c) {M : Machine F} {r : Path}
    (hM : Holds M r fs') (hm : Complete (mentions r) fs' (c.root parent) c) {cm : CourseM Rest Generator}
    {gen : List (LessonM Rest × List (ExerciseM Rest))}
    (hg : CourseIn M.disk (c.root parent) cm gen ((mentions r).courseAt (c.root parent) c.manifest)) :
    HasFile M (c.root parent ++ [courseFile]) ∧
    CourseText M (c.root parent ++ [courseFile]) ((mentions r).courseAt (c.root parent) c.manifest) ∧
    ∃ found, processCourse M.disk (c.root parent) ((mentions r).courseAt (c.root parent) c.manifest) =
        some ⟨cm, gen ++ found⟩ ∧
      ∃ ls : List (LessonB Rest), ls.Perm c.lessons ∧
        List.Forall₂ (LessonAs (mentions r) (c.root parent)) ls found := by
  obtain ⟨h1, h2, h3⟩ := opens_as_built (keeps_ids r) hn hfresh h ht hc hm (hM.shows (run_nodup h hn)) hg
  exact ⟨((walk_iff _ _ _).mp h1).1, (course_text_iff _ _ _).mp h2, h3⟩

end Trane.Tree
