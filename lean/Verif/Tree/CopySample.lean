import Verif.Tree.Copy

/-!
# C101 and C102: every library has copies, and what does not move along

For every machine and every empty directory there is a machine with the library in that directory that meets the
hypotheses of C101.  A path that leads out of the library and an absolute ignored path show why they are needed.
-/

namespace Trane.Tree
open Trane.Store (Str)
open Trane.Library
open Trane.Graph (idOrder)
open Trane.Assets (isAbsolute join)
open Trane.Json (Generator)

variable {F : Type}

theorem put_fresh {κ ν : Type} [DecidableEq κ] (m : AMap κ ν) (k : κ) (v : ν) (h : k ∉ m.keys) : m.put k v = m ++ [(k, v)] := by
  induction m with
  | nil => rfl
  | cons e m ih =>
    obtain ⟨a, b⟩ := e
    have ha : a ≠ k := fun e => h (by simp [AMap.keys, e])
    have hk : k ∉ AMap.keys m := fun hm => h (List.mem_cons_of_mem _ hm)
    unfold AMap.put
    rw [if_neg ha, ih hk]
    rfl

theorem copy_keys (src dst : Path) (hd : Apart src dst) (t : Tree) (ks : List Path)
    (hks : ∀ k ∈ ks, src <+: k ∧ k ∈ t.keys) (hn : ks.Nodup) : ∀ t' : Tree, SameBelow src t' t →
      (∀ k ∈ ks, dst ++ k.drop src.length ∉ t'.keys) →
      (ks.foldl (copyFile src dst) t').keys = t'.keys ++ ks.map (fun k => dst ++ k.drop src.length) := by
  induction ks with
  | nil => intro t' _ _; simp
  | cons k ks ih =>
    intro t' ht hf
    obtain ⟨⟨a, rfl⟩, hk⟩ := hks k (by simp)
    obtain ⟨c, hc⟩ := (AMap.mem_keys_iff _ _).mp hk
    have hc' : t'.find (src ++ a) = some c := (ht a).trans hc
    have hfr := hf (src ++ a) (by simp)
    have e : copyFile src dst t' (src ++ a) = t' ++ [(dst ++ (src ++ a).drop src.length, c)] := by
      unfold copyFile
      rw [hc']
      exact put_fresh _ _ _ hfr
    have ek : (copyFile src dst t' (src ++ a)).keys = t'.keys ++ [dst ++ (src ++ a).drop src.length] := by
      rw [e]; simp [AMap.keys]
    rw [List.foldl_cons, ih (fun k hk => hks k (List.mem_cons_of_mem _ hk)) (List.nodup_cons.mp hn).2]
    · rw [ek, List.map_cons, List.append_assoc]; rfl
    · intro q
      rw [copyFile_find, if_neg]
      · exact ht q
      · rintro ⟨-, e⟩
        exact apart_append hd e.symm
    · intro k' hk' hm
      rw [ek, List.mem_append, List.mem_singleton] at hm
      rcases hm with hm | hm
      · exact hf k' (List.mem_cons_of_mem _ hk') hm
      · obtain ⟨⟨b, rfl⟩, _⟩ := hks k' (List.mem_cons_of_mem _ hk')
        simp only [List.drop_left, List.append_cancel_left_eq] at hm
        subst hm
        exact (List.nodup_cons.mp hn).1 hk'

/-- The keys of the copy come after those that were there, in their order. -/
theorem copyLibrary_keys {src dst : Path} (hd : Apart src dst) {t : Tree} (hn : t.keys.Nodup)
    (hempty : ∀ k ∈ t.keys, ¬ dst <+: k) : (copyLibrary id src dst t).keys =
      t.keys ++ (t.keys.filter (fun k => src.isPrefixOf k)).map (fun k => dst ++ k.drop src.length) := by
  unfold copyLibrary
  refine copy_keys src dst hd t _ (fun k hk => ?_) (hn.filter _) t (fun _ => rfl) (fun k hk hm => ?_)
  · have hk' := List.mem_filter.mp hk
    exact ⟨List.isPrefixOf_iff_prefix.mp hk'.2, hk'.1⟩
  · exact hempty _ hm (List.prefix_append _ _)

/-- The machine with a copy of its library, opened there. -/
def copyMachine (M : Machine F) (src dst : Path) (hd : ∀ n ∈ dst, GoodName n) (ha : Apart src dst) (hn : M.tree.keys.Nodup)
    (he : ∀ k ∈ M.tree.keys, ¬ dst <+: k) : Machine F :=
  { M with
    tree := copyLibrary id src dst M.tree
    good := by
      intro p hp n hnp
      rw [copyLibrary_keys ha hn he, List.mem_append] at hp
      rcases hp with hp | hp
      · exact M.good p hp n hnp
      · obtain ⟨k, hk, rfl⟩ := List.mem_map.mp hp
        rcases List.mem_append.mp hnp with h | h
        · exact hd n h
        · exact M.good k (List.mem_filter.mp hk).1 n (List.mem_of_mem_drop h)
    workingDir := render dst
    libraryRoot := render dst }

theorem filter_copied {α : Type} {src dst p : Path} {t : Tree} (he : ∀ k ∈ t.keys, ¬ dst <+: k) (f : Path → α) :
    ((t.keys ++ (t.keys.filter (fun k => src.isPrefixOf k)).map (fun k => dst ++ k.drop src.length)).filter
      (fun k => (dst ++ p).isPrefixOf k)).map (fun k => f (k.drop dst.length)) =
    (t.keys.filter (fun k => (src ++ p).isPrefixOf k)).map (fun k => f (k.drop src.length)) := by
  have h0 : t.keys.filter (fun k => (dst ++ p).isPrefixOf k) = [] := by
    rw [List.filter_eq_nil_iff]
    intro k hk h
    exact he k hk ((List.prefix_append _ _).trans (List.isPrefixOf_iff_prefix.mp h))
  rw [List.filter_append, h0, List.nil_append, List.filter_map, List.map_map, List.filter_filter]
  have h1 : t.keys.filter (fun k => (((fun k => (dst ++ p).isPrefixOf k) ∘ fun k => dst ++ k.drop src.length) k &&
      src.isPrefixOf k)) = t.keys.filter (fun k => (src ++ p).isPrefixOf k) := by
    refine List.filter_congr (fun k _ => ?_)
    rw [Bool.eq_iff_iff, Bool.and_eq_true]
    simp only [Function.comp_apply, List.isPrefixOf_iff_prefix, List.prefix_append_right_inj]
    constructor
    · rintro ⟨h, a, rfl⟩
      rw [List.drop_left] at h
      exact (List.prefix_append_right_inj _).mpr h
    · rintro ⟨a, rfl⟩
      rw [List.append_assoc, List.drop_left]
      exact ⟨List.prefix_append _ _, List.prefix_append _ _⟩
  rw [h1]
  refine List.map_congr_left (fun k _ => ?_)
  simp

theorem childNames_eq (t : Tree) (d : Path) : childNames t d =
    (((t.keys.filter (fun k => d.isPrefixOf k)).map (fun k => (k.drop d.length).head?)).filterMap id).dedup := by
  unfold childNames
  congr 1
  generalize t.keys = ks
  induction ks with
  | nil => rfl
  | cons k ks ih =>
    rw [List.filterMap_cons, List.filter_cons]
    by_cases h : d.isPrefixOf k = true
    · rw [if_pos h, if_pos h, List.map_cons, List.filterMap_cons, ih]; rfl
    · rw [if_neg h, if_neg h, ih]

/-- **C101, the hypotheses can be met**: by every library with an absolute root and every empty directory outside it. -/
theorem copyMachine_moved (M : Machine F) {src dst : Path} (hd : ∀ n ∈ dst, GoodName n) (ha : Apart src dst)
    (hn : M.tree.keys.Nodup) (he : ∀ k ∈ M.tree.keys, ¬ dst <+: k) (hhome : M.home = some src)
    (habs : isAbsolute M.libraryRoot = true) (hdir : isDir M.tree src = true) :
    Moved M (copyMachine M src dst hd ha hn he) src dst := by
  have hkeys : (copyMachine M src dst hd ha hn he).tree.keys =
    M.tree.keys ++ (M.tree.keys.filter (fun k => src.isPrefixOf k)).map (fun k => dst ++ k.drop src.length) :=
    copyLibrary_keys ha hn he
  have hex : exist (copyMachine M src dst hd ha hn he).tree dst = true := by
    rw [exist_iff]
    rcases (isDir_iff.mp hdir) with e | ⟨n, k, hk, hp⟩
    · exact absurd (e ▸ List.nil_prefix) ha.1
    · refine .inr ⟨dst ++ k.drop src.length, ?_, List.prefix_append _ _⟩
      rw [hkeys]
      exact List.mem_append_right _ (List.mem_map_of_mem (List.mem_filter.mpr
        ⟨hk, List.isPrefixOf_iff_prefix.mpr ((List.prefix_append _ _).trans hp)⟩))
  have hroot : (copyMachine M src dst hd ha hn he).root = render dst := by
    show join (render dst) (render dst) = render dst
    unfold join
    rw [if_pos (render_absolute dst)]
  have hhome' : (copyMachine M src dst hd ha hn he).home = some dst := by
    unfold Machine.home Machine.place
    rw [hroot]
    obtain ⟨h1, h2⟩ := pathTo_render (copyMachine M src dst hd ha hn he) hex
    rw [if_neg (by simpa using h1)]
    exact leads_iff.mp h2
  refine copy_moves (M := M) (order := id) (fun _ => List.Perm.refl _) ha he rfl hhome hhome' habs
    (render_absolute dst) hdir ?_ ?_ rfl rfl
  · intro dir
    unfold Machine.walk
    rw [hhome, hhome']
    show M.order _ = M.order _
    congr 1
    rw [hkeys]
    exact filter_copied he id
  · intro p
    unfold Machine.names
    show List.map _ (M.order _) = List.map _ (M.order _)
    congr 2
    rw [childNames_eq, childNames_eq, hkeys, List.length_append, List.length_append]
    congr 3
    have := filter_copied (src := src) (p := p) (t := M.tree) he (fun k => (k.drop p.length).head?)
    simp only [List.drop_drop] at this
    exact this

/-! ### Sample -/

instance decidableStays : (p : Path) → (ns : List Str) → Decidable (Stays p ns)
  | _, [] => .isTrue trivial
  | p, n :: ns => by
    unfold Stays
    have := decidableStays p ns
    have := decidableStays p.dropLast ns
    have := decidableStays (p ++ [n]) ns
    infer_instance

/-- Looks at one file: the paths in it do not lead out of the library. -/
def staysFile (floats : Json.Floats F) (p : Path) (text : Str) : Bool :=
  let inside := fun s => isAbsolute s || decide (Stays p.dropLast (split s))
  (p.getLast? != some courseFile ||
    match Json.readAs (Json.decCourse floats) text with
    | none => true
    | some m => (assetPaths m.instructions m.material).all inside &&
      match m.generator with
      | some (.transcription cfg) => !isAbsolute cfg.passageDir && decide (Stays p.dropLast (split cfg.passageDir))
      | _ => true) &&
  (p.getLast? != some lessonFile ||
    match Json.readAs (Json.decLessonManifest floats) text with
    | none => true
    | some m => (assetPaths m.instructions m.material).all inside) &&
  (p.getLast? != some exerciseFile ||
    match Json.readAs Json.decExercise text with
    | none => true
    | some m => m.asset.paths.all inside)

theorem staysInside_of (M : Machine F) (r : Path) (hr : M.home = some r)
    (h : M.tree.all (fun e => !r.isPrefixOf e.1 || staysFile M.floats (e.1.drop r.length) e.2) = true) : StaysInside M := by
  have key : ∀ r0 p v, HasText M r0 p v → ∃ text, staysFile M.floats p text = true ∧ Json.Document v text ∧
      Json.depth v < 128 := by
    rintro r0 p v ⟨h0, text, ht, hv, hd⟩
    rw [hr] at h0
    cases h0
    refine ⟨text, ?_, hv, hd⟩
    have := List.all_eq_true.mp h (r ++ p, text) (AMap.mem_of_find ht)
    have hp : r.isPrefixOf (r ++ p) = true := List.isPrefixOf_iff_prefix.mpr (List.prefix_append _ _)
    simpa [hp] using this
  refine ⟨?_, ?_, ?_, ?_⟩
  · intro r0 p v m hv hp hm s hs ha
    obtain ⟨text, ht, hv, hd⟩ := key r0 p v hv
    have hm' := (readAs_iff (Json.decCourse M.floats) text m).mpr ⟨v, hv, hd, hm⟩
    unfold staysFile at ht
    simp only [hm', hp, Bool.and_eq_true, List.all_eq_true, Bool.or_eq_true, bne_self_eq_false, Bool.false_eq_true,
      false_or] at ht
    rcases ht.1.1.1 s hs with h | h
    · rw [h] at ha; cases ha
    · exact of_decide_eq_true h
  · intro r0 p v m cfg hv hp hm hg
    obtain ⟨text, ht, hv, hd⟩ := key r0 p v hv
    have hm' := (readAs_iff (Json.decCourse M.floats) text m).mpr ⟨v, hv, hd, hm⟩
    unfold staysFile at ht
    simp only [hm', hp, hg, Bool.and_eq_true, List.all_eq_true, Bool.or_eq_true, bne_self_eq_false, Bool.false_eq_true,
      false_or, Bool.not_eq_true', decide_eq_true_eq] at ht
    exact ht.1.1.2
  · intro r0 p v m hv hp hm s hs ha
    obtain ⟨text, ht, hv, hd⟩ := key r0 p v hv
    have hm' := (readAs_iff (Json.decLessonManifest M.floats) text m).mpr ⟨v, hv, hd, hm⟩
    unfold staysFile at ht
    simp only [hm', hp, Bool.and_eq_true, List.all_eq_true, Bool.or_eq_true, bne_self_eq_false, Bool.false_eq_true,
      false_or] at ht
    rcases ht.1.2 s hs with h | h
    · rw [h] at ha; cases ha
    · exact of_decide_eq_true h
  · intro r0 p v m hv hp hm s hs ha
    obtain ⟨text, ht, hv, hd⟩ := key r0 p v hv
    have hm' := (readAs_iff Json.decExercise text m).mpr ⟨v, hv, hd, hm⟩
    unfold staysFile at ht
    simp only [hm', hp, Bool.and_eq_true, List.all_eq_true, Bool.or_eq_true, bne_self_eq_false, Bool.false_eq_true,
      false_or] at ht
    rcases ht.2 s hs with h | h
    · rw [h] at ha; cases ha
    · exact of_decide_eq_true h

/-- The library `/l`, copied to `/home/l`. -/
def copied (M : Machine Unit) (hn : M.tree.keys.Nodup) (he : ∀ k ∈ M.tree.keys, ¬ ["home".toList, "l".toList] <+: k) :
    Machine Unit :=
  copyMachine M ["l".toList] ["home".toList, "l".toList] (by decide +kernel) (by unfold Apart; decide +kernel) hn he

theorem copied_moved (M : Machine Unit) (hn : M.tree.keys.Nodup)
    (he : ∀ k ∈ M.tree.keys, ¬ ["home".toList, "l".toList] <+: k) (hhome : M.home = some ["l".toList])
    (habs : isAbsolute M.libraryRoot = true) (hdir : isDir M.tree ["l".toList] = true) :
    Moved M (copied M hn he) ["l".toList] ["home".toList, "l".toList] :=
  copyMachine_moved M _ _ hn he hhome habs hdir

/-- The library of `sampleMachine`, in which a course has a file with `1/../m.md`. -/
def sampleCopy : Machine Unit := copied sampleMachine (by decide +kernel) (by decide +kernel)

theorem sample_moved : Moved sampleMachine sampleCopy ["l".toList] ["home".toList, "l".toList] :=
  copied_moved _ _ _ (by decide +kernel) (by decide +kernel) (by decide +kernel)

theorem sample_stays : StaysInside sampleMachine := staysInside_of _ ["l".toList] (by decide +kernel) (by decide +kernel)

theorem ignores_iff (M : Machine F) (ig : List Str) (h : Ignores M ig) :
    (M.configContents prefsPath).bind (fun text => (Json.readAs Json.decUserPreferences text).map (·.ignoredPaths)) =
      some ig := by
  obtain ⟨r, text, v, prefs, h1, h2, h3, h4, h5, rfl⟩ := h
  unfold Machine.configContents
  rw [h1]
  show (M.tree.find (r ++ prefsPath)).bind _ = _
  rw [h2]
  show (Json.readAs _ text).map _ = _
  rw [(readAs_iff _ _ _).mpr ⟨v, h3, h4, h5⟩]
  rfl

theorem sample_ignores (ig : List Str) (h : Ignores sampleMachine ig) : ∀ i ∈ ig, isAbsolute i = false := by
  have := ignores_iff _ _ h
  have h2 : (sampleMachine.configContents prefsPath).bind (fun text =>
    (Json.readAs Json.decUserPreferences text).map (·.ignoredPaths)) = some ["x".toList] := by decide +kernel
  rw [h2] at this
  cases this
  decide +kernel

/-- **C101, the hypotheses can be met**: the copy opens, and its flashcard is the file in the copy. -/
example : ∃ lib', Opens (sampleCopy.real plain) lib' ∧
    (lib'.getExerciseManifest "c::1::e".toList).map (·.rest.paths) = some ["/home/l/c/1/e/front.md".toList] := by
  refine ⟨opened (sampleCopy.real plain) [components "x".toList],
    ⟨"{ \"ignored_paths\": [\"x\"] }".toList, ⟨none, none, ["x".toList]⟩, ?_, ?_, opened_loads ?_⟩, ?_⟩ <;> decide +kernel

theorem cards_stay : StaysInside cards := staysInside_of _ ["l".toList] (by decide +kernel) (by decide +kernel)

def cardsCopy : Machine Unit := copied cards (by decide +kernel) (by decide +kernel)

theorem cards_moved : Moved cards cardsCopy ["l".toList] ["home".toList, "l".toList] :=
  copied_moved _ _ _ (by decide +kernel) (by decide +kernel) (by decide +kernel)

/-- Practice in a generated course goes on in the copy. -/
example : ∃ lib', RunningOn cardsCopy plain {} lib' Trane.TopLevel.chainBase cardsCalls cardsTop := by
  obtain ⟨lib', _, h, _⟩ := moved_practice cards_moved cards_stay plain (fun ig h => by
    have := ignores_iff _ _ h
    have h2 : (cards.configContents prefsPath).bind (fun text =>
      (Json.readAs Json.decUserPreferences text).map (·.ignoredPaths)) = some [] := by decide +kernel
    rw [h2] at this
    cases this
    simp) cards_running
  exact ⟨lib', h⟩

/-! ### What does not move along -/

/-- A course whose material is beside the library. -/
def shared : Machine Unit := machineOf
  [ (["l".toList, ".trane".toList, "user_preferences.json".toList], "{}".toList),
    (["l".toList, "c".toList, courseFile],
      "{\"name\":\"C\", \"id\": \"c\", \"course_material\": {\"MarkdownAsset\": {\"path\": \"../../m.md\"}}}".toList),
    (["m.md".toList], "one".toList),
    (["home".toList, "m.md".toList], "two".toList) ]
  (by unfold GoodTree; decide +kernel)

def sharedCopy : Machine Unit := copied shared (by decide +kernel) (by decide +kernel)

/-- **C101, negation for paths that lead out of the library**: after the move the path leads to another file. -/
theorem outside_not_moved : Moved shared sharedCopy ["l".toList] ["home".toList, "l".toList] ∧
    ∃ lib lib', Opens (shared.real plain) lib ∧ Opens (sharedCopy.real plain) lib' ∧
      (lib.getCourseManifest "c".toList).map coursePaths = some ["/m.md".toList] ∧
      (lib'.getCourseManifest "c".toList).map coursePaths = some ["/home/m.md".toList] ∧
      shared.tree.find ["m.md".toList] = some "one".toList ∧
      sharedCopy.tree.find ["home".toList, "m.md".toList] = some "two".toList := by
  refine ⟨copied_moved _ _ _ (by decide +kernel) (by decide +kernel) (by decide +kernel),
    opened (shared.real plain) [], opened (sharedCopy.real plain) [], opens_of ?_ ?_, opens_of ?_ ?_, ?_, ?_, ?_, ?_⟩ <;>
  decide +kernel

/-- A library whose preferences ignore one of its directories by its absolute path. -/
def absoluteIgnored : Machine Unit := machineOf
  [ (["l".toList, ".trane".toList, "user_preferences.json".toList], "{\"ignored_paths\": [\"/l/x\"]}".toList),
    (["l".toList, "c".toList, courseFile], "{\"name\":\"C\", \"id\": \"c\"}".toList),
    (["l".toList, "x".toList, courseFile], "{\"name\":\"X\", \"id\": \"x\"}".toList) ]
  (by unfold GoodTree; decide +kernel)

def absoluteIgnoredCopy : Machine Unit := copied absoluteIgnored (by decide +kernel) (by decide +kernel)

/-- **C101, negation for absolute ignored paths**: they do not move along, and the copy has a course more. -/
theorem ignored_not_moved : Moved absoluteIgnored absoluteIgnoredCopy ["l".toList] ["home".toList, "l".toList] ∧
    StaysInside absoluteIgnored ∧
    ∃ lib lib', Opens (absoluteIgnored.real plain) lib ∧ Opens (absoluteIgnoredCopy.real plain) lib' ∧
      lib.getCourseIds = ["c".toList] ∧ lib'.getCourseIds = ["c".toList, "x".toList] := by
  refine ⟨copied_moved _ _ _ (by decide +kernel) (by decide +kernel) (by decide +kernel),
    staysInside_of _ ["l".toList] (by decide +kernel) (by decide +kernel),
    opened (absoluteIgnored.real plain) [components "/l/x".toList],
    opened (absoluteIgnoredCopy.real plain) [components "/l/x".toList],
    ⟨"{\"ignored_paths\": [\"/l/x\"]}".toList, ⟨none, none, ["/l/x".toList]⟩, ?_, ?_, opened_loads ?_⟩,
    ⟨"{\"ignored_paths\": [\"/l/x\"]}".toList, ⟨none, none, ["/l/x".toList]⟩, ?_, ?_, opened_loads ?_⟩, ?_, ?_⟩ <;>
  decide +kernel

/-! ### C102 -/

/-- A library that has been practised: its grades are among its files. -/
def practised : Tree :=
  [ (["l".toList, ".trane".toList, "practice_stats.db".toList], "grades".toList),
    (["l".toList, "c".toList, courseFile], "{}".toList) ]

/-- **C102**: a simulated student starts with the grades the user has, and the user's file stays as it is. -/
example : (copyLibrary id ["l".toList] ["tmp".toList, "a".toList] practised).find
      ["tmp".toList, "a".toList, ".trane".toList, "practice_stats.db".toList] = some "grades".toList ∧
    Apart ["l".toList] ["tmp".toList, "a".toList] := by
  refine ⟨(copy_exact id (fun _ => .refl _) _ _ (by unfold Apart; decide +kernel) practised).1
    [".trane".toList, "practice_stats.db".toList] _ (by decide +kernel), by unfold Apart; decide +kernel⟩

/-- Two students, who each copy the library in two steps, one after the other: the hypotheses can be met. -/
def studentDir (i : Bool) : Path := ["tmp".toList, if i then "a".toList else "b".toList]

def studentSteps (i : Bool) : List (Tree → Tree) :=
  [fun t => copyFile ["l".toList] (studentDir i) t (["l".toList] ++ [".trane".toList, "practice_stats.db".toList]),
   fun t => copyFile ["l".toList] (studentDir i) t (["l".toList] ++ ["c".toList, courseFile])]

example : ∃ l, Interleaved studentSteps l ∧ l.map (·.1) = [true, false, false, true] ∧
    (∀ i, Apart ["l".toList] (studentDir i)) ∧ (∀ i j, i ≠ j → Apart (studentDir i) (studentDir j)) ∧
    ∀ i, ∀ f ∈ studentSteps i, Local ["l".toList] (studentDir i) f := by
  refine ⟨[(true, _), (false, _), (false, _), (true, _)],
    .step true _ _ rfl (.step false _ _ rfl (.step false _ _ rfl (.step true _ _ rfl ?_))), rfl, ?_, ?_, ?_⟩
  · have : ∀ f : Bool → List (Tree → Tree), f = (fun _ => []) → Interleaved f [] := by rintro _ rfl; exact .done
    exact this _ (by funext i; cases i <;> rfl)
  · unfold Apart; decide +kernel
  · unfold Apart; decide +kernel
  · intro i f hf
    simp only [studentSteps, List.mem_cons, List.not_mem_nil, or_false] at hf
    rcases hf with rfl | rfl <;> exact copyFile_local _ _ _

/-- The fourth thread panics and the last student fails: the panic is reported. -/
example : runBenchmark (ε := Nat) (fun i : Fin 5 => if i = 3 then none else if i = 4 then some (.error 7) else some (.ok i)) =
    .error (.panicked 3) :=
  ((benchmark_report _).2 (.panicked 3)).mpr ⟨3, ⟨rfl, rfl⟩, by decide +kernel⟩

end Trane.Tree
