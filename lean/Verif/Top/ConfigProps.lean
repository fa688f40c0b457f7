import Verif.Top.Config
import Mathlib.Tactic.Set
import Mathlib.Order.Basic

/-!
# The configuration directory and the preferences file (C76)

`d.left` and `d.cut` range over all points at which an operation can fail or the process can be
killed, so a statement about all `d` covers every crash point.
-/

namespace Trane.ConfigDir

open Trane.Store (Str)

variable {P : Type}

/-- The paths that opening a library may create. -/
def Ours (root p : Path) : Prop :=
  p = configDir root ∨ p = filtersDir root ∨ p = sessionsDir root ∨ p = prefsFile root

/-! ### Paths -/

theorem path_ne (root : Path) : filtersDir root ≠ sessionsDir root ∧
    filtersDir root ≠ prefsFile root ∧ sessionsDir root ≠ prefsFile root ∧
    configDir root ≠ filtersDir root ∧ configDir root ≠ sessionsDir root ∧
    configDir root ≠ prefsFile root := by
  refine ⟨?_, ?_, ?_, ?_, ?_, ?_⟩
  · intro h
    exact absurd (List.append_cancel_left h) (by decide +kernel)
  · intro h
    exact absurd (List.append_cancel_left h) (by decide +kernel)
  · intro h
    exact absurd (List.append_cancel_left h) (by decide +kernel)
  all_goals
    intro h
    have := congrArg List.length h
    simp [filtersDir, sessionsDir, prefsFile] at this

theorem root_ne (root : Path) : root ≠ configDir root ∧ root ≠ filtersDir root ∧
    root ≠ sessionsDir root ∧ root ≠ prefsFile root := by
  refine ⟨?_, ?_, ?_, ?_⟩ <;>
  · intro h
    have := congrArg List.length h
    simp [filtersDir, sessionsDir, prefsFile, configDir] at this

/-! ### One step -/

/-- Nothing that was there is changed, and only `p` may be added. -/
structure Adds (p : Path) (fs fs' : FS) : Prop where
  keeps : ∀ q e, fs q = some e → fs' q = some e
  only : ∀ q, q ≠ p → fs' q = fs q

theorem Adds.refl (p : Path) (fs : FS) : Adds p fs fs := ⟨fun _ _ h => h, fun _ _ => rfl⟩

theorem adds_update {p : Path} {fs : FS} (h : fs p = none) (e : Option Node) :
    Adds p fs (Function.update fs p e) := by
  refine ⟨fun q x hq => ?_, fun q hq => Function.update_of_ne hq _ _⟩
  by_cases c : q = p
  · subst c; rw [h] at hq; cases hq
  · rw [Function.update_of_ne c]; exact hq

theorem createDir_adds (d : Disk) (p : Path) : Adds p d.fs (createDir d p).1.fs := by
  unfold createDir
  split
  · exact Adds.refl _ _
  · split
    · exact Adds.refl _ _
    · rename_i h
      apply adds_update
      have h' : exist d.fs p = false ∧ isDir d.fs p.dropLast = true := by simpa using h
      simpa [exist] using h'.1

theorem initConfig_adds (root : Path) (d : Disk) :
    Adds (configDir root) d.fs (initConfig root d).1.fs := by
  unfold initConfig
  split
  · exact createDir_adds _ _
  · split <;> exact Adds.refl _ _

theorem initDir_adds (p : Path) (d : Disk) : Adds p d.fs (initDir p d).1.fs := by
  unfold initDir
  split
  · exact createDir_adds _ _
  · exact Adds.refl _ _

theorem createFile_shape (d : Disk) (p : Path) :
    (createFile d p = (d, false)) ∨
    (createFile d p = ({ d with fs := Function.update d.fs p (some (.file [])), left := d.left - 1 },
      true) ∧ d.left ≠ 0 ∧ isDir d.fs p = false) := by
  unfold createFile
  split
  · exact Or.inl rfl
  · split
    · exact Or.inl rfl
    · rename_i h h'
      refine Or.inr ⟨rfl, h, ?_⟩
      have h'' : isDir d.fs p = false ∧ isDir d.fs p.dropLast = true := by simpa using h'
      exact h''.1

theorem writeAll_shape (d : Disk) (p : Path) (t : Str) :
    (writeAll d p t = ({ d with fs := Function.update d.fs p (some (.file (t.take d.cut))) },
      false) ∧ d.left = 0) ∨
    (writeAll d p t = ({ d with fs := Function.update d.fs p (some (.file t)), left := d.left - 1 },
      true) ∧ d.left ≠ 0) := by
  unfold writeAll
  split
  · rename_i h; exact Or.inl ⟨rfl, h⟩
  · rename_i h; exact Or.inr ⟨rfl, h⟩

/-- The file system after `File::create` and `write_all`: unchanged, interrupted or done. -/
theorem fileWrite_cases (d : Disk) (p : Path) (t : Str) :
    let r := andThen (createFile d p) (fun d => writeAll d p t)
    (r.1.fs = d.fs ∧ r.2 = false) ∨
    (∃ n, r.1.fs = Function.update d.fs p (some (.file (t.take n))) ∧ r.2 = false) ∨
    (r.1.fs = Function.update d.fs p (some (.file t)) ∧ r.2 = true) := by
  intro r
  rcases createFile_shape d p with h | ⟨h, _, _⟩
  · left; simp only [r, andThen, h]; exact ⟨rfl, rfl⟩
  · right
    rcases writeAll_shape
      ⟨Function.update d.fs p (some (.file [])), d.left - 1, d.cut⟩ p t with ⟨h', _⟩ | ⟨h', _⟩
    · left
      refine ⟨d.cut, ?_, ?_⟩ <;> simp only [r, andThen, h, if_true, h', Function.update_idem]
    · right
      constructor <;> simp only [r, andThen, h, if_true, h', Function.update_idem]

theorem initPrefs_adds (t : Str) (root : Path) (d : Disk) :
    Adds (prefsFile root) d.fs (initPrefs t root d).1.fs := by
  unfold initPrefs
  split
  · rename_i h
    have hn : d.fs (prefsFile root) = none := by simpa [exist] using h
    rcases fileWrite_cases d (prefsFile root) t with ⟨h, _⟩ | ⟨n, h, _⟩ | ⟨h, _⟩ <;> rw [h]
    · exact Adds.refl _ _
    · exact adds_update hn _
    · exact adds_update hn _
  · split <;> exact Adds.refl _ _

/-! ### Opening adds and never overwrites -/

theorem andThen_keeps {f : Disk → Disk × Bool} {fs : FS} {r : Disk × Bool} {Q : Path → Prop}
    (h : (∀ q e, fs q = some e → r.1.fs q = some e) ∧ ∀ q, ¬ Q q → r.1.fs q = fs q)
    (hf : ∀ d, ∃ p, Q p ∧ Adds p d.fs (f d).1.fs) :
    (∀ q e, fs q = some e → (andThen r f).1.fs q = some e) ∧
      ∀ q, ¬ Q q → (andThen r f).1.fs q = fs q := by
  unfold andThen
  split
  · obtain ⟨p, hp, ha⟩ := hf r.1
    refine ⟨fun q e hq => ha.keeps q e (h.1 q e hq), fun q hq => ?_⟩
    rw [ha.only q (fun c => hq (c ▸ hp)), h.2 q hq]
  · exact h

theorem andThen_assoc (r : Disk × Bool) (f g : Disk → Disk × Bool) :
    andThen r (fun d => andThen (f d) g) = andThen (andThen r f) g := by
  unfold andThen
  by_cases h : r.2 = true
  · simp [h]
  · simp [h]

/-- **C76, nothing is lost.**  Wherever opening a library fails or is interrupted: every file and
directory that was there is unchanged, and nothing is created but the configuration directory, its two
subdirectories and the preferences file. -/
theorem open_keeps_everything (t : Str) (root : Path) (d : Disk) :
    (∀ q e, d.fs q = some e → (initConfigDirectory t root d).1.fs q = some e) ∧
    (∀ q, ¬ Ours root q → (initConfigDirectory t root d).1.fs q = d.fs q) := by
  unfold initConfigDirectory
  split
  · exact ⟨fun _ _ h => h, fun _ _ => rfl⟩
  · rw [andThen_assoc, andThen_assoc]
    refine andThen_keeps (andThen_keeps (andThen_keeps ?_ fun d => ?_) fun d => ?_) fun d => ?_
    · have h := initConfig_adds root d
      exact ⟨h.keeps, fun q hq => h.only q (fun c => hq (Or.inl c))⟩
    · exact ⟨_, Or.inr (Or.inl rfl), initDir_adds _ d⟩
    · exact ⟨_, Or.inr (Or.inr (Or.inl rfl)), initDir_adds _ d⟩
    · exact ⟨_, Or.inr (Or.inr (Or.inr rfl)), initPrefs_adds t root d⟩

/-! ### What a successful call leaves -/

theorem createDir_ok {d : Disk} {p : Path} (h : (createDir d p).2 = true) :
    (createDir d p).1.fs p = some .dir := by
  unfold createDir at h ⊢
  split
  · rename_i c; rw [if_pos c] at h; cases h
  · rename_i c
    rw [if_neg c] at h
    split
    · rename_i c'; rw [if_pos c'] at h; cases h
    · exact Function.update_self ..

theorem initDir_ok {p : Path} {d : Disk} (h : (initDir p d).2 = true) :
    (initDir p d).1.fs p = some .dir := by
  unfold initDir at h ⊢
  split
  · rename_i c; rw [if_pos c] at h; exact createDir_ok h
  · rename_i c; simpa [isDir] using c

theorem initConfig_ok {root : Path} {d : Disk} (h : (initConfig root d).2 = true) :
    (initConfig root d).1.fs (configDir root) = some .dir := by
  unfold initConfig at h ⊢
  split
  · rename_i c; rw [if_pos c] at h; exact createDir_ok h
  · rename_i c
    rw [if_neg c] at h
    split
    · rename_i c'; rw [if_pos c'] at h; cases h
    · rename_i c'; simpa [isDir] using c'

theorem initPrefs_ok {t : Str} {root : Path} {d : Disk} (h : (initPrefs t root d).2 = true) :
    ((initPrefs t root d).1.fs (prefsFile root) = some (.file t) ∧ d.fs (prefsFile root) = none) ∨
    ∃ s, d.fs (prefsFile root) = some (.file s) ∧
      (initPrefs t root d).1.fs (prefsFile root) = some (.file s) := by
  unfold initPrefs at h ⊢
  split
  · rename_i c
    rw [if_pos c] at h
    left
    rcases fileWrite_cases d (prefsFile root) t with ⟨_, e⟩ | ⟨n, _, e⟩ | ⟨e, _⟩
    · rw [e] at h; cases h
    · rw [e] at h; cases h
    · rw [e]; exact ⟨Function.update_self .., by simpa [exist] using c⟩
  · rename_i c
    rw [if_neg c] at h
    right
    split
    · rename_i c'; rw [if_pos c'] at h; cases h
    · rename_i c'
      have c'' : isFile d.fs (prefsFile root) = true := by simpa using c'
      unfold isFile at c''
      split at c''
      · rename_i s e; exact ⟨s, e, e⟩
      · cases c''

theorem andThen_ok {r : Disk × Bool} {f : Disk → Disk × Bool} (h : (andThen r f).2 = true) :
    r.2 = true ∧ andThen r f = f r.1 := by
  unfold andThen at h ⊢
  by_cases c : r.2 = true
  · exact ⟨c, if_pos c⟩
  · rw [if_neg c] at h; exact absurd h c

/-- What the configuration directory looks like after a successful call. -/
structure Ready (root : Path) (fs : FS) : Prop where
  top : fs root = some .dir
  config : fs (configDir root) = some .dir
  filters : fs (filtersDir root) = some .dir
  sessions : fs (sessionsDir root) = some .dir
  prefs : ∃ t, fs (prefsFile root) = some (.file t)

/-- **C76, success.**  When the directory could be prepared it is complete; the preferences file has
the text it had, or the default text if there was none. -/
theorem open_prepares (t : Str) (root : Path) (d : Disk)
    (h : (initConfigDirectory t root d).2 = true) :
    Ready root (initConfigDirectory t root d).1.fs ∧
    (initConfigDirectory t root d).1.fs (prefsFile root) =
      some ((d.fs (prefsFile root)).getD (.file t)) := by
  have hk := open_keeps_everything t root d
  unfold initConfigDirectory at h hk ⊢
  split
  · rename_i c; rw [if_pos c] at h; cases h
  · rename_i c
    rw [if_neg c] at h hk
    have hr : d.fs root = some .dir := by simpa [isDir] using c
    obtain ⟨h1, e1⟩ := andThen_ok h
    rw [e1] at h hk ⊢
    obtain ⟨h2, e2⟩ := andThen_ok h
    rw [e2] at h hk ⊢
    obtain ⟨h3, e3⟩ := andThen_ok h
    rw [e3] at h hk ⊢
    have k1 := initConfig_adds root d
    set d1 := (initConfig root d).1 with hd1
    have k2 := initDir_adds (filtersDir root) d1
    have o2 := initDir_ok h2
    set d2 := (initDir (filtersDir root) d1).1 with hd2
    have k3 := initDir_adds (sessionsDir root) d2
    have o3 := initDir_ok h3
    set d3 := (initDir (sessionsDir root) d2).1 with hd3
    have k4 := initPrefs_adds t root d3
    obtain ⟨n1, n2, n3, n4, n5, n6⟩ := path_ne root
    have e3 : d3.fs (prefsFile root) = d.fs (prefsFile root) := by
      rw [k3.only _ n3.symm, k2.only _ n2.symm, k1.only _ n6.symm]
    have hp : (initPrefs t root d3).1.fs (prefsFile root) =
        some ((d.fs (prefsFile root)).getD (.file t)) := by
      rcases initPrefs_ok h with ⟨a, b⟩ | ⟨s, a, b⟩
      · rw [a, ← e3, b]; rfl
      · rw [b, ← e3, a]; rfl
    refine ⟨⟨hk.1 _ _ hr, k4.keeps _ _ (k3.keeps _ _ (k2.keeps _ _ (initConfig_ok h1))),
      k4.keeps _ _ (k3.keeps _ _ o2), k4.keeps _ _ o3, ?_⟩, hp⟩
    rcases initPrefs_ok h with ⟨a, b⟩ | ⟨s, a, b⟩
    · exact ⟨_, a⟩
    · exact ⟨_, b⟩

theorem ready_open {t : Str} {root : Path} {d : Disk} (h : Ready root d.fs) :
    initConfigDirectory t root d = (d, true) := by
  obtain ⟨s, hs⟩ := h.prefs
  have a : initConfig root d = (d, true) := by
    simp [initConfig, exist, isDir, h.config]
  have b : initDir (filtersDir root) d = (d, true) := by simp [initDir, isDir, h.filters]
  have c : initDir (sessionsDir root) d = (d, true) := by simp [initDir, isDir, h.sessions]
  have e : initPrefs t root d = (d, true) := by
    simp [initPrefs, exist, isFile, hs]
  unfold initConfigDirectory
  rw [if_neg (by simp [isDir, h.top]), a]
  simp only [andThen, if_true, b, c, e]

/-- **C76, opening again.**  After a successful call the next one changes nothing on disk and cannot
fail or be interrupted half-way: it succeeds even if no operation that writes to the disk would. -/
theorem open_again (t : Str) (root : Path) (d : Disk) (left cut : Nat)
    (h : (initConfigDirectory t root d).2 = true) :
    initConfigDirectory t root ⟨(initConfigDirectory t root d).1.fs, left, cut⟩ =
      (⟨(initConfigDirectory t root d).1.fs, left, cut⟩, true) :=
  ready_open (open_prepares t root d h).1

theorem createDir_full {d : Disk} {p : Path} (hl : d.left ≠ 0) (hp : d.fs p = none)
    (hd : d.fs p.dropLast = some .dir) :
    createDir d p = ({ d with fs := Function.update d.fs p (some .dir), left := d.left - 1 }, true) := by
  unfold createDir
  rw [if_neg hl, if_neg (by simp [exist, isDir, hp, hd])]

theorem filters_parent (root : Path) : (filtersDir root).dropLast = configDir root := by
  simp [filtersDir]
theorem sessions_parent (root : Path) : (sessionsDir root).dropLast = configDir root := by
  simp [sessionsDir]
theorem prefs_parent (root : Path) : (prefsFile root).dropLast = configDir root := by
  simp [prefsFile]
theorem config_parent (root : Path) : (configDir root).dropLast = root := by
  simp [configDir]

/-- There is a directory or nothing. -/
def DirOrNone (fs : FS) (p : Path) : Prop := fs p = none ∨ fs p = some .dir

theorem initDir_full {d : Disk} {p : Path} (hl : 1 ≤ d.left) (hp : DirOrNone d.fs p)
    (hd : d.fs p.dropLast = some .dir) :
    (initDir p d).2 = true ∧ d.left ≤ (initDir p d).1.left + 1 := by
  unfold initDir
  rcases hp with hp | hp
  · rw [if_pos (by simp [isDir, hp]), createDir_full (by omega) hp hd]
    exact ⟨rfl, by show d.left ≤ d.left - 1 + 1; omega⟩
  · rw [if_neg (by simp [isDir, hp])]
    exact ⟨rfl, by show d.left ≤ d.left + 1; omega⟩

/-- **C76, when it succeeds.**  If no operation fails (five are enough), the call succeeds exactly if
the root is a directory and at the four paths there is nothing, or a directory respectively a file. -/
theorem open_succeeds_iff (t : Str) (root : Path) (d : Disk) (hl : 5 ≤ d.left) :
    (initConfigDirectory t root d).2 = true ↔
      d.fs root = some .dir ∧ DirOrNone d.fs (configDir root) ∧
      DirOrNone d.fs (filtersDir root) ∧ DirOrNone d.fs (sessionsDir root) ∧
      d.fs (prefsFile root) ≠ some .dir := by
  constructor
  · intro h
    have hr := open_prepares t root d h
    have hk := open_keeps_everything t root d
    have key : ∀ p, (initConfigDirectory t root d).1.fs p = some .dir → DirOrNone d.fs p := by
      intro p hp
      unfold DirOrNone
      cases e : d.fs p with
      | none => exact Or.inl rfl
      | some x => rw [hk.1 p x e] at hp; exact Or.inr hp
    refine ⟨?_, key _ hr.1.config, key _ hr.1.filters, key _ hr.1.sessions, ?_⟩
    · have : ¬ (!isDir d.fs root) = true := by
        intro c
        unfold initConfigDirectory at h
        rw [if_pos c] at h; cases h
      simpa [isDir] using this
    · intro e
      obtain ⟨s, hs⟩ := hr.1.prefs
      rw [hk.1 _ _ e] at hs; cases hs
  · rintro ⟨hr, hc, hf, hs, hp⟩
    obtain ⟨n1, n2, n3, n4, n5, n6⟩ := path_ne root
    unfold initConfigDirectory
    rw [if_neg (by simp [isDir, hr])]
    have a : (initConfig root d).2 = true ∧ d.left ≤ (initConfig root d).1.left + 1 := by
      unfold initConfig
      rcases hc with hc | hc
      · rw [if_pos (by simp [exist, hc]), createDir_full (by omega) hc (by rw [config_parent]; exact hr)]
        exact ⟨rfl, by show d.left ≤ d.left - 1 + 1; omega⟩
      · rw [if_neg (by simp [exist, hc]), if_neg (by simp [isDir, hc])]
        exact ⟨rfl, by show d.left ≤ d.left + 1; omega⟩
    have k1 := initConfig_adds root d
    have o1 := initConfig_ok a.1
    have hthen : ∀ {r : Disk × Bool} {f : Disk → Disk × Bool}, r.2 = true → andThen r f = f r.1 := by
      intro r f h; unfold andThen; rw [if_pos h]
    rw [hthen a.1]
    set d1 := (initConfig root d).1
    have b := initDir_full (d := d1) (p := filtersDir root) (by omega)
      (by unfold DirOrNone; rw [k1.only _ n4.symm]; exact hf) (by rw [filters_parent]; exact o1)
    have k2 := initDir_adds (filtersDir root) d1
    rw [hthen b.1]
    set d2 := (initDir (filtersDir root) d1).1
    have c := initDir_full (d := d2) (p := sessionsDir root) (by omega)
      (by unfold DirOrNone; rw [k2.only _ n1.symm, k1.only _ n5.symm]; exact hs)
      (by rw [sessions_parent]; exact k2.keeps _ _ o1)
    have k3 := initDir_adds (sessionsDir root) d2
    rw [hthen c.1]
    set d3 := (initDir (sessionsDir root) d2).1
    have e3 : d3.fs (prefsFile root) = d.fs (prefsFile root) := by
      rw [k3.only _ n3.symm, k2.only _ n2.symm, k1.only _ n6.symm]
    have o3 : d3.fs (configDir root) = some .dir := k3.keeps _ _ (k2.keeps _ _ o1)
    unfold initPrefs
    cases e : d.fs (prefsFile root) with
    | none =>
      rw [e] at e3
      rw [if_pos (by simp [exist, e3])]
      have : createFile d3 (prefsFile root) = ({ d3 with
          fs := Function.update d3.fs (prefsFile root) (some (.file [])), left := d3.left - 1 },
          true) := by
        unfold createFile
        rw [if_neg (by omega), if_neg (by simp [isDir, e3, prefs_parent, o3])]
      rw [this]
      simp only [andThen, if_true]
      unfold writeAll
      rw [if_neg (by show d3.left - 1 ≠ 0; omega)]
    | some x =>
      cases x with
      | dir => exact absurd e hp
      | file s =>
        rw [e] at e3
        rw [if_neg (by simp [exist, e3]), if_neg (by simp [isFile, e3])]

/-! ### Preferences -/

/-- **C76, preferences across openings.**  Opening a library gives the preferences that are stored; if
there was no file, the default ones. -/
theorem open_reads_preferences (F : Format P) (dflt : P) (root : Path) (d : Disk)
    (h : (initConfigDirectory (F.write dflt ++ ['\n']) root d).2 = true) :
    (openPreferences F dflt root d).2 =
      if d.fs (prefsFile root) = none then some dflt else getPreferences F root d.fs := by
  have hp := (open_prepares _ root d h).2
  have hr := (open_prepares _ root d h).1.prefs
  unfold openPreferences
  simp only [h, if_true]
  unfold getPreferences
  rw [hp]
  cases e : d.fs (prefsFile root) with
  | none => simp [F.read_line]
  | some x =>
    rw [if_neg (by simp)]
    rfl

/-- **C76, storing.**  After `set_user_preferences` returned `Ok` the preferences read are those stored,
now and after every later opening, and nothing else changed on disk. -/
theorem set_then_get (F : Format P) (root : Path) (p : P) (d : Disk)
    (h : (setPreferences F root p d).2 = true) :
    getPreferences F root (setPreferences F root p d).1.fs = some p ∧
    (∀ q, q ≠ prefsFile root → (setPreferences F root p d).1.fs q = d.fs q) ∧
    ∀ (dflt : P) (left cut : Nat),
      (initConfigDirectory (F.write dflt ++ ['\n']) root
        ⟨(setPreferences F root p d).1.fs, left, cut⟩).2 = true →
      (openPreferences F dflt root ⟨(setPreferences F root p d).1.fs, left, cut⟩).2 = some p := by
  have e : (setPreferences F root p d).1.fs =
      Function.update d.fs (prefsFile root) (some (.file (F.write p))) := by
    unfold setPreferences at h ⊢
    rcases fileWrite_cases d (prefsFile root) (F.write p) with ⟨_, e⟩ | ⟨n, _, e⟩ | ⟨e, _⟩
    · rw [e] at h; cases h
    · rw [e] at h; cases h
    · exact e
  have g : getPreferences F root (setPreferences F root p d).1.fs = some p := by
    unfold getPreferences
    rw [e, Function.update_self]
    exact F.read_write p
  refine ⟨g, fun q hq => by rw [e, Function.update_of_ne hq], fun dflt left cut ho => ?_⟩
  rw [open_reads_preferences F dflt root _ ho, if_neg, g]
  simp only [e, Function.update_self]
  simp

/-- **C76, interrupted storing.**  Wherever the call fails or is interrupted, nothing but the
preferences file is touched, and reading it gives the old preferences, the new ones, or an error. -/
theorem set_interrupted_partial (F : Format P) (root : Path) (p : P) (d : Disk) :
    (∀ q, q ≠ prefsFile root → (setPreferences F root p d).1.fs q = d.fs q) ∧
    (getPreferences F root (setPreferences F root p d).1.fs = getPreferences F root d.fs ∨
     getPreferences F root (setPreferences F root p d).1.fs = some p ∨
     getPreferences F root (setPreferences F root p d).1.fs = none) := by
  unfold setPreferences
  rcases fileWrite_cases d (prefsFile root) (F.write p) with ⟨e, _⟩ | ⟨n, e, _⟩ | ⟨e, _⟩
  · rw [e]; exact ⟨fun _ _ => rfl, Or.inl rfl⟩
  · rw [e]
    refine ⟨fun q hq => Function.update_of_ne hq _ _, Or.inr ?_⟩
    unfold getPreferences
    rw [Function.update_self]
    by_cases hn : n < (F.write p).length
    · exact Or.inr (F.read_cut p n hn)
    · left
      show F.read ((F.write p).take n) = some p
      rw [List.take_of_length_le (Nat.le_of_not_lt hn), F.read_write]
  · rw [e]
    refine ⟨fun q hq => Function.update_of_ne hq _ _, Or.inr (Or.inl ?_)⟩
    unfold getPreferences
    rw [Function.update_self]
    exact F.read_write p

/-- **C76, interrupted first opening.**  If opening failed or was interrupted and the preferences file
was not created by it, opening again with nothing failing gives what opening the first time would have
given. -/
theorem open_recovers_partial (F : Format P) (dflt : P) (root : Path) (d : Disk) (left cut : Nat)
    (hl : 5 ≤ left)
    (hn : (initConfigDirectory (F.write dflt ++ ['\n']) root d).1.fs (prefsFile root) =
      d.fs (prefsFile root)) :
    (openPreferences F dflt root
      ⟨(initConfigDirectory (F.write dflt ++ ['\n']) root d).1.fs, left, cut⟩).2 =
    (openPreferences F dflt root ⟨d.fs, left, cut⟩).2 := by
  set t := F.write dflt ++ ['\n']
  have hk := open_keeps_everything t root d
  set fs' := (initConfigDirectory t root d).1.fs with hfs
  have hroot : fs' root = d.fs root := hk.2 _ (by
    obtain ⟨a, b, c, e⟩ := root_ne root
    rintro (h | h | h | h)
    · exact a h
    · exact b h
    · exact c h
    · exact e h)
  -- what was created is of the right kind
  have hkind : ∀ p, (p = configDir root ∨ p = filtersDir root ∨ p = sessionsDir root) →
      (DirOrNone fs' p ↔ DirOrNone d.fs p) := by
    intro p hp
    unfold DirOrNone
    cases e : d.fs p with
    | some x => rw [hk.1 p x e]
    | none =>
      simp only [true_or, iff_true]
      have step : ∀ (d : Disk) q, d.fs p = none ∨ d.fs p = some .dir →
          (initDir q d).1.fs p = none ∨ (initDir q d).1.fs p = some .dir := by
        intro d q h
        unfold initDir createDir
        split
        · split
          · exact h
          · split
            · exact h
            · show Function.update d.fs q (some .dir) p = none ∨
                Function.update d.fs q (some .dir) p = some .dir
              by_cases c : p = q
              · subst c; right; exact Function.update_self ..
              · rw [Function.update_of_ne c]; exact h
        · exact h
      have step1 : (initConfig root d).1.fs p = none ∨ (initConfig root d).1.fs p = some .dir := by
        unfold initConfig createDir
        split
        · split
          · exact Or.inl e
          · split
            · exact Or.inl e
            · show Function.update d.fs _ (some .dir) p = none ∨
                Function.update d.fs _ (some .dir) p = some .dir
              by_cases c : p = configDir root
              · subst c; right; exact Function.update_self ..
              · rw [Function.update_of_ne c]; exact Or.inl e
        · split <;> exact Or.inl e
      have step4 : ∀ d : Disk, d.fs p = none ∨ d.fs p = some .dir →
          (initPrefs t root d).1.fs p = none ∨ (initPrefs t root d).1.fs p = some .dir := by
        intro d h
        rw [(initPrefs_adds t root d).only p]
        · exact h
        · obtain ⟨n1, n2, n3, n4, n5, n6⟩ := path_ne root
          rcases hp with rfl | rfl | rfl
          · exact n6
          · exact n2
          · exact n3
      rw [hfs]
      unfold initConfigDirectory
      split
      · exact Or.inl e
      · have pres : ∀ (r : Disk × Bool) (f : Disk → Disk × Bool),
            (r.1.fs p = none ∨ r.1.fs p = some .dir) →
            (∀ d : Disk, d.fs p = none ∨ d.fs p = some .dir →
              (f d).1.fs p = none ∨ (f d).1.fs p = some .dir) →
            (andThen r f).1.fs p = none ∨ (andThen r f).1.fs p = some .dir := by
          intro r f hr hf
          unfold andThen
          split
          · exact hf _ hr
          · exact hr
        exact pres _ _ step1 fun d1 h1 => pres _ _ (step _ _ h1) fun d2 h2 =>
          pres _ _ (step _ _ h2) fun d3 h3 => step4 _ h3
  have hiff : (initConfigDirectory t root ⟨fs', left, cut⟩).2 = true ↔
      (initConfigDirectory t root ⟨d.fs, left, cut⟩).2 = true := by
    rw [open_succeeds_iff t root ⟨fs', left, cut⟩ hl, open_succeeds_iff t root ⟨d.fs, left, cut⟩ hl]
    dsimp only
    rw [hroot, hn, hkind _ (Or.inl rfl), hkind _ (Or.inr (Or.inl rfl)), hkind _ (Or.inr (Or.inr rfl))]
  by_cases h : (initConfigDirectory t root ⟨d.fs, left, cut⟩).2 = true
  · rw [open_reads_preferences F dflt root _ (hiff.2 h), open_reads_preferences F dflt root _ h]
    show (if fs' (prefsFile root) = none then _ else getPreferences F root fs') = _
    unfold getPreferences
    rw [hn]
  · have h' := fun x => h (hiff.1 x)
    unfold openPreferences
    simp only [show F.write dflt ++ ['\n'] = t from rfl]
    rw [if_neg h, if_neg h']

end Trane.ConfigDir
