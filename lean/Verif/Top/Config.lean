import Verif.Store.Table
import Mathlib.Logic.Function.Basic

/-!
# The configuration directory and the preferences file

Models `init_config_directory` of /repo/src/lib.rs and /repo/src/preferences_manager.rs on a file
system whose operations can be interrupted at every point.  The text of the preferences is kept; how
it is written and read is described by `Format`, because the JSON library is not part of the code.
-/

namespace Trane.ConfigDir

open Trane.Store (Str)

/-- A path as the list of its components. /repo/src/lib.rs:194-237. -/
abbrev Path := List Str

/-- What is found at a path. /repo/src/lib.rs:194-237. -/
inductive Node
  | dir
  | file (content : Str)
  deriving DecidableEq

/-- The file system. /repo/src/lib.rs:194-237. -/
abbrev FS := Path → Option Node

/-- The disk during a call.  `left` operations still succeed; the next one fails, or the process is
killed or the power is cut.  Either way no operation of the call is carried out after it, since every
call is followed by `?`.  `cut` is the number of characters that a write leaves in the file when it is
the operation that is interrupted. -/
structure Disk where
  fs : FS
  left : Nat
  cut : Nat

/-- `Path::exists`. As in /repo/src/lib.rs:205. -/
def exist (fs : FS) (p : Path) : Bool := (fs p).isSome
/-- `Path::is_dir`. As in /repo/src/lib.rs:198. -/
def isDir (fs : FS) (p : Path) : Bool := fs p == some .dir
/-- `Path::is_file`. As in /repo/src/lib.rs:233. -/
def isFile (fs : FS) (p : Path) : Bool :=
  match fs p with
  | some (.file _) => true
  | _ => false

/-- `std::fs::create_dir`: fails if there is something at the path or no directory to put it in.
As in /repo/src/lib.rs:206. -/
def createDir (d : Disk) (p : Path) : Disk × Bool :=
  if d.left = 0 then (d, false)
  else if exist d.fs p || !isDir d.fs p.dropLast then (d, false)
  else ({ d with fs := Function.update d.fs p (some .dir), left := d.left - 1 }, true)

/-- `File::create`: the file is empty afterwards. As in /repo/src/lib.rs:227. -/
def createFile (d : Disk) (p : Path) : Disk × Bool :=
  if d.left = 0 then (d, false)
  else if isDir d.fs p || !isDir d.fs p.dropLast then (d, false)
  else ({ d with fs := Function.update d.fs p (some (.file [])), left := d.left - 1 }, true)

/-- `write_all` on a file just created. As in /repo/src/lib.rs:231. -/
def writeAll (d : Disk) (p : Path) (t : Str) : Disk × Bool :=
  if d.left = 0 then ({ d with fs := Function.update d.fs p (some (.file (t.take d.cut))) }, false)
  else ({ d with fs := Function.update d.fs p (some (.file t)), left := d.left - 1 }, true)

/-- /repo/src/lib.rs:106. -/
def configDir (root : Path) : Path := root ++ [".trane".toList]
/-- /repo/src/lib.rs:124. -/
def filtersDir (root : Path) : Path := configDir root ++ ["filters".toList]
/-- /repo/src/lib.rs:127. -/
def sessionsDir (root : Path) : Path := configDir root ++ ["study_sessions".toList]
/-- /repo/src/lib.rs:130. -/
def prefsFile (root : Path) : Path := configDir root ++ ["user_preferences.json".toList]

/-- `Result` and `?`: the second step runs if the first one returned `Ok`. /repo/src/lib.rs:194-237. -/
def andThen (r : Disk × Bool) (f : Disk → Disk × Bool) : Disk × Bool :=
  if r.2 then f r.1 else r

/-- /repo/src/lib.rs:203-209. -/
def initConfig (root : Path) (d : Disk) : Disk × Bool :=
  if !exist d.fs (configDir root) then createDir d (configDir root)
  else if !isDir d.fs (configDir root) then (d, false)
  else (d, true)

/-- /repo/src/lib.rs:211-215 and 217-222. -/
def initDir (p : Path) (d : Disk) : Disk × Bool :=
  if !isDir d.fs p then createDir d p else (d, true)

/-- /repo/src/lib.rs:224-235; `t` is the text of the default preferences, with the newline of line
230. -/
def initPrefs (t : Str) (root : Path) (d : Disk) : Disk × Bool :=
  if !exist d.fs (prefsFile root) then
    andThen (createFile d (prefsFile root)) (fun d => writeAll d (prefsFile root) t)
  else if !isFile d.fs (prefsFile root) then (d, false)
  else (d, true)

/-- /repo/src/lib.rs:194-237 `init_config_directory`. -/
def initConfigDirectory (t : Str) (root : Path) (d : Disk) : Disk × Bool :=
  if !isDir d.fs root then (d, false)
  else
    andThen (initConfig root d) fun d =>
    andThen (initDir (filtersDir root) d) fun d =>
    andThen (initDir (sessionsDir root) d) fun d =>
    initPrefs t root d

/-- How preferences are written and read, `serde_json::to_string_pretty` and `from_str` for
`UserPreferences`: what is written is read back, also with a newline after it, and a text that was cut
short is not accepted (it lacks the last brace). -/
structure Format (P : Type) where
  write : P → Str
  read : Str → Option P
  read_write : ∀ p, read (write p) = some p
  read_line : ∀ p, read (write p ++ ['\n']) = some p
  read_cut : ∀ p n, n < (write p).length → read ((write p).take n) = none

variable {P : Type}

/-- /repo/src/preferences_manager.rs:28-34 and 44-48 `get_user_preferences`. -/
def getPreferences (F : Format P) (root : Path) (fs : FS) : Option P :=
  match fs (prefsFile root) with
  | some (.file t) => F.read t
  | _ => none

/-- /repo/src/preferences_manager.rs:37-41 and 50-57 `set_user_preferences`; `fs::write` creates the
file and writes to it. -/
def setPreferences (F : Format P) (root : Path) (p : P) (d : Disk) : Disk × Bool :=
  andThen (createFile d (prefsFile root)) (fun d => writeAll d (prefsFile root) (F.write p))

/-- The beginning of `new_local` and `new_local_from_serialized`, /repo/src/lib.rs:308-319 and
332-347: the preferences with which the rest is opened, if it gets that far. -/
def openPreferences (F : Format P) (dflt : P) (root : Path) (d : Disk) : Disk × Option P :=
  let r := initConfigDirectory (F.write dflt ++ ['\n']) root d
  (r.1, if r.2 then getPreferences F root r.1.fs else none)

end Trane.ConfigDir
