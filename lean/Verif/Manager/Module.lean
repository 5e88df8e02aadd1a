import Mathlib.Data.List.Basic
/-!
The modules of `manager/milter-manager-module.c`: which files of a directory are loaded, under
which names, and how they are found.  What is done with an open library (`load`, `unload`,
`instantiate`) is not modelled.

File names are lists of bytes without NUL and `/`; `G_MODULE_SUFFIX` is "so".
-/
namespace Verif.Manager.Module

abbrev Bytes := List UInt8

/-- "so" and ".so" (`G_MODULE_SUFFIX`, milter-manager-module.c:313, 344, 360, 442). -/
def suffix : Bytes := [0x73, 0x6f]
def dotSuffix : Bytes := [0x2e, 0x73, 0x6f]

/-- A directory as the file system shows it.  `entries` are the names in the order in which
`g_dir_read_name` returns them (which leaves out "." and ".."); `resolves f` is false for links
that lead nowhere, for which `g_file_test` says that they do not exist.  `opens` is false if
`g_dir_open` fails. -/
structure Directory where
  path : Bytes
  opens : Bool
  entries : List Bytes
  resolves : Bytes → Bool

/-- A module that is not in use: the directory and the base name of `mod_path`, and the name
of the `GTypeModule` (milter-manager-module.c:38-47). -/
structure Mod where
  dir : Bytes
  file : Bytes
  name : Bytes
deriving DecidableEq, Repr

/-- `g_file_test (path, G_FILE_TEST_EXISTS)` for a name in the directory
(milter-manager-module.c:351). -/
def Directory.exists_ (d : Directory) (f : Bytes) : Bool := d.entries.contains f && d.resolves f

/-- `g_str_has_suffix` (GLib). -/
def hasSuffix (s t : Bytes) : Bool := t.isSuffixOf s

/-- `milter_manager_module_load_module` (milter-manager-module.c:337-371).  The suffix is looked
for in the path; as the name is not empty, and is preceded by a `/`, that is the same as
looking for it in the name.  Names are here those of files in the directory itself. -/
def loadModule (d : Directory) (name : Bytes) : Option Mod :=
  let file := if hasSuffix name suffix then name else name ++ dotSuffix
  if d.exists_ file then
    some ⟨d.path, file,
      if hasSuffix name dotSuffix then name.take (name.length - dotSuffix.length) else name⟩
  else none

/-- `_milter_manager_module_match_name` (milter-manager-module.c:435-450). -/
def matchName (m : Mod) (name : Bytes) : Bool := m.file == name ++ dotSuffix

/-- `milter_manager_module_find` (milter-manager-module.c:247-262). -/
def find : List Mod → Bytes → Option Mod
  | [], _ => none
  | m :: ms, name => if matchName m name then some m else find ms name

/-- `strcmp (a, b) <= 0`, as used by `g_slist_sort` (milter-manager-module.c:412). -/
def strcmpLe : Bytes → Bytes → Bool
  | [], _ => true
  | _ :: _, [] => false
  | a :: s, b :: t => a < b || (a == b && strcmpLe s t)

/-- `g_slist_sort` (milter-manager-module.c:412), as an insertion sort; GLib's is a merge sort.
There is only one sorted list of given names (`Props.Module.sorted_unique`), so that they give
the same list. -/
def insertEntry (e : Bytes) : List Bytes → List Bytes
  | [] => [e]
  | x :: xs => if strcmpLe e x then e :: x :: xs else x :: insertEntry e xs

@[inherit_doc insertEntry]
def sortEntries : List Bytes → List Bytes
  | [] => []
  | e :: es => insertEntry e (sortEntries es)

/-- The loop over the sorted entries (milter-manager-module.c:413-426): what is loaded is put
before what was loaded so far. -/
def loadEntries (d : Directory) (exist : List Mod) : List Mod → List Bytes → List Mod
  | modules, [] => modules
  | modules, e :: es =>
    match loadModule d e with
    | none => loadEntries d exist modules es
    | some m =>
      match find exist m.name with
      | some _ => loadEntries d exist modules es
      | none => loadEntries d exist (m :: modules) es

/-- `milter_manager_module_load_modules_unique` (milter-manager-module.c:395-433). -/
def loadModulesUnique (d : Directory) (exist : List Mod) : List Mod :=
  if d.opens then loadEntries d exist [] (sortEntries d.entries) ++ exist else exist

/-- `milter_manager_module_load_modules` (milter-manager-module.c:380-384). -/
def loadModules (d : Directory) : List Mod := loadModulesUnique d []

/-- `milter_manager_module_collect_names` (milter-manager-module.c:206-220). -/
def collectNames (ms : List Mod) : List Bytes :=
  ms.foldl (fun r m => m.name :: r) []

end Verif.Manager.Module
