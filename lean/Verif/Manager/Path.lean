import Verif.Core.Text
/-
Finding files to load: binding/ruby/lib/milter/core/path.rb (`PathResolver`) and `load`, `load_if_exist`, `resolve_path` of binding/ruby/lib/milter/manager.rb (441-454, 495-499).

What is there is a parameter: for each path a directory with entries, a file, or nothing; and what `Dir.glob` finds.  It does not change while a path is looked for.
-/
namespace Verif.Path

/-- what a path leads to -/
inductive Kind where
  | directory (entries : List Bytes)
  | file
  | nothing
deriving DecidableEq, Repr

/-- the file system as it is asked: `File.directory?` and `Dir#each`, `File.exist?`, `Dir.glob` -/
structure Disk where
  kind : Bytes → Kind
  glob : Bytes → List Bytes

/-- `File.directory?` -/
def Disk.isDirectory (d : Disk) (path : Bytes) : Bool :=
  match d.kind path with
  | .directory _ => true
  | _ => false

/-- `File.join (a, b)`: one slash between them -/
def join (a b : Bytes) : Bytes := (a.reverse.dropWhile (· == 0x2f)).reverse ++ 0x2f :: b.dropWhile (· == 0x2f)

/-- the files of a directory, path.rb 26-34 -/
def Disk.files (d : Disk) (path : Bytes) (entries : List Bytes) : List Bytes :=
  ((entries.filter fun e => !(e == [0x2e] || e == [0x2e, 0x2e])).map (join path)).filter fun p => !d.isDirectory p

/-- the loop over the load path, 23-44: `return` throws away what was found so far -/
def Disk.search (d : Disk) (path : Bytes) : List Bytes → List Bytes → List Bytes
  | [], found => found
  | dir :: dirs, found =>
    match d.kind (join dir path) with
    | .directory entries => d.files (join dir path) entries
    | .file => [join dir path]
    | .nothing => d.search path dirs (found ++ (d.glob (join dir path)).filter fun p => !d.isDirectory p)

/-- `resolve_path`, 21-45; an absolute path begins with a slash -/
def Disk.resolve (d : Disk) (dirs : List Bytes) (path : Bytes) : List Bytes :=
  if path.head? = some 0x2f then [path] else d.search path dirs []

/-- the files `load` reads, or `none` for the error `NonexistentPath`, manager.rb 441-445, 495-499 -/
def Disk.load (d : Disk) (dirs : List Bytes) (path : Bytes) : Option (List Bytes) :=
  let found := d.resolve dirs path
  if found = [] then none else some found

end Verif.Path
