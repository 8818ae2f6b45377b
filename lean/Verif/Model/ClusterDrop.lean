import Verif.Model.Py
/-!
# Model of the removal of the files of a cluster (cluster.py:323-329, the end of `drop`) on a file system

The file system is a list of paths with their kinds. `os.walk(top, topdown = False)` is modelled on the tree of entries below the directory, which the walk finds
as it was before: a directory is listed before its subdirectories are walked, but it is yielded after them, and links are not followed. Nothing else changes the
files meanwhile; permissions are not modelled.
-/
namespace PG.ClusterDrop
open PG

/-- The kinds of entries of a directory: anything but a directory or a link to one, a link to a directory, a directory. -/
inductive Kind where
  | file | dirLink | dir
  deriving DecidableEq, Repr

/-- A path below the data directory: the names, outermost first. -/
abbrev Path := List Str
/-- What is below the data directory. -/
abbrev Fs := List (Path × Kind)

/-- The entries of a directory, in the order they are listed. -/
inductive Tree where
  | nil
  | file (name : Str) (rest : Tree)
  | dirLink (name : Str) (rest : Tree)
  | dir (name : Str) (sub : Tree) (rest : Tree)
  deriving Repr

/-- `ENOENT`, `ENOTDIR`, `EISDIR`, `ENOTEMPTY`. -/
inductive Errno where
  | enoent | enotdir | eisdir | enotempty
  deriving DecidableEq, Repr

/-- The kind of a path. -/
def kindOf (fs : Fs) (p : Path) : Option Kind := (fs.find? fun e => e.1 = p).map (·.2)

/-- The file system without a path. -/
def without (fs : Fs) (p : Path) : Fs := fs.filter fun e => e.1 ≠ p

/-- Whether a path lies below another. -/
def below (p q : Path) : Bool := p.isPrefixOf q && p ≠ q

/-- `os.remove`: links are removed themselves. -/
def remove (fs : Fs) (p : Path) : Except Errno Fs :=
  match kindOf fs p with
  | none => .error .enoent
  | some .dir => .error .eisdir
  | some _ => .ok (without fs p)

/-- `os.rmdir`. -/
def rmdir (fs : Fs) (p : Path) : Except Errno Fs :=
  match kindOf fs p with
  | none => .error .enoent
  | some .dir => if fs.any fun e => below p e.1 then .error .enotempty else .ok (without fs p)
  | some _ => .error .enotdir

/-- The calls of `drop`. -/
inductive Act where
  | remove (p : Path)
  | rmdir (p : Path)
  deriving DecidableEq, Repr

/-- The path that a call to the operating system is about. -/
def Act.path : Act → Path
  | .remove p => p
  | .rmdir p => p

/-- One call. -/
def step (fs : Fs) : Act → Except Errno Fs
  | .remove p => ClusterDrop.remove fs p
  | .rmdir p => ClusterDrop.rmdir fs p

/-- Calls in order, up to the first that raises: the file system then, and the exception. -/
def exec (fs : Fs) : List Act → Fs × Option Errno
  | [] => (fs, none)
  | a :: l => match step fs a with
    | .ok fs' => exec fs' l
    | .error e => (fs, some e)

/-- The names `os.walk` lists as directories: `is_dir()` follows links. -/
def dirs : Tree → List Str
  | .nil => []
  | .file _ t => dirs t
  | .dirLink n t => n :: dirs t
  | .dir n _ t => n :: dirs t

/-- The other names. -/
def files : Tree → List Str
  | .nil => []
  | .file n t => n :: files t
  | .dirLink _ t => files t
  | .dir _ _ t => files t

/-- What the walk yields for the subdirectories of a directory, in order; links are not walked into. -/
def subs (p : Path) : Tree → List (Path × List Str × List Str)
  | .nil => []
  | .file _ t => subs p t
  | .dirLink _ t => subs p t
  | .dir n s t => subs (p ++ [n]) s ++ (p ++ [n], dirs s, files s) :: subs p t

/-- `os.walk(p, topdown = False)`. -/
def walk (p : Path) (t : Tree) : List (Path × List Str × List Str) := subs p t ++ [(p, dirs t, files t)]

/-- The body of the loop (cluster.py:325-328). -/
def visit (x : Path × List Str × List Str) : List Act := x.2.2.map (fun n => .remove (x.1 ++ [n])) ++ x.2.1.map (fun n => .rmdir (x.1 ++ [n]))

/-- The calls of `drop` (cluster.py:324-329). -/
def removal (p : Path) (t : Tree) : List Act := (walk p t).flatMap visit ++ [.rmdir p]

/-- The paths of a tree. -/
def flatten (p : Path) : Tree → Fs
  | .nil => []
  | .file n t => (p ++ [n], .file) :: flatten p t
  | .dirLink n t => (p ++ [n], .dirLink) :: flatten p t
  | .dir n s t => (p ++ [n], .dir) :: (flatten (p ++ [n]) s ++ flatten p t)

end PG.ClusterDrop
