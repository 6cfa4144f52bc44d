import Verif.Model.Uuid
import Verif.Model.Outcome
/-! # Directories of tests

Models `resim/testing/test_directory.{hh,cc}` and the functions of `std::filesystem` it uses. -/
namespace Verif.TestDirectory

/-- `std::filesystem::path`, absolute: the names from the root on (resim/testing/test_directory.hh:41).  `.` and `..` are names like any other: none of
the paths made in test_directory.cc has them unless the caller puts them there. -/
abbrev Path := List (List Char)

/-- What is at a path (resim/testing/test_directory.cc:18,22): a file with its text or a directory.  Links and permissions are left out. -/
inductive Node
  | file (text : List Char)
  | dir
deriving DecidableEq

/-- The file system that resim/testing/test_directory.cc:17-22 works on. -/
abbrev Fs := Path → Option Node

/-- `fs::create_directory` (resim/testing/test_directory.cc:18): true if the directory was made, false if there was one already; an exception if there is
no directory to put it into, or a file in its place. -/
def createDirectory (fs : Fs) (p : Path) : Outcome (Bool × Fs) :=
  match fs p.dropLast, fs p with
  | some .dir, none => .ok (true, fun q => if q = p then some .dir else fs q)
  | some .dir, some .dir => .ok (false, fs)
  | _, _ => .throw "filesystem_error"

/-- `fs::remove_all` (resim/testing/test_directory.cc:22): nothing is left at the path or below. -/
def removeAll (fs : Fs) (p : Path) : Fs := fun q => if p <+: q then none else fs q

/-- `fs::temp_directory_path` (resim/testing/test_directory.cc:17): throws if it is not a directory. -/
def tempDirectoryPath (tmp : Path) (fs : Fs) : Outcome Path :=
  if fs tmp = some .dir then .ok tmp else .throw "filesystem_error"

/-- The names in a text with `/` between them, as `operator/` of `fs::path` appends them (resim/testing/test_directory.cc:17,29,31). -/
def names : List Char → Path
  | [] => [[]]
  | c :: s =>
    if c = '/' then [] :: names s
    else match names s with
      | [] => [[c]]
      | n :: ns => (c :: n) :: ns

/-- The constructor (resim/testing/test_directory.cc:16-20), where `u` is what `UUID::new_uuid` gives.  Returns `path_` and the file system after. -/
def construct (tmp : Path) (fs : Fs) (u : Uuid) : Outcome (Path × Fs) := do
  let t ← tempDirectoryPath tmp fs
  let p := t ++ names u.toStr
  let (cond, fs') ← createDirectory fs p
  Outcome.reassert (cond = true) "Failed to make directory!"
  pure (p, fs')

/-- The destructor (resim/testing/test_directory.cc:22). -/
def destroy (fs : Fs) (path : Path) : Fs := removeAll fs path

/-- `test_file_path` (resim/testing/test_directory.cc:26-32), where `u` is what `UUID::new_uuid` gives. -/
def testFilePath (path : Path) (u : Uuid) (extension : List Char) : Path :=
  if extension = [] then path ++ names u.toStr
  else path ++ names (u.toStr ++ ['.'] ++ extension)

/-- A process with test directories: the file system and the `path_` of each of them alive, under the name of the object
(resim/testing/test_directory.hh:41). -/
structure State where
  fs : Fs
  live : List (Nat × Path)

/-- What can happen (resim/testing/test_directory.cc:16-22): an object is made, with whatever identifier the generator gives; an object is destroyed; the
tests or other processes change the file system, but leave the directories of the living objects where they are.  Objects can be neither copied nor moved
(resim/testing/test_directory.hh:26-29).  A constructor that throws leaves no object, so its destructor does not run. -/
inductive Step (tmp : Path) : State → State → Prop
  | made {s : State} (i : Nat) (u : Uuid) (p : Path) (fs' : Fs) : i ∉ s.live.map Prod.fst → construct tmp s.fs u = .ok (p, fs') →
      Step tmp s ⟨fs', (i, p) :: s.live⟩
  | failed {s : State} (u : Uuid) : (construct tmp s.fs u).IsThrow → Step tmp s s
  | destroyed {s : State} (i : Nat) (p : Path) : (i, p) ∈ s.live → Step tmp s ⟨destroy s.fs p, s.live.filter (fun o => o.1 ≠ i)⟩
  | changed {s : State} (fs' : Fs) : (∀ o ∈ s.live, fs' o.2 = some .dir) → Step tmp s ⟨fs', s.live⟩

/-- All that can be reached from no objects (resim/testing/test_directory.cc:16-22). -/
inductive Reachable (tmp : Path) : State → Prop
  | start (fs : Fs) : Reachable tmp ⟨fs, []⟩
  | step {s t : State} : Reachable tmp s → Step tmp s t → Reachable tmp t

end Verif.TestDirectory
