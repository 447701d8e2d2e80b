import Mathlib.Data.List.Dedup
import Verif.Base.Split
import Verif.Base.Outcome
import Verif.Model.Encryption

/-!
# Model of `libs/file`

The file system is a finite set of absolute paths, each a regular file with content or a directory.
Not modelled: symbolic links, permissions, full disks and other I/O errors (for interrupted writes
see `Verif.Model.Store.Store`), limits on names, NUL bytes in names.
-/

namespace Verif

/-- An absolute path without `.`, `..` and empty elements; the root is `[]`. -/
abbrev Path := List Bytes

/-- One step of `filepath.Clean` on path elements: empty and `.` elements are dropped, `..` goes up,
at the root it is dropped. -/
def walk (p : Path) (name : Bytes) : Path :=
  if name = [] ∨ name = [46] then p
  else if name = [46, 46] then p.dropLast
  else p ++ [name]

/-- The file a path text denotes: `filepath.Clean`, then relative to the working directory `cwd`
unless it starts with `/`. Cleaning is textual and happens before the system sees the path, so
missing directories before a `..` do not matter. -/
def absolute (cwd : Path) (text : Bytes) : Path :=
  (splitOn 47 text).foldl walk (if text.head? = some 47 then [] else cwd)

/-- `filepath.Join(a, b)` before cleaning: empty elements are ignored. (`Join("", "")` is `""`, which
names no file; here it is the working directory, which is no regular file either.) -/
def joinText (a b : Bytes) : Bytes :=
  if a = [] then b else if b = [] then a else a ++ 47 :: b

/-- An entry of the file system. -/
inductive Node where
  | file (content : Bytes)
  | dir
  deriving DecidableEq

/-- The file system: a list of entries; an earlier entry for a path counts. The root is always a
directory. -/
abbrev Disk := List (Path × Node)

namespace Disk

/-- `os.Stat` / what is at a path. -/
def at? (d : Disk) (p : Path) : Option Node :=
  if p = [] then some .dir else (d.find? fun e => e.1 = p).map Prod.snd

/-- Puts an entry. -/
def put (d : Disk) (p : Path) (n : Node) : Disk := (p, n) :: d.filter fun e => e.1 ≠ p

/-- Removes an entry. -/
def drop (d : Disk) (p : Path) : Disk := d.filter fun e => e.1 ≠ p

/-- The paths of the entries directly below `p`. -/
def below (d : Disk) (p : Path) : List Path :=
  ((d.map Prod.fst).filter fun q => q ≠ [] ∧ q.dropLast = p ∧ d.at? q ≠ none).dedup

/-- `os.MkdirAll`, from the root down; `p` is a directory already. On an element that is a regular
file it stops. -/
def mkdirAll (d : Disk) (p : Path) : Path → Disk
  | [] => d
  | name :: rest =>
    match d.at? (p ++ [name]) with
    | some .dir => mkdirAll d (p ++ [name]) rest
    | some (.file _) => d
    | none => mkdirAll (d.put (p ++ [name]) .dir) (p ++ [name]) rest

/-- Is an element above `p` a regular file? Then the system answers `ENOTDIR`. -/
def blocked (d : Disk) (p : Path) : Bool :=
  (List.range p.length).any fun k =>
    match d.at? (p.take k) with
    | some (.file _) => true
    | _ => false

/-- `os.IsNotExist` of the error of `os.Stat`. -/
def missing (d : Disk) (p : Path) : Bool := d.at? p = none && !d.blocked p

/-- `ioutil.WriteFile`. -/
def writeFile (d : Disk) (p : Path) (content : Bytes) : Outcome Unit × Disk :=
  match d.at? p with
  | some .dir => (.err "is a directory", d)
  | some (.file _) => (.ok (), d.put p (.file content))
  | none =>
    if d.at? p.dropLast = some .dir then (.ok (), d.put p (.file content))
    else (.err "no such file or directory", d)

/-- `os.Remove`. -/
def remove (d : Disk) (p : Path) : Outcome Unit × Disk :=
  match d.at? p with
  | none => (.err "no such file or directory", d)
  | some (.file _) => (.ok (), d.drop p)
  | some .dir =>
    if p = [] ∨ d.below p ≠ [] then (.err "directory not empty", d) else (.ok (), d.drop p)

end Disk

/-- Where a disk store works: the working directory of the process and the base path. -/
structure Place where
  cwd : Path
  base : Bytes

/-- `filepath.Join(app.basePath, relativePath)`. -/
def Place.resolve (w : Place) (rel : Bytes) : Path := absolute w.cwd (joinText w.base rel)

/-- `file_disk_service.go:24-32` (`Save`). -/
def diskSave (w : Place) (d : Disk) (rel content : Bytes) : Outcome Unit × Disk :=
  let p := w.resolve rel
  let d := if d.missing p then d.mkdirAll [] p.dropLast else d
  d.writeFile p content

/-- `file_disk_service.go:35-43` (`Delete`). -/
def diskDelete (w : Place) (d : Disk) (rel : Bytes) : Outcome Unit × Disk :=
  let p := w.resolve rel
  if d.missing p then (.err "the given relative path does not exists", d) else d.remove p

/-- `file_disk_service.go:46-55` (`DeleteAll`). -/
def diskDeleteAll (w : Place) (d : Disk) : List Bytes → Outcome Unit × Disk
  | [] => (.ok (), d)
  | rel :: rest =>
    match diskDelete w d rel with
    | (.ok (), d) => diskDeleteAll w d rest
    | (.err m, d) => (.err m, d)
    | (.crash c, d) => (.crash c, d)

/-- `file_disk_repository.go:21-29` (`Retrieve`). -/
def diskRetrieve (w : Place) (d : Disk) (rel : Bytes) : Outcome Bytes :=
  match d.at? (w.resolve rel) with
  | some (.file c) => .ok c
  | some .dir => .err "is a directory"
  | none => .err "no such file or directory"

/-- The order of `ioutil.ReadDir`: by name. -/
def nameLe : Bytes → Bytes → Bool
  | [], _ => true
  | _ :: _, [] => false
  | a :: as, b :: bs => a < b || (a == b && nameLe as bs)

/-- `file_disk_repository.go:32-49` (`RetrieveAll`). -/
def diskRetrieveAll (w : Place) (d : Disk) (rel : Bytes) : Outcome (List Bytes) :=
  let p := w.resolve rel
  match d.at? p with
  | some .dir =>
    let files := (d.below p).filter fun q => decide (d.at? q ≠ some .dir)
    .ok ((files.map fun q => q.getLastD []).mergeSort nameLe)
  | some (.file _) => .err "not a directory"
  | none => .err "no such file or directory"

/-! ## The store used in tests -/

/-- `repository_service_tests.go:10-12`: a map from path texts to contents, as the list of its
entries. The order in which Go ranges over a map is arbitrary. -/
abbrev TestStore := List (Bytes × Bytes)

/-- `repository_service_tests.go:24-31` (`Retrieve`). -/
def testRetrieve (d : TestStore) (rel : Bytes) : Outcome Bytes :=
  match d.find? fun e => e.1 = rel with
  | some e => .ok e.2
  | none => .err "the relativePath does not exists"

/-- `repository_service_tests.go:56-59` (`Save`). -/
def testSave (d : TestStore) (rel content : Bytes) : Outcome Unit × TestStore :=
  (.ok (), (rel, content) :: d.filter fun e => e.1 ≠ rel)

/-- `repository_service_tests.go:62-70` (`Delete`). -/
def testDelete (d : TestStore) (rel : Bytes) : Outcome Unit × TestStore :=
  match d.find? fun e => e.1 = rel with
  | some _ => (.ok (), d.filter fun e => e.1 ≠ rel)
  | none => (.err "the given relativePath is invalid", d)

/-- `repository_service_tests.go:73-82` (`DeleteAll`). -/
def testDeleteAll (d : TestStore) : List Bytes → Outcome Unit × TestStore
  | [] => (.ok (), d)
  | rel :: rest =>
    match testDelete d rel with
    | (.ok (), d) => testDeleteAll d rest
    | (.err m, d) => (.err m, d)
    | (.crash c, d) => (.crash c, d)

/-- `filepath.Dir` before cleaning: the text up to and including its last `/`. -/
def dirText (path : Bytes) : Bytes :=
  joinWith 47 ((splitOn 47 path).dropLast ++ (if (splitOn 47 path).length = 1 then [] else [[]]))

/-- `repository_service_tests.go:34-53` (`RetrieveAll`), in the order of the entries. -/
def testRetrieveAll (cwd : Path) (d : TestStore) (rel : Bytes) : Outcome (List Bytes) :=
  .ok ((d.filter fun e => absolute cwd (dirText e.1) = absolute cwd rel).map Prod.fst)

/-! ## Encrypted stores -/

section
variable [K : Cipher]

/-- `encrypted_file_disk_service.go:22-29` (`Save`); `iv` as in `encrypt`. -/
def encSave (w : Place) (password : Bytes) (d : Disk) (rel content iv : Bytes) :
    Outcome Unit × Disk := diskSave w d rel (encrypt password iv content)

/-- `encrypted_file_disk_repository.go:22-29` (`Retrieve`). -/
def encRetrieve (w : Place) (password : Bytes) (d : Disk) (rel : Bytes) : Outcome Bytes :=
  (diskRetrieve w d rel).bind (decrypt password)

end

end Verif
