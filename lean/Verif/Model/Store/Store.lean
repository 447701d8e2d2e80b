import Verif.Model.Store.Transfers

/-!
# The file store and programs that use it

The files are kept in one directory per kind of object (the constructors of the services take one
file service per kind, `domain/transfers/piastres/*/sdk.go`). The file name of an object is the text
of its hash; the genesis and the chain have one fixed file each; states are kept under
`filePath(chain, height)`.

A file is absent, or contains the JSON text of a structure, or is *torn*: a write replaced it by a
strict prefix of a JSON object (`ioutil.WriteFile` truncates the file first), which never decodes.
Files with other unreadable texts behave like torn ones. Reads do not fail on their own.
-/

namespace Verif

/-- Content of a file that exists. -/
inductive Cell (α : Type) where
  | torn
  | json (a : α)
  deriving DecidableEq

/-- All files. -/
structure Store where
  locks : Bytes → Option (Cell JTrLock)
  bills : Bytes → Option (Cell JTrBill)
  expenses : Bytes → Option (Cell JTrExpense)
  genesis : Option (Cell JTrGenesis)
  trxs : Bytes → Option (Cell JTrTransaction)
  blocks : Bytes → Option (Cell JTrBlock)
  minedBlocks : Bytes → Option (Cell JTrMined)
  links : Bytes → Option (Cell JTrLink)
  minedLinks : Bytes → Option (Cell JTrMined)
  chain : Option (Cell JTrChain)
  states : Bytes → Option (Cell JTrState)

/-- No files. -/
def Store.empty : Store :=
  ⟨fun _ => none, fun _ => none, fun _ => none, none, fun _ => none, fun _ => none, fun _ => none,
    fun _ => none, fun _ => none, none, fun _ => none⟩

/-- One file of a directory replaced. -/
def setFile {α : Type} (d : Bytes → Option (Cell α)) (p : Bytes) (c : Cell α) :
    Bytes → Option (Cell α) := fun q => if q = p then some c else d q

@[simp] theorem setFile_same {α : Type} (d : Bytes → Option (Cell α)) (p : Bytes) (c : Cell α) :
    setFile d p c p = some c := by simp [setFile]

theorem setFile_ne {α : Type} (d : Bytes → Option (Cell α)) {p q : Bytes} (c : Cell α)
    (h : q ≠ p) : setFile d p c q = d q := by simp [setFile, h]

/-- `file.Repository.Retrieve` (`libs/file/file_disk_repository.go:21-29`) followed by
`json.Unmarshal`: an absent or unreadable file is an error. -/
def readCell {α : Type} (c : Option (Cell α)) : Outcome α :=
  match c with
  | some (.json a) => .ok a
  | some .torn => .err "unexpected end of JSON input"
  | none => .err "no such file or directory"

/-- Programs over the store: return, look at the files, or write one file. A write is given by what
it does to the store when it completes and when it is torn, and goes on with its success. -/
inductive Prog (α : Type) : Type where
  | ret (o : Outcome α)
  | look (f : Store → Prog α)
  | write (done torn : Store → Store) (k : Bool → Prog α)

namespace Prog

variable {α β : Type}

/-- Sequencing with `if err != nil { return err }`. -/
def bind (p : Prog α) (f : α → Prog β) : Prog β :=
  match p with
  | ret (.ok a) => f a
  | ret (.err m) => ret (.err m)
  | ret (.crash c) => ret (.crash c)
  | look g => look fun σ => (g σ).bind f
  | write d t k => write d t fun b => (k b).bind f

instance : Monad Prog where
  pure a := ret (.ok a)
  bind := bind

/-- A computation that does not touch the files. -/
def lift (o : Outcome α) : Prog α := ret o

/-- `file.Service.Save` (`libs/file/file_disk_service.go:24-32`): the error of the write is
returned. -/
def save (done torn : Store → Store) : Prog Unit :=
  write done torn fun b => ret (if b then .ok () else .err "write error")

/-- A retrieval that is part of a larger program. -/
def get (f : Store → Outcome α) : Prog α := look fun σ => ret (f σ)

/-- `for _, x := range xs { err := f(x); if err != nil { return err } }`. -/
def forEach {γ : Type} (f : γ → Prog Unit) : List γ → Prog Unit
  | [] => ret (.ok ())
  | x :: xs => (f x).bind fun _ => forEach f xs

/-- The run without faults: result and final store. -/
def exec (p : Prog α) (σ : Store) : Outcome α × Store :=
  match p with
  | ret o => (o, σ)
  | look f => (f σ).exec σ
  | write d _ k => (k true).exec (d σ)

/-- Does the program write nothing when started in `σ`? -/
def Quiet (p : Prog α) (σ : Store) : Prop :=
  match p with
  | ret _ => True
  | look f => (f σ).Quiet σ
  | write _ _ _ => False

end Prog

/-- All runs of a program with write faults and crashes of the process. `Run p σ (some o) σ'`: the
program returned `o`; `Run p σ none σ'`: the process was killed. A write may complete, fail without
effect, or fail leaving a torn file; the process may be killed at every point, in particular after a
torn or completed write. -/
inductive Run {α : Type} : Prog α → Store → Option (Outcome α) → Store → Prop
  | ret (o : Outcome α) (σ : Store) : Run (.ret o) σ (some o) σ
  | killed (p : Prog α) (σ : Store) : Run p σ none σ
  | look {f : Store → Prog α} {σ σ' : Store} {r : Option (Outcome α)} :
      Run (f σ) σ r σ' → Run (.look f) σ r σ'
  | written {d t : Store → Store} {k : Bool → Prog α} {σ σ' : Store} {r : Option (Outcome α)} :
      Run (k true) (d σ) r σ' → Run (.write d t k) σ r σ'
  | failed {d t : Store → Store} {k : Bool → Prog α} {σ σ' : Store} {r : Option (Outcome α)} :
      Run (k false) σ r σ' → Run (.write d t k) σ r σ'
  | tornWrite {d t : Store → Store} {k : Bool → Prog α} {σ σ' : Store} {r : Option (Outcome α)} :
      Run (k false) (t σ) r σ' → Run (.write d t k) σ r σ'

end Verif
