import Verif.Model.Files

/-!
# Histories of file stores
-/

namespace Verif

/-- A call that changes a file store. -/
inductive FileOp where
  | save (rel content : Bytes)
  | delete (rel : Bytes)

/-- The path a call is about. -/
def FileOp.rel : FileOp → Bytes
  | save r _ => r
  | delete r => r

/-- A history of calls on a store: the result of every call, and the store afterwards. -/
def runOps {σ : Type} (step : σ → FileOp → Outcome Unit × σ) : σ → List FileOp →
    List (Outcome Unit) × σ
  | s, [] => ([], s)
  | s, op :: ops =>
    let r := step s op
    let rest := runOps step r.2 ops
    (r.1 :: rest.1, rest.2)

/-- One call on the disk store. -/
def diskStep (w : Place) (d : Disk) : FileOp → Outcome Unit × Disk
  | .save r c => diskSave w d r c
  | .delete r => diskDelete w d r

/-- One call on the test store. -/
def testStep (d : TestStore) : FileOp → Outcome Unit × TestStore
  | .save r c => testSave d r c
  | .delete r => testDelete d r

/-- What the calls and their results say about the file at `p`: nothing, that it was last removed,
or that it was last saved with some content. -/
inductive Said where
  | nothing
  | removed
  | saved (content : Bytes)
  deriving DecidableEq

/-- The last successful call about `p` counts; `file` tells which file a path text denotes. -/
def lastSaid {α : Type} [DecidableEq α] (file : Bytes → α) (p : α) :
    List (FileOp × Outcome Unit) → Said
  | [] => .nothing
  | (op, r) :: rest =>
    match lastSaid file p rest with
    | .nothing =>
      if file op.rel = p ∧ r = .ok () then
        match op with
        | .save _ c => .saved c
        | .delete _ => .removed
      else .nothing
    | s => s

/-- The file systems that exist: everything is inside of directories. -/
def Disk.Sound (d : Disk) : Prop :=
  ∀ p : Path, p ≠ [] → d.at? p ≠ none → d.at? p.dropLast = some .dir

/-- A name a file can have. -/
def ProperName (n : Bytes) : Prop := n ≠ [] ∧ n ≠ [46] ∧ n ≠ [46, 46] ∧ 47 ∉ n

end Verif
