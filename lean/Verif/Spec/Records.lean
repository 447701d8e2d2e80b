import Verif.Model.Identities.Records

/-!
# Histories of records
-/

namespace Verif

/-- A call of the service of a kind of records. -/
inductive RecordOp (α : Type) where
  | save (x : α)
  | delete (x : α)

/-- The record of a call. -/
def RecordOp.record {α : Type} : RecordOp α → α
  | save x => x
  | delete x => x

/-- A history of calls: the result of every call, and the file system afterwards. -/
def runRecords {α : Type} (k : Records α) (w : Place) : Disk → List (RecordOp α) →
    List (Outcome Unit) × Disk
  | d, [] => ([], d)
  | d, op :: ops =>
    let r := match op with
      | .save x => k.save w d x
      | .delete x => k.delete w d x
    let rest := runRecords k w r.2 ops
    (r.1 :: rest.1, rest.2)

/-- What the calls and their results say about a hash: nothing, that its record was last deleted, or
that a record was last saved. -/
inductive RecordSaid (α : Type) where
  | nothing
  | deleted
  | saved (x : α)
  deriving DecidableEq

/-- The last call with this hash that returned nil counts. -/
def lastRecord {α : Type} (hash : α → Hash) (h : Hash) :
    List (RecordOp α × Outcome Unit) → RecordSaid α
  | [] => .nothing
  | (op, r) :: rest =>
    match lastRecord hash h rest with
    | .nothing =>
      if hash op.record = h ∧ r = .ok () then
        match op with
        | .save x => .saved x
        | .delete _ => .deleted
      else .nothing
    | s => s

end Verif
