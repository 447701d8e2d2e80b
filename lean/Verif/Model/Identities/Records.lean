import Verif.Model.Json.Identities
import Verif.Spec.Files

/-!
# The files of entries, statements, wallet bills, wallets and cancels

The five packages have the same repository and service: a record is kept as a JSON text in the file
that is named by its hash. The file repository and service are those of the disk (`libs/file`).
-/

namespace Verif

/-- What the five packages fill in: the hash, `adapter.ToJSON` and `adapter.To...` (in every one of
them `adapter.go:14-27`; both go through `encoding/json`). -/
structure Records (α : Type) where
  hash : α → Hash
  text : α → Option Bytes
  parse : Bytes → Outcome α

/-- `service.go:21-29` (`Save`) of `wallets`, `wallets/bills`, `wallets/statements`,
`wallets/statements/entries` and `cancels`. -/
def Records.save {α : Type} (k : Records α) (w : Place) (d : Disk) (x : α) : Outcome Unit × Disk :=
  match k.text x with
  | none => (.err "json: error calling MarshalJSON", d)
  | some b => diskSave w d (k.hash x).str b

/-- `service.go:32-34` (`Delete`) of the packages above but `cancels`, which has none. -/
def Records.delete {α : Type} (k : Records α) (w : Place) (d : Disk) (x : α) : Outcome Unit × Disk :=
  diskDelete w d (k.hash x).str

/-- `repository.go:23-30` (`Retrieve`) of the packages above. -/
def Records.retrieve {α : Type} (k : Records α) (w : Place) (d : Disk) (h : Hash) : Outcome α := do
  let b ← diskRetrieve w d h.str
  k.parse b

section
variable [Sha512]

/-- `wallets/statements/entries/adapter.go:14-27`, `entry.go:112-136`. -/
def entryRecords : Records TrEntry :=
  ⟨TrEntry.hash, fun e => jTrEntryC.text e.toJSON, fun b =>
    match jTrEntryC.read b with
    | none => .err "invalid JSON"
    | some js => trEntryFromJSON js⟩

/-- `wallets/statements/adapter.go:14-27`, `statement.go:132-155`. -/
def statementRecords : Records TrStatement :=
  ⟨TrStatement.hash, fun s => jTrStatementC.text s.toJSON, fun b =>
    match jTrStatementC.read b with
    | none => .err "invalid JSON"
    | some js => trStatementFromJSON js⟩

/-- `wallets/adapter.go:14-27`, `wallet.go:153-177`. -/
def walletRecords : Records TrWallet :=
  ⟨TrWallet.hash, fun w => jTrWalletC.text w.toJSON, fun b =>
    match jTrWalletC.read b with
    | none => .err "invalid JSON"
    | some js => trWalletFromJSON js⟩

/-- `wallets/bills/adapter.go:14-27`, `bill.go:86-107`. -/
def walletBillRecords [Curve] : Records TrWalletBill :=
  ⟨TrWalletBill.hash, fun b => jTrWalletBillC.text b.toJSON, fun b =>
    match jTrWalletBillC.read b with
    | none => .err "invalid JSON"
    | some js => trWalletBillFromJSON js⟩

/-- `cancels/adapter.go:14-27`, `cancel.go:99-123`. -/
def cancelRecords [Curve] : Records TrCancel :=
  ⟨TrCancel.hash, fun c => jTrCancelC.text c.toJSON, fun b =>
    match jTrCancelC.read b with
    | none => .err "invalid JSON"
    | some js => trCancelFromJSON js⟩

end

end Verif
