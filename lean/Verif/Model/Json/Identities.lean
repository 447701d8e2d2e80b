import Verif.Model.Json.Tree
import Verif.Model.Identities.Transfers

/-!
# The objects of identities as JSON texts

The structures `JSON*` of `domain/transfers/identities` and `domain/transfers/piastres/cancels` with
their tags.
-/

namespace Verif

/-- `domain/transfers/identities/wallets/statements/entries/json_entry.go:5-11`; the tag of the name
is `string`. -/
def jTrEntryC : Codec JTrEntry :=
  structC ⟨[], [], [], [], 0⟩
    [fld "hash" strC JTrEntry.hash fun a s => { s with hash := a },
     fld "string" strC JTrEntry.name fun a s => { s with name := a },
     fld "transactions" (listC strC) JTrEntry.trx fun a s => { s with trx := a },
     fld "description" strC JTrEntry.description fun a s => { s with description := a },
     fld "created_on" timeC JTrEntry.createdOn fun a s => { s with createdOn := a }]

/-- `wallets/statements/json_statement.go:5-10`. -/
def jTrStatementC : Codec JTrStatement :=
  structC ⟨[], [], [], 0⟩
    [fld "hash" strC JTrStatement.hash fun a s => { s with hash := a },
     fld "incoming" (listC strC) JTrStatement.incoming fun a s => { s with incoming := a },
     fld "outgoing" (listC strC) JTrStatement.outgoing fun a s => { s with outgoing := a },
     fld "created_on" timeC JTrStatement.createdOn fun a s => { s with createdOn := a }]

/-- `wallets/bills/json_bill.go:5-10`. -/
def jTrWalletBillC : Codec JTrWalletBill :=
  structC ⟨[], [], [], 0⟩
    [fld "hash" strC JTrWalletBill.hash fun a s => { s with hash := a },
     fld "bill" strC JTrWalletBill.bill fun a s => { s with bill := a },
     fld "pks" (listC strC) JTrWalletBill.pks fun a s => { s with pks := a },
     fld "created_on" timeC JTrWalletBill.createdOn fun a s => { s with createdOn := a }]

/-- `wallets/json_wallet.go:5-12`. -/
def jTrWalletC : Codec JTrWallet :=
  structC ⟨[], [], [], [], [], 0⟩
    [fld "hash" strC JTrWallet.hash fun a s => { s with hash := a },
     fld "name" strC JTrWallet.name fun a s => { s with name := a },
     fld "description" strC JTrWallet.description fun a s => { s with description := a },
     fld "statement" strC JTrWallet.statement fun a s => { s with statement := a },
     fld "bills" (listC strC) JTrWallet.bills fun a s => { s with bills := a },
     fld "created_on" timeC JTrWallet.createdOn fun a s => { s with createdOn := a }]

/-- `json_identity.go:5-13`. -/
def jTrIdentityC : Codec JTrIdentity :=
  structC ⟨[], [], [], [], [], [], 0⟩
    [fld "hash" strC JTrIdentity.hash fun a s => { s with hash := a },
     fld "seed" strC JTrIdentity.seed fun a s => { s with seed := a },
     fld "name" strC JTrIdentity.name fun a s => { s with name := a },
     fld "root" strC JTrIdentity.root fun a s => { s with root := a },
     fld "wallets" (listC strC) JTrIdentity.wallets fun a s => { s with wallets := a },
     fld "buckets" (listC strC) JTrIdentity.buckets fun a s => { s with buckets := a },
     fld "created_on" timeC JTrIdentity.createdOn fun a s => { s with createdOn := a }]

/-- `domain/transfers/piastres/cancels/json_cancel.go:7-13`. -/
def jTrCancelC : Codec JTrCancel :=
  structC ⟨[], [], [], [], 0⟩
    [fld "hash" strC JTrCancel.hash fun a s => { s with hash := a },
     fld "expense" strC JTrCancel.expense fun a s => { s with expense := a },
     fld "lock" strC JTrCancel.lock fun a s => { s with lock := a },
     fld "signatures" (listC strC) JTrCancel.signatures fun a s => { s with signatures := a },
     fld "created_on" timeC JTrCancel.createdOn fun a s => { s with createdOn := a }]

/-! ## Reading what was written -/

theorem jTrEntryC_good (x : JTrEntry) : jTrEntryC.Good x := by
  struct_good ⟨strC_good _,
    strC_good _,
    listC_good fun a _ => strC_good a,
    strC_good _,
    timeC_good _⟩

theorem jTrStatementC_good (x : JTrStatement) : jTrStatementC.Good x := by
  struct_good ⟨strC_good _,
    listC_good fun a _ => strC_good a,
    listC_good fun a _ => strC_good a,
    timeC_good _⟩

theorem jTrWalletBillC_good (x : JTrWalletBill) : jTrWalletBillC.Good x := by
  struct_good ⟨strC_good _,
    strC_good _,
    listC_good fun a _ => strC_good a,
    timeC_good _⟩

theorem jTrWalletC_good (x : JTrWallet) : jTrWalletC.Good x := by
  struct_good ⟨strC_good _,
    strC_good _,
    strC_good _,
    strC_good _,
    listC_good fun a _ => strC_good a,
    timeC_good _⟩

theorem jTrIdentityC_good (x : JTrIdentity) : jTrIdentityC.Good x := by
  struct_good ⟨strC_good _,
    strC_good _,
    strC_good _,
    strC_good _,
    listC_good fun a _ => strC_good a,
    listC_good fun a _ => strC_good a,
    timeC_good _⟩

theorem jTrCancelC_good (x : JTrCancel) : jTrCancelC.Good x := by
  struct_good ⟨strC_good _,
    strC_good _,
    strC_good _,
    listC_good fun a _ => strC_good a,
    timeC_good _⟩

end Verif
