import Verif.Model.Identities.Memory
import Verif.Model.Store.Store

/-!
# Model of `domain/transfers/identities` and `domain/transfers/piastres/cancels`

Transfer objects, builders, JSON structures, and the files identities and wallets are kept in. Lists
that may be nil are optional here, because `HasWallets` and the like compare with nil. Names, seeds,
roots and descriptions are free texts: `jsonText` is what `encoding/json` makes of them.
-/

namespace Verif

/-- A list that is kept only if it is not empty. -/
def keepNonEmpty {α : Type} (l : Option (List α)) : Option (List α) :=
  match l with
  | some [] => none
  | l => l

/-! ## Entries -/

/-- `wallets/statements/entries/entry.go:11-16`; the empty description stands for none. -/
structure TrEntry where
  hash : Hash
  name : Bytes
  trx : List Hash
  description : Bytes
  createdOn : Time
  deriving DecidableEq

/-- `wallets/statements/entries/json_entry.go:5-11`. -/
structure JTrEntry where
  hash : Bytes
  name : Bytes
  trx : List Bytes
  description : Bytes
  createdOn : Time
  deriving DecidableEq

/-- `wallets/statements/entries/builder.go:71-98` (`Now`). -/
def trEntryNow (hash : Option Hash) (name : Bytes) (trx : Option (List Hash)) (description : Bytes)
    (createdOn : Time) : Outcome TrEntry := do
  let hash ← Outcome.require "the hash is mandatory in order to build an Entry instance" hash
  Outcome.guardNot name.isEmpty "the name is mandatory in order to build an Entry instance"
  let trx ← Outcome.require
    "the []Transaction are mandatory in order to build an Entry instance" trx
  Outcome.guardNot trx.isEmpty
    "there must be at least 1 Transaction in order to build an Entry instance"
  .ok ⟨hash, name, trx, description, createdOn⟩

/-- `wallets/statements/entries/json_entry.go:13-29`. -/
def TrEntry.toJSON (e : TrEntry) : JTrEntry :=
  ⟨e.hash.str, e.name, e.trx.map Hash.str, e.description, e.createdOn⟩

/-! ## Statements -/

/-- `wallets/statements/statement.go:11-15`. -/
structure TrStatement where
  hash : Hash
  incoming : Option (List Hash)
  outgoing : Option (List Hash)
  createdOn : Time
  deriving DecidableEq

/-- `wallets/statements/json_statement.go:5-10`. -/
structure JTrStatement where
  hash : Bytes
  incoming : List Bytes
  outgoing : List Bytes
  createdOn : Time
  deriving DecidableEq

/-- `wallets/statements/builder.go:63-94` (`Now`): empty lists become nil. -/
def trStatementNow (hash : Option Hash) (incoming outgoing : Option (List Hash)) (createdOn : Time) :
    Outcome TrStatement := do
  let hash ← Outcome.require "the hash is mandatory in order to build a Statement instance" hash
  .ok ⟨hash, keepNonEmpty incoming, keepNonEmpty outgoing, createdOn⟩

/-- `wallets/statements/json_statement.go:12-33`. -/
def TrStatement.toJSON (s : TrStatement) : JTrStatement :=
  ⟨s.hash.str, (s.incoming.getD []).map Hash.str, (s.outgoing.getD []).map Hash.str, s.createdOn⟩

/-! ## Bills of wallets -/

section
variable [C : Curve]

/-- `wallets/bills/bill.go:12-16`. -/
structure TrWalletBill where
  hash : Hash
  bill : Hash
  pks : List Scalar
  createdOn : Time

/-- `wallets/bills/builder.go:64-87` (`Now`). -/
def trWalletBillNow (hash bill : Option Hash) (pks : Option (List Scalar)) (createdOn : Time) :
    Outcome TrWalletBill := do
  let hash ← Outcome.require "the hash is mandatory in order to build a Bill instance" hash
  let bill ← Outcome.require "the bill is mandatory in order to build a Bill instance" bill
  let pks ← Outcome.require "the []PrivateKey are mandatory in order to build a Bill instance" pks
  Outcome.guardNot pks.isEmpty
    "there must be at least 1 PrivateKey in order to build a PrivateKey instance"
  .ok ⟨hash, bill, pks, createdOn⟩

end

/-- `wallets/bills/json_bill.go:5-10`. -/
structure JTrWalletBill where
  hash : Bytes
  bill : Bytes
  pks : List Bytes
  createdOn : Time
  deriving DecidableEq

/-- `wallets/bills/json_bill.go:12-25`. -/
def TrWalletBill.toJSON [C : Curve] (b : TrWalletBill) : JTrWalletBill :=
  ⟨b.hash.str, b.bill.str, b.pks.map scStr, b.createdOn⟩

/-! ## Wallets -/

/-- `wallets/wallet.go:11-17`. -/
structure TrWallet where
  hash : Hash
  name : Bytes
  bills : Option (List Hash)
  statement : Hash
  description : Bytes
  createdOn : Time
  deriving DecidableEq

/-- `wallets/json_wallet.go:5-12`. -/
structure JTrWallet where
  hash : Bytes
  name : Bytes
  description : Bytes
  statement : Bytes
  bills : List Bytes
  createdOn : Time
  deriving DecidableEq

/-- `wallets/builder.go:79-114` (`Now`): line 88 refuses a statement that is given; all four
constructor calls (101-113) dereference one that is not. -/
def trWalletNow (hash : Option Hash) (name : Bytes) (bills : Option (List Hash))
    (statement : Option Hash) (description : Bytes) (createdOn : Time) : Outcome TrWallet := do
  let hash ← Outcome.require "the hash is mandatory in order to build a Wallet instance" hash
  Outcome.guardNot name.isEmpty "the name is mandatory in order to build a Wallet instance"
  Outcome.guardNot statement.isSome "the statement is mandatory in order to build a Wallet instance"
  let statement ← Outcome.deref statement
  .ok ⟨hash, name, keepNonEmpty bills, statement, description, createdOn⟩

/-- `wallets/json_wallet.go:14-38`. -/
def TrWallet.toJSON (w : TrWallet) : JTrWallet :=
  ⟨w.hash.str, w.name, w.description, w.statement.str,
    (w.bills.getD []).map Hash.str, w.createdOn⟩

/-! ## Identities -/

/-- `identity.go:11-18`. -/
structure TrIdentity where
  hash : Hash
  seed : Bytes
  name : Bytes
  root : Bytes
  wallets : Option (List Hash)
  buckets : Option (List Hash)
  createdOn : Time
  lastUpdatedOn : Time
  deriving DecidableEq

/-- `json_identity.go:5-13`: no time of the last update. -/
structure JTrIdentity where
  hash : Bytes
  seed : Bytes
  name : Bytes
  root : Bytes
  wallets : List Bytes
  buckets : List Bytes
  createdOn : Time
  deriving DecidableEq

/-- `builder.go:95-130` (`Now`): lists are kept as they are. -/
def trIdentityNow (hash : Option Hash) (seed name root : Bytes) (wallets buckets : Option (List Hash))
    (createdOn lastUpdatedOn : Option Time) (now₁ now₂ : Time) : Outcome TrIdentity := do
  let hash ← Outcome.require "the hash is mandatory in order to build an Identity instance" hash
  Outcome.guardNot seed.isEmpty "the seed is mandatory in order to build an Identity instance"
  Outcome.guardNot name.isEmpty "the name is mandatory in order to build an Identity instance"
  Outcome.guardNot root.isEmpty "the root is mandatory in order to build an Identity instance"
  let mutable ← (MutableBuilder.now ⟨some hash, createdOn, lastUpdatedOn⟩ now₁ now₂).1
  .ok ⟨mutable.hash, seed, name, root, wallets, buckets, mutable.createdOn, mutable.lastUpdatedOn⟩

/-- `json_identity.go:15-40`. -/
def TrIdentity.toJSON (i : TrIdentity) : JTrIdentity :=
  ⟨i.hash.str, i.seed, i.name, i.root,
    (i.wallets.getD []).map Hash.str, (i.buckets.getD []).map Hash.str, i.createdOn⟩

/-! ## Cancels -/

/-- `domain/transfers/piastres/cancels/cancel.go:12-17`. -/
structure TrCancel [C : Curve] where
  hash : Hash
  expense : Hash
  lock : Hash
  signatures : List RingSignature
  createdOn : Time

/-- `cancels/json_cancel.go:7-13`. -/
structure JTrCancel where
  hash : Bytes
  expense : Bytes
  lock : Bytes
  signatures : List Bytes
  createdOn : Time
  deriving DecidableEq

/-- `cancels/builder.go:72-100` (`Now`). -/
def trCancelNow [C : Curve] (hash expense lock : Option Hash)
    (signatures : Option (List RingSignature)) (createdOn : Time) : Outcome TrCancel := do
  let hash ← Outcome.require "the hash is mandatory in order to build a Cancel instance" hash
  let expense ← Outcome.require
    "the expense hash is mandatory in order to build a Cancel instance" expense
  let lock ← Outcome.require "the lock hash is mandatory in order to build a Cancel instance" lock
  let signatures ← Outcome.require
    "the ring signatures are mandatory in order to build a Cancel instance" signatures
  Outcome.guardNot signatures.isEmpty
    "there must be at least 1 ring signature in order to build a Cancel instance"
  .ok ⟨hash, expense, lock, signatures, createdOn⟩

/-- `cancels/json_cancel.go:15-28`. -/
def TrCancel.toJSON [C : Curve] (c : TrCancel) : JTrCancel :=
  ⟨c.hash.str, c.expense.str, c.lock.str, c.signatures.map RingSignature.str, c.createdOn⟩

/-! ## Reading -/

section
variable [Sha512]

/-- Hashes that are given to a builder only if there are any
(`if len(...) > 0 { ... builder.With...(...) }`). -/
def hashesIfAny (l : List Bytes) : Outcome (Option (List Hash)) :=
  if l.length > 0 then do
    let hs ← mapO fromString l
    .ok (some hs)
  else .ok none

/-- `wallets/statements/entries/entry.go:18-46` (`createEntryFromJSON`). -/
def trEntryFromJSON (ins : JTrEntry) : Outcome TrEntry := do
  let hsh ← fromString ins.hash
  let trx ← mapO fromString ins.trx
  trEntryNow (some hsh) (jsonText ins.name) (some trx) (jsonText ins.description) ins.createdOn

/-- `wallets/statements/statement.go:17-57` (`createStatementFromJSON`). -/
def trStatementFromJSON (ins : JTrStatement) : Outcome TrStatement := do
  let hsh ← fromString ins.hash
  let incoming ← hashesIfAny ins.incoming
  let outgoing ← hashesIfAny ins.outgoing
  trStatementNow (some hsh) incoming outgoing ins.createdOn

/-- `wallets/bills/bill.go:18-47` (`createBillFromJSON`). -/
def trWalletBillFromJSON [Curve] (ins : JTrWalletBill) : Outcome TrWalletBill := do
  let hsh ← fromString ins.hash
  let bill ← fromString ins.bill
  let pks ← mapO toPrivateKey ins.pks
  trWalletBillNow (some hsh) (some bill) (some pks) ins.createdOn

/-- `wallets/wallet.go:19-56` (`createWalletFromJSON`), and `UnmarshalJSON` (159-177), which does not
take over the description. -/
def trWalletFromJSON (ins : JTrWallet) : Outcome TrWallet := do
  let hsh ← fromString ins.hash
  let statement ← fromString ins.statement
  let bills ← hashesIfAny ins.bills
  let w ← trWalletNow (some hsh) (jsonText ins.name) bills (some statement)
    (jsonText ins.description) ins.createdOn
  .ok { w with description := [] }

/-- `identity.go:20-63` (`createIdentityFromJSON`), `identity.go:181-201` (`UnmarshalJSON`): the time of the
last update is the time of reading. -/
def trIdentityFromJSON (ins : JTrIdentity) (now₁ now₂ : Time) : Outcome TrIdentity := do
  let hsh ← fromString ins.hash
  let wallets ← hashesIfAny ins.wallets
  let buckets ← hashesIfAny ins.buckets
  trIdentityNow (some hsh) (jsonText ins.seed) (jsonText ins.name) (jsonText ins.root) wallets buckets
    (some ins.createdOn) none now₁ now₂

/-- `cancels/cancel.go:19-55` (`createCancelFromJSON`). -/
def trCancelFromJSON [Curve] (ins : JTrCancel) : Outcome TrCancel := do
  let hsh ← fromString ins.hash
  let expense ← fromString ins.expense
  let lock ← fromString ins.lock
  let sigs ← mapO toRingSignature ins.signatures
  trCancelNow (some hsh) (some expense) (some lock) (some sigs) ins.createdOn

/-! ## Files -/

/-- `helper.go:11-20` (`makeFileName`): SHA-512 of the text of the hash followed by the seed. Unlike
`FromBytes`, inputs of 64 bytes are hashed too; the text of a hash alone has 128 bytes. -/
def identityFile (hash : Hash) (seed : Bytes) : Bytes := (Sha512.sum (hash.str ++ seed)).str

/-- The directory of the identity service. -/
abbrev IdentityFiles := Bytes → Option (Cell JTrIdentity)

/-- `service.go:24-36` (`Save`), without write errors. -/
def saveTrIdentity (i : TrIdentity) (σ : IdentityFiles) : IdentityFiles :=
  setFile σ (identityFile i.hash i.seed) (.json i.toJSON)

/-- `service.go:39-46` (`Delete`): deleting a file that does not exist is an error
(`libs/file/file_disk_service.go:35-43`). -/
def deleteTrIdentity (i : TrIdentity) (σ : IdentityFiles) : Outcome Unit × IdentityFiles :=
  match σ (identityFile i.hash i.seed) with
  | none => (.err "the given relative path does not exists", σ)
  | some _ => (.ok (), fun p => if p = identityFile i.hash i.seed then none else σ p)

/-- `repository.go:22-35` (`Retrieve`) with `adapter.go:14-22` (`ToIdentity`). -/
def retrTrIdentity (σ : IdentityFiles) (hash : Hash) (seed : Bytes) (now₁ now₂ : Time) :
    Outcome TrIdentity := do
  let js ← readCell (σ (identityFile hash seed))
  trIdentityFromJSON js now₁ now₂

end

end Verif
