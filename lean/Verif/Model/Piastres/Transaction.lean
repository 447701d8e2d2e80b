import Verif.Model.Piastres.Expense

/-!
# Model of `domain/memory/piastres/transactions` and its `addresses`
-/

namespace Verif

/-- `transactions/addresses/address.go:11-16`; `recipients` is nil or non-empty, the empty list
stands for nil. -/
structure Address where
  hash : Hash
  sender : Option Hash
  recipients : List Hash
  subject : Option Hash
  createdOn : Time
  deriving DecidableEq

/-- `transactions/addresses/json_address.go:6-11`. -/
structure JSONAddress where
  sender : Bytes
  recipients : List Bytes
  subject : Bytes
  createdOn : Time
  deriving DecidableEq

/-- `transactions/transaction.go:13-18`; `fees` is nil or non-empty, the empty list stands for
nil. -/
structure Transaction [C : Curve] where
  hash : Hash
  address : Option Address
  bucket : Option Hash
  fees : List Expense
  createdOn : Time

/-- `transactions/json_transaction.go:11-16`. -/
structure JSONTransaction where
  address : Option JSONAddress
  fees : List (Option JSONExpense)
  bucket : Bytes
  createdOn : Time
  deriving DecidableEq

/-- `[]` when the optional hash is missing, otherwise its bytes as one row. -/
def optRow (h : Option Hash) : List Bytes :=
  match h with
  | some h => [h.bytes]
  | none => []

/-- The text of an optional hash: empty when missing
(`transactions/addresses/json_address.go:14-17`, `27-30`, `transactions/json_transaction.go:36-39`). -/
def optStr (h : Option Hash) : Bytes :=
  match h with
  | some h => h.str
  | none => []

section
variable [Sha512]

/-- Reading an optional hash text: the empty text is no hash
(`transactions/addresses/address.go:21-28`, `44-51`, `transactions/transaction.go:23-30`). -/
def optFromString (s : Bytes) : Outcome (Option Hash) :=
  optO fromString (if s = [] then none else some s)

/-- `transactions/addresses/builder.go:66-125` (`Now`). The seven constructors of `address.go`
(56-124) all store exactly the non-nil parts. A nil and an empty recipient list are the same
(67-69). -/
def addressNow (sender : Option Hash) (recipients : List Hash) (subject : Option Hash)
    (createdOn : Time) : Outcome Address :=
  let data := optRow sender ++ recipients.map Hash.bytes ++ optRow subject
  let hsh := fromMultiBytes data
  if sender.isNone ∧ recipients = [] ∧ subject.isNone then .err "the Address is invalid"
  else .ok ⟨hsh, sender, recipients, subject, createdOn⟩

/-- `transactions/addresses/json_address.go:13-34` (`createJSONAddressFromAddress`). -/
def Address.toJSON (a : Address) : JSONAddress :=
  ⟨optStr a.sender, a.recipients.map Hash.str, optStr a.subject, a.createdOn⟩

/-- `transactions/addresses/address.go:18-54` (`createAddressFromJSON`); `none` is a nil
pointer. -/
def addressFromJSON (js : Option JSONAddress) : Outcome Address := do
  let ins ← Outcome.deref js
  let sender ← optFromString ins.sender
  let recipients ← mapO fromString ins.recipients
  let subject ← optFromString ins.subject
  addressNow sender recipients subject ins.createdOn

variable [C : Curve]

/-- `transactions/builder.go:68-127` (`Now`). The seven constructors of `transaction.go` (60-128)
all store exactly the non-nil parts. A nil and an empty fee list are the same (69-71). -/
def trxNow (address : Option Address) (bucket : Option Hash) (fees : List Expense)
    (createdOn : Time) : Outcome Transaction :=
  let data := optRow (address.map Address.hash) ++ optRow bucket ++ fees.map (fun f => f.hash.bytes)
  let hsh := fromMultiBytes data
  if address.isNone ∧ bucket.isNone ∧ fees.length = 0 then .err "the Transaction is invalid"
  else .ok ⟨hsh, address, bucket, fees, createdOn⟩

/-- `transactions/json_transaction.go:18-43` (`createJSONTransactionFromTransaction`). -/
def Transaction.toJSON (t : Transaction) : JSONTransaction :=
  ⟨t.address.map Address.toJSON, t.fees.map (fun f => some f.toJSON), optStr t.bucket, t.createdOn⟩

/-- `transactions/transaction.go:20-58` (`createTransactionFromJSON`),
`transactions/adapter.go:55-57` (`ToTransaction`). -/
def trxFromJSON (js : Option JSONTransaction) : Outcome Transaction := do
  let ins ← Outcome.deref js
  let bucket ← optFromString ins.bucket
  let fees ← mapO expenseFromJSON ins.fees
  let address ← optO (fun a => addressFromJSON (some a)) ins.address
  trxNow address bucket fees ins.createdOn

end

end Verif
