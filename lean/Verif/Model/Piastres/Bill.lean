import Verif.Model.Piastres.Lock

/-!
# Model of `domain/memory/piastres/bills`
-/

namespace Verif

/-- `bills/bill.go:12-16`. -/
structure Bill where
  hash : Hash
  lock : Lock
  amount : UInt64
  createdOn : Time
  deriving DecidableEq

/-- `bills/json_bill.go:10-14`. -/
structure JSONBill where
  lock : Option JSONLock
  amount : UInt64
  createdOn : Time
  deriving DecidableEq

section
variable [Sha512]

/-- `bills/builder.go:60-84` (`Now`). -/
def billNow (lock : Option Lock) (amount : UInt64) (createdOn : Time) : Outcome Bill :=
  match lock with
  | none => .err "the lock is mandatory in order to build a Bill instance"
  | some lock =>
    if amount ≤ 0 then
      .err "the amount must be greater than zero (0) in order to build a Bill instance"
    else
      let hsh := fromMultiBytes [lock.hash.bytes, itoaU amount]
      .ok ⟨hsh, lock, amount, createdOn⟩

/-- `bills/json_bill.go:16-22` (`createJSONBillFromBill`). -/
def Bill.toJSON (b : Bill) : JSONBill := ⟨some b.lock.toJSON, b.amount, b.createdOn⟩

/-- `bills/bill.go:18-30` (`createBillFromJSON`), `bills/adapter.go:36-38` (`ToBill`). -/
def billFromJSON (js : Option JSONBill) : Outcome Bill := do
  let ins ← Outcome.deref js
  let lock ← lockFromJSON ins.lock
  billNow (some lock) ins.amount ins.createdOn

end

end Verif
