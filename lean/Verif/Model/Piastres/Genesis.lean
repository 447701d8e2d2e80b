import Verif.Model.Piastres.Bill
import Verif.Base.Flt

/-!
# Model of `domain/memory/piastres/genesis`
-/

namespace Verif

/-- `genesis/genesis.go:12-16` with `genesis/difficulty.go` and `genesis/block.go` inlined. -/
structure Genesis where
  hash : Hash
  bill : Bill
  blockBase : UInt64
  blockIncrease : Flt
  link : UInt64
  createdOn : Time
  deriving DecidableEq

/-- `genesis/json_genesis.go:10-16`. -/
structure JSONGenesis where
  bill : Option JSONBill
  link : UInt64
  blockBase : UInt64
  blockIncrease : Flt
  createdOn : Time
  deriving DecidableEq

section
variable [Sha512]

/-- `genesis/builder.go:76-112` (`Now`). -/
def genesisNow (blockBase : UInt64) (blockIncrease : Flt) (link : UInt64) (bill : Option Bill)
    (createdOn : Time) : Outcome Genesis :=
  if blockBase ≤ 0 then .err "the block difficulty base must be greater than zero (0)"
  else if blockIncrease.le0 then
    .err "the block difficulty increasePerTrx must be greater than zero (0.0)"
  else if link ≤ 0 then .err "the link difficulty must be greater than zero (0.0)"
  else
    match bill with
    | none => .err "the bill is mandatory in order to build a Genesis instance"
    | some bill =>
      let hsh := fromMultiBytes [itoaU blockBase, fmtF12 blockIncrease, itoaU link, bill.hash.bytes]
      .ok ⟨hsh, bill, blockBase, blockIncrease, link, createdOn⟩

/-- `genesis/json_genesis.go:18-34` (`createJSONGenesisFromGenesis`). -/
def Genesis.toJSON (g : Genesis) : JSONGenesis :=
  ⟨some g.bill.toJSON, g.link, g.blockBase, g.blockIncrease, g.createdOn⟩

/-- `genesis/genesis.go:18-33` (`createGenesisFromJSON`), `genesis/adapter.go:49-51`
(`ToGenesis`). -/
def genesisFromJSON (js : Option JSONGenesis) : Outcome Genesis := do
  let ins ← Outcome.deref js
  let bill ← billFromJSON ins.bill
  genesisNow ins.blockBase ins.blockIncrease ins.link (some bill) ins.createdOn

end

end Verif
