import Verif.Model.Piastres.Genesis
import Verif.Model.Piastres.Transaction

/-!
# Model of `domain/memory/piastres/blocks` and `blocks/mined`
-/

namespace Verif

/-- `blocks/block.go:13-18`. -/
structure Block [C : Curve] where
  hash : Hash
  genesis : Genesis
  additional : UInt64
  trx : List Transaction
  createdOn : Time

/-- `blocks/json_block.go:11-16`. -/
structure JSONBlock where
  genesis : Option JSONGenesis
  trx : List (Option JSONTransaction)
  additional : UInt64
  createdOn : Time
  deriving DecidableEq

/-- `blocks/mined/block.go:11-15`. -/
structure MinedBlock [C : Curve] where
  hash : Hash
  block : Block
  mining : Bytes
  createdOn : Time

section
variable [Sha512] [C : Curve]

/-- `blocks/builder.go:69-102` (`Now`). -/
def blockNow (genesis : Option Genesis) (additional : UInt64) (trx : Option (List Transaction))
    (createdOn : Time) : Outcome Block :=
  match genesis with
  | none => .err "the genesis instance is mandatory in order to build a Block instance"
  | some genesis =>
    match trx with
    | none => .err "the transactions are mandatory in order to build a Block instance"
    | some trx =>
      if trx.length ≤ 0 then
        .err "there must be at least 1 Tranaction instance in order to build a Block instance"
      else
        let data := [genesis.hash.bytes, itoaU additional] ++ trx.map (fun t => t.hash.bytes)
        .ok ⟨fromMultiBytes data, genesis, additional, trx, createdOn⟩

/-- `blocks/json_block.go:18-33` (`createJSONBlockFromBlock`). -/
def Block.toJSON (b : Block) : JSONBlock :=
  ⟨some b.genesis.toJSON, b.trx.map (fun t => some t.toJSON), b.additional, b.createdOn⟩

/-- `blocks/block.go:20-45` (`createBlockFromJSON`), `blocks/adapter.go:57-59` (`ToBlock`). -/
def blockFromJSON (js : Option JSONBlock) : Outcome Block := do
  let ins ← Outcome.deref js
  let trx ← mapO trxFromJSON ins.trx
  let gen ← genesisFromJSON ins.genesis
  blockNow (some gen) ins.additional (some trx) ins.createdOn

/-- `blocks/mined/builder.go:59-79` (`Now`). -/
def minedBlockNow (block : Option Block) (mining : Bytes) (createdOn : Time) :
    Outcome MinedBlock :=
  match block with
  | none => .err "the block is mandatory in order to build a mined Block instance"
  | some block => .ok ⟨fromMultiBytes [block.hash.bytes, mining], block, mining, createdOn⟩

end

end Verif
