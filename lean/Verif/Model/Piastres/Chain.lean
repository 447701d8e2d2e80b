import Verif.Model.Piastres.Link

/-!
# Model of `domain/memory/piastres/chains` and `states` (builders)
-/

namespace Verif

/-- `chains/chain.go:13-19`. -/
structure Chain [C : Curve] where
  hash : Hash
  genesis : Genesis
  root : MinedBlock
  head : MinedLink
  total : UInt64
  createdOn : Time

/-- `chains/chain.go:60-62` (`Height`). -/
def Chain.height [C : Curve] (c : Chain) : UInt64 := c.head.link.index

/-- `states/state.go:11-17`. -/
structure State [C : Curve] where
  hash : Hash
  chain : Hash
  previous : Hash
  height : UInt64
  trx : List Transaction
  createdOn : Time

section
variable [Sha512] [C : Curve]

/-- `chains/builder.go:79-115` (`Now`). -/
def chainNow (genesis : Option Genesis) (root : Option MinedBlock) (head : Option MinedLink)
    (total : UInt64) (createdOn : Time) : Outcome Chain :=
  match genesis with
  | none => .err "the genesis instance is mandatory in order to build a Chain instance"
  | some genesis =>
    match root with
    | none => .err "the root block is mandatory in order to build a Chain instance"
    | some root =>
      match head with
      | none => .err "the head link is mandatory in order to build a Chain instance"
      | some head =>
        let known := UInt64.ofNat (root.block.trx.length + head.link.next.trx.length)
        if total < known then
          .err "the total must be bigger or equal to the transactions in the root and head blocks"
        else
          let hsh := fromMultiBytes
            [genesis.hash.bytes, root.hash.bytes, head.hash.bytes, itoaU total]
          .ok ⟨hsh, genesis, root, head, total, createdOn⟩

/-- `states/builder.go:76-118` (`Now`). -/
def stateNow (chain previous : Option Hash) (height : UInt64) (trx : Option (List Transaction))
    (createdOn : Time) : Outcome State :=
  match chain with
  | none => .err "the chain is mandatory in order to build a State instance"
  | some chain =>
    match previous with
    | none => .err "the previous hash is mandatory in order to build a State instance"
    | some previous =>
      if height ≤ 0 then .err "the height msut be greater than zero (0)"
      else
        match trx with
        | none => .err "the transactions are mandatory in order to build a State instance"
        | some trx =>
          if trx.length ≤ 0 then .err "there must be at least 1 Transaction instance"
          else
            let data := [chain.bytes, previous.bytes, itoaU height] ++
              trx.map (fun t => t.hash.bytes)
            .ok ⟨fromMultiBytes data, chain, previous, height, trx, createdOn⟩

end

end Verif
