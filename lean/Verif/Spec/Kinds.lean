import Verif.Spec.Alike
import Verif.Model.Piastres.Chain

/-!
# Specification vocabulary: objects of any kind, and the texts their hashes are made from
-/

namespace Verif

section
variable [C : Curve]

/-- An object of any kind. -/
inductive Thing where
  | lock (x : Lock)
  | bill (x : Bill)
  | content (x : Content)
  | expense (x : Expense)
  | genesis (x : Genesis)
  | address (x : Address)
  | trx (x : Transaction)
  | block (x : Block)
  | minedBlock (x : MinedBlock)
  | link (x : Link)
  | minedLink (x : MinedLink)
  | chain (x : Chain)
  | state (x : State)

/-- The hash of the object. -/
def Thing.hash : Thing → Hash
  | .lock x => x.hash
  | .bill x => x.hash
  | .content x => x.hash
  | .expense x => x.hash
  | .genesis x => x.hash
  | .address x => x.hash
  | .trx x => x.hash
  | .block x => x.hash
  | .minedBlock x => x.hash
  | .link x => x.hash
  | .minedLink x => x.hash
  | .chain x => x.hash
  | .state x => x.hash

/-- The text that is hashed for the object: hashes of parts as they are, numbers in decimal digits, texts as
they are, one after the other. -/
def Thing.text : Thing → Bytes
  | .lock x => (x.pubKeys.map Hash.bytes).flatten
  | .bill x => x.lock.hash.bytes ++ itoaU x.amount
  | .content x => x.dest.lock.hash.bytes ++ (itoaU x.dest.amount ++
      ((x.source.map fun b => b.hash.bytes).flatten ++ (x.remaining.toList.map fun r => r.lock.hash.bytes).flatten))
  | .expense x => x.content.hash.bytes ++ (x.signatures.map RingSignature.str).flatten
  | .genesis x => itoaU x.blockBase ++ fmtF12 x.blockIncrease ++ itoaU x.link ++ x.bill.hash.bytes
  | .address x => (x.members.map Hash.bytes).flatten
  | .trx x => (x.pieces.map fun p => p.hash.bytes).flatten
  | .block x => x.genesis.hash.bytes ++ (itoaU x.additional ++ (x.trx.map fun y => y.hash.bytes).flatten)
  | .minedBlock x => x.block.hash.bytes ++ x.mining
  | .link x => x.prevLink.bytes ++ (x.next.hash.bytes ++ itoaU x.index)
  | .minedLink x => x.link.hash.bytes ++ x.mining
  | .chain x => x.genesis.hash.bytes ++ (x.root.hash.bytes ++ (x.head.hash.bytes ++ itoaU x.total))
  | .state x => x.chain.bytes ++ (x.previous.bytes ++ (itoaU x.height ++
      (x.trx.map fun y => y.hash.bytes).flatten))

/-- Kinds of which the hashed text ends in a number or has one in its midst, so that it is not made of hashes
alone. -/
def Thing.Numbered : Thing → Prop
  | .bill _ | .content _ | .block _ | .link _ | .chain _ | .state _ => True
  | _ => False

/-- Kinds that consist of a list of hashes, and these hashes. -/
def Thing.listed : Thing → Option (List Hash)
  | .lock x => some x.pubKeys
  | .address x => some x.members
  | .trx x => some (x.pieces.map Piece.hash)
  | _ => none

variable [Sha512]

/-- The object comes out of its builder, applied to such parts. -/
def Thing.Built : Thing → Prop
  | .lock x => x.Built
  | .bill x => x.Built
  | .content x => x.Built
  | .expense x => x.Built
  | .genesis x => x.Built
  | .address x => x.Built
  | .trx x => x.Built
  | .block x => x.Built
  | .minedBlock x => x.Built
  | .link x => x.Built
  | .minedLink x => x.Built
  | .chain x => x.Built
  | .state x => (∀ y ∈ x.trx, y.Built) ∧ ∃ c p n y t, stateNow c p n y t = .ok x

/-- The two objects have the same hash only if their hashed texts are different texts with the same SHA-512
value. -/
def Thing.Apart (x y : Thing) : Prop := x.hash = y.hash → ShaCollision x.text y.text

end

end Verif
