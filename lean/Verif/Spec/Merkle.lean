import Verif.Model.HashTree

/-!
# Specification of Merkle roots, independent of the bottom-up construction in the code
-/

namespace Verif

/-- The inner node preimages of a sub tree: for every node the concatenation of the two child
hashes. -/
def Leaf.preimages : Leaf → List Bytes
  | .atom _ => []
  | .node _ l r => (l.head.bytes ++ r.head.bytes) :: (l.preimages ++ r.preimages)

/-- The inner node preimages of a tree. -/
def HashTree.preimages (t : HashTree) : List Bytes :=
  (t.left.head.bytes ++ t.right.head.bytes) :: (t.left.preimages ++ t.right.preimages)

/-- The leaf hashes of a tree, in order. -/
def HashTree.leafHashes (t : HashTree) : List Hash := t.blockLeaves.map Leaf.head

variable [Sha512]

/-- `IsMerkle k l r pre`: `r` is the Merkle root of depth `k` over the `2^k` leaf hashes `l`, and
`pre` is the list of all inner node preimages used (the concatenations of two child hashes). -/
inductive IsMerkle : Nat → List Hash → Hash → List Bytes → Prop
  | leaf (h : Hash) : IsMerkle 0 [h] h []
  | node {k : Nat} {l₁ l₂ : List Hash} {r₁ r₂ : Hash} {p₁ p₂ : List Bytes} :
      IsMerkle k l₁ r₁ p₁ → IsMerkle k l₂ r₂ p₂ →
      IsMerkle (k + 1) (l₁ ++ l₂) (fromBytes (r₁.bytes ++ r₂.bytes))
        ((r₁.bytes ++ r₂.bytes) :: (p₁ ++ p₂))

end Verif
