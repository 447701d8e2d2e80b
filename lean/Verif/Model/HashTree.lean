import Verif.Model.Hash
import Mathlib.Data.Nat.Log

/-!
# Model of `libs/hashtree`
-/

namespace Verif

/-- `libs/hashtree/leaf.go:9-12`, `libs/hashtree/parentleaf.go:9-12`: a leaf has a head and
optionally a parent (`Pt`), which is a pair of leaves. -/
inductive Leaf where
  /-- `createLeaf`, `leaf.go:32-39` (nil parent). -/
  | atom (head : Hash)
  /-- `createLeafWithParent`, `leaf.go:41-48`, with `createParentLeaf(left, right)`,
  `parentleaf.go:28-35`. -/
  | node (head : Hash) (left right : Leaf)
  deriving DecidableEq

namespace Leaf

/-- `leaf.go:66-68` (`Head`). -/
def head : Leaf → Hash
  | atom h => h
  | node h _ _ => h

/-- `leaf.go:81-92` (`Leaves`) with `parentleaf.go:54-60` (`BlockLeaves`) and `leaves.go:26-32`
(`Merge`). The slices that `Merge` appends to are fresh, so the mutation is not observable. -/
def leaves : Leaf → List Leaf
  | atom h => [atom h]
  | node _ l r => l.leaves ++ r.leaves

/-- `leaf.go:95-111` (`Height`): number of steps along the left parents. -/
def height : Leaf → Nat
  | atom _ => 0
  | node _ l _ => l.height + 1

end Leaf

/-- `libs/hashtree/hashtree.go:12-15`, with the (never nil) parent leaf inlined as a pair. -/
structure HashTree where
  head : Hash
  left : Leaf
  right : Leaf
  deriving DecidableEq

namespace HashTree

/-- `parentleaf.go:54-60` (`BlockLeaves`) of the parent. -/
def blockLeaves (t : HashTree) : List Leaf := t.left.leaves ++ t.right.leaves

/-- `hashtree.go:61-64` (`Height`). -/
def height (t : HashTree) : Nat := t.left.height + 2

/-- `hashtree.go:67-70` (`Length`). -/
def length (t : HashTree) : Nat := t.blockLeaves.length

end HashTree

/-- `libs/hashtree/compact.go:9-12`. -/
structure Compact where
  head : Hash
  leaves : List Leaf
  deriving DecidableEq

/-- `compact.go:54-56` (`Length`). -/
def Compact.length (c : Compact) : Nat := c.leaves.length

/-- `hashtree.go:83-86` (`Compact`). -/
def HashTree.compact (t : HashTree) : Compact := ⟨t.head, t.blockLeaves⟩

section
variable [Sha512]

/-- `parentleaf.go:38-51` (`HashTree`). -/
def parentHashTree (left right : Leaf) : HashTree :=
  ⟨fromBytes (left.head.bytes ++ right.head.bytes), left, right⟩

/-- `leaves.go:52-73` (`createChildrenLeaves`), with `leaf.go:50-63` (`createChildLeaf`): pairs up
neighbours; `obj.Lst[index+1]` panics on an odd number of leaves. -/
def childrenLeaves : List Leaf → Outcome (List Leaf)
  | [] => .ok []
  | [_] => .crash .indexOutOfRange
  | a :: b :: rest =>
    match childrenLeaves rest with
    | .ok cs => .ok (.node (fromBytes (a.head.bytes ++ b.head.bytes)) a b :: cs)
    | .err m => .err m
    | .crash c => .crash c

/-- `leaves.go:35-50` (`HashTree`) with `stack` nested calls allowed: the recursion of the code is
unbounded, running out of stack is the fatal error `stackOverflow`. -/
def leavesHashTreeN : Nat → List Leaf → Outcome HashTree
  | 0, _ => .crash .stackOverflow
  | stack + 1, l =>
    match l with
    | [a, b] => .ok (parentHashTree a b)
    | l =>
      match childrenLeaves l with
      | .ok cs => leavesHashTreeN stack cs
      | .err m => .err m
      | .crash c => .crash c

/-- `leaves.go:35-50` (`HashTree`) with a stack that is larger than the number of leaves; see
`leavesHashTreeN_stable` for the independence of the stack size. -/
def leavesHashTree (l : List Leaf) : Outcome HashTree := leavesHashTreeN (l.length + 1) l

/-- `block.go:47-50` (`isLengthPowerForTwo`). -/
def isLengthPowerForTwo (n : Nat) : Bool := n != 0 && (n &&& (n - 1)) == 0

/-- `block.go:54`: `math.Pow(2, math.Ceil(math.Log(n)/math.Log(2)))`. Simplification: the
floating point computation is taken to be exact; `nextPowerFloat_eq` in `Verif.Model.Floats` proves that
it is, for the lengths below `2^44` for which it is used (at least 3, no powers of two). -/
def nextPowerOfTwo (n : Nat) : Nat := 2 ^ Nat.clog 2 n

/-- `block.go:37-66` (`resize`, `resizeToNextPowerOfTwo`): pads with hashes of the empty string. -/
def resize (l : List Hash) : List Hash :=
  if isLengthPowerForTwo l.length then l
  else l ++ List.replicate (nextPowerOfTwo l.length - l.length) (fromBytes [])

/-- `block.go:14-35` (`createBlockFromData`): the padded list of hashes of the block. -/
def blockFromData (data : List Bytes) : List Hash :=
  let data := if data.length ≤ 1 then data ++ [[]] else data
  resize (data.map fromBytes)

/-- `hashtree.go:50-58` (`createHashTreeFromBlocks`) with `block.go:69-83` (`Leaves`, `HashTree`). -/
def hashTreeFromBlocks (blocks : List Bytes) : Outcome HashTree :=
  leavesHashTree ((blockFromData blocks).map .atom)

/-- `hashtree.go:92-100`: the map from hash strings to data; a later block with the same hash
replaces the earlier one. Keys are hashes instead of their (injective) string forms. -/
def orderMap (data : List Bytes) (k : Hash) : Option Bytes :=
  data.reverse.find? fun d => fromBytes d = k

/-- `hashtree.go:89-121` (`Order`). -/
def HashTree.order (t : HashTree) (data : List Bytes) : Outcome (List Bytes) :=
  let out := t.blockLeaves.filterMap fun l => orderMap data l.head
  if out.length ≠ data.length then .err "the length of the input data does not match"
  else .ok out

end

/-! ## JSON forms -/

/-- `json_leaf.go:4-7`, `json_parentleaf.go:4-7`: a `*JSONLeaf`, which may be nil; its node may be
nil. -/
inductive JLeaf where
  | null
  | atom (head : Bytes)
  | node (head : Bytes) (left right : JLeaf)
  deriving DecidableEq

/-- `json_compact.go:4-7`. -/
structure JCompact where
  head : Bytes
  leaves : List JLeaf
  deriving DecidableEq

/-- `json_hashtree.go:4-7`; the node pointer may be nil. -/
structure JHashTree where
  head : Bytes
  node : Option (JLeaf × JLeaf)
  deriving DecidableEq

/-- `json_leaf.go:9-17`, `json_parentleaf.go:9-13`. -/
def Leaf.toJSON : Leaf → JLeaf
  | .atom h => .atom h.str
  | .node h l r => .node h.str l.toJSON r.toJSON

/-- `json_compact.go:9-19`. -/
def Compact.toJSON (c : Compact) : JCompact := ⟨c.head.str, c.leaves.map Leaf.toJSON⟩

/-- `json_hashtree.go:9-13`. -/
def HashTree.toJSON (t : HashTree) : JHashTree := ⟨t.head.str, some (t.left.toJSON, t.right.toJSON)⟩

section
variable [Sha512]

/-- `leaf.go:14-30` (`createLeafFromJSON`) with `parentleaf.go:14-26`
(`createParentLeafFromJSON`). A nil pointer panics. -/
def leafFromJSON : JLeaf → Outcome Leaf
  | .null => .crash .nilDeref
  | .atom head =>
    match fromString head with
    | .ok h => .ok (.atom h)
    | .err m => .err m
    | .crash c => .crash c
  | .node head l r =>
    match fromString head with
    | .ok h =>
      match leafFromJSON l with
      | .ok l' =>
        match leafFromJSON r with
        | .ok r' => .ok (.node h l' r')
        | .err m => .err m
        | .crash c => .crash c
      | .err m => .err m
      | .crash c => .crash c
    | .err m => .err m
    | .crash c => .crash c

/-- `compact.go:14-32` (`createCompactFromJSON`). -/
def compactFromJSON (j : JCompact) : Outcome Compact := do
  let head ← fromString j.head
  let leaves ← mapO leafFromJSON j.leaves
  return ⟨head, leaves⟩

/-- `hashtree.go:27-39` (`createHashTreeFromJSON`). -/
def hashTreeFromJSON (j : JHashTree) : Outcome HashTree := do
  let head ← fromString j.head
  let (l, r) ← Outcome.deref j.node
  let l' ← leafFromJSON l
  let r' ← leafFromJSON r
  return ⟨head, l', r'⟩

/-- `builder.go:40-56` (`Now`): `blocks` is nil or a list, `js` is nil or a decoded JSON text
(JSON syntax errors are not modelled). -/
def hashTreeBuilderNow (blocks : Option (List Bytes)) (js : Option JHashTree) : Outcome HashTree :=
  match blocks with
  | some b => hashTreeFromBlocks b
  | none =>
    match js with
    | some j => hashTreeFromJSON j
    | none => .err "the HashTree is invalid"

end

end Verif
