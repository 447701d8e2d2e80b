import Verif.Model.HashTree
import Verif.Model.Piastres.Chain

/-!
# Model of `domain/transfers/piastres`

Transfer objects, their builders, and their JSON structures. A builder is given its hash and all
other mandatory values by every caller in the module, so these arguments are not optional here; the
creation time is always given.

JSON: a stored file is modelled by the Go structure it decodes to (`json...` types), so absent and
`null` fields are zero values; see `Verif.Model.Store.Store` for unreadable files.
-/

namespace Verif

/-! ## Locks -/

/-- `locks/lock.go:11-14`. -/
structure TrLock where
  hash : Hash
  pubKeys : List Hash
  createdOn : Time
  deriving DecidableEq

/-- `locks/json_lock.go:7-11`. -/
structure JTrLock where
  hash : Bytes
  pubKeys : List Bytes
  createdOn : Time
  deriving DecidableEq

/-- `locks/builder.go:55-70` (`Now`): never fails with a non-nil key list. -/
def trLockNow (hash : Hash) (pubKeys : List Hash) (createdOn : Time) : Outcome TrLock :=
  .ok ⟨hash, pubKeys, createdOn⟩

/-- `locks/json_lock.go:13-24`. -/
def TrLock.toJSON (l : TrLock) : JTrLock := ⟨l.hash.str, l.pubKeys.map Hash.str, l.createdOn⟩

/-! ## Bills -/

/-- `bills/bill.go:11-15`. -/
structure TrBill where
  hash : Hash
  lock : Hash
  amount : UInt64
  createdOn : Time
  deriving DecidableEq

/-- `bills/json_bill.go:5-10`. -/
structure JTrBill where
  hash : Bytes
  lock : Bytes
  amount : UInt64
  createdOn : Time
  deriving DecidableEq

/-- `bills/builder.go:63-82` (`Now`). -/
def trBillNow (hash lock : Hash) (amount : UInt64) (createdOn : Time) : Outcome TrBill :=
  if amount = 0 then .err "the amount is mandatory in order to build a Bill instance"
  else .ok ⟨hash, lock, amount, createdOn⟩

/-- `bills/json_bill.go:12-18`. -/
def TrBill.toJSON (b : TrBill) : JTrBill := ⟨b.hash.str, b.lock.str, b.amount, b.createdOn⟩

/-! ## Expenses -/

/-- `expenses/expense.go:12-18`. -/
structure TrExpense [C : Curve] where
  hash : Hash
  source : List Hash
  dest : Hash
  signatures : List RingSignature
  remaining : Option Hash
  createdOn : Time

/-- `expenses/json_expense.go:7-14`. -/
structure JTrExpense where
  hash : Bytes
  source : List Bytes
  dest : Bytes
  signatures : List Bytes
  remaining : Bytes
  createdOn : Time
  deriving DecidableEq

/-- `expenses/builder.go:80-115` (`Now`); the lists are never nil. -/
def trExpenseNow [C : Curve] (hash : Hash) (source : List Hash) (dest : Hash)
    (signatures : List RingSignature) (remaining : Option Hash) (createdOn : Time) :
    Outcome TrExpense :=
  if source.length ≤ 0 then .err "there must be at least 1 from hash"
  else if signatures.length ≤ 0 then .err "there must be at least 1 ring signature"
  else .ok ⟨hash, source, dest, signatures, remaining, createdOn⟩

/-- `expenses/json_expense.go:16-39`. -/
def TrExpense.toJSON [C : Curve] (e : TrExpense) : JTrExpense :=
  ⟨e.hash.str, e.source.map Hash.str, e.dest.str, e.signatures.map RingSignature.str,
    optStr e.remaining, e.createdOn⟩

/-! ## Genesis -/

/-- `genesis/genesis.go:11-17`. -/
structure TrGenesis where
  hash : Hash
  bill : Hash
  blockBase : UInt64
  blockIncrease : Flt
  link : UInt64
  createdOn : Time
  deriving DecidableEq

/-- `genesis/json_genesis.go:7-14`. -/
structure JTrGenesis where
  hash : Bytes
  bill : Bytes
  blockBase : UInt64
  blockIncrease : Flt
  link : UInt64
  createdOn : Time
  deriving DecidableEq

/-- `genesis/builder.go:79-112` (`Now`). -/
def trGenesisNow (hash bill : Hash) (blockBase : UInt64) (blockIncrease : Flt) (link : UInt64)
    (createdOn : Time) : Outcome TrGenesis :=
  if blockBase ≤ 0 then .err "the block difficulty base must be greater than zero (0)"
  else if blockIncrease.le0 then
    .err "the block difficulty increasePerTrx must be greater than zero (0)"
  else if link ≤ 0 then .err "the link difficulty must be greater than zero (0)"
  else .ok ⟨hash, bill, blockBase, blockIncrease, link, createdOn⟩

/-- `genesis/json_genesis.go:16-24` with `json.Marshal`, which refuses NaN and infinities. -/
def TrGenesis.toJSON (g : TrGenesis) : Outcome JTrGenesis :=
  if g.blockIncrease.marshals then
    .ok ⟨g.hash.str, g.bill.str, g.blockBase, g.blockIncrease, g.link, g.createdOn⟩
  else .err "json: unsupported value"

/-! ## Transactions -/

/-- `transactions/transaction.go:11-16`; `fees` is nil or non-empty. -/
structure TrTransaction where
  hash : Hash
  address : Option Hash
  bucket : Option Hash
  fees : List Hash
  createdOn : Time
  deriving DecidableEq

/-- `transactions/json_transaction.go:7-13`. -/
structure JTrTransaction where
  hash : Bytes
  address : Bytes
  fees : List Bytes
  bucket : Bytes
  createdOn : Time
  deriving DecidableEq

/-- `transactions/builder.go:71-114` (`Now`): the seven constructors store exactly the non-nil
parts. -/
def trTransactionNow (hash : Hash) (address bucket : Option Hash) (fees : List Hash)
    (createdOn : Time) : Outcome TrTransaction :=
  if address.isNone ∧ bucket.isNone ∧ fees.length = 0 then
    .err "the Transaction instance is invalid"
  else .ok ⟨hash, address, bucket, fees, createdOn⟩

/-- `transactions/json_transaction.go:15-38`. -/
def TrTransaction.toJSON (x : TrTransaction) : JTrTransaction :=
  ⟨x.hash.str, optStr x.address, x.fees.map Hash.str, optStr x.bucket, x.createdOn⟩

/-! ## Blocks and mined blocks -/

/-- `blocks/block.go:12-17`. -/
structure TrBlock where
  hash : Hash
  trx : HashTree
  amount : UInt64
  additional : UInt64
  createdOn : Time
  deriving DecidableEq

/-- `blocks/json_block.go:9-15`; the pointer to the tree may be nil. -/
structure JTrBlock where
  hash : Bytes
  trx : Option JCompact
  amount : UInt64
  additional : UInt64
  createdOn : Time
  deriving DecidableEq

/-- `blocks/builder.go:72-91` (`Now`). -/
def trBlockNow (hash : Hash) (trx : HashTree) (amount additional : UInt64) (createdOn : Time) :
    Outcome TrBlock :=
  if amount ≤ 0 then .err "the amount is mandatory in order to build a Block instance"
  else .ok ⟨hash, trx, amount, additional, createdOn⟩

/-- `blocks/json_block.go:17-24`. -/
def TrBlock.toJSON (b : TrBlock) : JTrBlock :=
  ⟨b.hash.str, some b.trx.compact.toJSON, b.amount, b.additional, b.createdOn⟩

/-- `blocks/mined/block.go:11-15`, and `links/mined/link.go:11-15`, which has the same shape:
`of` is the hash of the mined block or link. -/
structure TrMined where
  hash : Hash
  of : Hash
  mining : Bytes
  createdOn : Time
  deriving DecidableEq

/-- `blocks/mined/json_block.go:5-10`, `links/mined/json_link.go:7-12`. -/
structure JTrMined where
  hash : Bytes
  of : Bytes
  mining : Bytes
  createdOn : Time
  deriving DecidableEq

/-- `blocks/mined/builder.go:63-78`, `links/mined/builder.go:63-79` (`Now`). -/
def trMinedNow (hash of : Hash) (mining : Bytes) (createdOn : Time) : Outcome TrMined :=
  .ok ⟨hash, of, mining, createdOn⟩

/-- `blocks/mined/json_block.go:12-18`, `links/mined/json_link.go:14-20`. The mining text is free
text: `jsonText` is what `encoding/json` makes of it. -/
def TrMined.toJSON (b : TrMined) : JTrMined :=
  ⟨b.hash.str, b.of.str, jsonText b.mining, b.createdOn⟩

/-! ## Links -/

/-- `links/link.go:11-16`. -/
structure TrLink where
  hash : Hash
  prevLink : Hash
  next : Hash
  index : UInt64
  createdOn : Time
  deriving DecidableEq

/-- `links/json_link.go:7-13`. -/
structure JTrLink where
  hash : Bytes
  prevLink : Bytes
  next : Bytes
  index : UInt64
  createdOn : Time
  deriving DecidableEq

/-- `links/builder.go:71-90` (`Now`). -/
def trLinkNow (hash prevLink next : Hash) (index : UInt64) (createdOn : Time) : Outcome TrLink :=
  .ok ⟨hash, prevLink, next, index, createdOn⟩

/-- `links/json_link.go:15-22`. -/
def TrLink.toJSON (l : TrLink) : JTrLink :=
  ⟨l.hash.str, l.prevLink.str, l.next.str, l.index, l.createdOn⟩

/-! ## Chains -/

/-- `chains/chain.go:11-17`. -/
structure TrChain where
  hash : Hash
  genesis : Hash
  root : Hash
  head : Hash
  total : UInt64
  createdOn : Time
  deriving DecidableEq

/-- `chains/json_chain.go:7-14`. -/
structure JTrChain where
  hash : Bytes
  genesis : Bytes
  root : Bytes
  head : Bytes
  total : UInt64
  createdOn : Time
  deriving DecidableEq

/-- `chains/builder.go:79-106` (`Now`). -/
def trChainNow (hash genesis root head : Hash) (total : UInt64) (createdOn : Time) :
    Outcome TrChain :=
  if total ≤ 0 then .err "the total must be greater than zero (0)"
  else .ok ⟨hash, genesis, root, head, total, createdOn⟩

/-- `chains/json_chain.go:16-24`. -/
def TrChain.toJSON (c : TrChain) : JTrChain :=
  ⟨c.hash.str, c.genesis.str, c.root.str, c.head.str, c.total, c.createdOn⟩

/-! ## States -/

/-- `states/state.go:12-19`. -/
structure TrState where
  hash : Hash
  chain : Hash
  prev : Hash
  height : UInt64
  trx : HashTree
  amount : UInt64
  createdOn : Time
  deriving DecidableEq

/-- `states/json_state.go:9-17`. -/
structure JTrState where
  hash : Bytes
  chain : Bytes
  prev : Bytes
  height : UInt64
  trx : Option JCompact
  amount : UInt64
  createdOn : Time
  deriving DecidableEq

/-- `states/builder.go:88-119` (`Now`). The chain may be missing (`states/adapter.go` of the memory
package does not set it); line 118 dereferences it. -/
def trStateNow (hash : Hash) (chain : Option Hash) (prev : Hash) (height : UInt64) (trx : HashTree)
    (amount : UInt64) (createdOn : Time) : Outcome TrState :=
  if height ≤ 0 then .err "the height must be greater than zero (0)"
  else if amount ≤ 0 then .err "the amount is mandatory in order to build a State instance"
  else
    match chain with
    | none => .crash .nilDeref
    | some chain => .ok ⟨hash, chain, prev, height, trx, amount, createdOn⟩

/-- `states/json_state.go:19-28`. -/
def TrState.toJSON (s : TrState) : JTrState :=
  ⟨s.hash.str, s.chain.str, s.prev.str, s.height, some s.trx.compact.toJSON, s.amount, s.createdOn⟩

/-! ## Reading -/

section
variable [Sha512]

/-- `locks/lock.go:16-39` (`createLockFromJSON`), with
`locks/lock.go:75-91` (`UnmarshalJSON`), which copies every field of the result. -/
def trLockFromJSON (ins : JTrLock) : Outcome TrLock := do
  let hsh ← fromString ins.hash
  let keys ← mapO fromString ins.pubKeys
  trLockNow hsh keys ins.createdOn

/-- `bills/bill.go:17-35` (`createBillFromJSON`), with
`bills/bill.go:78-95` (`UnmarshalJSON`), which copies every field of the result. -/
def trBillFromJSON (ins : JTrBill) : Outcome TrBill := do
  let hsh ← fromString ins.hash
  let lock ← fromString ins.lock
  trBillNow hsh lock ins.amount ins.createdOn

/-- `expenses/expense.go:20-70` (`createExpenseFromJSON`), with
`expenses/expense.go:151-170` (`UnmarshalJSON`), which copies every field of the result. -/
def trExpenseFromJSON [C : Curve] (ins : JTrExpense) : Outcome TrExpense := do
  let hsh ← fromString ins.hash
  let source ← mapO fromString ins.source
  let dest ← fromString ins.dest
  let sigs ← mapO toRingSignature ins.signatures
  let remaining ← optFromString ins.remaining
  trExpenseNow hsh source dest sigs remaining ins.createdOn

/-- `genesis/genesis.go:19-40` (`createGenesisFromJSON`), with
`genesis/genesis.go:97-116` (`UnmarshalJSON`), which copies every field of the result. -/
def trGenesisFromJSON (ins : JTrGenesis) : Outcome TrGenesis := do
  let hsh ← fromString ins.hash
  let bill ← fromString ins.bill
  trGenesisNow hsh bill ins.blockBase ins.blockIncrease ins.link ins.createdOn

/-- `transactions/transaction.go:18-63` (`createTransactionFromJSON`), with
`transactions/transaction.go:182-200` (`UnmarshalJSON`), which copies every field of the result. -/
def trTransactionFromJSON (ins : JTrTransaction) : Outcome TrTransaction := do
  let hsh ← fromString ins.hash
  let fees ← mapO fromString ins.fees
  let bucket ← optFromString ins.bucket
  let address ← optFromString ins.address
  trTransactionNow hsh address bucket fees ins.createdOn

/-- `blocks/block.go:19-44` (`createBlockFromJSON`), with
`blocks/block.go:94-112` (`UnmarshalJSON`), which copies every field of the result;
`createCompactFromJSON` dereferences the pointer to the tree (`libs/hashtree/compact.go:15`). -/
def trBlockFromJSON (ins : JTrBlock) : Outcome TrBlock := do
  let hsh ← fromString ins.hash
  let js ← Outcome.deref ins.trx
  let compact ← compactFromJSON js
  let trx ← leavesHashTree compact.leaves
  trBlockNow hsh trx ins.amount ins.additional ins.createdOn

/-- `blocks/mined/block.go:17-36`, `links/mined/link.go:17-36`, with
`blocks/mined/block.go:79-96`, `links/mined/link.go:79-96` (`UnmarshalJSON`), which copy every
field of the result. Strings read by `encoding/json` are
valid UTF-8. -/
def trMinedFromJSON (ins : JTrMined) : Outcome TrMined := do
  let hsh ← fromString ins.hash
  let of ← fromString ins.of
  trMinedNow hsh of (jsonText ins.mining) ins.createdOn

/-- `links/link.go:18-43` (`createLinkFromJSON`), with
`links/link.go:93-111` (`UnmarshalJSON`), which copies every field of the result. -/
def trLinkFromJSON (ins : JTrLink) : Outcome TrLink := do
  let hsh ← fromString ins.hash
  let prev ← fromString ins.prevLink
  let next ← fromString ins.next
  trLinkNow hsh prev next ins.index ins.createdOn

/-- `chains/chain.go:19-50` (`createChainFromJSON`), with
`chains/chain.go:107-126` (`UnmarshalJSON`), which copies every field of the result. -/
def trChainFromJSON (ins : JTrChain) : Outcome TrChain := do
  let hsh ← fromString ins.hash
  let genesis ← fromString ins.genesis
  let root ← fromString ins.root
  let head ← fromString ins.head
  trChainNow hsh genesis root head ins.total ins.createdOn

/-- `states/state.go:21-58` (`createStateFromJSON`), with
`states/state.go:122-142` (`UnmarshalJSON`), which copies every field of the result. -/
def trStateFromJSON (ins : JTrState) : Outcome TrState := do
  let hsh ← fromString ins.hash
  let chain ← fromString ins.chain
  let prev ← fromString ins.prev
  let js ← Outcome.deref ins.trx
  let compact ← compactFromJSON js
  let trx ← leavesHashTree compact.leaves
  trStateNow hsh (some chain) prev ins.height trx ins.amount ins.createdOn

end

end Verif
