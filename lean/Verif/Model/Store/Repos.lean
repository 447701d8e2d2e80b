import Verif.Model.Store.Store

/-!
# Model of the repositories of `domain/memory/piastres`

A retrieval only reads files, so it is a function of the store. Each definition includes the
transfer repository (`domain/transfers/piastres/*/repository.go`).
-/

namespace Verif

section
variable [Sha512]

/-- `locks/repository.go:26-35`. -/
def retrLock (σ : Store) (h : Hash) : Outcome Lock := do
  let js ← readCell (σ.locks h.str)
  let tr ← trLockFromJSON js
  lockNow (some tr.pubKeys) tr.createdOn

/-- `bills/repository.go:30-45`. -/
def retrBill (σ : Store) (h : Hash) : Outcome Bill := do
  let js ← readCell (σ.bills h.str)
  let tr ← trBillFromJSON js
  let lock ← retrLock σ tr.lock
  billNow (some lock) tr.amount tr.createdOn

/-- `genesis/repository.go:29-52`. -/
def retrGenesis (σ : Store) : Outcome Genesis := do
  let js ← readCell σ.genesis
  let tr ← trGenesisFromJSON js
  let bill ← retrBill σ tr.bill
  genesisNow tr.blockBase tr.blockIncrease tr.link (some bill) tr.createdOn

variable [C : Curve]

/-- `expenses/repository.go:33-72`; `bills/repository.go:48-60` (`RetrieveAll`). -/
def retrExpense (σ : Store) (h : Hash) : Outcome Expense := do
  let js ← readCell (σ.expenses h.str)
  let tr ← trExpenseFromJSON js
  let bills ← mapO (retrBill σ) tr.source
  let dest ← retrBill σ tr.dest
  let remaining ← optO (retrBill σ) tr.remaining
  let content ← contentNow dest.amount (some bills) (some dest.lock) (remaining.map Bill.lock)
    tr.createdOn
  expenseNow (some content) (some tr.signatures)

/-- `transactions/repository.go:30-54`; `expenses/repository.go:75-87` (`RetrieveAll`). -/
def retrTrx (σ : Store) (h : Hash) : Outcome Transaction := do
  let js ← readCell (σ.trxs h.str)
  let tr ← trTransactionFromJSON js
  let fees ← mapO (retrExpense σ) tr.fees
  trxNow none tr.bucket fees tr.createdOn

omit [Sha512] C in
/-- `blocks/repository.go:45-50`, `states/repository.go:36-41`: the heads of the first
`int(amount)` leaves. -/
def takeLeaves (leaves : List Leaf) (amount : UInt64) : Outcome (List Hash) :=
  if (toInt amount).toNat ≤ leaves.length then
    .ok ((leaves.take (toInt amount).toNat).map Leaf.head)
  else .crash .indexOutOfRange

/-- `blocks/repository.go:34-65`; `transactions/repository.go:57-69` (`RetrieveAll`). -/
def retrBlock (σ : Store) (h : Hash) : Outcome Block := do
  let js ← readCell (σ.blocks h.str)
  let tr ← trBlockFromJSON js
  let gen ← retrGenesis σ
  let hashes ← takeLeaves tr.trx.blockLeaves tr.amount
  let trx ← mapO (retrTrx σ) hashes
  blockNow (some gen) tr.additional (some trx) tr.createdOn

/-- `blocks/mined/repository.go:30-45`. -/
def retrMinedBlock (σ : Store) (h : Hash) : Outcome MinedBlock := do
  let js ← readCell (σ.minedBlocks h.str)
  let tr ← trMinedFromJSON js
  let block ← retrBlock σ tr.of
  minedBlockNow (some block) tr.mining tr.createdOn

/-- `links/repository.go:30-51`. -/
def retrLink (σ : Store) (h : Hash) : Outcome Link := do
  let js ← readCell (σ.links h.str)
  let tr ← trLinkFromJSON js
  let next ← retrBlock σ tr.next
  linkNow (some tr.prevLink) (some next) tr.index tr.createdOn

/-- `links/mined/repository.go:30-45`. -/
def retrMinedLink (σ : Store) (h : Hash) : Outcome MinedLink := do
  let js ← readCell (σ.minedLinks h.str)
  let tr ← trMinedFromJSON js
  let link ← retrLink σ tr.of
  minedLinkNow (some link) tr.mining tr.createdOn

/-- `chains/repository.go:40-78`; line 52 reports an error when the hashes are equal. -/
def retrChain (σ : Store) : Outcome Chain := do
  let js ← readCell σ.chain
  let tr ← trChainFromJSON js
  let gen ← retrGenesis σ
  Outcome.guardNot (tr.genesis.compare gen.hash)
    "the stored genesis hash, in the chain's stored data is invalid"
  let root ← retrMinedBlock σ tr.root
  let head ← retrMinedLink σ tr.head
  chainNow (some gen) (some root) (some head) tr.total tr.createdOn

omit [Sha512] C in
/-- Go's `string(n)` of an integer: the UTF-8 encoding of the code point `n`; what is not a valid code
point becomes U+FFFD. -/
def runeText (n : Nat) : Bytes :=
  if (0xD800 ≤ n ∧ n < 0xE000) ∨ 0x110000 ≤ n then [0xEF, 0xBF, 0xBD] else utf8 n

omit [Sha512] C in
/-- `domain/transfers/piastres/states/helper.go:9-11` (`filePath`): `string(blockIndex)` is the code
point with that number; `filepath.Join` of the hash text and that one character drops the
elements `.` (46), and the separator `/` (47), and nothing else. -/
def statePath (chain : Hash) (height : UInt64) : Bytes :=
  if height.toNat = 46 ∨ height.toNat = 47 then chain.str
  else chain.str ++ 47 :: runeText height.toNat

/-- `states/repository.go:30-57`. -/
def retrState (σ : Store) (chain : Hash) (height : UInt64) : Outcome State := do
  let js ← readCell (σ.states (statePath chain height))
  let tr ← trStateFromJSON js
  let hashes ← takeLeaves tr.trx.blockLeaves tr.amount
  let trx ← mapO (retrTrx σ) hashes
  stateNow (some chain) (some tr.prev) height (some trx) tr.createdOn

end

end Verif
