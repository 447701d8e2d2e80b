import Verif.Model.Json.Tree
import Verif.Model.Store.Transfers

/-!
# The stored objects as JSON texts

The structures `JSON*` of `domain/transfers/piastres/*/json_*.go` with their tags, in the order of the
fields. Every slice is made with `[]T{}` before it is filled, so that none is written as `null`.
-/

namespace Verif

/-- `domain/transfers/piastres/locks/json_lock.go:7-11`. -/
def jTrLockC : Codec JTrLock :=
  structC ⟨[], [], 0⟩
    [fld "hash" strC JTrLock.hash fun a s => { s with hash := a },
     fld "pubkeys" (listC strC) JTrLock.pubKeys fun a s => { s with pubKeys := a },
     fld "created_on" timeC JTrLock.createdOn fun a s => { s with createdOn := a }]

/-- `bills/json_bill.go:5-10`. -/
def jTrBillC : Codec JTrBill :=
  structC ⟨[], [], 0, 0⟩
    [fld "hash" strC JTrBill.hash fun a s => { s with hash := a },
     fld "lock" strC JTrBill.lock fun a s => { s with lock := a },
     fld "amount" uintC JTrBill.amount fun a s => { s with amount := a },
     fld "created_on" timeC JTrBill.createdOn fun a s => { s with createdOn := a }]

/-- `expenses/json_expense.go:7-14`. -/
def jTrExpenseC : Codec JTrExpense :=
  structC ⟨[], [], [], [], [], 0⟩
    [fld "hash" strC JTrExpense.hash fun a s => { s with hash := a },
     fld "from" (listC strC) JTrExpense.source fun a s => { s with source := a },
     fld "to" strC JTrExpense.dest fun a s => { s with dest := a },
     fld "signatures" (listC strC) JTrExpense.signatures fun a s => { s with signatures := a },
     fld "remaining" strC JTrExpense.remaining fun a s => { s with remaining := a },
     fld "created_on" timeC JTrExpense.createdOn fun a s => { s with createdOn := a }]

/-- `genesis/json_genesis.go:7-14`. -/
def jTrGenesisC [FloatText] : Codec JTrGenesis :=
  structC ⟨[], [], 0, .fin 0, 0, 0⟩
    [fld "hash" strC JTrGenesis.hash fun a s => { s with hash := a },
     fld "bill" strC JTrGenesis.bill fun a s => { s with bill := a },
     fld "block_difficulty_base" uintC JTrGenesis.blockBase fun a s => { s with blockBase := a },
     fld "block_difficulty_increase_per_trx" fltC JTrGenesis.blockIncrease fun a s => { s with blockIncrease := a },
     fld "link_difficulty" uintC JTrGenesis.link fun a s => { s with link := a },
     fld "created_on" timeC JTrGenesis.createdOn fun a s => { s with createdOn := a }]

/-- `transactions/json_transaction.go:7-13`. -/
def jTrTransactionC : Codec JTrTransaction :=
  structC ⟨[], [], [], [], 0⟩
    [fld "hash" strC JTrTransaction.hash fun a s => { s with hash := a },
     fld "address" strC JTrTransaction.address fun a s => { s with address := a },
     fld "fees" (listC strC) JTrTransaction.fees fun a s => { s with fees := a },
     fld "bucket" strC JTrTransaction.bucket fun a s => { s with bucket := a },
     fld "created_on" timeC JTrTransaction.createdOn fun a s => { s with createdOn := a }]

/-- `blocks/json_block.go:9-15`. -/
def jTrBlockC : Codec JTrBlock :=
  structC ⟨[], none, 0, 0, 0⟩
    [fld "hash" strC JTrBlock.hash fun a s => { s with hash := a },
     fld "transactions" (ptrC compactC) JTrBlock.trx fun a s => { s with trx := a },
     fld "amount" uintC JTrBlock.amount fun a s => { s with amount := a },
     fld "additional" uintC JTrBlock.additional fun a s => { s with additional := a },
     fld "created_on" timeC JTrBlock.createdOn fun a s => { s with createdOn := a }]

/-- `blocks/mined/json_block.go:5-10`. -/
def jTrMinedBlockC : Codec JTrMined :=
  structC ⟨[], [], [], 0⟩
    [fld "hash" strC JTrMined.hash fun a s => { s with hash := a },
     fld "block" strC JTrMined.of fun a s => { s with of := a },
     fld "mining" strC JTrMined.mining fun a s => { s with mining := a },
     fld "created_on" timeC JTrMined.createdOn fun a s => { s with createdOn := a }]

/-- `links/mined/json_link.go:7-12`. -/
def jTrMinedLinkC : Codec JTrMined :=
  structC ⟨[], [], [], 0⟩
    [fld "hash" strC JTrMined.hash fun a s => { s with hash := a },
     fld "link" strC JTrMined.of fun a s => { s with of := a },
     fld "mining" strC JTrMined.mining fun a s => { s with mining := a },
     fld "created_on" timeC JTrMined.createdOn fun a s => { s with createdOn := a }]

/-- `links/json_link.go:7-13`. -/
def jTrLinkC : Codec JTrLink :=
  structC ⟨[], [], [], 0, 0⟩
    [fld "hash" strC JTrLink.hash fun a s => { s with hash := a },
     fld "previous_link" strC JTrLink.prevLink fun a s => { s with prevLink := a },
     fld "next" strC JTrLink.next fun a s => { s with next := a },
     fld "index" uintC JTrLink.index fun a s => { s with index := a },
     fld "created_on" timeC JTrLink.createdOn fun a s => { s with createdOn := a }]

/-- `chains/json_chain.go:7-14`. -/
def jTrChainC : Codec JTrChain :=
  structC ⟨[], [], [], [], 0, 0⟩
    [fld "hash" strC JTrChain.hash fun a s => { s with hash := a },
     fld "genesis" strC JTrChain.genesis fun a s => { s with genesis := a },
     fld "root" strC JTrChain.root fun a s => { s with root := a },
     fld "head" strC JTrChain.head fun a s => { s with head := a },
     fld "total" uintC JTrChain.total fun a s => { s with total := a },
     fld "created_on" timeC JTrChain.createdOn fun a s => { s with createdOn := a }]

/-- `states/json_state.go:9-17`. -/
def jTrStateC : Codec JTrState :=
  structC ⟨[], [], [], 0, none, 0, 0⟩
    [fld "hash" strC JTrState.hash fun a s => { s with hash := a },
     fld "chain" strC JTrState.chain fun a s => { s with chain := a },
     fld "previous" strC JTrState.prev fun a s => { s with prev := a },
     fld "height" uintC JTrState.height fun a s => { s with height := a },
     fld "transactions" (ptrC compactC) JTrState.trx fun a s => { s with trx := a },
     fld "amount" uintC JTrState.amount fun a s => { s with amount := a },
     fld "created_on" timeC JTrState.createdOn fun a s => { s with createdOn := a }]

/-! ## Reading what was written -/

theorem jTrLockC_good (x : JTrLock) : jTrLockC.Good x := by
  struct_good ⟨strC_good _,
    listC_good fun a _ => strC_good a,
    timeC_good _⟩

theorem jTrBillC_good (x : JTrBill) : jTrBillC.Good x := by
  struct_good ⟨strC_good _,
    strC_good _,
    uintC_good _,
    timeC_good _⟩

theorem jTrExpenseC_good (x : JTrExpense) : jTrExpenseC.Good x := by
  struct_good ⟨strC_good _,
    listC_good fun a _ => strC_good a,
    strC_good _,
    listC_good fun a _ => strC_good a,
    strC_good _,
    timeC_good _⟩

theorem jTrGenesisC_good [FloatText] (x : JTrGenesis) (h : x.blockIncrease.IsFloat) : jTrGenesisC.Good x := by
  struct_good ⟨strC_good _,
    strC_good _,
    uintC_good _,
    fltC_good h,
    uintC_good _,
    timeC_good _⟩

theorem jTrTransactionC_good (x : JTrTransaction) : jTrTransactionC.Good x := by
  struct_good ⟨strC_good _,
    strC_good _,
    listC_good fun a _ => strC_good a,
    strC_good _,
    timeC_good _⟩

theorem jTrBlockC_good (x : JTrBlock) : jTrBlockC.Good x := by
  struct_good ⟨strC_good _,
    ptrC_good (structC_notNull _ _) fun a _ => compactC_good a,
    uintC_good _,
    uintC_good _,
    timeC_good _⟩

theorem jTrMinedBlockC_good (x : JTrMined) : jTrMinedBlockC.Good x := by
  struct_good ⟨strC_good _,
    strC_good _,
    strC_good _,
    timeC_good _⟩

theorem jTrMinedLinkC_good (x : JTrMined) : jTrMinedLinkC.Good x := by
  struct_good ⟨strC_good _,
    strC_good _,
    strC_good _,
    timeC_good _⟩

theorem jTrLinkC_good (x : JTrLink) : jTrLinkC.Good x := by
  struct_good ⟨strC_good _,
    strC_good _,
    strC_good _,
    uintC_good _,
    timeC_good _⟩

theorem jTrChainC_good (x : JTrChain) : jTrChainC.Good x := by
  struct_good ⟨strC_good _,
    strC_good _,
    strC_good _,
    strC_good _,
    uintC_good _,
    timeC_good _⟩

theorem jTrStateC_good (x : JTrState) : jTrStateC.Good x := by
  struct_good ⟨strC_good _,
    strC_good _,
    strC_good _,
    uintC_good _,
    ptrC_good (structC_notNull _ _) fun a _ => compactC_good a,
    uintC_good _,
    timeC_good _⟩

end Verif
