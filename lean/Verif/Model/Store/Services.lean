import Verif.Model.Store.Repos

/-!
# Model of the services of `domain/memory/piastres`

Each definition includes the conversion to the transfer object (`adapter.go`, `ToTransfer`) and the
transfer service (`domain/transfers/piastres/*/service.go`). Services write the JSON text at the
text of the hash of the object.
-/

namespace Verif

/-- `_, err := repository.Retrieve(hash); if err == nil { return nil }; ...`. -/
def unlessFound {α : Type} (f : Store → Outcome α) (rest : Prog Unit) : Prog Unit :=
  .look fun σ =>
    match f σ with
    | .ok _ => .ret (.ok ())
    | .err _ => rest
    | .crash c => .ret (.crash c)

/-- `locks/adapter.go:26-35` (`ToTransfer`). -/
def Lock.toTransfer (l : Lock) : Outcome TrLock := trLockNow l.hash l.pubKeys l.createdOn

/-- `bills/adapter.go:22-28` (`ToTransfer`). -/
def Bill.toTransfer (b : Bill) : Outcome TrBill :=
  trBillNow b.hash b.lock.hash b.amount b.createdOn

/-- `genesis/adapter.go:22-41` (`ToTransfer`). -/
def Genesis.toTransfer (g : Genesis) : Outcome TrGenesis :=
  trGenesisNow g.hash g.bill.hash g.blockBase g.blockIncrease g.link g.createdOn

/-- `chains/adapter.go:22-37` (`ToTransfer`). -/
def Chain.toTransfer [C : Curve] (c : Chain) : Outcome TrChain :=
  trChainNow c.hash c.genesis.hash c.root.hash c.head.hash c.total c.createdOn

section
variable [C : Curve]

/-- `expenses/adapter.go:23-49` (`ToTransfer`). -/
def Expense.toTransfer (e : Expense) : Outcome TrExpense :=
  trExpenseNow e.hash (e.content.source.map Bill.hash) e.content.dest.hash e.signatures
    (e.content.remaining.map Bill.hash) e.content.createdOn

/-- `transactions/adapter.go:23-47` (`ToTransfer`): the address is not handed over. -/
def Transaction.toTransfer (x : Transaction) : Outcome TrTransaction :=
  trTransactionNow x.hash none x.bucket (x.fees.map Expense.hash) x.createdOn

/-- `blocks/mined/adapter.go:22-28` (`ToTransfer`). -/
def MinedBlock.toTransfer (b : MinedBlock) : Outcome TrMined :=
  trMinedNow b.hash b.block.hash b.mining b.createdOn

/-- `links/adapter.go:22-35` (`ToTransfer`). -/
def Link.toTransfer (l : Link) : Outcome TrLink :=
  trLinkNow l.hash l.prevLink l.next.hash l.index l.createdOn

/-- `links/mined/adapter.go:25-31` (`ToTransfer`). -/
def MinedLink.toTransfer (l : MinedLink) : Outcome TrMined :=
  trMinedNow l.hash l.link.hash l.mining l.createdOn

variable [Sha512]

/-- `blocks/adapter.go:26-49` (`ToTransfer`). -/
def Block.toTransfer (b : Block) : Outcome TrBlock := do
  let tree ← hashTreeBuilderNow (some (b.trx.map fun x => x.hash.bytes)) none
  trBlockNow b.hash tree (UInt64.ofNat b.trx.length) b.additional b.createdOn

/-- `states/adapter.go:26-51` (`ToTransfer`): neither the chain nor the amount is handed over. -/
def State.toTransfer (s : State) : Outcome TrState := do
  let tree ← hashTreeBuilderNow (some (s.trx.map fun x => x.hash.bytes)) none
  trStateNow s.hash none s.previous s.height tree 0 s.createdOn

end

section
variable [Sha512]

/-- `locks/service.go:28-41` (`Save`). -/
def saveLock (l : Lock) : Prog Unit :=
  unlessFound (retrLock · l.hash) <|
    (Prog.lift l.toTransfer).bind fun tr =>
      .save (fun σ => { σ with locks := setFile σ.locks tr.hash.str (.json tr.toJSON) })
        (fun σ => { σ with locks := setFile σ.locks tr.hash.str .torn })

/-- `bills/service.go:32-51` (`Save`). -/
def saveBill (b : Bill) : Prog Unit :=
  unlessFound (retrBill · b.hash) <|
    (saveLock b.lock).bind fun _ =>
    (Prog.lift b.toTransfer).bind fun tr =>
      .save (fun σ => { σ with bills := setFile σ.bills tr.hash.str (.json tr.toJSON) })
        (fun σ => { σ with bills := setFile σ.bills tr.hash.str .torn })

/-- `genesis/service.go:34-52` (`Save`). -/
def saveGenesis (g : Genesis) : Prog Unit :=
  .look fun σ =>
    match retrGenesis σ with
    | .ok _ => .ret (.err "there is already a Genesis instance")
    | .crash c => .ret (.crash c)
    | .err _ =>
      (saveBill g.bill).bind fun _ =>
      (Prog.lift g.toTransfer).bind fun tr =>
      (Prog.lift tr.toJSON).bind fun js =>
        .save (fun σ => { σ with genesis := some (.json js) })
          (fun σ => { σ with genesis := some .torn })

variable [C : Curve]

/-- `expenses/service.go:32-66` (`Save`); `bills/service.go:54-63` (`SaveAll`). -/
def saveExpense (e : Expense) : Prog Unit :=
  unlessFound (retrExpense · e.hash) <|
    (Prog.forEach saveBill e.content.source).bind fun _ =>
    (saveBill e.content.dest).bind fun _ =>
    (Prog.forEach saveBill e.content.remaining.toList).bind fun _ =>
    (Prog.lift e.toTransfer).bind fun tr =>
      .save (fun σ => { σ with expenses := setFile σ.expenses tr.hash.str (.json tr.toJSON) })
        (fun σ => { σ with expenses := setFile σ.expenses tr.hash.str .torn })

/-- `transactions/service.go:32-53` (`Save`); `expenses/service.go:69-78` (`SaveAll`). -/
def saveTrx (x : Transaction) : Prog Unit :=
  unlessFound (retrTrx · x.hash) <|
    (Prog.forEach saveExpense x.fees).bind fun _ =>
    (Prog.lift x.toTransfer).bind fun tr =>
      .save (fun σ => { σ with trxs := setFile σ.trxs tr.hash.str (.json tr.toJSON) })
        (fun σ => { σ with trxs := setFile σ.trxs tr.hash.str .torn })

/-- `blocks/service.go:32-51` (`Save`); `transactions/service.go:56-65` (`SaveAll`). -/
def saveBlock (b : Block) : Prog Unit :=
  unlessFound (retrBlock · b.hash) <|
    (Prog.forEach saveTrx b.trx).bind fun _ =>
    (Prog.lift b.toTransfer).bind fun tr =>
      .save (fun σ => { σ with blocks := setFile σ.blocks tr.hash.str (.json tr.toJSON) })
        (fun σ => { σ with blocks := setFile σ.blocks tr.hash.str .torn })

/-- `blocks/mined/service.go:32-51` (`Save`). -/
def saveMinedBlock (b : MinedBlock) : Prog Unit :=
  unlessFound (retrMinedBlock · b.hash) <|
    (saveBlock b.block).bind fun _ =>
    (Prog.lift b.toTransfer).bind fun tr =>
      .save (fun σ => { σ with minedBlocks := setFile σ.minedBlocks tr.hash.str (.json tr.toJSON) })
        (fun σ => { σ with minedBlocks := setFile σ.minedBlocks tr.hash.str .torn })

/-- `links/service.go:32-51` (`Save`). -/
def saveLink (l : Link) : Prog Unit :=
  unlessFound (retrLink · l.hash) <|
    (saveBlock l.next).bind fun _ =>
    (Prog.lift l.toTransfer).bind fun tr =>
      .save (fun σ => { σ with links := setFile σ.links tr.hash.str (.json tr.toJSON) })
        (fun σ => { σ with links := setFile σ.links tr.hash.str .torn })

/-- `links/mined/service.go:32-51` (`Save`). -/
def saveMinedLink (l : MinedLink) : Prog Unit :=
  unlessFound (retrMinedLink · l.hash) <|
    (saveLink l.link).bind fun _ =>
    (Prog.lift l.toTransfer).bind fun tr =>
      .save (fun σ => { σ with minedLinks := setFile σ.minedLinks tr.hash.str (.json tr.toJSON) })
        (fun σ => { σ with minedLinks := setFile σ.minedLinks tr.hash.str .torn })

/-- `chains/service.go:89-106` (`save`). -/
def saveChain (c : Chain) : Prog Unit :=
  (saveMinedLink c.head).bind fun _ =>
  (Prog.lift c.toTransfer).bind fun tr =>
    .save (fun σ => { σ with chain := some (.json tr.toJSON) })
      (fun σ => { σ with chain := some .torn })

/-- `chains/service.go:64-87` (`Insert`). -/
def insertChain (c : Chain) : Prog Unit :=
  unlessFound retrChain <|
    (saveGenesis c.genesis).bind fun _ =>
    (saveMinedBlock c.root).bind fun _ =>
    saveChain c

/-- `chains/service.go:43-61` (`Update`): lines 47 and 55 report an error when the hashes are
equal. -/
def updateChain (original updated : Chain) : Prog Unit :=
  (Prog.lift (Outcome.guardNot (original.genesis.hash.compare updated.genesis.hash)
    "the chain cannot be updated because its Genesis instance is invalid")).bind fun _ =>
  (Prog.lift (Outcome.guardNot (original.root.hash.compare updated.root.hash)
    "the chain cannot be updated because its Root mined Block instance is invalid")).bind fun _ =>
  saveChain updated

/-- `states/service.go:28-49` (`Save`). -/
def saveState (s : State) : Prog Unit :=
  let store : Prog Unit :=
    (Prog.lift s.toTransfer).bind fun tr =>
      .save (fun σ => { σ with
          states := setFile σ.states (statePath tr.chain tr.height) (.json tr.toJSON) })
        (fun σ => { σ with states := setFile σ.states (statePath tr.chain tr.height) .torn })
  .look fun σ =>
    match retrState σ s.chain s.height with
    | .ok ret => if s.trx.length ≤ ret.trx.length then .ret (.ok ()) else store
    | .err _ => store
    | .crash c => .ret (.crash c)

end

end Verif
