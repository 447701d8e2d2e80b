import Verif.Model.Store.Services

/-!
# The repositories and services, one file at a time

`Repos` treats a retrieval as a function of the whole store. Here every retrieval is the sequence of
reads of single files that it consists of, in the order of the code, so that other calls can change
files in between. `Query.run_*` and `Op.proc_prog` (in `Spec/Concurrent`) show that without such
changes this is the same.
-/

namespace Verif

/-- The files. -/
inductive Spot where
  | lock (p : Bytes)
  | bill (p : Bytes)
  | expense (p : Bytes)
  | genesis
  | trx (p : Bytes)
  | block (p : Bytes)
  | minedBlock (p : Bytes)
  | link (p : Bytes)
  | minedLink (p : Bytes)
  | chain
  | state (p : Bytes)

/-- The structure that is kept in the file. -/
def Spot.Content : Spot → Type
  | .lock _ => JTrLock
  | .bill _ => JTrBill
  | .expense _ => JTrExpense
  | .genesis => JTrGenesis
  | .trx _ => JTrTransaction
  | .block _ => JTrBlock
  | .minedBlock _ => JTrMined
  | .link _ => JTrLink
  | .minedLink _ => JTrMined
  | .chain => JTrChain
  | .state _ => JTrState

/-- The file. -/
def Store.file (σ : Store) : (n : Spot) → Option (Cell n.Content)
  | .lock p => σ.locks p
  | .bill p => σ.bills p
  | .expense p => σ.expenses p
  | .genesis => σ.genesis
  | .trx p => σ.trxs p
  | .block p => σ.blocks p
  | .minedBlock p => σ.minedBlocks p
  | .link p => σ.links p
  | .minedLink p => σ.minedLinks p
  | .chain => σ.chain
  | .state p => σ.states p

/-- Programs that read files one after the other. A file that is absent or unreadable ends the
program with the error (`if err != nil { return nil, err }` after every read and every
`json.Unmarshal`). -/
inductive Rd (α : Type) : Type where
  | ret (o : Outcome α)
  | ask (n : Spot) (k : n.Content → Rd α)

namespace Rd

variable {α β : Type}

/-- What is left to do after the next file was read. -/
def after (n : Spot) (k : n.Content → Rd α) (c : Option (Cell n.Content)) : Rd α :=
  match readCell c with
  | .ok a => k a
  | .err m => .ret (.err m)
  | .crash c => .ret (.crash c)

/-- The result when nothing changes in between. -/
def run (r : Rd α) (σ : Store) : Outcome α :=
  match r with
  | ret o => o
  | ask n k =>
    match readCell (σ.file n) with
    | .ok a => (k a).run σ
    | .err m => .err m
    | .crash c => .crash c

/-- Sequencing with `if err != nil { return nil, err }`. -/
def bind (r : Rd α) (f : α → Rd β) : Rd β :=
  match r with
  | ret (.ok a) => f a
  | ret (.err m) => ret (.err m)
  | ret (.crash c) => ret (.crash c)
  | ask n k => ask n fun a => (k a).bind f

/-- Reads one file. -/
def file (n : Spot) : Rd n.Content := ask n fun a => ret (.ok a)

/-- `for _, x := range xs`, collecting the results. -/
def all {γ : Type} (f : γ → Rd β) : List γ → Rd (List β)
  | [] => ret (.ok [])
  | x :: xs => (f x).bind fun y => (all f xs).bind fun ys => ret (.ok (y :: ys))

/-- `if x != nil`. -/
def opt {γ : Type} (f : γ → Rd β) : Option γ → Rd (Option β)
  | none => ret (.ok none)
  | some x => (f x).bind fun y => ret (.ok (some y))

@[simp] theorem run_ret (o : Outcome α) (σ : Store) : (ret o).run σ = o := rfl

@[simp] theorem run_bind (r : Rd α) (f : α → Rd β) (σ : Store) :
    (r.bind f).run σ = r.run σ >>= fun a => (f a).run σ := by
  induction r with
  | ret o => cases o <;> rfl
  | ask n k ih =>
    simp only [bind, run]
    cases readCell (σ.file n) with
    | ok a => exact ih a
    | err m => rfl
    | crash c => rfl

@[simp] theorem run_file (n : Spot) (σ : Store) : (file n).run σ = readCell (σ.file n) := by
  simp only [file, run]
  cases readCell (σ.file n) <;> rfl

@[simp] theorem run_all {γ : Type} (f : γ → Rd β) (xs : List γ) (σ : Store) :
    (all f xs).run σ = mapO (fun x => (f x).run σ) xs := by
  induction xs with
  | nil => rfl
  | cons x xs ih =>
    simp only [all, run_bind, ih, mapO]
    cases (f x).run σ with
    | ok y =>
      cases mapO (fun x => (f x).run σ) xs <;> rfl
    | err m => rfl
    | crash c => rfl

@[simp] theorem run_opt {γ : Type} (f : γ → Rd β) (x : Option γ) (σ : Store) :
    (opt f x).run σ = optO (fun x => (f x).run σ) x := by
  cases x with
  | none => rfl
  | some x =>
    simp only [opt, run_bind, optO]
    cases (f x).run σ <;> rfl

end Rd

section
variable [Sha512]

/-- `locks/repository.go:26-35`. -/
def readLock (h : Hash) : Rd Lock :=
  (Rd.file (.lock h.str)).bind fun js =>
  (Rd.ret (trLockFromJSON js)).bind fun tr =>
  .ret (lockNow (some tr.pubKeys) tr.createdOn)

/-- `bills/repository.go:30-45`. -/
def readBill (h : Hash) : Rd Bill :=
  (Rd.file (.bill h.str)).bind fun js =>
  (Rd.ret (trBillFromJSON js)).bind fun tr =>
  (readLock tr.lock).bind fun lock =>
  .ret (billNow (some lock) tr.amount tr.createdOn)

/-- `genesis/repository.go:29-52`. -/
def readGenesis : Rd Genesis :=
  (Rd.file .genesis).bind fun js =>
  (Rd.ret (trGenesisFromJSON js)).bind fun tr =>
  (readBill tr.bill).bind fun bill =>
  .ret (genesisNow tr.blockBase tr.blockIncrease tr.link (some bill) tr.createdOn)

variable [C : Curve]

/-- `expenses/repository.go:33-72`; `bills/repository.go:48-60` (`RetrieveAll`). -/
def readExpense (h : Hash) : Rd Expense :=
  (Rd.file (.expense h.str)).bind fun js =>
  (Rd.ret (trExpenseFromJSON js)).bind fun tr =>
  (Rd.all readBill tr.source).bind fun bills =>
  (readBill tr.dest).bind fun dest =>
  (Rd.opt readBill tr.remaining).bind fun remaining =>
  (Rd.ret (contentNow dest.amount (some bills) (some dest.lock) (remaining.map Bill.lock)
    tr.createdOn)).bind fun content =>
  .ret (expenseNow (some content) (some tr.signatures))

/-- `transactions/repository.go:30-54`; `expenses/repository.go:75-87` (`RetrieveAll`). -/
def readTrx (h : Hash) : Rd Transaction :=
  (Rd.file (.trx h.str)).bind fun js =>
  (Rd.ret (trTransactionFromJSON js)).bind fun tr =>
  (Rd.all readExpense tr.fees).bind fun fees =>
  .ret (trxNow none tr.bucket fees tr.createdOn)

/-- `blocks/repository.go:34-65`; `transactions/repository.go:57-69` (`RetrieveAll`). -/
def readBlock (h : Hash) : Rd Block :=
  (Rd.file (.block h.str)).bind fun js =>
  (Rd.ret (trBlockFromJSON js)).bind fun tr =>
  readGenesis.bind fun gen =>
  (Rd.ret (takeLeaves tr.trx.blockLeaves tr.amount)).bind fun hashes =>
  (Rd.all readTrx hashes).bind fun trx =>
  .ret (blockNow (some gen) tr.additional (some trx) tr.createdOn)

/-- `blocks/mined/repository.go:30-45`. -/
def readMinedBlock (h : Hash) : Rd MinedBlock :=
  (Rd.file (.minedBlock h.str)).bind fun js =>
  (Rd.ret (trMinedFromJSON js)).bind fun tr =>
  (readBlock tr.of).bind fun block =>
  .ret (minedBlockNow (some block) tr.mining tr.createdOn)

/-- `links/repository.go:30-51`. -/
def readLink (h : Hash) : Rd Link :=
  (Rd.file (.link h.str)).bind fun js =>
  (Rd.ret (trLinkFromJSON js)).bind fun tr =>
  (readBlock tr.next).bind fun next =>
  .ret (linkNow (some tr.prevLink) (some next) tr.index tr.createdOn)

/-- `links/mined/repository.go:30-45`. -/
def readMinedLink (h : Hash) : Rd MinedLink :=
  (Rd.file (.minedLink h.str)).bind fun js =>
  (Rd.ret (trMinedFromJSON js)).bind fun tr =>
  (readLink tr.of).bind fun link =>
  .ret (minedLinkNow (some link) tr.mining tr.createdOn)

/-- `chains/repository.go:40-78`. -/
def readChain : Rd Chain :=
  (Rd.file .chain).bind fun js =>
  (Rd.ret (trChainFromJSON js)).bind fun tr =>
  readGenesis.bind fun gen =>
  (Rd.ret (Outcome.guardNot (tr.genesis.compare gen.hash)
    "the stored genesis hash, in the chain's stored data is invalid")).bind fun _ =>
  (readMinedBlock tr.root).bind fun root =>
  (readMinedLink tr.head).bind fun head =>
  .ret (chainNow (some gen) (some root) (some head) tr.total tr.createdOn)

/-- `states/repository.go:30-57`. -/
def readState (chain : Hash) (height : UInt64) : Rd State :=
  (Rd.file (.state (statePath chain height))).bind fun js =>
  (Rd.ret (trStateFromJSON js)).bind fun tr =>
  (Rd.ret (takeLeaves tr.trx.blockLeaves tr.amount)).bind fun hashes =>
  (Rd.all readTrx hashes).bind fun trx =>
  .ret (stateNow (some chain) (some tr.prev) height (some trx) tr.createdOn)

omit C in
@[simp] theorem run_readLock (h : Hash) (σ : Store) : (readLock h).run σ = retrLock σ h := by
  simp only [readLock, Rd.run_bind, Rd.run_file, Rd.run_ret]; rfl

omit C in
@[simp] theorem run_readBill (h : Hash) (σ : Store) : (readBill h).run σ = retrBill σ h := by
  simp only [readBill, Rd.run_bind, Rd.run_file, Rd.run_ret, run_readLock]; rfl

omit C in
@[simp] theorem run_readGenesis (σ : Store) : readGenesis.run σ = retrGenesis σ := by
  simp only [readGenesis, Rd.run_bind, Rd.run_file, Rd.run_ret, run_readBill]; rfl

@[simp] theorem run_readExpense (h : Hash) (σ : Store) : (readExpense h).run σ = retrExpense σ h := by
  simp only [readExpense, Rd.run_bind, Rd.run_file, Rd.run_ret, Rd.run_all, Rd.run_opt, run_readBill]
  rfl

@[simp] theorem run_readTrx (h : Hash) (σ : Store) : (readTrx h).run σ = retrTrx σ h := by
  simp only [readTrx, Rd.run_bind, Rd.run_file, Rd.run_ret, Rd.run_all, run_readExpense]; rfl

@[simp] theorem run_readBlock (h : Hash) (σ : Store) : (readBlock h).run σ = retrBlock σ h := by
  simp only [readBlock, Rd.run_bind, Rd.run_file, Rd.run_ret, Rd.run_all, run_readTrx,
    run_readGenesis]
  rfl

@[simp] theorem run_readMinedBlock (h : Hash) (σ : Store) :
    (readMinedBlock h).run σ = retrMinedBlock σ h := by
  simp only [readMinedBlock, Rd.run_bind, Rd.run_file, Rd.run_ret, run_readBlock]; rfl

@[simp] theorem run_readLink (h : Hash) (σ : Store) : (readLink h).run σ = retrLink σ h := by
  simp only [readLink, Rd.run_bind, Rd.run_file, Rd.run_ret, run_readBlock]; rfl

@[simp] theorem run_readMinedLink (h : Hash) (σ : Store) :
    (readMinedLink h).run σ = retrMinedLink σ h := by
  simp only [readMinedLink, Rd.run_bind, Rd.run_file, Rd.run_ret, run_readLink]; rfl

@[simp] theorem run_readChain (σ : Store) : readChain.run σ = retrChain σ := by
  simp only [readChain, Rd.run_bind, Rd.run_file, Rd.run_ret, run_readGenesis, run_readMinedBlock,
    run_readMinedLink]
  rfl

@[simp] theorem run_readState (c : Hash) (n : UInt64) (σ : Store) :
    (readState c n).run σ = retrState σ c n := by
  simp only [readState, Rd.run_bind, Rd.run_file, Rd.run_ret, Rd.run_all, run_readTrx]; rfl

end

section
variable [C : Curve]

/-- The retrievals. -/
inductive Query where
  | lock (h : Hash)
  | bill (h : Hash)
  | expense (h : Hash)
  | genesis
  | trx (h : Hash)
  | block (h : Hash)
  | minedBlock (h : Hash)
  | link (h : Hash)
  | minedLink (h : Hash)
  | chain
  | state (c : Hash) (n : UInt64)

/-- What the retrieval returns. -/
def Query.Result : Query → Type
  | .lock _ => Lock
  | .bill _ => Bill
  | .expense _ => Expense
  | .genesis => Genesis
  | .trx _ => Transaction
  | .block _ => Block
  | .minedBlock _ => MinedBlock
  | .link _ => Link
  | .minedLink _ => MinedLink
  | .chain => Chain
  | .state _ _ => State

/-- The files that the retrieval reads, and its result. -/
def Query.reads [Sha512] : (q : Query) → Rd q.Result
  | .lock h => readLock h
  | .bill h => readBill h
  | .expense h => readExpense h
  | .genesis => readGenesis
  | .trx h => readTrx h
  | .block h => readBlock h
  | .minedBlock h => readMinedBlock h
  | .link h => readLink h
  | .minedLink h => readMinedLink h
  | .chain => readChain
  | .state c n => readState c n

/-- Programs over the store that use the retrievals: as `Prog`. -/
inductive Proc (α : Type) : Type where
  | ret (o : Outcome α)
  | query (q : Query) (k : Outcome q.Result → Proc α)
  | write (done torn : Store → Store) (k : Bool → Proc α)

namespace Proc

variable {α β : Type}

/-- The program in which every retrieval is one step. -/
def prog [Sha512] (p : Proc α) : Prog α :=
  match p with
  | ret o => .ret o
  | query q k => .look fun σ => (k (q.reads.run σ)).prog
  | write d t k => .write d t fun b => (k b).prog

/-- Sequencing with `if err != nil { return err }`. -/
def bind (p : Proc α) (f : α → Proc β) : Proc β :=
  match p with
  | ret (.ok a) => f a
  | ret (.err m) => ret (.err m)
  | ret (.crash c) => ret (.crash c)
  | query q k => query q fun o => (k o).bind f
  | write d t k => write d t fun b => (k b).bind f

/-- `file.Service.Save` (`libs/file/file_disk_service.go:24-32`). -/
def save (done torn : Store → Store) : Proc Unit :=
  write done torn fun b => ret (if b then .ok () else .err "write error")

/-- `for _, x := range xs { err := f(x); if err != nil { return err } }`. -/
def forEach {γ : Type} (f : γ → Proc Unit) : List γ → Proc Unit
  | [] => ret (.ok ())
  | x :: xs => (f x).bind fun _ => forEach f xs

/-- `_, err := repository.Retrieve(hash); if err == nil { return nil }`. -/
def unlessFound (q : Query) (rest : Proc Unit) : Proc Unit :=
  query q fun o =>
    match o with
    | .ok _ => ret (.ok ())
    | .err _ => rest
    | .crash c => ret (.crash c)

variable [Sha512]

@[simp] theorem prog_ret (o : Outcome α) : (ret o : Proc α).prog = .ret o := rfl

@[simp] theorem prog_bind (p : Proc α) (f : α → Proc β) :
    (p.bind f).prog = p.prog.bind fun a => (f a).prog := by
  induction p with
  | ret o => cases o <;> rfl
  | query q k ih => simp only [bind, prog, Prog.bind, ih]
  | write d t k ih => simp only [bind, prog, Prog.bind, ih]

@[simp] theorem prog_forEach {γ : Type} (f : γ → Proc Unit) (xs : List γ) :
    (forEach f xs).prog = Prog.forEach (fun x => (f x).prog) xs := by
  induction xs with
  | nil => rfl
  | cons x xs ih => simp only [forEach, Prog.forEach, prog_bind, ih]

@[simp] theorem prog_save (d t : Store → Store) : (save d t).prog = Prog.save d t := rfl

@[simp] theorem prog_unlessFound (q : Query) (rest : Proc Unit) :
    (unlessFound q rest).prog = Verif.unlessFound q.reads.run rest.prog := by
  simp only [unlessFound, Verif.unlessFound, prog]
  congr 1
  funext σ
  cases q.reads.run σ <;> rfl

end Proc

variable [Sha512]

/-- `locks/service.go:28-41` (`Save`). -/
def procLock (l : Lock) : Proc Unit :=
  .unlessFound (.lock l.hash) <|
    (Proc.ret l.toTransfer).bind fun tr =>
      .save (fun σ => { σ with locks := setFile σ.locks tr.hash.str (.json tr.toJSON) })
        (fun σ => { σ with locks := setFile σ.locks tr.hash.str .torn })

/-- `bills/service.go:32-51` (`Save`). -/
def procBill (b : Bill) : Proc Unit :=
  .unlessFound (.bill b.hash) <|
    (procLock b.lock).bind fun _ =>
    (Proc.ret b.toTransfer).bind fun tr =>
      .save (fun σ => { σ with bills := setFile σ.bills tr.hash.str (.json tr.toJSON) })
        (fun σ => { σ with bills := setFile σ.bills tr.hash.str .torn })

/-- `genesis/service.go:34-52` (`Save`). -/
def procGenesis (g : Genesis) : Proc Unit :=
  .query .genesis fun o =>
    match o with
    | .ok _ => .ret (.err "there is already a Genesis instance")
    | .crash c => .ret (.crash c)
    | .err _ =>
      (procBill g.bill).bind fun _ =>
      (Proc.ret g.toTransfer).bind fun tr =>
      (Proc.ret tr.toJSON).bind fun js =>
        .save (fun σ => { σ with genesis := some (.json js) })
          (fun σ => { σ with genesis := some .torn })

/-- `expenses/service.go:32-66` (`Save`); `bills/service.go:54-63` (`SaveAll`). -/
def procExpense (e : Expense) : Proc Unit :=
  .unlessFound (.expense e.hash) <|
    (Proc.forEach procBill e.content.source).bind fun _ =>
    (procBill e.content.dest).bind fun _ =>
    (Proc.forEach procBill e.content.remaining.toList).bind fun _ =>
    (Proc.ret e.toTransfer).bind fun tr =>
      .save (fun σ => { σ with expenses := setFile σ.expenses tr.hash.str (.json tr.toJSON) })
        (fun σ => { σ with expenses := setFile σ.expenses tr.hash.str .torn })

/-- `transactions/service.go:32-53` (`Save`); `expenses/service.go:69-78` (`SaveAll`). -/
def procTrx (x : Transaction) : Proc Unit :=
  .unlessFound (.trx x.hash) <|
    (Proc.forEach procExpense x.fees).bind fun _ =>
    (Proc.ret x.toTransfer).bind fun tr =>
      .save (fun σ => { σ with trxs := setFile σ.trxs tr.hash.str (.json tr.toJSON) })
        (fun σ => { σ with trxs := setFile σ.trxs tr.hash.str .torn })

/-- `blocks/service.go:32-51` (`Save`); `transactions/service.go:56-65` (`SaveAll`). -/
def procBlock (b : Block) : Proc Unit :=
  .unlessFound (.block b.hash) <|
    (Proc.forEach procTrx b.trx).bind fun _ =>
    (Proc.ret b.toTransfer).bind fun tr =>
      .save (fun σ => { σ with blocks := setFile σ.blocks tr.hash.str (.json tr.toJSON) })
        (fun σ => { σ with blocks := setFile σ.blocks tr.hash.str .torn })

/-- `blocks/mined/service.go:32-51` (`Save`). -/
def procMinedBlock (b : MinedBlock) : Proc Unit :=
  .unlessFound (.minedBlock b.hash) <|
    (procBlock b.block).bind fun _ =>
    (Proc.ret b.toTransfer).bind fun tr =>
      .save (fun σ => { σ with minedBlocks := setFile σ.minedBlocks tr.hash.str (.json tr.toJSON) })
        (fun σ => { σ with minedBlocks := setFile σ.minedBlocks tr.hash.str .torn })

/-- `links/service.go:32-51` (`Save`). -/
def procLink (l : Link) : Proc Unit :=
  .unlessFound (.link l.hash) <|
    (procBlock l.next).bind fun _ =>
    (Proc.ret l.toTransfer).bind fun tr =>
      .save (fun σ => { σ with links := setFile σ.links tr.hash.str (.json tr.toJSON) })
        (fun σ => { σ with links := setFile σ.links tr.hash.str .torn })

/-- `links/mined/service.go:32-51` (`Save`). -/
def procMinedLink (l : MinedLink) : Proc Unit :=
  .unlessFound (.minedLink l.hash) <|
    (procLink l.link).bind fun _ =>
    (Proc.ret l.toTransfer).bind fun tr =>
      .save (fun σ => { σ with minedLinks := setFile σ.minedLinks tr.hash.str (.json tr.toJSON) })
        (fun σ => { σ with minedLinks := setFile σ.minedLinks tr.hash.str .torn })

/-- `chains/service.go:89-106` (`save`). -/
def procChain (c : Chain) : Proc Unit :=
  (procMinedLink c.head).bind fun _ =>
  (Proc.ret c.toTransfer).bind fun tr =>
    .save (fun σ => { σ with chain := some (.json tr.toJSON) })
      (fun σ => { σ with chain := some .torn })

/-- `chains/service.go:64-87` (`Insert`). -/
def procInsert (c : Chain) : Proc Unit :=
  .unlessFound .chain <|
    (procGenesis c.genesis).bind fun _ =>
    (procMinedBlock c.root).bind fun _ =>
    procChain c

/-- `chains/service.go:43-61` (`Update`). -/
def procUpdate (original updated : Chain) : Proc Unit :=
  (Proc.ret (Outcome.guardNot (original.genesis.hash.compare updated.genesis.hash)
    "the chain cannot be updated because its Genesis instance is invalid")).bind fun _ =>
  (Proc.ret (Outcome.guardNot (original.root.hash.compare updated.root.hash)
    "the chain cannot be updated because its Root mined Block instance is invalid")).bind fun _ =>
  procChain updated

/-- `states/service.go:28-49` (`Save`). -/
def procState (s : State) : Proc Unit :=
  let store : Proc Unit :=
    (Proc.ret s.toTransfer).bind fun tr =>
      .save (fun σ => { σ with
          states := setFile σ.states (statePath tr.chain tr.height) (.json tr.toJSON) })
        (fun σ => { σ with states := setFile σ.states (statePath tr.chain tr.height) .torn })
  .query (.state s.chain s.height) fun o =>
    match (o : Outcome State) with
    | .ok ret => if s.trx.length ≤ ret.trx.length then .ret (.ok ()) else store
    | .err _ => store
    | .crash c => .ret (.crash c)

@[simp] theorem procLock_prog (x : Lock) : (procLock x).prog = saveLock x := by
  simp only [procLock, Proc.prog_unlessFound, Proc.prog_bind, Proc.prog_ret, Proc.prog_save]
  rw [show (Query.reads (.lock x.hash)).run = (retrLock · x.hash) from funext (run_readLock _)]
  rfl

@[simp] theorem procBill_prog (x : Bill) : (procBill x).prog = saveBill x := by
  simp only [procBill, Proc.prog_unlessFound, Proc.prog_bind, Proc.prog_ret, Proc.prog_save,
    procLock_prog]
  rw [show (Query.reads (.bill x.hash)).run = (retrBill · x.hash) from funext (run_readBill _)]
  rfl

@[simp] theorem procGenesis_prog (x : Genesis) : (procGenesis x).prog = saveGenesis x := by
  simp only [procGenesis, saveGenesis, Proc.prog]
  congr 1
  funext σ
  rw [show (Query.reads .genesis).run σ = retrGenesis σ from run_readGenesis σ]
  cases retrGenesis σ with
  | ok y => rfl
  | crash c => rfl
  | err m =>
    simp only [Proc.prog_bind, Proc.prog_ret, Proc.prog_save, procBill_prog]
    rfl

@[simp] theorem procExpense_prog (x : Expense) : (procExpense x).prog = saveExpense x := by
  simp only [procExpense, Proc.prog_unlessFound, Proc.prog_bind, Proc.prog_ret, Proc.prog_save,
    Proc.prog_forEach, procBill_prog]
  rw [show (Query.reads (.expense x.hash)).run = (retrExpense · x.hash) from funext (run_readExpense _)]
  rfl

@[simp] theorem procTrx_prog (x : Transaction) : (procTrx x).prog = saveTrx x := by
  simp only [procTrx, Proc.prog_unlessFound, Proc.prog_bind, Proc.prog_ret, Proc.prog_save,
    Proc.prog_forEach, procExpense_prog]
  rw [show (Query.reads (.trx x.hash)).run = (retrTrx · x.hash) from funext (run_readTrx _)]
  rfl

@[simp] theorem procBlock_prog (x : Block) : (procBlock x).prog = saveBlock x := by
  simp only [procBlock, Proc.prog_unlessFound, Proc.prog_bind, Proc.prog_ret, Proc.prog_save,
    Proc.prog_forEach, procTrx_prog]
  rw [show (Query.reads (.block x.hash)).run = (retrBlock · x.hash) from funext (run_readBlock _)]
  rfl

@[simp] theorem procMinedBlock_prog (x : MinedBlock) : (procMinedBlock x).prog = saveMinedBlock x := by
  simp only [procMinedBlock, Proc.prog_unlessFound, Proc.prog_bind, Proc.prog_ret, Proc.prog_save,
    procBlock_prog]
  rw [show (Query.reads (.minedBlock x.hash)).run = (retrMinedBlock · x.hash) from funext (run_readMinedBlock _)]
  rfl

@[simp] theorem procLink_prog (x : Link) : (procLink x).prog = saveLink x := by
  simp only [procLink, Proc.prog_unlessFound, Proc.prog_bind, Proc.prog_ret, Proc.prog_save,
    procBlock_prog]
  rw [show (Query.reads (.link x.hash)).run = (retrLink · x.hash) from funext (run_readLink _)]
  rfl

@[simp] theorem procMinedLink_prog (x : MinedLink) : (procMinedLink x).prog = saveMinedLink x := by
  simp only [procMinedLink, Proc.prog_unlessFound, Proc.prog_bind, Proc.prog_ret, Proc.prog_save,
    procLink_prog]
  rw [show (Query.reads (.minedLink x.hash)).run = (retrMinedLink · x.hash) from funext (run_readMinedLink _)]
  rfl

@[simp] theorem procChain_prog (x : Chain) : (procChain x).prog = saveChain x := by
  simp only [procChain, Proc.prog_bind, Proc.prog_ret, Proc.prog_save, procMinedLink_prog]
  rfl

@[simp] theorem procInsert_prog (x : Chain) : (procInsert x).prog = insertChain x := by
  simp only [procInsert, Proc.prog_unlessFound, Proc.prog_bind, procGenesis_prog,
    procMinedBlock_prog, procChain_prog]
  rw [show (Query.reads .chain).run = retrChain from funext run_readChain]
  rfl

@[simp] theorem procUpdate_prog (x y : Chain) : (procUpdate x y).prog = updateChain x y := by
  simp only [procUpdate, Proc.prog_bind, Proc.prog_ret, procChain_prog]
  rfl

@[simp] theorem procState_prog (x : State) : (procState x).prog = saveState x := by
  simp only [procState, saveState, Proc.prog]
  congr 1
  funext σ
  rw [show (Query.reads (.state x.chain x.height)).run σ = retrState σ x.chain x.height from
    run_readState _ _ σ]
  cases retrState σ x.chain x.height with
  | ok y =>
    by_cases h : x.trx.length ≤ y.trx.length
    · simp only [h, if_true]; rfl
    · simp only [h, if_false, Proc.prog_bind, Proc.prog_ret, Proc.prog_save]; rfl
  | err m => simp only [Proc.prog_bind, Proc.prog_ret, Proc.prog_save]; rfl
  | crash c => rfl

end

end Verif
