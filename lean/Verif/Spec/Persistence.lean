import Verif.Spec.Store
import Verif.Model.Store.Services

/-!
# Specification vocabulary: histories of operations on the store
-/

namespace Verif

section
variable [C : Curve]

/-- The operations of the services of `domain/memory/piastres`. -/
inductive Op where
  | lock (x : Lock)
  | bill (x : Bill)
  | expense (x : Expense)
  | genesis (x : Genesis)
  | trx (x : Transaction)
  | block (x : Block)
  | minedBlock (x : MinedBlock)
  | link (x : Link)
  | minedLink (x : MinedLink)
  | insert (c : Chain)
  | update (original updated : Chain)
  | state (s : State)

/-- The program of an operation. -/
def Op.prog [Sha512] : Op → Prog Unit
  | .lock x => saveLock x
  | .bill x => saveBill x
  | .expense x => saveExpense x
  | .genesis x => saveGenesis x
  | .trx x => saveTrx x
  | .block x => saveBlock x
  | .minedBlock x => saveMinedBlock x
  | .link x => saveLink x
  | .minedLink x => saveMinedLink x
  | .insert c => insertChain c
  | .update a b => updateChain a b
  | .state s => saveState s

/-- The objects handed to the operation belong to the world. -/
def Op.In (W : World) : Op → Prop
  | .lock x => W.lock x
  | .bill x => W.bill x
  | .expense x => W.expense x
  | .genesis x => W.genesis x
  | .trx x => W.trx x
  | .block x => W.block x
  | .minedBlock x => W.minedBlock x
  | .link x => W.link x
  | .minedLink x => W.minedLink x
  | .insert c => W.genesis c.genesis ∧ W.minedBlock c.root ∧ W.minedLink c.head
  | .update _ b => W.minedLink b.head
  | .state _ => True

/-- Operations that store blocks without storing a genesis. -/
def Op.NeedsGenesis : Op → Prop
  | .block _ | .minedBlock _ | .link _ | .minedLink _ | .update _ _ => True
  | _ => False

/-- The operation may replace the chain. -/
def Op.Updates : Op → Prop
  | .update _ _ => True
  | _ => False

variable [Sha512]

/-- Everything retrievable in `σ` is retrievable in `σ'` with the same value. -/
structure Preserved (σ σ' : Store) : Prop where
  locks : ∀ h x, retrLock σ h = .ok x → retrLock σ' h = .ok x
  bills : ∀ h x, retrBill σ h = .ok x → retrBill σ' h = .ok x
  expenses : ∀ h x, retrExpense σ h = .ok x → retrExpense σ' h = .ok x
  genesis : ∀ x, retrGenesis σ = .ok x → retrGenesis σ' = .ok x
  trxs : ∀ h x, retrTrx σ h = .ok x → retrTrx σ' h = .ok x
  blocks : ∀ h x, retrBlock σ h = .ok x → retrBlock σ' h = .ok x
  minedBlocks : ∀ h x, retrMinedBlock σ h = .ok x → retrMinedBlock σ' h = .ok x
  links : ∀ h x, retrLink σ h = .ok x → retrLink σ' h = .ok x
  minedLinks : ∀ h x, retrMinedLink σ h = .ok x → retrMinedLink σ' h = .ok x
  states : ∀ c n x, retrState σ c n = .ok x → retrState σ' c n = .ok x

/-- The saved object can be retrieved by its hash, up to times and the encoding of scalars. -/
def Op.Found (e : Time → Time) : Op → Store → Prop
  | .lock x, σ => ∃ y, retrLock σ x.hash = .ok y ∧ y.timed e = x.timed e
  | .bill x, σ => ∃ y, retrBill σ x.hash = .ok y ∧ y.timed e = x.timed e
  | .expense x, σ => ∃ y, retrExpense σ x.hash = .ok y ∧ y.timed e = x.reduced.timed e
  | .genesis x, σ => ∃ y, retrGenesis σ = .ok y ∧ y.timed e = x.timed e
  | .trx x, σ => ∃ y, retrTrx σ x.hash = .ok y ∧ y.timed e = x.reduced.timed e
  | .block x, σ => ∃ y, retrBlock σ x.hash = .ok y ∧ y.timed e = x.reduced.timed e
  | .minedBlock x, σ => ∃ y, retrMinedBlock σ x.hash = .ok y ∧ y.timed e = x.reduced.timed e
  | .link x, σ => ∃ y, retrLink σ x.hash = .ok y ∧ y.timed e = x.reduced.timed e
  | .minedLink x, σ => ∃ y, retrMinedLink σ x.hash = .ok y ∧ y.timed e = x.reduced.timed e
  | .insert _, _ | .update _ _, _ | .state _, _ => True

/-- Something can be retrieved by the hash of the object. -/
def Op.Present : Op → Store → Prop
  | .lock x, σ => ∃ y, retrLock σ x.hash = .ok y
  | .bill x, σ => ∃ y, retrBill σ x.hash = .ok y
  | .expense x, σ => ∃ y, retrExpense σ x.hash = .ok y
  | .trx x, σ => ∃ y, retrTrx σ x.hash = .ok y
  | .block x, σ => ∃ y, retrBlock σ x.hash = .ok y
  | .minedBlock x, σ => ∃ y, retrMinedBlock σ x.hash = .ok y
  | .link x, σ => ∃ y, retrLink σ x.hash = .ok y
  | .minedLink x, σ => ∃ y, retrMinedLink σ x.hash = .ok y
  | .insert _, σ => ∃ y, retrChain σ = .ok y
  | .genesis _, _ | .update _ _, _ | .state _, _ => False

/-- Operations that save one object under its hash, or the genesis. -/
def Op.Saves : Op → Prop
  | .insert _ | .update _ _ | .state _ => False
  | _ => True

/-- All signatures in the saved object have reduced scalars. -/
def Op.Canonical : Op → Prop
  | .expense x => x.Canonical
  | .trx x => x.Canonical
  | .block x => x.Canonical
  | .minedBlock x => x.block.Canonical
  | .link x => x.next.Canonical
  | .minedLink x => x.link.next.Canonical
  | _ => True

/-- The retrieval by hash returns exactly the saved object. -/
def Op.Exactly : Op → Store → Prop
  | .lock x, σ => retrLock σ x.hash = .ok x
  | .bill x, σ => retrBill σ x.hash = .ok x
  | .expense x, σ => retrExpense σ x.hash = .ok x
  | .genesis x, σ => retrGenesis σ = .ok x
  | .trx x, σ => retrTrx σ x.hash = .ok x
  | .block x, σ => retrBlock σ x.hash = .ok x
  | .minedBlock x, σ => retrMinedBlock σ x.hash = .ok x
  | .link x, σ => retrLink σ x.hash = .ok x
  | .minedLink x, σ => retrMinedLink σ x.hash = .ok x
  | .insert _, _ | .update _ _, _ | .state _, _ => True

/-- `σ'` is reached from `σ` by a sequence of operations, with any faults. -/
inductive Later : Store → Store → Prop
  | refl (σ : Store) : Later σ σ
  | step {σ σ₁ σ₂ : Store} {op : Op} {r : Option (Outcome Unit)} :
      Later σ σ₁ → Run op.prog σ₁ r σ₂ → Later σ σ₂

/-- `σ` is reached from the empty store by operations on objects of the world, with any faults. -/
inductive History (W : World) : Store → Prop
  | empty : History W .empty
  | step {σ σ' : Store} {op : Op} {r : Option (Outcome Unit)} :
      History W σ → op.In W → Run op.prog σ r σ' → History W σ'

/-- The same for histories that store blocks only when a genesis is stored. -/
inductive Orderly (W : World) : Store → Prop
  | empty : Orderly W .empty
  | step {σ σ' : Store} {op : Op} {r : Option (Outcome Unit)} :
      Orderly W σ → op.In W → (op.NeedsGenesis → ∃ g, retrGenesis σ = .ok g) →
      Run op.prog σ r σ' → Orderly W σ'

/-- The same for histories in which the chains written by updates also have a genesis of the
world. -/
inductive Settled (W : World) : Store → Prop
  | empty : Settled W .empty
  | step {σ σ' : Store} {op : Op} {r : Option (Outcome Unit)} :
      Settled W σ → op.In W → (∀ a b, op = .update a b → W.genesis b.genesis) →
      Run op.prog σ r σ' → Settled W σ'

end

/-- Two programs run at the same time, without faults: at every point one of them takes its next
step. -/
inductive Interleaved {α β : Type} :
    Prog α → Prog β → Store → Outcome α → Outcome β → Store → Prop
  | done (a : Outcome α) (b : Outcome β) (σ : Store) : Interleaved (.ret a) (.ret b) σ a b σ
  | lookL {f : Store → Prog α} {q : Prog β} {σ σ' : Store} {a : Outcome α} {b : Outcome β} :
      Interleaved (f σ) q σ a b σ' → Interleaved (.look f) q σ a b σ'
  | lookR {f : Store → Prog β} {p : Prog α} {σ σ' : Store} {a : Outcome α} {b : Outcome β} :
      Interleaved p (f σ) σ a b σ' → Interleaved p (.look f) σ a b σ'
  | writeL {d t : Store → Store} {k : Bool → Prog α} {q : Prog β} {σ σ' : Store} {a : Outcome α}
      {b : Outcome β} :
      Interleaved (k true) q (d σ) a b σ' → Interleaved (.write d t k) q σ a b σ'
  | writeR {d t : Store → Store} {k : Bool → Prog β} {p : Prog α} {σ σ' : Store} {a : Outcome α}
      {b : Outcome β} :
      Interleaved p (k true) (d σ) a b σ' → Interleaved p (.write d t k) σ a b σ'

end Verif
