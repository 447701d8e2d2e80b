import Verif.Model.Store.Repos

/-!
# Files that differ in stored hashes

Every stored object carries the text of its own hash beside its fields.
-/

namespace Verif

variable [Sha512]

/-- The text is accepted as a hash. -/
def HashText (t : Bytes) : Prop := ∃ h, fromString t = .ok h

/-- Two files that are the same, or that differ in the text of the stored hash alone; both texts are
accepted as hashes. -/
def Rehashed {α : Type} (get : α → Bytes) (set : Bytes → α → α) (c c' : Option (Cell α)) : Prop :=
  c = c' ∨ ∃ a t, c = some (.json a) ∧ c' = some (.json (set t a)) ∧ HashText (get a) ∧ HashText t

/-- Two stores whose files differ in the stored hashes alone. -/
structure Store.Rehashed (σ σ' : Store) : Prop where
  locks : ∀ p, Verif.Rehashed JTrLock.hash (fun t a => { a with hash := t }) (σ.locks p) (σ'.locks p)
  bills : ∀ p, Verif.Rehashed JTrBill.hash (fun t a => { a with hash := t }) (σ.bills p) (σ'.bills p)
  expenses : ∀ p, Verif.Rehashed JTrExpense.hash (fun t a => { a with hash := t }) (σ.expenses p) (σ'.expenses p)
  genesis : Verif.Rehashed JTrGenesis.hash (fun t a => { a with hash := t }) σ.genesis σ'.genesis
  trxs : ∀ p, Verif.Rehashed JTrTransaction.hash (fun t a => { a with hash := t }) (σ.trxs p) (σ'.trxs p)
  blocks : ∀ p, Verif.Rehashed JTrBlock.hash (fun t a => { a with hash := t }) (σ.blocks p) (σ'.blocks p)
  minedBlocks : ∀ p, Verif.Rehashed JTrMined.hash (fun t a => { a with hash := t }) (σ.minedBlocks p) (σ'.minedBlocks p)
  links : ∀ p, Verif.Rehashed JTrLink.hash (fun t a => { a with hash := t }) (σ.links p) (σ'.links p)
  minedLinks : ∀ p, Verif.Rehashed JTrMined.hash (fun t a => { a with hash := t }) (σ.minedLinks p) (σ'.minedLinks p)
  chain : Verif.Rehashed JTrChain.hash (fun t a => { a with hash := t }) σ.chain σ'.chain
  states : ∀ p, Verif.Rehashed JTrState.hash (fun t a => { a with hash := t }) (σ.states p) (σ'.states p)

end Verif
