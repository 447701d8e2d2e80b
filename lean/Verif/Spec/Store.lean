import Verif.Spec.Json
import Verif.Model.Store.Store

/-!
# Specification vocabulary for the persistence properties

Two objects with the same hash may have different creation times, as times are not hashed. So
objects are compared up to a map `e` of times: `e = id` compares the times exactly, a constant `e`
ignores them. `timed e` applies the map to every time in an object and touches nothing else.
-/

namespace Verif

/-- The object with `e` applied to all its times. -/
def Lock.timed (e : Time → Time) (l : Lock) : Lock := { l with createdOn := e l.createdOn }

/-- The object with `e` applied to all its times. -/
def Bill.timed (e : Time → Time) (b : Bill) : Bill :=
  { b with lock := b.lock.timed e, createdOn := e b.createdOn }

/-- The object with `e` applied to all its times. -/
def Content.timed (e : Time → Time) (c : Content) : Content :=
  { c with
    source := c.source.map (Bill.timed e)
    dest := c.dest.timed e
    remaining := c.remaining.map (Bill.timed e)
    createdOn := e c.createdOn }

/-- The object with `e` applied to all its times. -/
def Genesis.timed (e : Time → Time) (g : Genesis) : Genesis :=
  { g with bill := g.bill.timed e, createdOn := e g.createdOn }

/-- The object with `e` applied to all its times. -/
def Address.timed (e : Time → Time) (a : Address) : Address := { a with createdOn := e a.createdOn }

section
variable [C : Curve]

/-- The object with `e` applied to all its times. -/
def Expense.timed (e : Time → Time) (x : Expense) : Expense :=
  { x with content := x.content.timed e, createdOn := e x.createdOn }

/-- The object with `e` applied to all its times. -/
def Transaction.timed (e : Time → Time) (x : Transaction) : Transaction :=
  { x with
    address := x.address.map (Address.timed e)
    fees := x.fees.map (Expense.timed e)
    createdOn := e x.createdOn }

/-- The object with `e` applied to all its times. -/
def Block.timed (e : Time → Time) (b : Block) : Block :=
  { b with
    genesis := b.genesis.timed e
    trx := b.trx.map (Transaction.timed e)
    createdOn := e b.createdOn }

/-- The object with `e` applied to all its times. -/
def MinedBlock.timed (e : Time → Time) (b : MinedBlock) : MinedBlock :=
  { b with block := b.block.timed e, createdOn := e b.createdOn }

/-- The object with `e` applied to all its times. -/
def Link.timed (e : Time → Time) (l : Link) : Link :=
  { l with next := l.next.timed e, createdOn := e l.createdOn }

/-- The object with `e` applied to all its times. -/
def MinedLink.timed (e : Time → Time) (l : MinedLink) : MinedLink :=
  { l with link := l.link.timed e, createdOn := e l.createdOn }

/-- The same mined block with reduced signatures. -/
def MinedBlock.reduced (b : MinedBlock) : MinedBlock := { b with block := b.block.reduced }

/-- The objects that are ever handed to the services. -/
structure World where
  lock : Lock → Prop
  bill : Bill → Prop
  expense : Expense → Prop
  genesis : Genesis → Prop
  trx : Transaction → Prop
  block : Block → Prop
  minedBlock : MinedBlock → Prop
  link : Link → Prop
  minedLink : MinedLink → Prop

variable [Sha512]

/-- Assumptions on the objects handed to the services: they come out of the builders, the
scalars of signatures are at most `largestFactor` (C29), all parts of an object also belong to the world, transactions have no address (C38), the genesis can be written
as JSON (C75), block sizes fit an `int`, and no two different objects of a kind have the same hash
(up to times and to the encoding of scalars). -/
structure World.Good (W : World) (e : Time → Time) : Prop where
  lock_built : ∀ x, W.lock x → x.Built
  bill_built : ∀ x, W.bill x → x.Built
  expense_built : ∀ x, W.expense x → x.Built
  expense_fits : ∀ x, W.expense x → x.Fits
  genesis_built : ∀ x, W.genesis x → x.Built
  trx_built : ∀ x, W.trx x → x.Built
  block_built : ∀ x, W.block x → x.Built
  minedBlock_built : ∀ x, W.minedBlock x → x.Built
  link_built : ∀ x, W.link x → x.Built
  minedLink_built : ∀ x, W.minedLink x → x.Built
  bill_lock : ∀ x, W.bill x → W.lock x.lock
  expense_source : ∀ x, W.expense x → ∀ b ∈ x.content.source, W.bill b
  expense_dest : ∀ x, W.expense x → W.bill x.content.dest
  expense_remaining : ∀ x, W.expense x → ∀ b, x.content.remaining = some b → W.bill b
  genesis_bill : ∀ x, W.genesis x → W.bill x.bill
  genesis_marshals : ∀ x, W.genesis x → x.blockIncrease.marshals = true
  trx_fees : ∀ x, W.trx x → ∀ f ∈ x.fees, W.expense f
  trx_address : ∀ x, W.trx x → x.address = none
  block_genesis : ∀ x, W.block x → W.genesis x.genesis
  block_trx : ∀ x, W.block x → ∀ y ∈ x.trx, W.trx y
  block_length : ∀ x, W.block x → x.trx.length < 2 ^ 63
  minedBlock_block : ∀ x, W.minedBlock x → W.block x.block
  link_next : ∀ x, W.link x → W.block x.next
  minedLink_link : ∀ x, W.minedLink x → W.link x.link
  lock_hash : ∀ x y, W.lock x → W.lock y → x.hash = y.hash → x.timed e = y.timed e
  bill_hash : ∀ x y, W.bill x → W.bill y → x.hash = y.hash → x.timed e = y.timed e
  expense_hash : ∀ x y, W.expense x → W.expense y → x.hash = y.hash →
    x.reduced.timed e = y.reduced.timed e
  trx_hash : ∀ x y, W.trx x → W.trx y → x.hash = y.hash → x.reduced.timed e = y.reduced.timed e
  block_hash : ∀ x y, W.block x → W.block y → x.hash = y.hash →
    x.reduced.timed e = y.reduced.timed e
  minedBlock_hash : ∀ x y, W.minedBlock x → W.minedBlock y → x.hash = y.hash →
    x.reduced.timed e = y.reduced.timed e
  link_hash : ∀ x y, W.link x → W.link y → x.hash = y.hash → x.reduced.timed e = y.reduced.timed e
  minedLink_hash : ∀ x y, W.minedLink x → W.minedLink y → x.hash = y.hash →
    x.reduced.timed e = y.reduced.timed e

omit [Sha512] in
/-- All blocks of the world belong to one genesis. -/
def World.OneGenesis (W : World) (e : Time → Time) : Prop :=
  ∀ x y, W.genesis x → W.genesis y → x.timed e = y.timed e

end

/-- The file exists and is complete. -/
def Readable {α : Type} (c : Option (Cell α)) : Prop := ∃ a, c = some (.json a)

/-- The hash text in a leaf of a stored hash tree. -/
def JLeaf.headText : JLeaf → Bytes
  | .null => []
  | .atom h => h
  | .node h _ _ => h

/-- Every reference in a complete file leads to a complete file. -/
structure Closed (σ : Store) : Prop where
  bills : ∀ p js, σ.bills p = some (.json js) → Readable (σ.locks js.lock)
  expenses : ∀ p js, σ.expenses p = some (.json js) → (∀ s ∈ js.source, Readable (σ.bills s)) ∧
    Readable (σ.bills js.dest) ∧ (js.remaining ≠ [] → Readable (σ.bills js.remaining))
  genesis : ∀ js, σ.genesis = some (.json js) → Readable (σ.bills js.bill)
  trxs : ∀ p js, σ.trxs p = some (.json js) → ∀ f ∈ js.fees, Readable (σ.expenses f)
  blocks : ∀ p js, σ.blocks p = some (.json js) → ∀ t, js.trx = some t →
    ∀ l ∈ t.leaves.take js.amount.toNat, Readable (σ.trxs l.headText)
  minedBlocks : ∀ p js, σ.minedBlocks p = some (.json js) → Readable (σ.blocks js.of)
  links : ∀ p js, σ.links p = some (.json js) → Readable (σ.blocks js.next)
  minedLinks : ∀ p js, σ.minedLinks p = some (.json js) → Readable (σ.links js.of)

end Verif
