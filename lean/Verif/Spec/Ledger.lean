import Verif.Spec.Piastres

/-!
# Specification vocabulary: what a chain of blocks says about money

Which bills the expenses of a block spend and make, independently of how blocks are built.
-/

namespace Verif

variable [C : Curve]

/-- All expenses of a block, in order. -/
def Block.expenses (b : Block) : List Expense := b.trx.flatMap Transaction.fees

/-- The hashes of the bills spent by a list of blocks, in order, with repetitions. -/
def spentIn (bs : List Block) : List Hash :=
  bs.flatMap fun b => b.expenses.flatMap fun e => e.content.source.map Bill.hash

/-- The bills made by a list of blocks: what was paid, and the change. -/
def madeIn (bs : List Block) : List Bill :=
  bs.flatMap fun b => b.expenses.flatMap fun e => e.content.dest :: e.content.remaining.toList

/-- A chain hangs together: its two blocks are blocks of its genesis, and the first link after the
root points back to the root. -/
def Chain.Connected (c : Chain) : Prop :=
  c.root.block.genesis.hash = c.genesis.hash ∧ c.head.link.next.genesis.hash = c.genesis.hash ∧
    (c.head.link.index = 1 → c.head.link.prevLink = c.root.hash)

end Verif
