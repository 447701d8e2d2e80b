import Verif.Model.Piastres.Chain

/-!
# Specification vocabulary for the piastres entities

Values that users can hold: objects produced by the builders out of such objects.
-/

namespace Verif

/-- Sum of the amounts of a list of bills as an unbounded number. -/
def trueTotal (bills : List Bill) : Nat := (bills.map fun b => b.amount.toNat).sum

/-- The same, counting every bill (identified by its hash) once. -/
def distinctTotal (bills : List Bill) : Nat :=
  trueTotal (bills.pwFilter fun a b => a.hash ≠ b.hash)

/-- The amount given back by an expense content, 0 if there is no change bill. -/
def Content.change (c : Content) : Nat :=
  match c.remaining with
  | none => 0
  | some b => b.amount.toNat

/-- What the hash of a lock should be taken over. -/
def Lock.hashedText (l : Lock) : Bytes := (l.pubKeys.map Hash.bytes).flatten

/-- What the hash of an expense content should be taken over: where it goes, how much, out of which bills,
and where the rest goes. -/
def Content.hashedText (c : Content) : Bytes :=
  c.dest.lock.hash.bytes ++ itoaU c.dest.amount ++ (c.source.map fun b => b.hash.bytes).flatten ++
    match c.remaining with
    | none => []
    | some r => r.lock.hash.bytes

section
variable [Sha512]

/-- The lock comes out of the lock builder. -/
def Lock.Built (l : Lock) : Prop := ∃ keys t, lockNow keys t = .ok l

/-- The bill comes out of the bill builder, applied to such a lock. -/
def Bill.Built (b : Bill) : Prop := b.lock.Built ∧ ∃ l a t, billNow l a t = .ok b

/-- The content comes out of the content builder, applied to such bills and locks. -/
def Content.Built (c : Content) : Prop :=
  ∃ a src l rem t, contentNow a (some src) (some l) rem t = .ok c ∧
    (∀ b ∈ src, b.Built) ∧ l.Built ∧ ∀ r, rem = some r → r.Built

/-- The genesis comes out of the genesis builder, applied to such a bill. -/
def Genesis.Built (g : Genesis) : Prop :=
  g.bill.Built ∧ ∃ base incr link b t, genesisNow base incr link b t = .ok g

/-- The address comes out of the address builder. -/
def Address.Built (a : Address) : Prop := ∃ s r j t, addressNow s r j t = .ok a

variable [C : Curve]

/-- The expense comes out of the expense builder, applied to such a content. -/
def Expense.Built (e : Expense) : Prop :=
  e.content.Built ∧ ∃ c sigs, expenseNow c sigs = .ok e

/-- The transaction comes out of the transaction builder, applied to such parts. -/
def Transaction.Built (x : Transaction) : Prop :=
  (∀ a, x.address = some a → a.Built) ∧ (∀ f ∈ x.fees, f.Built) ∧
    ∃ a b f t, trxNow a b f t = .ok x

/-- The block comes out of the block builder, applied to such parts. -/
def Block.Built (b : Block) : Prop :=
  b.genesis.Built ∧ (∀ x ∈ b.trx, x.Built) ∧ ∃ g a x t, blockNow g a x t = .ok b

/-- The mined block comes out of its builder, applied to such a block and a valid text. -/
def MinedBlock.Built (b : MinedBlock) : Prop :=
  b.block.Built ∧ Utf8 b.mining ∧ ∃ blk m t, minedBlockNow blk m t = .ok b

/-- The link comes out of the link builder, applied to such a block. -/
def Link.Built (l : Link) : Prop := l.next.Built ∧ ∃ p n i t, linkNow p n i t = .ok l

/-- The mined link comes out of its builder, applied to such a link and a valid text. -/
def MinedLink.Built (l : MinedLink) : Prop :=
  l.link.Built ∧ Utf8 l.mining ∧ ∃ k m t, minedLinkNow k m t = .ok l

/-- The chain comes out of its builder, applied to such parts. -/
def Chain.Built (c : Chain) : Prop :=
  c.genesis.Built ∧ c.root.Built ∧ c.head.Built ∧ ∃ g r h n t, chainNow g r h n t = .ok c

end

end Verif
