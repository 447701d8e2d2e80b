import Verif.Spec.Json

/-!
# Specification vocabulary: objects that differ only where their hashes do not look

`Alike` relates two objects part by part, down to the keys of the locks. It does not mention how hashes are
computed; only where a part may stand for another object as a whole is the hash of that object mentioned.
Creation times and the encodings of scalars play no part. `texts` lists all the texts that are hashed in an
object and in its parts.
-/

namespace Verif

section
variable [Sha512]

/-- Two different texts, one from each list, have the same SHA-512 value. -/
def Clash (l m : List Bytes) : Prop := ∃ x ∈ l, ∃ y ∈ m, ShaCollision x y

end

/-- The same keys; or one lock has a sole key, which is the hash of the other lock. -/
def Lock.Alike (l m : Lock) : Prop :=
  l.pubKeys = m.pubKeys ∨ l.pubKeys = [m.hash] ∨ m.pubKeys = [l.hash]

/-- The hashed texts. -/
def Lock.texts (l : Lock) : List Bytes := [l.hashedText]

/-- Locks that are alike, and the same amount. -/
def Bill.Alike (b c : Bill) : Prop := b.lock.Alike c.lock ∧ b.amount = c.amount

/-- The hashed texts. -/
def Bill.texts (b : Bill) : List Bytes := (b.lock.hash.bytes ++ itoaU b.amount) :: b.lock.texts

/-- What stands behind the amount in the hashed text of a content. -/
inductive Spent where
  /-- a bill that is spent -/
  | bill (b : Bill)
  /-- the lock for what is left -/
  | rest (l : Lock)

/-- A bill can be taken for a lock, if the hash of the bill is the sole key of the lock. -/
def Spent.Alike : Spent → Spent → Prop
  | .bill b, .bill c => b.Alike c
  | .bill b, .rest l => l.pubKeys = [b.hash]
  | .rest l, .bill b => l.pubKeys = [b.hash]
  | .rest l, .rest m => l.Alike m

/-- The hashed texts. -/
def Spent.texts : Spent → List Bytes
  | .bill b => b.texts
  | .rest l => l.texts

/-- The bills spent, followed by the lock for what is left, if something is left. -/
def Content.spent (c : Content) : List Spent :=
  c.source.map .bill ++ c.remaining.toList.map fun r => .rest r.lock

/-- The same amount for locks that are alike, out of things that are alike. -/
def Content.Alike (c d : Content) : Prop :=
  c.dest.Alike d.dest ∧ List.Forall₂ Spent.Alike c.spent d.spent

/-- The hashed texts. -/
def Content.texts (c : Content) : List Bytes :=
  c.hashedText :: (c.dest.texts ++ c.spent.flatMap Spent.texts)

/-- Where an address comes from, goes to and is about. -/
def Address.members (a : Address) : List Hash := a.sender.toList ++ a.recipients ++ a.subject.toList

/-- The same members, whatever their roles; or one address has a sole member, which is the hash of the
other. -/
def Address.Alike (a b : Address) : Prop :=
  a.members = b.members ∨ a.members = [b.hash] ∨ b.members = [a.hash]

/-- The hashed texts. -/
def Address.texts (a : Address) : List Bytes := [(a.members.map Hash.bytes).flatten]

/-- Bills that are alike, and the same text of base, increase (twelve decimals) and link difficulty, written
one after the other. -/
def Genesis.Alike (g h : Genesis) : Prop :=
  g.bill.Alike h.bill ∧ itoaU g.blockBase ++ fmtF12 g.blockIncrease ++ itoaU g.link =
    itoaU h.blockBase ++ fmtF12 h.blockIncrease ++ itoaU h.link

/-- The hashed texts. -/
def Genesis.texts (g : Genesis) : List Bytes :=
  (itoaU g.blockBase ++ fmtF12 g.blockIncrease ++ itoaU g.link ++ g.bill.hash.bytes) :: g.bill.texts

section
variable [C : Curve]

/-- The text hashed for an expense. -/
def Expense.hashedText (e : Expense) : Bytes :=
  e.content.hash.bytes ++ (e.signatures.map RingSignature.str).flatten

/-- Contents that are alike, and the same signatures. -/
def Expense.Alike (e f : Expense) : Prop :=
  e.content.Alike f.content ∧
    e.signatures.map RingSignature.reduced = f.signatures.map RingSignature.reduced

/-- The hashed texts. -/
def Expense.texts (e : Expense) : List Bytes := e.hashedText :: e.content.texts

/-- What a transaction is made of. -/
inductive Piece where
  | address (a : Address)
  | bucket (h : Hash)
  | fee (e : Expense)

/-- Pieces of the same kind that are alike. A bucket can be taken for an address or a fee, if it is their hash;
an address for a fee, if its sole member is the hash of the fee, or its members are the text hashed for the
fee. -/
def Piece.Alike : Piece → Piece → Prop
  | .address a, .address b => a.Alike b
  | .address a, .bucket h => a.hash = h
  | .bucket h, .address a => a.hash = h
  | .bucket h, .bucket k => h = k
  | .bucket h, .fee e => e.hash = h
  | .fee e, .bucket h => e.hash = h
  | .address a, .fee e => a.members = [e.hash] ∨ (a.members.map Hash.bytes).flatten = e.hashedText
  | .fee e, .address a => a.members = [e.hash] ∨ (a.members.map Hash.bytes).flatten = e.hashedText
  | .fee e, .fee f => e.Alike f

/-- The hashed texts. -/
def Piece.texts : Piece → List Bytes
  | .address a => a.texts
  | .bucket _ => []
  | .fee e => e.texts

/-- The hash of a piece. -/
def Piece.hash : Piece → Hash
  | .address a => a.hash
  | .bucket h => h
  | .fee e => e.hash

/-- The address, the bucket and the fees, as far as there are any. -/
def Transaction.pieces (x : Transaction) : List Piece :=
  x.address.toList.map .address ++ x.bucket.toList.map .bucket ++ x.fees.map .fee

/-- Pieces that are alike; or one transaction has a sole piece, whose hash is that of the other. -/
def Transaction.Alike (x y : Transaction) : Prop :=
  List.Forall₂ Piece.Alike x.pieces y.pieces ∨ x.pieces.map Piece.hash = [y.hash] ∨
    y.pieces.map Piece.hash = [x.hash]

/-- The hashed texts. -/
def Transaction.texts (x : Transaction) : List Bytes :=
  (x.pieces.map fun p => p.hash.bytes).flatten :: x.pieces.flatMap Piece.texts

/-- Geneses that are alike, the same additional count, transactions that are alike. -/
def Block.Alike (b c : Block) : Prop :=
  b.genesis.Alike c.genesis ∧ b.additional = c.additional ∧
    List.Forall₂ Transaction.Alike b.trx c.trx

/-- The hashed texts. -/
def Block.texts (b : Block) : List Bytes :=
  (b.genesis.hash.bytes ++ (itoaU b.additional ++ (b.trx.map fun x => x.hash.bytes).flatten)) ::
    (b.genesis.texts ++ b.trx.flatMap Transaction.texts)

/-- Blocks that are alike and the same mining text; or an empty mining text, and a block that has the hash of
the other mined block. -/
def MinedBlock.Alike (m n : MinedBlock) : Prop :=
  (m.block.Alike n.block ∧ m.mining = n.mining) ∨ (m.mining = [] ∧ m.block.hash = n.hash) ∨
    (n.mining = [] ∧ n.block.hash = m.hash)

/-- The hashed texts. -/
def MinedBlock.texts (m : MinedBlock) : List Bytes := (m.block.hash.bytes ++ m.mining) :: m.block.texts

/-- The same previous link and index, and blocks that are alike. -/
def Link.Alike (l m : Link) : Prop :=
  l.prevLink = m.prevLink ∧ l.next.Alike m.next ∧ l.index = m.index

/-- The hashed texts. -/
def Link.texts (l : Link) : List Bytes :=
  (l.prevLink.bytes ++ (l.next.hash.bytes ++ itoaU l.index)) :: l.next.texts

/-- Links that are alike and the same mining text; or an empty mining text, and a link that has the hash of
the other mined link. -/
def MinedLink.Alike (m n : MinedLink) : Prop :=
  (m.link.Alike n.link ∧ m.mining = n.mining) ∨ (m.mining = [] ∧ m.link.hash = n.hash) ∨
    (n.mining = [] ∧ n.link.hash = m.hash)

/-- The hashed texts. -/
def MinedLink.texts (m : MinedLink) : List Bytes := (m.link.hash.bytes ++ m.mining) :: m.link.texts

/-- Geneses, roots and heads that are alike, and the same total. -/
def Chain.Alike (c d : Chain) : Prop :=
  c.genesis.Alike d.genesis ∧ c.root.Alike d.root ∧ c.head.Alike d.head ∧ c.total = d.total

/-- The hashed texts. -/
def Chain.texts (c : Chain) : List Bytes :=
  (c.genesis.hash.bytes ++ (c.root.hash.bytes ++ (c.head.hash.bytes ++ itoaU c.total))) ::
    (c.genesis.texts ++ c.root.texts ++ c.head.texts)

end

end Verif
