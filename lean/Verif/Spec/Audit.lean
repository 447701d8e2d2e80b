import Verif.Spec.Ledger
import Verif.Spec.Crypto

/-!
# Specification vocabulary: auditing the blocks of a chain

The code has no such audit; this is what a reader of the blocks can do with the hashes in them.
-/

namespace Verif

variable [C : Curve]

/-- Somebody keeps a list of unspent bills and goes through expenses: for every bill that an expense
lists, one with the same hash is taken out of the list (one for each time it is listed), and what was
paid and given back is put in. `Audit P es R`: starting with `P` this is possible for all of the
expenses, and `R` is left. -/
inductive Audit : List Bill → List Expense → List Bill → Prop
  | done (P : List Bill) : Audit P [] P
  | pay {P Q R taken : List Bill} {e : Expense} {es : List Expense} : P.Perm (taken ++ Q) →
      taken.map Bill.hash = e.content.source.map Bill.hash →
      Audit (e.content.dest :: (e.content.remaining.toList ++ Q)) es R → Audit P (e :: es) R

/-- The expenses of a list of blocks, in order. -/
def expensesOf (bs : List Block) : List Expense := bs.flatMap Block.expenses

/-- The bills that a list of expenses lists as spent. -/
def listedIn (es : List Expense) : List Bill := es.flatMap fun e => e.content.source

/-- The bills made by a list of expenses: what was paid, and the change. -/
def madeBy (es : List Expense) : List Bill :=
  es.flatMap fun e => e.content.dest :: e.content.remaining.toList

/-- The text that is hashed for a bill. -/
def Bill.hashedText (b : Bill) : Bytes := b.lock.hash.bytes ++ itoaU b.amount

/-- Who signs this expense of somebody else's bill `k` had found a weakness of SHA-512: two texts with
the same value; several keys whose hash is the only key of the lock of `k`; or the lock of `k` has
several keys, whose hash is the text of a public key. -/
def Broken [Sha512] (k s : Bill) (sig : RingSignature) : Prop :=
  ShaCollision k.hashedText s.hashedText ∨ ShaCollision k.lock.hashedText s.lock.hashedText ∨
  (k.lock.pubKeys = [k.lock.hash] ∧ s.lock.hashedText.length ≠ 64 ∧
    Sha512.sum s.lock.hashedText = k.lock.hash) ∨
  (k.lock.hashedText.length ≠ 64 ∧
    ∃ p ∈ sig.ring, (Sha512.sum k.lock.hashedText).bytes = hexEncode (C.enc p))

end Verif
