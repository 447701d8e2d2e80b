import Verif.Model.SigLemmas
import Verif.Spec.Piastres

/-!
# Specification vocabulary for JSON round trips

A scalar has many 32-byte encodings; its text shows the reduced one. `reduced` replaces the
scalars of all signatures in an object by their reduced encodings and touches nothing else.
-/

namespace Verif

section
variable [C : Curve]

/-- The same signature with all scalars in reduced encoding. -/
def RingSignature.reduced (sig : RingSignature) : RingSignature :=
  ⟨sig.ring, sig.s.map normSc, normSc sig.e⟩

/-- All scalars are in reduced encoding. -/
def RingSignature.Canonical (sig : RingSignature) : Prop :=
  (∀ x ∈ sig.s, ∃ a, x = C.canon a) ∧ ∃ a, sig.e = C.canon a

/-- The same expense with reduced signatures. -/
def Expense.reduced (e : Expense) : Expense :=
  { e with signatures := e.signatures.map RingSignature.reduced }

/-- The same transaction with reduced signatures. -/
def Transaction.reduced (x : Transaction) : Transaction :=
  { x with fees := x.fees.map Expense.reduced }

/-- The same block with reduced signatures. -/
def Block.reduced (b : Block) : Block := { b with trx := b.trx.map Transaction.reduced }

/-- The same link with reduced signatures. -/
def Link.reduced (l : Link) : Link := { l with next := l.next.reduced }

/-- The same mined link with reduced signatures. -/
def MinedLink.reduced (l : MinedLink) : MinedLink := { l with link := l.link.reduced }

/-- All scalars that multiply the base point are at most `largestFactor`. -/
def RingSignature.Fits (sig : RingSignature) : Prop := ∀ x ∈ sig.s, x.Fits
/-- All signatures fit. -/
def Expense.Fits (e : Expense) : Prop := ∀ s ∈ e.signatures, s.Fits
/-- All signatures fit. -/
def Transaction.Fits (x : Transaction) : Prop := ∀ e ∈ x.fees, e.Fits
/-- All signatures fit. -/
def Block.Fits (b : Block) : Prop := ∀ x ∈ b.trx, x.Fits
/-- All signatures fit. -/
def Link.Fits (l : Link) : Prop := l.next.Fits
/-- All signatures fit. -/
def MinedLink.Fits (l : MinedLink) : Prop := l.link.Fits

/-- All signatures are canonical. -/
def Expense.Canonical (e : Expense) : Prop := ∀ s ∈ e.signatures, s.Canonical
/-- All signatures are canonical. -/
def Transaction.Canonical (x : Transaction) : Prop := ∀ e ∈ x.fees, e.Canonical
/-- All signatures are canonical. -/
def Block.Canonical (b : Block) : Prop := ∀ x ∈ b.trx, x.Canonical

end

end Verif
