import Verif.Spec.Ring
import Verif.Model.Json.Memory

/-!
# Specification vocabulary: texts of other nodes that bring the process down
-/

namespace Verif

/-- The reading of `x` succeeds. -/
def CanRead {α β : Type} (f : α → Outcome β) (x : α) : Prop := ∃ y, f x = .ok y

/-- Some element is bad, and those before it are good. -/
def FirstBad {α : Type} (good bad : α → Prop) (l : List α) : Prop :=
  ∃ pre x post, l = pre ++ x :: post ∧ (∀ y ∈ pre, good y) ∧ bad x

/-- The bill is missing, or it has no lock. -/
def BillGap : Option JSONBill → Prop
  | none => True
  | some j => j.lock = none

/-- The genesis is missing, or its bill is, or that has no lock. -/
def GenesisGap : Option JSONGenesis → Prop
  | none => True
  | some j => BillGap j.bill

section
variable [Sha512]

/-- The content is missing; or a bill of it is missing or has no lock, and everything that is read before
it can be read: first the bills to be spent, then the one paid, then the rest, which may be missing. -/
def ContentGap : Option JSONContent → Prop
  | none => True
  | some j => FirstBad (CanRead billFromJSON) BillGap j.source ∨
      (∀ x ∈ j.source, CanRead billFromJSON x) ∧
        (BillGap j.dest ∨ CanRead billFromJSON j.dest ∧ ∃ r, j.remaining = some r ∧ r.lock = none)

variable [C : Curve]

/-- A ring signature over exactly the keys of the lock with fewer scalars than ring members. -/
def Short (l : Lock) (sig : RingSignature) : Prop :=
  (∀ k, k ∈ l.pubKeys ↔ k ∈ sig.ring.map fun p => fromBytes (hexEncode (C.enc p))) ∧
    sig.s.length < sig.ring.length

/-- How the reading of an expense panics: a gap in its content; or everything can be read, there is a
signature for every bill, and one of them is too short while those before it open their bills. -/
inductive ExpenseBreaks : Option JSONExpense → Crash → Prop
  | missing : ExpenseBreaks none .nilDeref
  | gap {j : JSONExpense} : ContentGap j.content → ExpenseBreaks (some j) .nilDeref
  | short {j : JSONExpense} {cn : Content} {pre post : List Bill} {b : Bill}
      {pre' post' : List RingSignature} {s : RingSignature} :
      contentFromJSON j.content = .ok cn → cn.source = pre ++ b :: post →
      List.Forall₂ (fun t s => toRingSignature t = .ok s) j.signatures (pre' ++ s :: post') →
      (pre' ++ s :: post').length = (pre ++ b :: post).length →
      List.Forall₂ (fun (b : Bill) s => Opens b.lock s) pre pre' → Short b.lock s →
      ExpenseBreaks (some j) .indexOutOfRange

/-- How the reading of a transaction panics: its bucket is a hash text or empty, and one of its expenses
panics while those before it can be read. Its address is read after that, and never panics. -/
inductive TrxBreaks : Option JSONTransaction → Crash → Prop
  | missing : TrxBreaks none .nilDeref
  | fee {j : JSONTransaction} {c : Crash} : (j.bucket = [] ∨ CanRead fromString j.bucket) →
      FirstBad (CanRead expenseFromJSON) (ExpenseBreaks · c) j.fees → TrxBreaks (some j) c

/-- How the reading of a block panics: in one of its transactions while those before it can be read, or, when
all of them can be read, by a gap in its genesis. -/
inductive BlockBreaks : Option JSONBlock → Crash → Prop
  | missing : BlockBreaks none .nilDeref
  | trx {j : JSONBlock} {c : Crash} : FirstBad (CanRead trxFromJSON) (TrxBreaks · c) j.trx →
      BlockBreaks (some j) c
  | genesis {j : JSONBlock} : (∀ x ∈ j.trx, CanRead trxFromJSON x) → GenesisGap j.genesis →
      BlockBreaks (some j) .nilDeref

/-- How the reading of a link panics: the previous hash is a hash text, and the block panics. -/
inductive LinkBreaks : Option JSONLink → Crash → Prop
  | missing : LinkBreaks none .nilDeref
  | block {j : JSONLink} {c : Crash} : CanRead fromString j.prevLink → BlockBreaks j.next c →
      LinkBreaks (some j) c

end

/-! ## Structures that are whole -/

/-- The bill has a lock. -/
def JSONBill.Whole (j : JSONBill) : Prop := j.lock ≠ none

/-- There is something, and it is whole. -/
def WholeOpt {α : Type} (whole : α → Prop) (x : Option α) : Prop := ∃ j, x = some j ∧ whole j

/-- No part is missing; the rest may be. -/
def JSONContent.Whole (j : JSONContent) : Prop :=
  (∀ x ∈ j.source, WholeOpt JSONBill.Whole x) ∧ WholeOpt JSONBill.Whole j.dest ∧
    ∀ r, j.remaining = some r → r.Whole

variable [C : Curve]

/-- The signatures that can be read have a scalar for every ring member. -/
def JSONExpense.Whole (j : JSONExpense) : Prop :=
  WholeOpt JSONContent.Whole j.content ∧
    ∀ t ∈ j.signatures, ∀ s, toRingSignature t = .ok s → s.ring.length ≤ s.s.length

def JSONTransaction.Whole (j : JSONTransaction) : Prop := ∀ x ∈ j.fees, WholeOpt JSONExpense.Whole x

def JSONBlock.Whole (j : JSONBlock) : Prop :=
  (∀ x ∈ j.trx, WholeOpt JSONTransaction.Whole x) ∧
    WholeOpt (fun g : JSONGenesis => WholeOpt JSONBill.Whole g.bill) j.genesis

def JSONLink.Whole (j : JSONLink) : Prop := WholeOpt JSONBlock.Whole j.next

def JSONMinedLink.Whole (j : JSONMinedLink) : Prop := WholeOpt JSONLink.Whole j.link

end Verif
