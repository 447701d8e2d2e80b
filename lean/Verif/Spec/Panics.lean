import Verif.Spec.Concurrent

/-!
# Specification vocabulary: files that cannot bring the process down
-/

namespace Verif

/-- The hash texts in a stored leaf in the order in which they are read; `none` for a missing leaf
(`null`). -/
def JLeaf.texts : JLeaf → List (Option Bytes)
  | .null => [none]
  | .atom h => [some h]
  | .node h l r => some h :: (l.texts ++ r.texts)

/-- The hash texts of the leaves without children. -/
def JLeaf.tips : JLeaf → List Bytes
  | .null => []
  | .atom h => [h]
  | .node _ l r => l.tips ++ r.tips

/-- The hash texts in the tree. -/
def JCompact.tips (t : JCompact) : List Bytes := t.leaves.flatMap JLeaf.tips

/-- The number of hashes that are taken: an amount from `2^63` on is negative as an `int`, and
nothing is taken. -/
def takenOf (amount : UInt64) : Nat := if amount.toNat < 2 ^ 63 then amount.toNat else 0

/-- A stored tree out of which `amount` hashes can be taken: no leaf is missing, the number of leaves
is 2, 4, 8, ..., and there are enough of them. -/
structure JCompact.Sturdy (t : JCompact) (amount : UInt64) : Prop where
  whole : ∀ l ∈ t.leaves, none ∉ l.texts
  power : ∃ k, t.leaves.length = 2 ^ (k + 1)
  enough : takenOf amount ≤ t.tips.length

/-- A leaf of the stored tree is missing, and the texts in front of it are hash texts. -/
def JCompact.Gap [Sha512] (t : JCompact) : Prop :=
  ∃ (pre : List Bytes) (post : List (Option Bytes)),
    t.leaves.flatMap JLeaf.texts = pre.map some ++ none :: post ∧ ∀ x ∈ pre, ∃ h, fromString x = .ok h

/-- No leaf is missing, and all texts are hash texts. -/
def JCompact.Whole [Sha512] (t : JCompact) : Prop :=
  ∀ x ∈ t.leaves.flatMap JLeaf.texts, ∃ s h, x = some s ∧ fromString s = .ok h

/-- How the rebuilding of a stored tree panics. -/
inductive JCompact.Breaks [Sha512] (t : JCompact) : Crash → Prop
  | gap : t.Gap → t.Breaks .nilDeref
  | empty : t.leaves = [] → t.Breaks .stackOverflow
  | odd : t.Whole → t.leaves ≠ [] → (¬ ∃ k, t.leaves.length = 2 ^ (k + 1)) →
      t.Breaks .indexOutOfRange

variable [C : Curve]

/-- Contents of files that can be read without a panic: the signatures of expenses have a scalar for
every member of the ring, and the trees of blocks and states can be rebuilt. Nothing is asked of the
other files. -/
def Spot.Sturdy : (n : Spot) → n.Content → Prop
  | .expense _ => fun js : JTrExpense => ∀ text ∈ js.signatures, ∀ sig, toRingSignature text = .ok sig →
      sig.ring.length ≤ sig.s.length
  | .block _ => fun js : JTrBlock => ∃ t, js.trx = some t ∧ t.Sturdy js.amount
  | .state _ => fun js : JTrState => ∃ t, js.trx = some t ∧ t.Sturdy js.amount
  | _ => fun _ => True

/-- All complete files are of this kind. Files may be missing, torn, refer to nothing or contradict
each other. -/
def Store.Sturdy (σ : Store) : Prop := ∀ n a, σ.file n = some (.json a) → n.Sturdy a

variable [Sha512]

/-- The state comes out of the builder. -/
def State.Built (s : State) : Prop := ∃ c p h x t, stateNow c p h x t = .ok s

/-- What is handed to the service comes out of the builders. -/
def Op.Built : Op → Prop
  | .lock x => x.Built
  | .bill x => x.Built
  | .expense x => x.Built
  | .genesis x => x.Built
  | .trx x => x.Built
  | .block x => x.Built
  | .minedBlock x => x.Built
  | .link x => x.Built
  | .minedLink x => x.Built
  | .insert c => c.genesis.Built ∧ c.root.Built ∧ c.head.Built
  | .update _ b => b.head.Built
  | .state s => s.Built

/-- A call of a service with a built object, or a retrieval, of whose result something is told that is
no panic unless the retrieval panicked. -/
inductive Call.Fair : Call → Prop
  | save (op : Op) : op.Built → Fair (.next op.proc)
  | find (q : Query) (f : Outcome q.Result → Outcome Unit) :
      (∀ o, (∀ c, o ≠ .crash c) → ∀ c, f o ≠ .crash c) → Fair (q.call f)

/-- The stores that come about from a store: again and again any number of such calls
are started at the same time, their steps interleave, writes fail, and after a while the
process is killed. -/
inductive Comes : Store → Store → Prop
  | refl (σ : Store) : Comes σ σ
  | round {cs cs' : List Call} {σ σ₁ σ₂ : Store} : Comes σ σ₁ → (∀ c ∈ cs, c.Fair) →
      Beset cs σ₁ cs' σ₂ → Comes σ σ₂

end Verif
