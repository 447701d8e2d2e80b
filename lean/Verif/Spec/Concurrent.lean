import Verif.Spec.Persistence
import Verif.Model.Store.Reads

/-!
# Specification vocabulary: calls that run at the same time

A retrieval reads one file after the other, and other calls can change files in between.
`ioutil.WriteFile` opens the file with `O_TRUNC` and then writes the content, so other calls can see
the file empty. When two calls have the same file open, the one that writes last writes its content
over that of the other: of a longer content the end stays, which is no JSON text any more
(`C137_mixed_text_neg`).
-/

namespace Verif

section
variable [C : Curve]

/-- A service call in progress: about to take its next step, in the middle of a retrieval, or with a
file opened and emptied whose content is not written yet. -/
inductive Call where
  | next (p : Proc Unit)
  | reading (q : Query) (r : Rd q.Result) (k : Outcome q.Result → Proc Unit)
  | writing (done torn : Store → Store) (k : Bool → Proc Unit)

/-- One step of a call. No write fails. The step `mixes`: some other call has written another
content in the meantime. -/
inductive Call.Step [Sha512] : Call → Store → Call → Store → Prop
  | begins (q : Query) (k : Outcome q.Result → Proc Unit) (σ : Store) :
      Step (.next (.query q k)) σ (.reading q q.reads k) σ
  | reads (q : Query) (n : Spot) (r : n.Content → Rd q.Result) (k : Outcome q.Result → Proc Unit)
      (σ : Store) : Step (.reading q (.ask n r) k) σ (.reading q (.after n r (σ.file n)) k) σ
  | ends (q : Query) (o : Outcome q.Result) (k : Outcome q.Result → Proc Unit) (σ : Store) :
      Step (.reading q (.ret o) k) σ (.next (k o)) σ
  | opens (d t : Store → Store) (k : Bool → Proc Unit) (σ : Store) :
      Step (.next (.write d t k)) σ (.writing d t k) (t σ)
  | writes (d t : Store → Store) (k : Bool → Proc Unit) (σ : Store) :
      Step (.writing d t k) σ (.next (k true)) (d σ)
  | mixes (d t : Store → Store) (k : Bool → Proc Unit) (σ : Store) :
      t σ ≠ σ → d σ ≠ σ → Step (.writing d t k) σ (.next (k true)) (t σ)

/-- Any number of calls that run at the same time: at every point any one of them takes its next
step. A call that takes no further step has been killed or has not yet gone on. -/
inductive Together [Sha512] : List Call → Store → List Call → Store → Prop
  | refl (cs : List Call) (σ : Store) : Together cs σ cs σ
  | step {cs as bs : List Call} {c c' : Call} {σ σ₁ σ₂ : Store} :
      Together cs σ (as ++ c :: bs) σ₁ → c.Step σ₁ c' σ₂ → Together cs σ (as ++ c' :: bs) σ₂

/-- A write that fails: the file cannot be opened; or it was opened and nothing, a part or all of the
content was written before the error. -/
inductive Call.Fault : Call → Store → Call → Store → Prop
  | refused (d t : Store → Store) (k : Bool → Proc Unit) (σ : Store) :
      Fault (.next (.write d t k)) σ (.next (k false)) σ
  | nothing (d t : Store → Store) (k : Bool → Proc Unit) (σ : Store) :
      Fault (.writing d t k) σ (.next (k false)) σ
  | part (d t : Store → Store) (k : Bool → Proc Unit) (σ : Store) :
      Fault (.writing d t k) σ (.next (k false)) (t σ)
  | whole (d t : Store → Store) (k : Bool → Proc Unit) (σ : Store) :
      Fault (.writing d t k) σ (.next (k false)) (d σ)

/-- As `Together`, with writes that fail. -/
inductive Beset [Sha512] : List Call → Store → List Call → Store → Prop
  | refl (cs : List Call) (σ : Store) : Beset cs σ cs σ
  | step {cs as bs : List Call} {c c' : Call} {σ σ₁ σ₂ : Store} :
      Beset cs σ (as ++ c :: bs) σ₁ → c.Step σ₁ c' σ₂ → Beset cs σ (as ++ c' :: bs) σ₂
  | fault {cs as bs : List Call} {c c' : Call} {σ σ₁ σ₂ : Store} :
      Beset cs σ (as ++ c :: bs) σ₁ → c.Fault σ₁ c' σ₂ → Beset cs σ (as ++ c' :: bs) σ₂

/-- The call has returned. -/
def Call.Returned (o : Outcome Unit) (c : Call) : Prop := c = .next (.ret o)

/-- The call has no file open. -/
def Call.Idle (c : Call) : Prop := ∀ d t k, c ≠ .writing d t k

/-- The retrieval of what the operation saves. -/
def Op.query : Op → Query
  | .lock x => .lock x.hash
  | .bill x => .bill x.hash
  | .expense x => .expense x.hash
  | .genesis _ => .genesis
  | .trx x => .trx x.hash
  | .block x => .block x.hash
  | .minedBlock x => .minedBlock x.hash
  | .link x => .link x.hash
  | .minedLink x => .minedLink x.hash
  | .insert _ | .update _ _ => .chain
  | .state s => .state s.chain s.height

/-- What was retrieved is what the operation saves, up to times and the encoding of scalars. -/
def Op.Same (e : Time → Time) : (op : Op) → op.query.Result → Prop
  | .lock x => fun y : Lock => y.timed e = x.timed e
  | .bill x => fun y : Bill => y.timed e = x.timed e
  | .expense x => fun y : Expense => y.timed e = x.reduced.timed e
  | .genesis x => fun y : Genesis => y.timed e = x.timed e
  | .trx x => fun y : Transaction => y.timed e = x.reduced.timed e
  | .block x => fun y : Block => y.timed e = x.reduced.timed e
  | .minedBlock x => fun y : MinedBlock => y.timed e = x.reduced.timed e
  | .link x => fun y : Link => y.timed e = x.reduced.timed e
  | .minedLink x => fun y : MinedLink => y.timed e = x.reduced.timed e
  | .insert _ | .update _ _ | .state _ => fun _ => True

/-- A call that retrieves, and does something with what it got. -/
def Query.call (q : Query) (f : Outcome q.Result → Outcome Unit) : Call :=
  .next (.query q fun o => .ret (f o))

/-- The operation, one file at a time. -/
def Op.proc [Sha512] : Op → Proc Unit
  | .lock x => procLock x
  | .bill x => procBill x
  | .expense x => procExpense x
  | .genesis x => procGenesis x
  | .trx x => procTrx x
  | .block x => procBlock x
  | .minedBlock x => procMinedBlock x
  | .link x => procLink x
  | .minedLink x => procMinedLink x
  | .insert c => procInsert c
  | .update a b => procUpdate a b
  | .state s => procState s

/-- The stores that come about: again and again any number of operations on objects of the world are
started at the same time, their steps interleave, writes fail, and after a while the process is
killed. -/
inductive Turmoil [Sha512] (W : World) : Store → Prop
  | empty : Turmoil W .empty
  | round {ops : List Op} {cs : List Call} {σ σ' : Store} : Turmoil W σ → (∀ op ∈ ops, op.In W) →
      Beset (ops.map fun op => .next op.proc) σ cs σ' → Turmoil W σ'

/-- It is the same operation. -/
theorem Op.proc_prog [Sha512] (op : Op) : op.proc.prog = op.prog := by
  cases op <;> simp [Op.proc, Op.prog]

/-- No two different objects of a kind with the same hash are handed to the services, not even ones
that differ in their times or in the encoding of a signature, and there is one genesis. -/
structure World.Exact (W : World) : Prop where
  lock : ∀ x y, W.lock x → W.lock y → x.hash = y.hash → x = y
  bill : ∀ x y, W.bill x → W.bill y → x.hash = y.hash → x = y
  expense : ∀ x y, W.expense x → W.expense y → x.hash = y.hash → x = y
  genesis : ∀ x y, W.genesis x → W.genesis y → x = y
  trx : ∀ x y, W.trx x → W.trx y → x.hash = y.hash → x = y
  block : ∀ x y, W.block x → W.block y → x.hash = y.hash → x = y
  minedBlock : ∀ x y, W.minedBlock x → W.minedBlock y → x.hash = y.hash → x = y
  link : ∀ x y, W.link x → W.link y → x.hash = y.hash → x = y
  minedLink : ∀ x y, W.minedLink x → W.minedLink y → x.hash = y.hash → x = y

end

end Verif
