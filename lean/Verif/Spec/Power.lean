import Verif.Spec.Concurrent

/-!
# Specification vocabulary: power failures

The code never calls `File.Sync` (`ioutil.WriteFile` does not either), so what was written can be
lost when the machine stops, and the files need not be lost in the order in which they were written.
-/

namespace Verif

section
variable [C : Curve]

/-- What can be left of the files by a power failure when the stores `past` came about before: every
file is absent, or unreadable, or has some content that it had at some time. -/
def PowerLoss (past : List Store) (σ : Store) : Prop :=
  ∀ n : Spot, σ.file n = none ∨ σ.file n = some .torn ∨ ∃ τ ∈ past, σ.file n = τ.file n

variable [Sha512]

/-- The life of a directory: the calls in progress, the stores that came about before, and the store
now. Calls on objects of the world are started at any time, their steps interleave, writes fail, and
the machine stops at any time. -/
inductive Life (W : World) : List Call → List Store → Store → Prop
  | empty : Life W [] [] .empty
  | starts {cs : List Call} {past : List Store} {σ : Store} {op : Op} :
      Life W cs past σ → op.In W → Life W (.next op.proc :: cs) past σ
  | step {as bs : List Call} {c c' : Call} {past : List Store} {σ σ' : Store} :
      Life W (as ++ c :: bs) past σ → c.Step σ c' σ' → Life W (as ++ c' :: bs) (σ :: past) σ'
  | fault {as bs : List Call} {c c' : Call} {past : List Store} {σ σ' : Store} :
      Life W (as ++ c :: bs) past σ → c.Fault σ c' σ' → Life W (as ++ c' :: bs) (σ :: past) σ'
  | power {cs : List Call} {past : List Store} {σ σ' : Store} :
      Life W cs past σ → PowerLoss (σ :: past) σ' → Life W [] (σ :: past) σ'

/-- The operations one after the other, without faults: what they return and the store at the end. -/
def Op.execAll : List Op → Store → List (Outcome Unit) × Store
  | [], σ => ([], σ)
  | op :: ops, σ =>
    let r := op.prog.exec σ
    let rs := execAll ops r.2
    (r.1 :: rs.1, rs.2)

end

end Verif
