import Verif.Model.Identities.Transfers
import Verif.Spec.Crypto
import Verif.Spec.Json

/-!
# Vocabulary for identities
-/

namespace Verif

section
variable [C : Curve]

/-- What the hash of an entry should be taken over. -/
def Entry.hashedText (e : Entry) : Bytes := e.name ++ (e.trx.map fun x => x.hash.bytes).flatten

/-- What the hash of a statement should be taken over. -/
def Statement.hashedText (s : Statement) : Bytes :=
  ((s.incoming ++ s.outgoing).map fun e => e.hash.bytes).flatten

/-- What the hash of an identity should be taken over. -/
def Identity.hashedText (i : Identity) : Bytes :=
  i.seed ++ i.name ++ i.root ++ (i.wallets.map fun w => w.hash.bytes).flatten ++
    (i.buckets.map fun b => b.hash.bytes).flatten

end

section
variable [C : Curve] [Sha512]

/-- Objects that come out of the builders. -/
def Entry.Built (e : Entry) : Prop := ∃ n x d t, entryNow n x d t = .ok e

/-- See `Entry.Built`. -/
def Statement.Built (s : Statement) : Prop :=
  (∃ i o t, statementNow i o t = .ok s) ∧ (∀ e ∈ s.incoming, e.Built) ∧ ∀ e ∈ s.outgoing, e.Built

/-- See `Entry.Built`; nothing is asked of the wallets and buckets. -/
def Identity.Built (i : Identity) : Prop :=
  ∃ s n r w b c l t₁ t₂, identityNow s n r w b c l t₁ t₂ = .ok i

end

/-- See `Entry.Built`. -/
def TrIdentity.Built (i : TrIdentity) : Prop :=
  ∃ h s n r w b c l t₁ t₂, trIdentityNow h s n r w b c l t₁ t₂ = .ok i

/-- What storing and reading an identity is supposed to keep. -/
structure SameIdentity (i j : TrIdentity) : Prop where
  hash : j.hash = i.hash
  seed : j.seed = i.seed
  name : j.name = i.name
  root : j.root = i.root
  wallets : j.wallets.getD [] = i.wallets.getD []
  buckets : j.buckets.getD [] = i.buckets.getD []
  createdOn : j.createdOn = i.createdOn

/-- Operations on the files of the identity service. -/
inductive IdentityOp where
  | save (i : TrIdentity)
  | delete (i : TrIdentity)

/-- The identity that an operation is about. -/
def IdentityOp.identity : IdentityOp → TrIdentity
  | .save i => i
  | .delete i => i

/-- The identity that was saved last under this hash and seed and not deleted since. -/
def lastSaved (ops : List IdentityOp) (hash : Hash) (seed : Bytes) : Option TrIdentity :=
  ops.foldl (fun r op =>
    match op with
    | .save i => if i.hash = hash ∧ i.seed = seed then some i else r
    | .delete i => if i.hash = hash ∧ i.seed = seed then none else r) none

section
variable [Sha512]

/-- The file of this hash and seed and the file of one of the operations have the same name though not the
same hash and seed. -/
def FileClash (ops : List IdentityOp) (hash : Hash) (seed : Bytes) : Prop :=
  ∃ op ∈ ops, ShaCollision (hash.str ++ seed) (op.identity.hash.str ++ op.identity.seed)

/-- What an operation does to the files. -/
def IdentityOp.run (op : IdentityOp) (σ : IdentityFiles) : IdentityFiles :=
  match op with
  | .save i => saveTrIdentity i σ
  | .delete i => (deleteTrIdentity i σ).2

/-- The files after a sequence of operations, beginning with none. -/
def identityFilesAfter (ops : List IdentityOp) : IdentityFiles :=
  ops.foldl (fun σ op => op.run σ) fun _ => none

end

end Verif
