import Verif.Model.App.Identities
import Verif.Model.App.Miners

/-!
# Specification vocabulary: a node that is used through its applications

Calls of the applications one after the other, in any order and with any arguments, and what they leave
behind. The calls of the miner can be cut off while they write, or meet failing writes.
-/

namespace Verif

section
variable [C : Curve]

/-- A node in use: the identities, the sessions that were opened, and the files. -/
structure Host (P : IdentityPort) where
  ids : P.S
  sessions : List Session
  files : Store

/-- No identities, no sessions and no files. -/
def Host.Fresh {P : IdentityPort} (n : Host P) : Prop :=
  (∀ name seed, P.view n.ids name seed = none) ∧ n.sessions = [] ∧ n.files = Store.empty

/-- A call of one of the applications that work on identities, the genesis or the miner, with what the call
takes from its surroundings. -/
inductive Use where
  | newIdentity (name password seed root : Bytes) (now₁ now₂ : Time)
  | authenticate (name seed password : Bytes)
  | update (a : Session) (u : IdentityUpdate) (now₁ now₂ : Time)
  | delete (a : Session)
  | addBucket (a : Session) (b : IdBucket)
  | deleteBucket (a : Session) (path : Bytes)
  | announce (a : Session) (I : IdentityParts) (additional : Int) (path : Bytes) (fees : List FeeRun)
      (now : Time)
  | init (x : InitArgs) (pk : Scalar) (bill : Bill → Scalar → Time → Outcome WalletBill)
      (t₁ t₂ now₁ now₂ : Time)
  | block (E : MinerEnv) (trx : List Bytes)
  | link (E : MinerEnv) (prev next : Bytes)

/-- The calls that should write files of the chain. -/
def Use.OnChain : Use → Prop
  | .init .. => True
  | .block .. => True
  | .link .. => True
  | _ => False

/-- Announcing a bucket with at least one fee. -/
def Use.Pays : Use → Prop
  | .announce _ _ _ _ fees _ => fees ≠ []
  | _ => False

/-- The collection of wallets, which has no implementation: recording a transaction makes no wallet where
there was none, and no bills are fetched where there is no wallet. -/
def Use.Plain : Use → Prop
  | .announce _ I _ _ _ _ =>
    (∀ i t j, i.wallets = [] → I.transact i t = .ok j → j.wallets = []) ∧
      ∀ i a bs, i.wallets = [] → I.fetchBills i a = .ok bs → bs = []
  | _ => True

variable [Sha512] {P : IdentityPort}

/-- What a call answers (`none`: it was cut off), and the node afterwards. A session is used by calls only
after it was opened; updating the identity changes the session. -/
inductive Use.Gives : Use → Host P → Option (Outcome Unit) → Host P → Prop
  | newIdentity {n : Host P} {name password seed root now₁ now₂ r s}
      (h : Verif.newIdentity P n.ids name password seed root now₁ now₂ = (r, s)) :
      Gives (.newIdentity name password seed root now₁ now₂) n (some r) { n with ids := s }
  | opened {n : Host P} {name seed password a} (h : Verif.authenticate P n.ids name seed password = .ok a) :
      Gives (.authenticate name seed password) n (some (.ok ())) { n with sessions := n.sessions ++ [a] }
  | refused {n : Host P} {name seed password m}
      (h : Verif.authenticate P n.ids name seed password = .err m) :
      Gives (.authenticate name seed password) n (some (.err m)) n
  | panicked {n : Host P} {name seed password c}
      (h : Verif.authenticate P n.ids name seed password = .crash c) :
      Gives (.authenticate name seed password) n (some (.crash c)) n
  | update {n : Host P} {a u now₁ now₂ r s a' pre post} (hs : n.sessions = pre ++ a :: post)
      (h : a.update P n.ids u now₁ now₂ = (r, s, a')) :
      Gives (.update a u now₁ now₂) n (some r) { n with ids := s, sessions := pre ++ a' :: post }
  | delete {n : Host P} {a r s} (hs : a ∈ n.sessions) (h : a.delete P n.ids = (r, s)) :
      Gives (.delete a) n (some r) { n with ids := s }
  | addBucket {n : Host P} {a b r s} (hs : a ∈ n.sessions) (h : a.addBucket P n.ids b = (r, s)) :
      Gives (.addBucket a b) n (some r) { n with ids := s }
  | deleteBucket {n : Host P} {a path r s} (hs : a ∈ n.sessions)
      (h : a.deleteBucket P n.ids path = (r, s)) :
      Gives (.deleteBucket a path) n (some r) { n with ids := s }
  | announce {n : Host P} {a I additional path fees now r s} (hs : a ∈ n.sessions)
      (h : a.bucket P I additional n.ids path fees now = (r, s)) :
      Gives (.announce a I additional path fees now) n (some r) { n with ids := s }
  | init {n : Host P} {x pk bill t₁ t₂ now₁ now₂ r s σ}
      (h : initGenesis P n.ids n.files x pk bill t₁ t₂ now₁ now₂ = (r, s, σ)) :
      Gives (.init x pk bill t₁ t₂ now₁ now₂) n (some r) { n with ids := s, files := σ }
  | block {n : Host P} {E trx r σ} (h : Run (mineBlock E trx) n.files r σ) :
      Gives (.block E trx) n r { n with files := σ }
  | link {n : Host P} {E prev next r σ} (h : Run (mineLink E prev next) n.files r σ) :
      Gives (.link E prev next) n r { n with files := σ }

/-- Any number of calls that satisfy a condition. -/
inductive Used (ok : Use → Prop) : Host P → Host P → Prop
  | none {n : Host P} : Used ok n n
  | call {n n₁ n₂ : Host P} {u r} : Used ok n n₁ → ok u → u.Gives n₁ r n₂ → Used ok n n₂

end

end Verif
