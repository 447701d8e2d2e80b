import Verif.Model.Daemons

/-!
# Calls of the applications that run at the same time

Adding and deleting a bucket, paying for a bucket, changing an identity, adding a peer and the rounds
of the daemons of buckets and peers all do the same: they ask the repository once, work on the answer,
and hand the result to the service once. Nothing is locked in between. A `TwoStep` is such a call cut
at the point where other calls can come in; `TwoStep.call` puts the halves together again. Repository
and service are taken to answer one access after the other.
-/

namespace Verif

/-- A call that reads, and later writes. -/
structure TwoStep (S V : Type) where
  read : S → Outcome V
  write : V → S → Outcome Unit × S

/-- The call with nothing in between. -/
def TwoStep.call {S V : Type} (c : TwoStep S V) (s : S) : Outcome Unit × S :=
  withOk (c.read s) s fun v => c.write v s

/-- How far a call is: it holds what it has read until it writes. -/
inductive Stage (V : Type) where
  | idle
  | seen (v : V)
  | returned (r : Outcome Unit)

/-- A call after its first half. -/
def Stage.ofRead {V : Type} : Outcome V → Stage V
  | .ok v => .seen v
  | .err m => .returned (.err m)
  | .crash c => .returned (.crash c)

/-- What is stored, and how far every call is. -/
structure Scene (ι S V : Type) where
  state : S
  stage : ι → Stage V

/-- What happens next: a call reads, a call writes, or something else changes what is stored. -/
inductive Act (ι : Type) where
  | reads (k : ι)
  | writes (k : ι)
  | other

/-- One step; `E` says which other changes there are. -/
inductive Beat {ι S V : Type} [DecidableEq ι] (calls : ι → TwoStep S V) (E : S → S → Prop) :
    Scene ι S V → Act ι → Scene ι S V → Prop where
  | reads {c : Scene ι S V} {k : ι} (h : c.stage k = .idle) :
    Beat calls E c (.reads k)
      ⟨c.state, Function.update c.stage k (Stage.ofRead ((calls k).read c.state))⟩
  | writes {c : Scene ι S V} {k : ι} {v : V} (h : c.stage k = .seen v) :
    Beat calls E c (.writes k)
      ⟨((calls k).write v c.state).2,
        Function.update c.stage k (.returned ((calls k).write v c.state).1)⟩
  | other {c : Scene ι S V} {s : S} (h : E c.state s) : Beat calls E c .other ⟨s, c.stage⟩

/-- Any number of steps. -/
inductive Play {ι S V : Type} [DecidableEq ι] (calls : ι → TwoStep S V) (E : S → S → Prop) :
    Scene ι S V → List (Act ι) → Scene ι S V → Prop where
  | nil (c : Scene ι S V) : Play calls E c [] c
  | cons {c d e : Scene ι S V} {a : Act ι} {as : List (Act ι)} (h : Beat calls E c a d)
    (t : Play calls E d as e) : Play calls E c (a :: as) e

/-! ## Identities -/

section
variable [C : Curve]

/-- A change of an identity by a session: what is made of the identity that was read, and the
password from then on. -/
structure IdChange where
  make : Identity → Outcome Identity
  password : Bytes

/-- `application/identities/current.go:35-85`, `application/identities/buckets/application.go:105-115`
and `119-139`, `application/identities/piastres/current.go:64-178`,
`infrastructure/daemons/buckets/application.go:61-108`: the retrieval of the identity, and the update
with what was made of it, under the hash of what was retrieved. -/
def IdChange.steps (P : IdentityPort) (a : Session) (c : IdChange) : TwoStep P.S Identity where
  read s := P.retrieve s a.name a.password a.seed
  write i s := withOk (c.make i) s fun j => P.update s i.hash j a.password c.password

/-- `application/identities/buckets/application.go:110-115`. -/
def IdChange.add (a : Session) (b : IdBucket) : IdChange :=
  ⟨fun i => .ok { i with buckets := i.buckets ++ [b] }, a.password⟩

/-- `application/identities/buckets/application.go:126-138`. -/
def IdChange.remove (a : Session) (path : Bytes) : IdChange :=
  ⟨fun i => .ok { i with buckets := i.buckets.filter fun b => b.absolutePath ≠ path }, a.password⟩

variable [Sha512]

/-- `application/identities/current.go:41-75`. -/
def IdChange.amend (a : Session) (u : IdentityUpdate) (now₁ now₂ : Time) : IdChange :=
  ⟨fun i => identityNow (u.seed.getD i.seed) (u.name.getD i.name) (u.root.getD i.root) [] [] none none
    now₁ now₂, u.password.getD a.password⟩

/-- `application/identities/piastres/current.go:72-177`. -/
def IdChange.pay (a : Session) (I : IdentityParts) (additional : Int) (path : Bytes)
    (fees : List FeeRun) (now : Time) : IdChange :=
  ⟨fun i => do
    let trx ← bucketTransaction I additional i path fees now
    I.transact i trx, a.password⟩

omit [Sha512] in
/-- `infrastructure/daemons/buckets/application.go:67-103`. -/
def IdChange.follow (a : Session) (peers : Outcome (Option (List Peer)))
    (client : Option (List Peer) → Outcome (Hash → Outcome Bucket))
    (follows : Identity → List Hash) (follow : Identity → Bucket → Outcome Identity) : IdChange :=
  ⟨fun i => do
    let ps ← peers
    let remote ← client ps
    followAll follow remote (follows i) i, a.password⟩

end

/-! ## Peers -/

/-- What a call makes of the list of peers. -/
abbrev PeersChange := List Peer → Outcome (List Peer)

/-- `application/peers/application.go:54-66`, `infrastructure/daemons/peers/application.go:54-84`: the
retrieval of the peers, and the save of the list made of them. -/
def PeersChange.steps (P : PeersPort) (o : MapOrder) (c : PeersChange) : TwoStep P.S (List Peer) where
  read s := do
    let ps ← P.retrieve s
    Outcome.deref ps
  write ps s := withOk (c ps) s fun all => P.save s (peersNow o all)

/-- `application/peers/application.go:59-60`. -/
def PeersChange.add (p : Peer) : PeersChange := fun ps => .ok (ps ++ [p])

/-- `infrastructure/daemons/peers/application.go:61-76`. -/
def PeersChange.gather (remote : Peer → Outcome (Option (List Peer))) : PeersChange :=
  gatherPeers remote

end Verif
