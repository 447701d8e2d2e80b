import Verif.Model.Peers.Peers
import Verif.Model.Piastres.Chain
import Verif.Model.App.Identities

/-!
# Model of `infrastructure/daemons`

The three daemons share their loop: sleep, look at the flag, do a round. Clients of remote nodes, the
local chain application and the collections of an identity are interfaces without implementation;
they are parameters. Remote nodes may answer differently in every round.
-/

namespace Verif

/-- How a round of a daemon ends: with the next sleep, or `Start` returns. -/
inductive RoundEnd where
  | again
  | returns (o : Outcome Unit)

/-- What happens to a daemon: somebody calls `Stop`, or the sleep is over. -/
inductive DaemonEvent where
  | stop
  | tick
  deriving DecidableEq

/-- A daemon after `Start` was called: the flag, its surroundings, the number of rounds done, and what
`Start` returned, if it did. -/
structure DaemonState (S : Type) where
  isStarted : Bool
  state : S
  rounds : Nat
  returned : Option (Outcome Unit)

/-- `Start` sets the flag (`chains/application.go:42`, `peers/application.go:42`,
`buckets/application.go:50`). -/
def daemonStart {S : Type} (s : S) : DaemonState S := ⟨true, s, 0, none⟩

/-- One event. `Stop` sets the flag to true (`chains/application.go:115-118`,
`peers/application.go:88-91`, `buckets/application.go:113-116`); a tick is lines 44-51 (52-59) and the
round. -/
def daemonStep {S : Type} (round : S → RoundEnd × S) (d : DaemonState S) :
    DaemonEvent → DaemonState S
  | .stop => { d with isStarted := true }
  | .tick =>
    match d.returned with
    | some _ => d
    | none =>
      if !d.isStarted then d
      else
        match round d.state with
        | (.again, s) => { d with state := s, rounds := d.rounds + 1 }
        | (.returns o, s) => { d with state := s, rounds := d.rounds + 1, returned := some o }

/-- A schedule of events. -/
def daemonRun {S : Type} (round : S → RoundEnd × S) (d : DaemonState S) (es : List DaemonEvent) :
    DaemonState S := es.foldl (daemonStep round) d

/-! ## Peers -/

/-- `peers/application.go:61-76`: every local peer, followed by the peers it knows; `remote p` is what
asking `p` gives, `none` inside stands for a nil list. -/
def gatherPeers (remote : Peer → Outcome (Option (List Peer))) : List Peer → Outcome (List Peer)
  | [] => .ok []
  | p :: ps => do
    let theirs ← remote p
    let theirs ← Outcome.deref theirs
    let rest ← gatherPeers remote ps
    .ok (p :: theirs ++ rest)

/-- `peers/application.go:54-84`: a round. -/
def peersRound (P : PeersPort) (o : MapOrder) (remote : Peer → Outcome (Option (List Peer)))
    (s : P.S) : RoundEnd × P.S :=
  match (do
    let local_ ← P.retrieve s
    let local_ ← Outcome.deref local_
    gatherPeers remote local_ : Outcome (List Peer)) with
  | .err m => (.returns (.err m), s)
  | .crash c => (.returns (.crash c), s)
  | .ok all =>
    match P.save s (peersNow o all) with
    | (.ok (), s') => (.again, s')
    | (r, s') => (.returns r, s')

/-! ## Chains -/

section
variable [C : Curve]

/-- The chain application of a remote node (`application/chains/sdk.go:9-13`). -/
structure RemoteChain where
  retrieve : Outcome Chain
  atIndex : UInt64 → Outcome Chain

/-- The local chain application (`application/chains/sdk.go:9-13`). -/
structure ChainPort where
  S : Type
  retrieve : S → Outcome Chain
  upgrade : S → MinedLink → Outcome Unit × S

/-- The contract of the local chain application: an accepted link is the head from then on, a refused
one changes nothing. -/
structure ChainPort.Lawful (P : ChainPort) : Prop where
  upgrade_ok : ∀ {s l s'}, P.upgrade s l = (.ok (), s') → ∃ c, P.retrieve s' = .ok c ∧ c.head = l
  upgrade_fails : ∀ {s l}, (P.upgrade s l).1 ≠ .ok () → (P.upgrade s l).2 = s

/-- `chains/application.go:65-87`: the peer with the greatest difference so far. -/
def pickChain (localTotal : UInt64) (remote : Peer → Outcome RemoteChain) :
    List Peer → Int × Option (Chain × RemoteChain) → Outcome (Option (Chain × RemoteChain))
  | [], best => .ok best.2
  | p :: ps, best => do
    let app ← remote p
    let chain ← app.retrieve
    let diff := toInt (chain.total - localTotal)
    pickChain localTotal remote ps (if best.1 < diff then (diff, some (chain, app)) else best)

/-- `chains/application.go:97-109`: `n` upgrades, beginning with the given index. `int` and `uint`
have 64 bits, so the conversions of lines 95-98 do not change the value modulo `2^64`. -/
def upgradeLoop (P : ChainPort) (app : RemoteChain) : Nat → UInt64 → P.S → Outcome Unit × P.S
  | 0, _, s => (.ok (), s)
  | n + 1, index, s =>
    match app.atIndex index with
    | .err m => (.err m, s)
    | .crash c => (.crash c, s)
    | .ok chain =>
      match P.upgrade s chain.head with
      | (.ok (), s') => upgradeLoop P app n (index + 1) s'
      | r => r

/-- `chains/application.go:53-111`: a round; `peers` is what the peer application answers. -/
def chainRound (P : ChainPort) (peers : Outcome (Option (List Peer)))
    (remote : Peer → Outcome RemoteChain) (s : P.S) : RoundEnd × P.S :=
  match (do
    let local_ ← P.retrieve s
    let ps ← peers
    let ps ← Outcome.deref ps
    let best ← pickChain local_.total remote ps (0, none)
    .ok (local_, best) : Outcome (Chain × Option (Chain × RemoteChain))) with
  | .err m => (.returns (.err m), s)
  | .crash c => (.returns (.crash c), s)
  | .ok (_, none) => (.again, s)
  | .ok (local_, some (chain, app)) =>
    let r := upgradeLoop P app (toInt (chain.height - local_.height)).toNat local_.height s
    (.returns r.1, r.2)

/-! ## Buckets -/

/-- `buckets/application.go:84-95`: every followed bucket is asked for and handed to the identity. -/
def followAll (follow : Identity → Bucket → Outcome Identity) (remote : Hash → Outcome Bucket) :
    List Hash → Identity → Outcome Identity
  | [], i => .ok i
  | h :: hs, i => do
    let b ← remote h
    let i ← follow i b
    followAll follow remote hs i

/-- `buckets/application.go:61-108`: a round. `follows` and `follow` are the methods of the identity's
buckets (`domain/memory/identities/buckets/sdk.go:18-26`), `client` is the client of the remote nodes,
built from the peers. -/
def bucketsRound (P : IdentityPort) (a : Session) (peers : Outcome (Option (List Peer)))
    (client : Option (List Peer) → Outcome (Hash → Outcome Bucket))
    (follows : Identity → List Hash) (follow : Identity → Bucket → Outcome Identity) (s : P.S) :
    RoundEnd × P.S :=
  match (do
    let identity ← P.retrieve s a.name a.password a.seed
    let ps ← peers
    let remote ← client ps
    let i ← followAll follow remote (follows identity) identity
    .ok (identity, i) : Outcome (Identity × Identity)) with
  | .err m => (.returns (.err m), s)
  | .crash c => (.returns (.crash c), s)
  | .ok (identity, i) =>
    match P.update s identity.hash i a.password a.password with
    | (.ok (), s') => (.again, s')
    | (r, s') => (.returns r, s')

end

end Verif
