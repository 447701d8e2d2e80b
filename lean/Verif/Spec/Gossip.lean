import Verif.Model.Daemons
import Verif.Spec.Peers
import Mathlib.Logic.Relation

/-!
# Specification vocabulary: a network of nodes that run the peer daemon

Every node is named by the peer under which others know it. The nodes run at their own pace: a round of one
takes any time, during which the others may finish rounds of theirs, so that it gets answers of different
times.
-/

namespace Verif

/-- A node as far as the peer daemon goes: its stored peers, and whether `Start` has returned. -/
structure Station (P : PeersPort) where
  files : P.S
  ended : Bool

/-- The stations of all nodes in the course of time. -/
abbrev Course (P : PeersPort) := ℕ → Peer → Station P

/-- The peer stands in the stored list. -/
def Station.Lists {P : PeersPort} (x : Station P) (q : Peer) : Prop :=
  ∃ ps, P.retrieve x.files = .ok (some ps) ∧ q ∈ ps

/-- The station has a stored list, of peers that come from the builder. -/
def Station.Ready {P : PeersPort} (x : Station P) : Prop :=
  ∃ ps, P.retrieve x.files = .ok (some ps) ∧ ∀ q ∈ ps, q.Built

/-- Node `p` does a round of the peer daemon that begins at `b` and ends with the step from `t` to `t + 1`.
Nodes that are up answer with the list that they have at some moment in between; asking one that is not gives
an error. -/
def RoundOf {P : PeersPort} (N : Course P) (up : Peer → Prop) (p : Peer) (b t : ℕ) : Prop :=
  b ≤ t ∧ (N b p).ended = false ∧ (∀ j, b ≤ j → j ≤ t → N j p = N b p) ∧
  ∃ (o : MapOrder) (remote : Peer → Outcome (Option (List Peer))) (r : RoundEnd) (s : P.S),
    (∀ q, up q → ∃ j, b ≤ j ∧ j ≤ t ∧ remote q = P.retrieve (N j q).files) ∧
    (∀ q, ¬ up q → ∃ m, remote q = .err m) ∧
    peersRound P o remote (N b p).files = (r, s) ∧
    (N (t + 1) p).files = s ∧ ((N (t + 1) p).ended = false ↔ r = .again)

/-- Nothing but rounds of the daemon changes a node. -/
def Evolves {P : PeersPort} (N : Course P) (up : Peer → Prop) : Prop :=
  ∀ t p, N (t + 1) p = N t p ∨ ∃ b, RoundOf N up p b t

/-- Every node that is up begins and finishes rounds again and again, unless its daemon ends. -/
def Fair {P : PeersPort} (N : Course P) (up : Peer → Prop) : Prop :=
  ∀ p, up p → ∀ t, (∃ u, t ≤ u ∧ (N u p).ended = true) ∨ ∃ b u, t ≤ b ∧ RoundOf N up p b u

/-- At the beginning the daemons of the nodes that are up are running, and their lists are stored. -/
def Begins {P : PeersPort} (N : Course P) (up : Peer → Prop) : Prop :=
  ∀ p, up p → (N 0 p).ended = false ∧ (N 0 p).Ready

/-- The peer can be found: it stands in the list that the node has at the beginning, or in that of a node that
is up and can be found. -/
def Findable {P : PeersPort} (N : Course P) (up : Peer → Prop) : Peer → Peer → Prop :=
  Relation.TransGen fun p q => up p ∧ (N 0 p).Lists q

/-- The peer can be found over that many nodes. -/
inductive FoundOver {P : PeersPort} (N : Course P) (up : Peer → Prop) : ℕ → Peer → Peer → Prop
  | here {p q : Peer} : up p → (N 0 p).Lists q → FoundOver N up 1 p q
  | there {n : ℕ} {p r q : Peer} : up p → (N 0 p).Lists r → FoundOver N up n r q →
      FoundOver N up (n + 1) p q

end Verif
