import Verif.Model.Daemons

/-!
# Specification vocabulary: a network of nodes that run the chain daemon

Every node is named by the peer under which others know it. Rounds of different nodes may overlap, and the
links that a node takes over show before its round is over.
-/

namespace Verif

section
variable [C : Curve]

/-- A node as far as the chain daemon goes: its chain, and whether `Start` has returned. -/
structure Follower (P : ChainPort) where
  files : P.S
  ended : Bool

/-- All nodes in the course of time. -/
abbrev ChainCourse (P : ChainPort) := ℕ → Peer → Follower P

/-- The chain of the node. -/
def Follower.Has {P : ChainPort} (x : Follower P) (c : Chain) : Prop := P.retrieve x.files = .ok c

/-- What a round of node `p` that began at `b` may show at time `j`: the chain it began with, or what it is after
some of the upgrades from a node that was asked for its chain before. -/
def Shows {P : ChainPort} (N : ChainCourse P) (remote : Peer → Outcome RemoteChain) (p : Peer) (b j : ℕ) : Prop :=
  (N j p).files = (N b p).files ∨
  ∃ l q app c k i, (N b p).Has l ∧ remote q = .ok app ∧ i < j ∧ app.retrieve = P.retrieve (N i q).files ∧
    app.retrieve = .ok c ∧ k ≤ (toInt (c.height - l.height)).toNat ∧
    (N j p).files = (upgradeLoop P app k l.height (N b p).files).2

/-- Node `p` does a round of the chain daemon that begins at `b` and ends with the step from `t` to `t + 1`. The
nodes that it can ask answer with the chain that they have at some moment in between, and answer a question for
an index with a chain of that height. -/
def ChainRoundOf {P : ChainPort} (N : ChainCourse P) (p : Peer) (b t : ℕ) : Prop :=
  b ≤ t ∧ ∃ (peers : Outcome (Option (List Peer))) (remote : Peer → Outcome RemoteChain) (r : RoundEnd) (s : P.S),
    (∀ q app, remote q = .ok app → (∃ i, b ≤ i ∧ i ≤ t ∧ app.retrieve = P.retrieve (N i q).files) ∧
      ∀ i d, app.atIndex i = .ok d → d.height = i) ∧
    (∀ j, b ≤ j → j ≤ t → (N j p).ended = false ∧ Shows N remote p b j) ∧
    chainRound P peers remote (N b p).files = (r, s) ∧
    (N (t + 1) p).files = s ∧ ((N (t + 1) p).ended = false ↔ r = .again)

/-- Nothing but rounds of the daemon changes a node. -/
def ChainEvolves {P : ChainPort} (N : ChainCourse P) : Prop :=
  ∀ t p, N (t + 1) p = N t p ∨ ∃ b u, b ≤ t ∧ t ≤ u ∧ ChainRoundOf N p b u

/-- At the beginning no chain is higher than that. -/
def AtMost {P : ChainPort} (N : ChainCourse P) (H : ℕ) : Prop :=
  ∀ p c, (N 0 p).Has c → c.height.toNat ≤ H

end

end Verif
