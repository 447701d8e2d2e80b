import Verif.Spec.Power
import Verif.Model.Json.Memory

/-!
# Specification vocabulary: links that go from node to node
-/

namespace Verif

section
variable [C : Curve]

/-- What is assumed of a link that is sent: its parts are those of the world, and it can be written
as JSON. -/
structure MinedLink.Sendable (W : World) (l : MinedLink) : Prop where
  mem : W.minedLink l
  mem_reduced : W.minedLink l.reduced
  float : l.link.next.genesis.blockIncrease.IsFloat
  dated : ∀ t ∈ l.times, Dated t

variable [Sha512] [FloatText]

/-- The link `k` is what became of `l` on its way from node to node. Each node is sent the text of
the link, decodes it, and sends on what it retrieves from its files under the hash of the decoded
link. The files of each node have any history of calls, failed writes and power failures. -/
inductive Relayed (W : World) (l : MinedLink) : MinedLink → Prop
  | start : Relayed W l l
  | hop {k r k' : MinedLink} {text : Bytes} {cs : List Call} {past : List Store} {σ : Store} :
      Relayed W l k → encodeMinedLink k = .ok text → decodeMinedLink text = .ok (some r) →
      Life W cs past σ → retrMinedLink σ r.hash = .ok k' → Relayed W l k'

/-- A node with the files `σ` is sent a link, saves it and sends on what it retrieves. -/
def relay (k : MinedLink) (σ : Store) : Outcome MinedLink := do
  let text ← encodeMinedLink k
  let r ← decodeMinedLink text
  let r ← Outcome.deref r
  let s := (saveMinedLink r).exec σ
  let _ ← s.1
  retrMinedLink s.2 k.hash

/-- From node to node. -/
def relayAll (l : MinedLink) : List Store → Outcome MinedLink
  | [] => .ok l
  | σ :: σs => do
    let k ← relay l σ
    relayAll k σs

end

end Verif
