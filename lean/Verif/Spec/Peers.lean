import Verif.Model.Peers.Peers

/-!
# Peers: what comes out of the builder, and which hosts URLs can carry
-/

namespace Verif

/-- Comes out of the builder. -/
def Peer.Built (p : Peer) : Prop := ∃ h n c o, peerNow h n c o = .ok p

/-- A host that URLs carry unchanged: letters, digits, `-`, `.`, `_`, `~`, the other characters that
are allowed in host names and all bytes outside ASCII, but neither `%` nor a leading `[`. -/
def PlainHost (h : Bytes) : Prop :=
  h.head? ≠ some 91 ∧
  ∀ c ∈ h, 128 ≤ c ∨ (48 ≤ c ∧ c ≤ 57) ∨ (65 ≤ c ∧ c ≤ 90) ∨ (97 ≤ c ∧ c ≤ 122) ∨
    c ∈ ascii "!$&'()*+,;=:[]<>\"-_.~"

/-- The white space of Unicode. -/
def WhiteSpace (c : Nat) : Prop :=
  (9 ≤ c ∧ c ≤ 13) ∨ c = 32 ∨ c = 0x85 ∨ c = 0xA0 ∨ c = 0x1680 ∨ (0x2000 ≤ c ∧ c ≤ 0x200A) ∨
    c = 0x2028 ∨ c = 0x2029 ∨ c = 0x202F ∨ c = 0x205F ∨ c = 0x3000

end Verif
