import Verif.Model.Peers.Peers

/-!
# The URLs of peers, as a grammar

`scheme://user@host:port/path?query#fragment`, where user, path, query and fragment may be missing.
-/

namespace Verif

/-- `c` is a hexadecimal digit with value `v`. -/
def HexDigit (c : UInt8) (v : Nat) : Prop :=
  (ascii "0123456789abcdef")[v]? = some c ∨ (ascii "0123456789ABCDEF")[v]? = some c

/-- Every percent sign starts an escape. -/
inductive Escaped : Bytes → Prop
  | nil : Escaped []
  | plain {c : UInt8} {s : Bytes} : c ≠ 37 → Escaped s → Escaped (c :: s)
  | hex {a b : UInt8} {x y : Nat} {s : Bytes} :
      HexDigit a x → HexDigit b y → Escaped s → Escaped (37 :: a :: b :: s)

/-- A character that stands for itself in a host. -/
def HostChar (c : UInt8) : Prop :=
  128 ≤ c ∨ (48 ≤ c ∧ c ≤ 57) ∨ (65 ≤ c ∧ c ≤ 90) ∨ (97 ≤ c ∧ c ≤ 122) ∨
    c ∈ ascii "!$&'()*+,;=:[]<>\"-_.~"

/-- A host as written and as meant: escapes stand for a percent sign or a byte outside of ASCII. -/
inductive HostText : Bytes → Bytes → Prop
  | nil : HostText [] []
  | plain {c : UInt8} {s r : Bytes} : HostChar c → HostText s r → HostText (c :: s) (c :: r)
  | percent {s r : Bytes} : HostText s r → HostText (37 :: 50 :: 53 :: s) (37 :: r)
  | high {a b : UInt8} {x y : Nat} {s r : Bytes} : HexDigit a x → HexDigit b y → 8 ≤ x →
      HostText s r → HostText (37 :: a :: b :: s) (UInt8.ofNat (16 * x + y) :: r)

/-- The zone of an address as written and as meant: escapes stand for a percent sign, a space or an
ASCII character of hosts. -/
inductive ZoneText : Bytes → Bytes → Prop
  | nil : ZoneText [] []
  | plain {c : UInt8} {s r : Bytes} : HostChar c → ZoneText s r → ZoneText (c :: s) (c :: r)
  | percent {s r : Bytes} : ZoneText s r → ZoneText (37 :: 50 :: 53 :: s) (37 :: r)
  | escape {a b : UInt8} {x y : Nat} {s r : Bytes} : HexDigit a x → HexDigit b y →
      16 * x + y = 32 ∨ (HostChar (UInt8.ofNat (16 * x + y)) ∧ 16 * x + y < 128) →
      ZoneText s r → ZoneText (37 :: a :: b :: s) (UInt8.ofNat (16 * x + y) :: r)

/-- What is written between brackets, and what it means: an address, behind whose first `%25` there
may be a zone. -/
inductive AddressText : Bytes → Bytes → Prop
  | bare {s r : Bytes} : ¬ ascii "%25" <:+: s → HostText s r → AddressText s r
  | zoned {a z ra rz : Bytes} : ¬ ascii "%25" <:+: a → HostText a ra → ZoneText z rz →
      AddressText (a ++ (ascii "%25" ++ z)) (ra ++ 37 :: rz)

/-- A character of a user name. -/
def UserChar (c : UInt8) : Prop :=
  (48 ≤ c ∧ c ≤ 57) ∨ (65 ≤ c ∧ c ≤ 90) ∨ (97 ≤ c ∧ c ≤ 122) ∨ c ∈ ascii "-._:~!$&'()*+,;=%@"

/-- The text in upper or lower case. -/
def SameLetters (s t : Bytes) : Prop :=
  List.Forall₂ (fun c d => c = d ∨ (65 ≤ c ∧ c ≤ 90 ∧ c + 32 = d)) s t

/-- The parts of a URL. -/
structure PeerURL where
  scheme : Bytes
  user : Option Bytes
  host : Bytes
  port : Bytes
  path : Bytes
  query : Option Bytes
  frag : Option Bytes

/-- The text in front of the fragment. -/
def PeerURL.front (u : PeerURL) : Bytes :=
  u.scheme ++ (ascii "://" ++ ((u.user.elim [] fun x => x ++ [64]) ++ (u.host ++ (58 :: u.port ++
    (u.path ++ u.query.elim [] fun q => 63 :: q)))))

/-- The text of the URL. -/
def PeerURL.text (u : PeerURL) : Bytes := u.front ++ u.frag.elim [] fun f => 35 :: f

/-- The value of a decimal number. -/
def digitsValue (s : Bytes) : Nat := Nat.ofDigits 10 (s.reverse.map fun c => c.toNat - 48)

/-- The URL denotes a peer: the scheme is `https` or `onion`, there are no control characters in
front of the fragment, names and paths are well formed, a host that starts with a bracket ends with
one (the brackets do not belong to the name), and the port is a number that fits. -/
structure PeerURL.Denotes (u : PeerURL) (p : Peer) : Prop where
  scheme : SameLetters u.scheme (if p.isClear then ascii "https" else ascii "onion")
  kind : p.isOnion = !p.isClear
  controls : ∀ c ∈ u.front, 32 ≤ c ∧ c ≠ 127
  user : ∀ x, u.user = some x → (∀ c ∈ x, UserChar c) ∧ Escaped x
  host : if u.host.head? = some 91 then
      ∃ inner, u.host = 91 :: inner ++ [93] ∧ AddressText inner p.host
    else HostText u.host p.host
  host_ne : p.host ≠ []
  port_digits : ∀ c ∈ u.port, 48 ≤ c ∧ c ≤ 57
  port : digitsValue u.port = p.port.toNat
  port_ne : p.port ≠ 0
  port_lt : p.port.toNat < 2 ^ 63
  path_start : u.path = [] ∨ u.path.head? = some 47
  path : Escaped u.path ∧ 63 ∉ u.path ∧ 35 ∉ u.path
  query : ∀ q, u.query = some q → 35 ∉ q
  frag : ∀ f, u.frag = some f → Escaped f

end Verif
