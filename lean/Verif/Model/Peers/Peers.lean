import Verif.Base.Split
import Verif.Base.Utf8
import Verif.Model.Hash

/-!
# Model of `domain/memory/peers`, `domain/transfers/peers` and `application/peers`

Memory and transfer peers have the same fields, builders and accessors; one type stands for both.
`peers.Repository` and `peers.Service` of the memory package have no implementation; the application
is modelled over any implementation, and over the one that keeps the transfer package's file.
-/

namespace Verif

/-- `domain/memory/peers/peer/peer.go:5-10`, `domain/transfers/peers/peer/peer.go:3-8`. -/
structure Peer where
  host : Bytes
  port : UInt64
  isClear : Bool
  isOnion : Bool
  deriving DecidableEq

/-- `domain/memory/peers/peer/builder.go:61-79`, `domain/transfers/peers/peer/builder.go:55-73`
(`Now`). -/
def peerNow (host : Bytes) (port : UInt64) (isClear isOnion : Bool) : Outcome Peer :=
  if host = [] then .err "the host is mandatory in order to build a Peer instance"
  else if port = 0 then .err "the port is mandatory in order to build a Peer instance"
  else if isClear then .ok ⟨host, port, true, false⟩
  else if isOnion then .ok ⟨host, port, false, true⟩
  else .err "the Peer is invalid"

/-- `domain/memory/peers/peer/peer.go:63-70` (`String`). -/
def Peer.str (p : Peer) : Bytes :=
  (if p.isOnion then ascii "onion" else ascii "https") ++ ascii "://" ++ p.host ++ ascii ":" ++
    natDec p.port.toNat

/-- `domain/transfers/peers/peer/adapter.go:50-63` (`ToURL`). -/
def Peer.toURL (p : Peer) : Bytes :=
  (if p.isOnion then ascii "onion" else if p.isClear then ascii "https" else []) ++ ascii "://" ++
    p.host ++ ascii ":" ++ natDec p.port.toNat

/-- The map that `domain/memory/peers/builder.go:36-39` fills, as the list of its values: a peer
replaces an earlier one with the same text. -/
def peersMap (ps : List Peer) : List Peer :=
  ps.foldl (fun m p => p :: m.filter fun q => q.str ≠ p.str) []

/-- The order in which Go goes through a map: any. -/
structure MapOrder where
  order : List Peer → List Peer
  perm : ∀ l, (order l).Perm l

/-- `domain/memory/peers/builder.go:31-47` (`Now`); `o` is the order of line 42. -/
def peersNow (o : MapOrder) (ps : List Peer) : List Peer := o.order (peersMap ps)

/-! ## The file of the transfer package -/

/-- `domain/transfers/peers/adapter.go:28-37`, `service.go:30-34` (`Save`): the text written. -/
def peersText (ps : List Peer) : Bytes := joinWith 10 (ps.map Peer.toURL)

/-- The code points that `unicode.IsSpace` accepts. -/
def spaceChars : List Nat :=
  [9, 10, 11, 12, 13, 32, 0x85, 0xA0, 0x1680, 0x2000, 0x2001, 0x2002, 0x2003, 0x2004, 0x2005, 0x2006,
    0x2007, 0x2008, 0x2009, 0x200A, 0x2028, 0x2029, 0x202F, 0x205F, 0x3000]

/-- Removes one of the texts from the front. -/
def stripOne (ts : List Bytes) (s : Bytes) : Option Bytes :=
  (ts.find? fun t => t.isPrefixOf s).map fun t => s.drop t.length

/-- Removes the texts from the front as often as possible, at most `n` times. -/
def stripAll (ts : List Bytes) : Nat → Bytes → Bytes
  | 0, s => s
  | n + 1, s =>
    match stripOne ts s with
    | none => s
    | some r => stripAll ts n r

/-- `strings.TrimSpace`: white space at the front, then at the end. The last character is a space exactly
if the text ends with the encoding of one, since all bytes of an encoding but the first are continuation
bytes (`utf8.DecodeLastRuneInString`). -/
def trimSpace (s : Bytes) : Bytes :=
  let l := stripAll (spaceChars.map utf8) s.length s
  (stripAll (spaceChars.map fun c => (utf8 c).reverse) l.length l.reverse).reverse

/-- `domain/transfers/peers/repository.go:36-45`: the URLs in the text. -/
def peersLines (text : Bytes) : List Bytes := ((splitOn 10 text).map trimSpace).filter (· ≠ [])

/-- `domain/transfers/peers/adapter.go:23-25` (`ToPeers`): nil and no error. -/
def toPeers (_urls : List Bytes) : Outcome (Option (List Peer)) := .ok none

/-- `domain/transfers/peers/repository.go:30-48` (`Retrieve`) for the content of the file, if there
is one. -/
def retrPeers (file : Option Bytes) : Outcome (Option (List Peer)) :=
  match file with
  | none => .err "the file does not exist"
  | some text => toPeers (peersLines text)

/-! ## The application -/

/-- An implementation of `domain/memory/peers/sdk.go:19-27`; `none` is a nil `Peers` value. -/
structure PeersPort where
  S : Type
  retrieve : S → Outcome (Option (List Peer))
  save : S → List Peer → Outcome Unit × S

/-- The contract of repository and service: what was saved is retrieved, a failed save changes
nothing. -/
structure PeersPort.Lawful (P : PeersPort) : Prop where
  save_ok : ∀ {s ps}, (P.save s ps).1 = .ok () → P.retrieve (P.save s ps).2 = .ok (some ps)
  save_fails : ∀ {s ps}, (P.save s ps).1 ≠ .ok () → (P.save s ps).2 = s

/-- The implementation on the file of the transfer package. -/
def filePort : PeersPort where
  S := Option Bytes
  retrieve := retrPeers
  save _ ps := (.ok (), some (peersText ps))

/-- `application/peers/application.go:48-67` (`save`), for `SaveClear` (37-40) and `SaveOnion`
(43-46). -/
def addPeer (P : PeersPort) (o : MapOrder) (s : P.S) (host : Bytes) (port : UInt64) (onion : Bool) :
    Outcome Unit × P.S :=
  match peerNow host port (!onion) onion with
  | .err m => (.err m, s)
  | .crash c => (.crash c, s)
  | .ok p =>
    match P.retrieve s with
    | .err m => (.err m, s)
    | .crash c => (.crash c, s)
    | .ok none => (.crash .nilDeref, s)
    | .ok (some ps) => P.save s (peersNow o (ps ++ [p]))

/-! ## `domain/transfers/peers/peer/adapter.go:24-47` (`ToPeer`)

`url.Parse` is modelled as far as scheme, host and errors go (Go 1.13 to 1.15). Not modelled: URLs
without a scheme, which `ToPeer` refuses in every case. -/

/-- The value of a text of decimal digits. -/
def decVal (s : Bytes) : Nat := s.foldl (fun n c => n * 10 + (c.toNat - 48)) 0

/-- `strconv.Atoi` on a text of digits, as `url.Port` gives it; `uint` of the result. -/
def atoiPort (s : Bytes) : Option UInt64 :=
  if s = [] then none else if decVal s < 2 ^ 63 then some (UInt64.ofNat (decVal s)) else none

/-- `net/url` `getscheme`: the scheme in lower case and the rest. -/
def getScheme : Bytes → Bytes → Option (Bytes × Bytes)
  | _, [] => none
  | acc, c :: cs =>
    if 97 ≤ lowerByte c ∧ lowerByte c ≤ 122 then getScheme (acc ++ [lowerByte c]) cs
    else if isDigit c ∨ c = 43 ∨ c = 45 ∨ c = 46 then
      if acc = [] then none else getScheme (acc ++ [c]) cs
    else if c = 58 then (if acc = [] then none else some (acc, cs))
    else none

/-- What comes before and after the last occurrence of a byte. -/
def cutLast (sep : UInt8) : Bytes → Option (Bytes × Bytes)
  | [] => none
  | c :: cs =>
    match cutLast sep cs with
    | some (a, b) => some (c :: a, b)
    | none => if c = sep then some ([], cs) else none

/-- `net/url` `validOptionalPort` after the colon. -/
def digitsOnly (s : Bytes) : Bool := s.all isDigit

/-- `net/url` `shouldEscape(c, encodeHost)` negated: bytes that may stand in a host. -/
def hostByte (c : UInt8) : Bool :=
  128 ≤ c || isDigit c || (97 ≤ lowerByte c && lowerByte c ≤ 122) ||
    (ascii "!$&'()*+,;=:[]<>\"-_.~").contains c

/-- `net/url` `unescape(s, encodeHost)`. -/
def unescapeHost : Bytes → Option Bytes
  | [] => some []
  | 37 :: a :: b :: cs => do
    let x ← hexVal a
    let y ← hexVal b
    if x < 8 ∧ ¬ (a = 50 ∧ b = 53) then none
    let r ← unescapeHost cs
    some ((x * 16 + y) :: r)
  | c :: cs => if hostByte c then (unescapeHost cs).map (c :: ·) else none

/-- `unescape` with `encodeZone`: behind a percent sign, `%25`, an escaped space and escapes of the
ASCII characters that a host may have. -/
def unescapeZone : Bytes → Option Bytes
  | [] => some []
  | 37 :: a :: b :: cs => do
    let x ← hexVal a
    let y ← hexVal b
    if ¬ (a = 50 ∧ b = 53) ∧ x * 16 + y ≠ 32 ∧ ¬ (hostByte (x * 16 + y) ∧ x * 16 + y < 128) then none
    let r ← unescapeZone cs
    some ((x * 16 + y) :: r)
  | c :: cs => if hostByte c then (unescapeZone cs).map (c :: ·) else none

/-- The first `%25`, if there is one: what is in front of it, and the rest with it
(`strings.Index(host[:i], "%25")`). -/
def cutZone : Bytes → Option (Bytes × Bytes)
  | [] => none
  | 37 :: 50 :: 53 :: cs => some ([], 37 :: 50 :: 53 :: cs)
  | c :: cs => (cutZone cs).map fun z => (c :: z.1, z.2)

/-- `net/url` `unescape` for paths, fragments and user names: is every `%` followed by two
hexadecimal digits? -/
def escapesOk : Bytes → Bool
  | [] => true
  | 37 :: a :: b :: cs => (hexVal a).isSome && (hexVal b).isSome && escapesOk cs
  | c :: cs => c ≠ 37 && escapesOk cs

/-- `net/url` `validUserinfo`. -/
def userByte (c : UInt8) : Bool :=
  isDigit c || (97 ≤ lowerByte c && lowerByte c ≤ 122) || (ascii "-._:~!$&'()*+,;=%@").contains c

/-- `net/url` `parseHost`, with the zones of IPv6 addresses. -/
def parseHost (host : Bytes) : Option Bytes :=
  if host.head? = some 91 then
    match cutLast 93 host with
    | none => none
    | some (before, after) =>
      if after = [] ∨ (after.head? = some 58 ∧ digitsOnly after.tail) then
        match cutZone before with
        | none => unescapeHost host
        | some (front, zone) => do
          let h1 ← unescapeHost front
          let h2 ← unescapeZone zone
          let h3 ← unescapeHost (93 :: after)
          some (h1 ++ h2 ++ h3)
      else none
  else
    match cutLast 58 host with
    | some (_, port) => if digitsOnly port then unescapeHost host else none
    | none => unescapeHost host

/-- `net/url` `parseAuthority`: the host. -/
def parseAuthority (s : Bytes) : Option Bytes :=
  match cutLast 64 s with
  | none => parseHost s
  | some (user, host) =>
    match parseHost host with
    | none => none
    | some h => if user.all userByte ∧ escapesOk user then some h else none

/-- `net/url` `splitHostPort`: `Hostname()` and `Port()`. -/
def splitHostPort (hostPort : Bytes) : Bytes × Bytes :=
  let (host, port) :=
    match cutLast 58 hostPort with
    | some (h, p) => if digitsOnly p then (h, p) else (hostPort, [])
    | none => (hostPort, [])
  if host.head? = some 91 ∧ host.getLast? = some 93 then (host.tail.dropLast, port) else (host, port)

/-- `url.Parse`: the scheme and the host of a URL with a scheme. -/
def urlParse (raw : Bytes) : Option (Bytes × Bytes) := do
  let u := raw.takeWhile (· ≠ 35)
  let frag := (raw.dropWhile (· ≠ 35)).tail
  if u.any fun c => c < 32 || c == 127 then none
  if ¬ escapesOk frag then none
  let (scheme, rest) ← getScheme [] u
  let rest := rest.takeWhile (· ≠ 63)
  match rest with
  | 47 :: 47 :: rest =>
    let host ← parseAuthority (rest.takeWhile (· ≠ 47))
    if escapesOk (rest.dropWhile (· ≠ 47)) then some (scheme, host) else none
  | _ => if escapesOk rest then some (scheme, []) else none

/-- `domain/transfers/peers/peer/adapter.go:24-47` (`ToPeer`). -/
def toPeer (raw : Bytes) : Outcome Peer :=
  match urlParse raw with
  | none => .err "the URL is invalid"
  | some (scheme, hostPort) =>
    match atoiPort (splitHostPort hostPort).2 with
    | none => .err "invalid port"
    | some port =>
      peerNow (splitHostPort hostPort).1 port (scheme = ascii "https") (scheme = ascii "onion")

end Verif
