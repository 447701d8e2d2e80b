import Verif.Model.Sig
import Verif.Model.HashLemmas
import Mathlib.Data.List.Dedup

/-!
# Model of `domain/memory/piastres/locks`
-/

namespace Verif

/-- `time.Time` values: an instant. The clock enters the model only through the creation times
handed to the builders: when a builder gets none, `libs/entities/immutable_builder.go:47-50` reads
the clock, so every theorem quantifies over that reading. -/
abbrev Time := Int

/-- `locks/lock.go:14-18`. `mpKeys` is determined by `pubKeys`, see `Lock.mpKeys`; `immutable` is
inlined as `hash` and `createdOn`. -/
structure Lock where
  hash : Hash
  pubKeys : List Hash
  createdOn : Time
  deriving DecidableEq

/-- `locks/builder.go:74-77`: the keys of the map from `onePublicKey.String()`. -/
def mapKeys (l : List Hash) : List Bytes := (l.map Hash.str).dedup

/-- `locks/lock.go:17`: keys of the field `mpKeys`. -/
def Lock.mpKeys (l : Lock) : List Bytes := mapKeys l.pubKeys

/-- `locks/json_lock.go:8-11`. -/
structure JSONLock where
  pubKeys : List Bytes
  createdOn : Time
  deriving DecidableEq

section
variable [Sha512]

/-- `locks/builder.go:50-84` (`Now`). -/
def lockNow (pubKeys : Option (List Hash)) (createdOn : Time) : Outcome Lock :=
  match pubKeys with
  | none => .err "the []PublicKey are mandatory in order to build a Lock instance"
  | some keys =>
    if keys.length ≤ 0 then
      .err "there must be at least 1 PublicKey in order to build a Lock instance"
    else
      let hsh := fromMultiBytes (keys.map Hash.bytes)
      if (mapKeys keys).length ≠ keys.length then
        .err "at least 1 PublicKey contained in the Lock is duplicate"
      else .ok ⟨hsh, keys, createdOn⟩

/-- `locks/json_lock.go:13-22` (`createJSONLockFromLock`). -/
def Lock.toJSON (l : Lock) : JSONLock := ⟨l.pubKeys.map Hash.str, l.createdOn⟩

/-- `locks/lock.go:20-37` (`createLockFromJSON`), `locks/adapter.go:43-45` (`ToLock`); the pointer
may be nil. -/
def lockFromJSON (js : Option JSONLock) : Outcome Lock := do
  let ins ← Outcome.deref js
  let keys ← mapO fromString ins.pubKeys
  lockNow (some keys) ins.createdOn

variable [C : Curve]

/-- `locks/lock.go:73-85`: the loop of `Unlock`; returns the keys of `ringMp`. -/
def unlockLoop (mp : List Bytes) : List C.Pt → List Bytes → Outcome (List Bytes)
  | [], ringMp => .ok ringMp
  | p :: ps, ringMp =>
    let key := (fromBytes (ptStr p)).str
    if key ∉ mp then
      .err "at least 1 PublicKey contained in the RingSignature was not in the lock's PublicKey list"
    else unlockLoop mp ps (if key ∈ ringMp then ringMp else key :: ringMp)

/-- `locks/lock.go:69-99` (`Unlock`). -/
def Lock.unlock (l : Lock) (sig : RingSignature) : Outcome Unit :=
  match unlockLoop l.mpKeys sig.ring [] with
  | .err m => .err m
  | .crash c => .crash c
  | .ok ringMp =>
    if ringMp.length ≠ l.mpKeys.length then .err "the RingSignature contains a different amount of unique PublicKey"
    else
      match sig.verify l.hash.str with
      | .crash c => .crash c
      | .err m => .err m
      | .ok false => .err "the signature is invalid"
      | .ok true => .ok ()

/-- The key hash the applications put into locks: `hashAdapter.FromString(pubKey.String())`
(`application/genesis/current.go:85`, `application/identities/piastres/current.go:121`). -/
def appKeyHash (p : C.Pt) : Outcome Hash := fromString (ptStr p)

end

end Verif
