import Verif.Base.Utf8
import Verif.Model.Piastres.Block

/-!
# Model of `domain/memory/piastres/links` and `links/mined`
-/

namespace Verif

/-- `links/link.go:12-17`. -/
structure Link [C : Curve] where
  hash : Hash
  prevLink : Hash
  next : Block
  index : UInt64
  createdOn : Time

/-- `links/json_link.go:10-15`. -/
structure JSONLink where
  prevLink : Bytes
  next : Option JSONBlock
  index : UInt64
  createdOn : Time
  deriving DecidableEq

/-- `links/mined/link.go:12-16`. -/
structure MinedLink [C : Curve] where
  hash : Hash
  link : Link
  mining : Bytes
  createdOn : Time

/-- `links/mined/json_link.go:10-14`. -/
structure JSONMinedLink where
  link : Option JSONLink
  mining : Bytes
  createdOn : Time
  deriving DecidableEq

section
variable [Sha512] [C : Curve]

/-- `links/builder.go:68-93` (`Now`). -/
def linkNow (prevLink : Option Hash) (next : Option Block) (index : UInt64) (createdOn : Time) :
    Outcome Link :=
  match prevLink with
  | none => .err "the previousLink hash is mandatory in order to build a Link instance"
  | some prev =>
    match next with
    | none => .err "the next block is mandatory in order to build a Link instance"
    | some next =>
      .ok ⟨fromMultiBytes [prev.bytes, next.hash.bytes, itoaU index], prev, next, index, createdOn⟩

/-- `links/json_link.go:17-23` (`createJSONLinkFromLink`). -/
def Link.toJSON (l : Link) : JSONLink :=
  ⟨l.prevLink.str, some l.next.toJSON, l.index, l.createdOn⟩

/-- `links/link.go:19-38` (`createLinkFromJSON`), `links/adapter.go:43-45` (`ToLink`). -/
def linkFromJSON (js : Option JSONLink) : Outcome Link := do
  let ins ← Outcome.deref js
  let prev ← fromString ins.prevLink
  let next ← blockFromJSON ins.next
  linkNow (some prev) (some next) ins.index ins.createdOn

/-- `links/mined/builder.go:59-79` (`Now`). -/
def minedLinkNow (link : Option Link) (mining : Bytes) (createdOn : Time) : Outcome MinedLink :=
  match link with
  | none => .err "the link is mandatory in order to build a mined Link instance"
  | some link => .ok ⟨fromMultiBytes [link.hash.bytes, mining], link, mining, createdOn⟩

/-- `links/mined/json_link.go:16-21` (`createJSONLinkFromLink`). -/
def MinedLink.toJSON (l : MinedLink) : JSONMinedLink :=
  ⟨some l.link.toJSON, l.mining, l.createdOn⟩

/-- `links/mined/link.go:18-30` (`createLinkFromJSON`). Strings read by `encoding/json` are valid
UTF-8, whatever the text they are read from. -/
def minedLinkFromJSON (js : Option JSONMinedLink) : Outcome MinedLink := do
  let ins ← Outcome.deref js
  let link ← linkFromJSON ins.link
  minedLinkNow (some link) (jsonText ins.mining) ins.createdOn

end

end Verif
