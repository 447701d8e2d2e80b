import Verif.Model.Json.Memory

/-!
# `UnmarshalJSON` of entities and hash trees, on texts
-/

namespace Verif

/-- `json.Unmarshal` into a new structure, then the conversion of the structure: the shape of all
`UnmarshalJSON` methods (the fields of the converted object are copied, all of them). `json.Unmarshal`
of the caller has parsed the text before, with the same result. -/
def unmarshal {α β : Type} (c : Codec α) (f : α → Outcome β) (js : Bytes) : Outcome β :=
  match c.read js with
  | some j => f j
  | none => .err "invalid JSON"

section
variable [Sha512]

/-- `libs/hashtree/hashtree.go:17-25` (`createHashTreeFromJS`),
`libs/hashtree/hashtree.go:130-139` (`UnmarshalJSON`). -/
def hashTreeFromText (js : Bytes) : Outcome HashTree := unmarshal hashTreeC hashTreeFromJSON js

/-- `libs/hashtree/hashtree.go:124-127` (`MarshalJSON`). -/
def HashTree.text (t : HashTree) : Option Bytes := hashTreeC.text t.toJSON

/-- `libs/hashtree/compact.go:65-80` (`UnmarshalJSON`). -/
def compactFromText (js : Bytes) : Outcome Compact := unmarshal compactC compactFromJSON js

/-- `libs/hashtree/compact.go:59-62` (`MarshalJSON`). -/
def Compact.text (c : Compact) : Option Bytes := compactC.text c.toJSON

/-- `libs/hashtree/builder.go:40-56` (`Now`): `blocks` and `js` are nil or lists. -/
def hashTreeBuilderText (blocks : Option (List Bytes)) (js : Option Bytes) : Outcome HashTree :=
  match blocks with
  | some b => hashTreeFromBlocks b
  | none =>
    match js with
    | some j => hashTreeFromText j
    | none => .err "the HashTree is invalid"

/-- `libs/hashtree/block.go:86-93` (`MarshalJSON` of a block): the list of the hash texts, not the
structure. -/
def hashBlockText (l : List Hash) : Option Bytes := (listC strC).text (l.map Hash.str)

/-- `libs/hashtree/block.go:96-115` (`UnmarshalJSON` of a block): the hashes are read one by one, and the
list is not resized. -/
def hashBlockFromText (js : Bytes) : Outcome (List Hash) := unmarshal (listC strC) (mapO fromString) js

/-- `domain/memory/piastres/locks/lock.go:108-125` (`UnmarshalJSON`). -/
def lockFromText (js : Bytes) : Outcome Lock := unmarshal jLockC (fun j => lockFromJSON (some j)) js

/-- `domain/memory/piastres/bills/bill.go:73-90` (`UnmarshalJSON`). -/
def billFromText (js : Bytes) : Outcome Bill := unmarshal jBillC (fun j => billFromJSON (some j)) js

/-- `domain/memory/piastres/expenses/content.go:125-143` (`UnmarshalJSON`). -/
def contentFromText (js : Bytes) : Outcome Content := unmarshal jContentC (fun j => contentFromJSON (some j)) js

/-- `domain/memory/piastres/transactions/addresses/address.go:173-191` (`UnmarshalJSON`). -/
def addressFromText (js : Bytes) : Outcome Address := unmarshal jAddressC (fun j => addressFromJSON (some j)) js

/-- `domain/memory/piastres/genesis/genesis.go:76-93` (`UnmarshalJSON`). -/
def genesisFromText [FloatText] (js : Bytes) : Outcome Genesis :=
  unmarshal jGenesisC (fun j => genesisFromJSON (some j)) js

variable [C : Curve]

/-- `domain/memory/piastres/expenses/expense.go:79-96` (`UnmarshalJSON`). -/
def expenseFromText (js : Bytes) : Outcome Expense := unmarshal jExpenseC (fun j => expenseFromJSON (some j)) js

/-- `domain/memory/piastres/transactions/transaction.go:177-195` (`UnmarshalJSON`). -/
def trxFromText (js : Bytes) : Outcome Transaction := unmarshal jTransactionC (fun j => trxFromJSON (some j)) js

variable [FloatText]

/-- `domain/memory/piastres/blocks/block.go:95-113` (`UnmarshalJSON`). -/
def blockFromText (js : Bytes) : Outcome Block := unmarshal jBlockC (fun j => blockFromJSON (some j)) js

/-- `domain/memory/piastres/links/link.go:88-106` (`UnmarshalJSON`). -/
def linkFromText (js : Bytes) : Outcome Link := unmarshal jLinkC (fun j => linkFromJSON (some j)) js

end

/-! ## Reading what was written -/

theorem hashTreeC_norm (t : HashTree) : hashTreeC.norm t.toJSON = t.toJSON := by
  change (⟨jsonText t.head.str, some (leafNorm t.left.toJSON, leafNorm t.right.toJSON)⟩ : JHashTree) = _
  simp [HashTree.toJSON, leafNorm_toJSON]

theorem unmarshal_text {α β : Type} {c : Codec α} {f : α → Outcome β} {a : α} (hg : c.Good a)
    (hn : c.norm a = a) {b : Bytes} (hb : c.text a = some b) : unmarshal c f b = f a := by
  unfold unmarshal
  rw [hg.read hb, hn]

end Verif
