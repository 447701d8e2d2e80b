import Verif.Model.Json.Memory
import Verif.Model.Json.Transfers
import Verif.Model.Store.Services

/-!
# The files as bytes

The store of `Verif/Model/Store` keeps in every file the structure that reading it gives. Here the
files contain bytes. `Drive.store` reads them; `RawRun` are the runs of a program in which every write
puts the JSON text of an object, or a strict prefix of it, into a file.
-/

namespace Verif

/-- All files, as bytes; one directory per kind. -/
structure Drive where
  locks : Bytes → Option Bytes
  bills : Bytes → Option Bytes
  expenses : Bytes → Option Bytes
  genesis : Option Bytes
  trxs : Bytes → Option Bytes
  blocks : Bytes → Option Bytes
  minedBlocks : Bytes → Option Bytes
  links : Bytes → Option Bytes
  minedLinks : Bytes → Option Bytes
  chain : Option Bytes
  states : Bytes → Option Bytes

/-- No files. -/
def Drive.empty : Drive :=
  ⟨fun _ => none, fun _ => none, fun _ => none, none, fun _ => none, fun _ => none, fun _ => none,
    fun _ => none, fun _ => none, none, fun _ => none⟩

/-- `json.Unmarshal` of the content of a file. -/
def cellOf {α : Type} (c : Codec α) (b : Bytes) : Cell α :=
  match c.read b with
  | some a => .json a
  | none => .torn

/-- One file of a directory replaced. -/
def putFile (d : Bytes → Option Bytes) (p b : Bytes) : Bytes → Option Bytes :=
  fun q => if q = p then some b else d q

/-- `blocks/mined/json_block.go:12-23`, `links/mined/json_link.go:14-25`: the structure that is
marshalled. -/
def TrMined.goJSON (b : TrMined) : JTrMined := ⟨b.hash.str, b.of.str, b.mining, b.createdOn⟩

/-- `genesis/json_genesis.go:16-24`: the structure that is marshalled. -/
def TrGenesis.goJSON (g : TrGenesis) : JTrGenesis :=
  ⟨g.hash.str, g.bill.str, g.blockBase, g.blockIncrease, g.link, g.createdOn⟩

section
variable [FloatText]

/-- What reading the files gives. -/
def Drive.store (δ : Drive) : Store where
  locks p := (δ.locks p).map (cellOf jTrLockC)
  bills p := (δ.bills p).map (cellOf jTrBillC)
  expenses p := (δ.expenses p).map (cellOf jTrExpenseC)
  genesis := δ.genesis.map (cellOf jTrGenesisC)
  trxs p := (δ.trxs p).map (cellOf jTrTransactionC)
  blocks p := (δ.blocks p).map (cellOf jTrBlockC)
  minedBlocks p := (δ.minedBlocks p).map (cellOf jTrMinedBlockC)
  links p := (δ.links p).map (cellOf jTrLinkC)
  minedLinks p := (δ.minedLinks p).map (cellOf jTrMinedLinkC)
  chain := δ.chain.map (cellOf jTrChainC)
  states p := (δ.states p).map (cellOf jTrStateC)

end

section
variable [C : Curve]

/-- The files that are written. -/
inductive PutOp where
  | lock (x : TrLock)
  | bill (x : TrBill)
  | expense (x : TrExpense)
  | genesis (x : TrGenesis)
  | trx (x : TrTransaction)
  | block (x : TrBlock)
  | minedBlock (x : TrMined)
  | link (x : TrLink)
  | minedLink (x : TrMined)
  | chain (x : TrChain)
  | state (x : TrState)

/-- The bytes that are written; `none`: marshalling fails. -/
def PutOp.text [FloatText] : PutOp → Option Bytes
  | .lock x => jTrLockC.text x.toJSON
  | .bill x => jTrBillC.text x.toJSON
  | .expense x => jTrExpenseC.text x.toJSON
  | .genesis x => jTrGenesisC.text x.goJSON
  | .trx x => jTrTransactionC.text x.toJSON
  | .block x => jTrBlockC.text x.toJSON
  | .minedBlock x => jTrMinedBlockC.text x.goJSON
  | .link x => jTrLinkC.text x.toJSON
  | .minedLink x => jTrMinedLinkC.text x.goJSON
  | .chain x => jTrChainC.text x.toJSON
  | .state x => jTrStateC.text x.toJSON

/-- The file with the given bytes. -/
def PutOp.put : PutOp → Bytes → Drive → Drive
  | .lock x, b, δ => { δ with locks := putFile δ.locks x.hash.str b }
  | .bill x, b, δ => { δ with bills := putFile δ.bills x.hash.str b }
  | .expense x, b, δ => { δ with expenses := putFile δ.expenses x.hash.str b }
  | .genesis _, b, δ => { δ with genesis := some b }
  | .trx x, b, δ => { δ with trxs := putFile δ.trxs x.hash.str b }
  | .block x, b, δ => { δ with blocks := putFile δ.blocks x.hash.str b }
  | .minedBlock x, b, δ => { δ with minedBlocks := putFile δ.minedBlocks x.hash.str b }
  | .link x, b, δ => { δ with links := putFile δ.links x.hash.str b }
  | .minedLink x, b, δ => { δ with minedLinks := putFile δ.minedLinks x.hash.str b }
  | .chain _, b, δ => { δ with chain := some b }
  | .state x, b, δ => { δ with states := putFile δ.states (statePath x.chain x.height) b }

/-- The effect of the completed write on the store. -/
def PutOp.done : PutOp → Store → Store
  | .lock x => fun σ => { σ with locks := setFile σ.locks x.hash.str (.json x.toJSON) }
  | .bill x => fun σ => { σ with bills := setFile σ.bills x.hash.str (.json x.toJSON) }
  | .expense x => fun σ => { σ with expenses := setFile σ.expenses x.hash.str (.json x.toJSON) }
  | .genesis x => fun σ => { σ with genesis := some (.json x.goJSON) }
  | .trx x => fun σ => { σ with trxs := setFile σ.trxs x.hash.str (.json x.toJSON) }
  | .block x => fun σ => { σ with blocks := setFile σ.blocks x.hash.str (.json x.toJSON) }
  | .minedBlock x => fun σ => { σ with minedBlocks := setFile σ.minedBlocks x.hash.str (.json x.toJSON) }
  | .link x => fun σ => { σ with links := setFile σ.links x.hash.str (.json x.toJSON) }
  | .minedLink x => fun σ => { σ with minedLinks := setFile σ.minedLinks x.hash.str (.json x.toJSON) }
  | .chain x => fun σ => { σ with chain := some (.json x.toJSON) }
  | .state x => fun σ => { σ with states := setFile σ.states (statePath x.chain x.height) (.json x.toJSON) }

/-- The effect of the torn write on the store. -/
def PutOp.torn : PutOp → Store → Store
  | .lock x => fun σ => { σ with locks := setFile σ.locks x.hash.str .torn }
  | .bill x => fun σ => { σ with bills := setFile σ.bills x.hash.str .torn }
  | .expense x => fun σ => { σ with expenses := setFile σ.expenses x.hash.str .torn }
  | .genesis _ => fun σ => { σ with genesis := some .torn }
  | .trx x => fun σ => { σ with trxs := setFile σ.trxs x.hash.str .torn }
  | .block x => fun σ => { σ with blocks := setFile σ.blocks x.hash.str .torn }
  | .minedBlock x => fun σ => { σ with minedBlocks := setFile σ.minedBlocks x.hash.str .torn }
  | .link x => fun σ => { σ with links := setFile σ.links x.hash.str .torn }
  | .minedLink x => fun σ => { σ with minedLinks := setFile σ.minedLinks x.hash.str .torn }
  | .chain _ => fun σ => { σ with chain := some .torn }
  | .state x => fun σ => { σ with states := setFile σ.states (statePath x.chain x.height) .torn }

/-- The difficulty in a genesis is a float64. -/
def PutOp.Real : PutOp → Prop
  | .genesis x => x.blockIncrease.IsFloat
  | _ => True

/-- Runs of a program on files of bytes. A write of `op` marshals it; when that fails, nothing is
written and the error is returned. Otherwise it completes, fails without effect, or fails leaving a
strict prefix of the text. The process may be killed at every point. -/
inductive RawRun [FloatText] {α : Type} : Prog α → Drive → Option (Outcome α) → Drive → Prop
  | ret (o : Outcome α) (δ : Drive) : RawRun (.ret o) δ (some o) δ
  | killed (p : Prog α) (δ : Drive) : RawRun p δ none δ
  | look {f : Store → Prog α} {δ δ' : Drive} {r : Option (Outcome α)} :
      RawRun (f δ.store) δ r δ' → RawRun (.look f) δ r δ'
  | written {op : PutOp} {b : Bytes} {k : Bool → Prog α} {δ δ' : Drive} {r : Option (Outcome α)} :
      op.Real → op.text = some b → RawRun (k true) (op.put b δ) r δ' →
      RawRun (.write op.done op.torn k) δ r δ'
  | unwritable {op : PutOp} {k : Bool → Prog α} {δ δ' : Drive} {r : Option (Outcome α)} :
      op.text = none → RawRun (k false) δ r δ' → RawRun (.write op.done op.torn k) δ r δ'
  | failed {op : PutOp} {k : Bool → Prog α} {δ δ' : Drive} {r : Option (Outcome α)} :
      RawRun (k false) δ r δ' → RawRun (.write op.done op.torn k) δ r δ'
  | tornWrite {op : PutOp} {b rest : Bytes} {k : Bool → Prog α} {δ δ' : Drive}
      {r : Option (Outcome α)} :
      op.Real → op.text = some (b ++ rest) → rest ≠ [] → RawRun (k false) (op.put b δ) r δ' →
      RawRun (.write op.done op.torn k) δ r δ'

end

/-! ## Transfer objects are read as they were written -/

set_option linter.unusedSimpArgs false

theorem jTrLockC_norm (x : TrLock) : jTrLockC.norm x.toJSON = x.toJSON := by
  change (⟨jsonText x.hash.str, (x.pubKeys.map Hash.str).map jsonText, x.createdOn⟩ : JTrLock) = _
  simp only [jsonText_hash, map_jsonText_hash, jsonText_optStr, map_jsonText_sig]
  rfl

theorem jTrBillC_norm (x : TrBill) : jTrBillC.norm x.toJSON = x.toJSON := by
  change (⟨jsonText x.hash.str, jsonText x.lock.str, x.amount, x.createdOn⟩ : JTrBill) = _
  simp only [jsonText_hash, map_jsonText_hash, jsonText_optStr, map_jsonText_sig]
  rfl

theorem jTrExpenseC_norm [C : Curve] (x : TrExpense) : jTrExpenseC.norm x.toJSON = x.toJSON := by
  change (⟨jsonText x.hash.str, (x.source.map Hash.str).map jsonText, jsonText x.dest.str,
    (x.signatures.map RingSignature.str).map jsonText, jsonText (optStr x.remaining), x.createdOn⟩ : JTrExpense) = _
  simp only [jsonText_hash, map_jsonText_hash, jsonText_optStr, map_jsonText_sig]
  rfl

theorem jTrTransactionC_norm (x : TrTransaction) : jTrTransactionC.norm x.toJSON = x.toJSON := by
  change (⟨jsonText x.hash.str, jsonText (optStr x.address), (x.fees.map Hash.str).map jsonText,
    jsonText (optStr x.bucket), x.createdOn⟩ : JTrTransaction) = _
  simp only [jsonText_hash, map_jsonText_hash, jsonText_optStr, map_jsonText_sig]
  rfl

theorem jTrLinkC_norm (x : TrLink) : jTrLinkC.norm x.toJSON = x.toJSON := by
  change (⟨jsonText x.hash.str, jsonText x.prevLink.str, jsonText x.next.str, x.index, x.createdOn⟩ :
    JTrLink) = _
  simp only [jsonText_hash, map_jsonText_hash, jsonText_optStr, map_jsonText_sig]
  rfl

theorem jTrChainC_norm (x : TrChain) : jTrChainC.norm x.toJSON = x.toJSON := by
  change (⟨jsonText x.hash.str, jsonText x.genesis.str, jsonText x.root.str, jsonText x.head.str,
    x.total, x.createdOn⟩ : JTrChain) = _
  simp only [jsonText_hash, map_jsonText_hash, jsonText_optStr, map_jsonText_sig]
  rfl

theorem jTrGenesisC_norm [FloatText] (x : TrGenesis) : jTrGenesisC.norm x.goJSON = x.goJSON := by
  change (⟨jsonText x.hash.str, jsonText x.bill.str, x.blockBase, x.blockIncrease, x.link,
    x.createdOn⟩ : JTrGenesis) = _
  simp only [jsonText_hash]
  rfl

theorem jTrBlockC_norm (x : TrBlock) : jTrBlockC.norm x.toJSON = x.toJSON := by
  change (⟨jsonText x.hash.str, some (compactC.norm x.trx.compact.toJSON), x.amount, x.additional,
    x.createdOn⟩ : JTrBlock) = _
  simp only [jsonText_hash, compactC_norm]
  rfl

theorem jTrStateC_norm (x : TrState) : jTrStateC.norm x.toJSON = x.toJSON := by
  change (⟨jsonText x.hash.str, jsonText x.chain.str, jsonText x.prev.str, x.height,
    some (compactC.norm x.trx.compact.toJSON), x.amount, x.createdOn⟩ : JTrState) = _
  simp only [jsonText_hash, compactC_norm]
  rfl

theorem jTrMinedBlockC_norm (x : TrMined) : jTrMinedBlockC.norm x.goJSON = x.toJSON := by
  change (⟨jsonText x.hash.str, jsonText x.of.str, jsonText x.mining, x.createdOn⟩ : JTrMined) = _
  simp only [jsonText_hash]
  rfl

theorem jTrMinedLinkC_norm (x : TrMined) : jTrMinedLinkC.norm x.goJSON = x.toJSON := by
  change (⟨jsonText x.hash.str, jsonText x.of.str, jsonText x.mining, x.createdOn⟩ : JTrMined) = _
  simp only [jsonText_hash]
  rfl

theorem cellOf_text {α : Type} {c : Codec α} {a a' : α} (h : c.Good a) (hn : c.norm a = a')
    {b : Bytes} (hb : c.text a = some b) : cellOf c b = .json a' := by
  simp [cellOf, h.read hb, hn]

theorem cellOf_none {α : Type} {c : Codec α} {b : Bytes} (h : c.read b = none) :
    cellOf c b = .torn := by
  simp [cellOf, h]

theorem map_putFile {α : Type} (f : Bytes → Cell α) (d : Bytes → Option Bytes) (n b : Bytes) :
    (fun p => (putFile d n b p).map f) = setFile (fun p => (d p).map f) n (f b) := by
  funext p
  unfold putFile setFile
  split <;> rfl

section
variable [C : Curve] [FloatText]

/-- A completed write of bytes is the completed write of the structure. -/
theorem PutOp.store_put {op : PutOp} (hr : op.Real) {b : Bytes} (h : op.text = some b) (δ : Drive) :
    (op.put b δ).store = op.done δ.store := by
  cases op with
  | lock x => simp only [PutOp.put, PutOp.done, Drive.store, map_putFile,
      cellOf_text (jTrLockC_good _) (jTrLockC_norm x) h]
  | bill x => simp only [PutOp.put, PutOp.done, Drive.store, map_putFile,
      cellOf_text (jTrBillC_good _) (jTrBillC_norm x) h]
  | expense x => simp only [PutOp.put, PutOp.done, Drive.store, map_putFile,
      cellOf_text (jTrExpenseC_good _) (jTrExpenseC_norm x) h]
  | genesis x => simp only [PutOp.put, PutOp.done, Drive.store, Option.map_some,
      cellOf_text (jTrGenesisC_good x.goJSON hr) (jTrGenesisC_norm x) h]
  | trx x => simp only [PutOp.put, PutOp.done, Drive.store, map_putFile,
      cellOf_text (jTrTransactionC_good _) (jTrTransactionC_norm x) h]
  | block x => simp only [PutOp.put, PutOp.done, Drive.store, map_putFile,
      cellOf_text (jTrBlockC_good _) (jTrBlockC_norm x) h]
  | minedBlock x => simp only [PutOp.put, PutOp.done, Drive.store, map_putFile,
      cellOf_text (jTrMinedBlockC_good _) (jTrMinedBlockC_norm x) h]
  | link x => simp only [PutOp.put, PutOp.done, Drive.store, map_putFile,
      cellOf_text (jTrLinkC_good _) (jTrLinkC_norm x) h]
  | minedLink x => simp only [PutOp.put, PutOp.done, Drive.store, map_putFile,
      cellOf_text (jTrMinedLinkC_good _) (jTrMinedLinkC_norm x) h]
  | chain x => simp only [PutOp.put, PutOp.done, Drive.store, Option.map_some,
      cellOf_text (jTrChainC_good _) (jTrChainC_norm x) h]
  | state x => simp only [PutOp.put, PutOp.done, Drive.store, map_putFile,
      cellOf_text (jTrStateC_good _) (jTrStateC_norm x) h]

/-- A write of a strict prefix of the bytes leaves a torn file. -/
theorem PutOp.store_put_torn {op : PutOp} (hr : op.Real) {b rest : Bytes}
    (h : op.text = some (b ++ rest)) (hne : rest ≠ []) (δ : Drive) :
    (op.put b δ).store = op.torn δ.store := by
  cases op with
  | lock x =>
    have := cellOf_none (c := jTrLockC) (structC_torn (jTrLockC_good _) h rfl hne)
    simp only [PutOp.put, PutOp.torn, Drive.store, map_putFile, this]
  | bill x =>
    have := cellOf_none (c := jTrBillC) (structC_torn (jTrBillC_good _) h rfl hne)
    simp only [PutOp.put, PutOp.torn, Drive.store, map_putFile, this]
  | expense x =>
    have := cellOf_none (c := jTrExpenseC) (structC_torn (jTrExpenseC_good _) h rfl hne)
    simp only [PutOp.put, PutOp.torn, Drive.store, map_putFile, this]
  | genesis x =>
    have := cellOf_none (c := jTrGenesisC) (structC_torn (jTrGenesisC_good x.goJSON hr) h rfl hne)
    simp only [PutOp.put, PutOp.torn, Drive.store, Option.map_some, this]
  | trx x =>
    have := cellOf_none (c := jTrTransactionC) (structC_torn (jTrTransactionC_good _) h rfl hne)
    simp only [PutOp.put, PutOp.torn, Drive.store, map_putFile, this]
  | block x =>
    have := cellOf_none (c := jTrBlockC) (structC_torn (jTrBlockC_good _) h rfl hne)
    simp only [PutOp.put, PutOp.torn, Drive.store, map_putFile, this]
  | minedBlock x =>
    have := cellOf_none (c := jTrMinedBlockC) (structC_torn (jTrMinedBlockC_good _) h rfl hne)
    simp only [PutOp.put, PutOp.torn, Drive.store, map_putFile, this]
  | link x =>
    have := cellOf_none (c := jTrLinkC) (structC_torn (jTrLinkC_good _) h rfl hne)
    simp only [PutOp.put, PutOp.torn, Drive.store, map_putFile, this]
  | minedLink x =>
    have := cellOf_none (c := jTrMinedLinkC) (structC_torn (jTrMinedLinkC_good _) h rfl hne)
    simp only [PutOp.put, PutOp.torn, Drive.store, map_putFile, this]
  | chain x =>
    have := cellOf_none (c := jTrChainC) (structC_torn (jTrChainC_good _) h rfl hne)
    simp only [PutOp.put, PutOp.torn, Drive.store, Option.map_some, this]
  | state x =>
    have := cellOf_none (c := jTrStateC) (structC_torn (jTrStateC_good _) h rfl hne)
    simp only [PutOp.put, PutOp.torn, Drive.store, map_putFile, this]

/-- Every run on bytes is a run on the structures that are read from them. -/
theorem RawRun.run {α : Type} {p : Prog α} {δ δ' : Drive} {r : Option (Outcome α)}
    (h : RawRun p δ r δ') : Run p δ.store r δ'.store := by
  induction h with
  | ret o δ => exact .ret o _
  | killed p δ => exact .killed p _
  | look _ ih => exact .look ih
  | written hr ht _ ih =>
    rw [PutOp.store_put hr ht] at ih
    exact .written ih
  | unwritable _ _ ih => exact .failed ih
  | failed _ ih => exact .failed ih
  | tornWrite hr ht hne _ ih =>
    rw [PutOp.store_put_torn hr ht hne] at ih
    exact .tornWrite ih

end

end Verif
