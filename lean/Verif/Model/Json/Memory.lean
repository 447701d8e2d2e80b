import Verif.Model.Json.Tree
import Verif.Model.Piastres.Link

/-!
# The entities as JSON texts

The structures `JSON*` of `domain/memory/piastres/*/json_*.go` with their tags, and the text form of
mined links.
-/

namespace Verif

/-- `domain/memory/piastres/locks/json_lock.go:8-11`. -/
def jLockC : Codec JSONLock :=
  structC ⟨[], 0⟩
    [fld "pubkeys" (listC strC) JSONLock.pubKeys fun a s => { s with pubKeys := a },
     fld "created_on" timeC JSONLock.createdOn fun a s => { s with createdOn := a }]

/-- `bills/json_bill.go:10-14`. -/
def jBillC : Codec JSONBill :=
  structC ⟨none, 0, 0⟩
    [fld "lock" (ptrC jLockC) JSONBill.lock fun a s => { s with lock := a },
     fld "amount" uintC JSONBill.amount fun a s => { s with amount := a },
     fld "created_on" timeC JSONBill.createdOn fun a s => { s with createdOn := a }]

/-- `expenses/json_content.go:10-15`. -/
def jContentC : Codec JSONContent :=
  structC ⟨[], none, none, 0⟩
    [fld "from" (listC (ptrC jBillC)) JSONContent.source fun a s => { s with source := a },
     fld "to" (ptrC jBillC) JSONContent.dest fun a s => { s with dest := a },
     fld "remaining" (ptrC jBillC) JSONContent.remaining fun a s => { s with remaining := a },
     fld "created_on" timeC JSONContent.createdOn fun a s => { s with createdOn := a }]

/-- `expenses/json_expense.go:4-7`. -/
def jExpenseC : Codec JSONExpense :=
  structC ⟨none, []⟩
    [fld "content" (ptrC jContentC) JSONExpense.content fun a s => { s with content := a },
     fld "signatures" (listC strC) JSONExpense.signatures fun a s => { s with signatures := a }]

/-- `transactions/addresses/json_address.go:6-11`. -/
def jAddressC : Codec JSONAddress :=
  structC ⟨[], [], [], 0⟩
    [fld "sender" strC JSONAddress.sender fun a s => { s with sender := a },
     fld "recipients" (listC strC) JSONAddress.recipients fun a s => { s with recipients := a },
     fld "subject" strC JSONAddress.subject fun a s => { s with subject := a },
     fld "created_on" timeC JSONAddress.createdOn fun a s => { s with createdOn := a }]

/-- `transactions/json_transaction.go:11-16`. -/
def jTransactionC : Codec JSONTransaction :=
  structC ⟨none, [], [], 0⟩
    [fld "address" (ptrC jAddressC) JSONTransaction.address fun a s => { s with address := a },
     fld "fees" (listC (ptrC jExpenseC)) JSONTransaction.fees fun a s => { s with fees := a },
     fld "bucket" strC JSONTransaction.bucket fun a s => { s with bucket := a },
     fld "created_on" timeC JSONTransaction.createdOn fun a s => { s with createdOn := a }]

/-- `genesis/json_genesis.go:10-16`. -/
def jGenesisC [FloatText] : Codec JSONGenesis :=
  structC ⟨none, 0, 0, .fin 0, 0⟩
    [fld "bill" (ptrC jBillC) JSONGenesis.bill fun a s => { s with bill := a },
     fld "link_difficulty" uintC JSONGenesis.link fun a s => { s with link := a },
     fld "block_difficulty_base" uintC JSONGenesis.blockBase fun a s => { s with blockBase := a },
     fld "block_difficulty_increase_per_transaction" fltC JSONGenesis.blockIncrease fun a s => { s with blockIncrease := a },
     fld "created_on" timeC JSONGenesis.createdOn fun a s => { s with createdOn := a }]

/-- `blocks/json_block.go:11-16`. -/
def jBlockC [FloatText] : Codec JSONBlock :=
  structC ⟨none, [], 0, 0⟩
    [fld "genesis" (ptrC jGenesisC) JSONBlock.genesis fun a s => { s with genesis := a },
     fld "transactions" (listC (ptrC jTransactionC)) JSONBlock.trx fun a s => { s with trx := a },
     fld "additional" uintC JSONBlock.additional fun a s => { s with additional := a },
     fld "created_on" timeC JSONBlock.createdOn fun a s => { s with createdOn := a }]

/-- `links/json_link.go:10-15`. -/
def jLinkC [FloatText] : Codec JSONLink :=
  structC ⟨[], none, 0, 0⟩
    [fld "previous_link" strC JSONLink.prevLink fun a s => { s with prevLink := a },
     fld "next" (ptrC jBlockC) JSONLink.next fun a s => { s with next := a },
     fld "index" uintC JSONLink.index fun a s => { s with index := a },
     fld "created_on" timeC JSONLink.createdOn fun a s => { s with createdOn := a }]

/-- `links/mined/json_link.go:10-14`. -/
def jMinedLinkC [FloatText] : Codec JSONMinedLink :=
  structC ⟨none, [], 0⟩
    [fld "link" (ptrC jLinkC) JSONMinedLink.link fun a s => { s with link := a },
     fld "mining" strC JSONMinedLink.mining fun a s => { s with mining := a },
     fld "created_on" timeC JSONMinedLink.createdOn fun a s => { s with createdOn := a }]

/-! ## Reading what was written -/

/-- The difficulties in the structure are float64 values. -/
def JSONGenesis.FloatOk (g : JSONGenesis) : Prop := g.blockIncrease.IsFloat
/-- The difficulties in the structure are float64 values. -/
def JSONBlock.FloatOk (b : JSONBlock) : Prop := ∀ g ∈ b.genesis, g.FloatOk
/-- The difficulties in the structure are float64 values. -/
def JSONLink.FloatOk (l : JSONLink) : Prop := ∀ b ∈ l.next, b.FloatOk
/-- The difficulties in the structure are float64 values. -/
def JSONMinedLink.FloatOk (l : JSONMinedLink) : Prop := ∀ b ∈ l.link, b.FloatOk

theorem jLockC_good (x : JSONLock) : jLockC.Good x := by
  struct_good ⟨listC_good fun a _ => strC_good a,
    timeC_good _⟩

theorem jBillC_good (x : JSONBill) : jBillC.Good x := by
  struct_good ⟨ptrC_good (structC_notNull _ _) fun a _ => jLockC_good a,
    uintC_good _,
    timeC_good _⟩

theorem jContentC_good (x : JSONContent) : jContentC.Good x := by
  struct_good ⟨listC_good fun a _ => ptrC_good (structC_notNull _ _) fun b _ => jBillC_good b,
    ptrC_good (structC_notNull _ _) fun a _ => jBillC_good a,
    ptrC_good (structC_notNull _ _) fun a _ => jBillC_good a,
    timeC_good _⟩

theorem jExpenseC_good (x : JSONExpense) : jExpenseC.Good x := by
  struct_good ⟨ptrC_good (structC_notNull _ _) fun a _ => jContentC_good a,
    listC_good fun a _ => strC_good a⟩

theorem jAddressC_good (x : JSONAddress) : jAddressC.Good x := by
  struct_good ⟨strC_good _,
    listC_good fun a _ => strC_good a,
    strC_good _,
    timeC_good _⟩

theorem jTransactionC_good (x : JSONTransaction) : jTransactionC.Good x := by
  struct_good ⟨ptrC_good (structC_notNull _ _) fun a _ => jAddressC_good a,
    listC_good fun a _ => ptrC_good (structC_notNull _ _) fun b _ => jExpenseC_good b,
    strC_good _,
    timeC_good _⟩

theorem jGenesisC_good [FloatText] (x : JSONGenesis) (h : x.FloatOk) : jGenesisC.Good x := by
  struct_good ⟨ptrC_good (structC_notNull _ _) fun a _ => jBillC_good a,
    uintC_good _,
    uintC_good _,
    fltC_good h,
    timeC_good _⟩

theorem jBlockC_good [FloatText] (x : JSONBlock) (h : x.FloatOk) : jBlockC.Good x := by
  struct_good ⟨ptrC_good (structC_notNull _ _) fun a ha => jGenesisC_good a (h a ha),
    listC_good fun a _ => ptrC_good (structC_notNull _ _) fun b _ => jTransactionC_good b,
    uintC_good _,
    timeC_good _⟩

theorem jLinkC_good [FloatText] (x : JSONLink) (h : x.FloatOk) : jLinkC.Good x := by
  struct_good ⟨strC_good _,
    ptrC_good (structC_notNull _ _) fun a ha => jBlockC_good a (h a ha),
    uintC_good _,
    timeC_good _⟩

theorem jMinedLinkC_good [FloatText] (x : JSONMinedLink) (h : x.FloatOk) : jMinedLinkC.Good x := by
  struct_good ⟨ptrC_good (structC_notNull _ _) fun a ha => jLinkC_good a (h a ha),
    strC_good _,
    timeC_good _⟩

/-! ## Text form of mined links -/

section
variable [C : Curve] [FloatText]

/-- `links/mined/adapter.go:50-57` (`Encode`): a marshalling error is answered by an empty text and
a nil error. -/
def encodeMinedLink (l : MinedLink) : Outcome Bytes :=
  match jMinedLinkC.text l.toJSON with
  | none => .ok []
  | some js => .ok (b64Encode js)

/-- `links/mined/adapter.go:34-47` (`Decode`) with `links/mined/link.go:73-90` (`UnmarshalJSON`).
The result `none` is the zero value `new(link)`, left behind when unmarshalling fails (the error of
line 41 is dropped). -/
def decodeMinedLink [Sha512] (text : Bytes) : Outcome (Option MinedLink) :=
  match b64Decode text with
  | none => .err "illegal base64 data"
  | some js =>
    match jMinedLinkC.read js with
    | none => .ok none
    | some ins =>
      match minedLinkFromJSON (some ins) with
      | .ok l => .ok (some l)
      | .err _ => .ok none
      | .crash c => .crash c

omit [FloatText] in
/-- `links/mined/link.go:47-49` (`Hash`) on the result of `Decode`: the zero value has a nil
`immutable`. -/
def decodedHash (l : Option MinedLink) : Outcome Hash :=
  match l with
  | some l => .ok l.hash
  | none => .crash .nilDeref

end

/-! ## Texts of hashes and signatures are plain -/

theorem hexDigit_ascii (b : UInt8) : b < 16 → (hexDigit b).toNat < 0x80 :=
  UInt8.forall_of_fin (P := fun b => b < 16 → (hexDigit b).toNat < 0x80) (by decide +kernel) b

theorem hexEncode_ascii : ∀ (b : Bytes), ∀ x ∈ hexEncode b, x.toNat < 0x80
  | [], x, h => by simp [hexEncode] at h
  | c :: b, x, h => by
    simp only [hexEncode, List.mem_cons] at h
    rcases h with rfl | rfl | h
    · refine hexDigit_ascii _ ?_
      exact UInt8.forall_of_fin (P := fun c => c / 16 < 16) (by decide +kernel) c
    · refine hexDigit_ascii _ ?_
      exact UInt8.forall_of_fin (P := fun c => c % 16 < 16) (by decide +kernel) c
    · exact hexEncode_ascii b x h

theorem jsonText_hexEncode (b : Bytes) : jsonText (hexEncode b) = hexEncode b :=
  jsonText_of_utf8 (utf8_of_ascii (hexEncode_ascii b))

@[simp] theorem jsonText_hash (h : Hash) : jsonText h.str = h.str := jsonText_hexEncode _

theorem b64Char_ascii (b : UInt8) : (b64Char b).toNat < 0x80 :=
  UInt8.forall_of_fin (P := fun b => (b64Char b).toNat < 0x80) (by decide +kernel) b

theorem b64Encode_ascii : ∀ (b : Bytes), ∀ x ∈ b64Encode b, x.toNat < 0x80
  | [], x, h => by simp [b64Encode] at h
  | [a], x, h => by
    simp only [b64Encode, List.mem_cons, List.not_mem_nil, or_false] at h
    rcases h with rfl | rfl | rfl | rfl <;> first | exact b64Char_ascii _ | decide
  | [a, b], x, h => by
    simp only [b64Encode, List.mem_cons, List.not_mem_nil, or_false] at h
    rcases h with rfl | rfl | rfl | rfl <;> first | exact b64Char_ascii _ | decide
  | a :: b :: c :: r, x, h => by
    simp only [b64Encode, List.mem_cons] at h
    rcases h with rfl | rfl | rfl | rfl | h
    · exact b64Char_ascii _
    · exact b64Char_ascii _
    · exact b64Char_ascii _
    · exact b64Char_ascii _
    · exact b64Encode_ascii r x h

@[simp] theorem jsonText_ringStr [C : Curve] (s : RingSignature) : jsonText s.str = s.str :=
  jsonText_of_utf8 (utf8_of_ascii (b64Encode_ascii _))

@[simp] theorem jsonText_scStr [C : Curve] (s : Scalar) : jsonText (scStr s) = scStr s :=
  jsonText_hexEncode _

@[simp] theorem jsonText_optStr (h : Option Hash) : jsonText (optStr h) = optStr h := by
  cases h with
  | none => exact jsonText_of_utf8 (utf8_of_ascii (by simp [optStr]))
  | some h => exact jsonText_hash h

theorem map_jsonText_hash (l : List Hash) : (l.map Hash.str).map jsonText = l.map Hash.str := by
  simp [List.map_map, Function.comp_def]

theorem map_jsonText_sig [C : Curve] (l : List RingSignature) :
    (l.map RingSignature.str).map jsonText = l.map RingSignature.str := by
  simp [List.map_map, Function.comp_def]

theorem leafNorm_toJSON (l : Leaf) : leafNorm l.toJSON = l.toJSON := by
  induction l with
  | atom h => simp [Leaf.toJSON, leafNorm]
  | node h l r ihl ihr => simp [Leaf.toJSON, leafNorm, ihl, ihr]

theorem compactC_norm (c : Compact) : compactC.norm c.toJSON = c.toJSON := by
  change (⟨jsonText c.head.str, (c.leaves.map Leaf.toJSON).map leafNorm⟩ : JCompact) = _
  simp [Compact.toJSON, List.map_map, Function.comp_def, leafNorm_toJSON]

/-! ## Entities are read as they were written -/

theorem jLockC_norm (l : Lock) : jLockC.norm l.toJSON = l.toJSON := by
  change (⟨(l.pubKeys.map Hash.str).map jsonText, l.createdOn⟩ : JSONLock) = _
  rw [map_jsonText_hash]
  rfl

theorem jBillC_norm (b : Bill) : jBillC.norm b.toJSON = b.toJSON := by
  change (⟨some (jLockC.norm b.lock.toJSON), b.amount, b.createdOn⟩ : JSONBill) = _
  rw [jLockC_norm]
  rfl

theorem jContentC_norm (c : Content) : jContentC.norm c.toJSON = c.toJSON := by
  change (⟨(c.source.map fun b => some b.toJSON).map (Option.map jBillC.norm),
    some (jBillC.norm c.dest.toJSON), (c.remaining.map Bill.toJSON).map jBillC.norm, c.createdOn⟩ :
      JSONContent) = _
  simp [Content.toJSON, List.map_map, Function.comp_def, jBillC_norm]

section
variable [C : Curve]

theorem jExpenseC_norm (e : Expense) : jExpenseC.norm e.toJSON = e.toJSON := by
  change (⟨some (jContentC.norm e.content.toJSON), (e.signatures.map RingSignature.str).map jsonText⟩ :
    JSONExpense) = _
  rw [jContentC_norm, map_jsonText_sig]
  rfl

omit C in
theorem jAddressC_norm (a : Address) : jAddressC.norm a.toJSON = a.toJSON := by
  change (⟨jsonText (optStr a.sender), (a.recipients.map Hash.str).map jsonText,
    jsonText (optStr a.subject), a.createdOn⟩ : JSONAddress) = _
  rw [map_jsonText_hash, jsonText_optStr, jsonText_optStr]
  rfl

theorem jTransactionC_norm (x : Transaction) : jTransactionC.norm x.toJSON = x.toJSON := by
  change (⟨(x.address.map Address.toJSON).map jAddressC.norm,
    (x.fees.map fun e => some e.toJSON).map (Option.map jExpenseC.norm), jsonText (optStr x.bucket),
    x.createdOn⟩ : JSONTransaction) = _
  simp [Transaction.toJSON, List.map_map, Function.comp_def, jExpenseC_norm, jAddressC_norm]

variable [FloatText]

omit C in
theorem jGenesisC_norm (g : Genesis) : jGenesisC.norm g.toJSON = g.toJSON := by
  change (⟨some (jBillC.norm g.bill.toJSON), g.link, g.blockBase, g.blockIncrease, g.createdOn⟩ :
    JSONGenesis) = _
  rw [jBillC_norm]
  rfl

theorem jBlockC_norm (b : Block) : jBlockC.norm b.toJSON = b.toJSON := by
  change (⟨some (jGenesisC.norm b.genesis.toJSON),
    (b.trx.map fun e => some e.toJSON).map (Option.map jTransactionC.norm), b.additional,
    b.createdOn⟩ : JSONBlock) = _
  simp [Block.toJSON, List.map_map, Function.comp_def, jGenesisC_norm, jTransactionC_norm]

theorem jLinkC_norm (l : Link) : jLinkC.norm l.toJSON = l.toJSON := by
  change (⟨jsonText l.prevLink.str, some (jBlockC.norm l.next.toJSON), l.index, l.createdOn⟩ :
    JSONLink) = _
  rw [jBlockC_norm, jsonText_hash]
  rfl

theorem jMinedLinkC_norm (l : MinedLink) :
    jMinedLinkC.norm l.toJSON = { l.toJSON with mining := jsonText l.mining } := by
  change (⟨some (jLinkC.norm l.link.toJSON), jsonText l.mining, l.createdOn⟩ : JSONMinedLink) = _
  rw [jLinkC_norm]
  rfl

end

/-! ## What can be written -/

/-- The time in a lock. -/
def Lock.times (l : Lock) : List Time := [l.createdOn]
/-- The times in a bill. -/
def Bill.times (b : Bill) : List Time := b.createdOn :: b.lock.times
/-- The times in an expense content. -/
def Content.times (c : Content) : List Time :=
  c.createdOn :: (c.source.flatMap Bill.times ++ (c.dest.times ++ c.remaining.toList.flatMap Bill.times))
/-- The times in a genesis. -/
def Genesis.times (g : Genesis) : List Time := g.createdOn :: g.bill.times

section
variable [C : Curve]

/-- The times in an expense that are written: not its own one, which is the time of its content. -/
def Expense.times (e : Expense) : List Time := e.content.times
/-- The times in a transaction. -/
def Transaction.times (x : Transaction) : List Time :=
  x.createdOn :: (x.fees.flatMap Expense.times ++ x.address.toList.map Address.createdOn)
/-- The times in a block. -/
def Block.times (b : Block) : List Time :=
  b.createdOn :: (b.genesis.times ++ b.trx.flatMap Transaction.times)
/-- The times in a link. -/
def Link.times (l : Link) : List Time := l.createdOn :: l.next.times
/-- The times in a mined link. -/
def MinedLink.times (l : MinedLink) : List Time := l.createdOn :: l.link.times

end

/-- The fields of a structure that can be written. -/
macro "struct_writes" : tactic => `(tactic| (
  refine structC_writes.trans ?_
  simp only [List.forall_mem_cons, fld, List.not_mem_nil, false_imp_iff, implies_true, and_true,
    strC_writes, uintC_writes, true_and, timeC_writes, listC_writes, ptrC_writes, fltC_writes]))

theorem jLockC_writes (l : Lock) : jLockC.Writes l.toJSON ↔ ∀ t ∈ l.times, Dated t := by
  struct_writes
  simp [Lock.times, Lock.toJSON]

theorem jBillC_writes (b : Bill) : jBillC.Writes b.toJSON ↔ ∀ t ∈ b.times, Dated t := by
  struct_writes
  simp [Bill.times, Bill.toJSON, jLockC_writes, and_comm]

theorem jContentC_writes (c : Content) : jContentC.Writes c.toJSON ↔ ∀ t ∈ c.times, Dated t := by
  struct_writes
  constructor
  · rintro ⟨h1, h2, h3, h4⟩ t ht
    simp only [Content.times, List.mem_cons, List.mem_append, List.mem_flatMap, Option.mem_toList] at ht
    rcases ht with rfl | ⟨b, hb, ht⟩ | ht | ⟨b, hb, ht⟩
    · exact h4
    · exact (jBillC_writes b).mp (h1 _ (List.mem_map_of_mem hb) _ rfl) t ht
    · exact (jBillC_writes c.dest).mp (h2 _ rfl) t ht
    · exact (jBillC_writes b).mp (h3 _ (by simpa [Content.toJSON] using ⟨b, hb, rfl⟩)) t ht
  · intro h
    simp only [Content.times, List.mem_cons, List.mem_append, List.mem_flatMap, Option.mem_toList] at h
    refine ⟨?_, ?_, ?_, h _ (.inl rfl)⟩
    · intro p hp j hj
      simp only [Content.toJSON, List.mem_map] at hp
      obtain ⟨b, hb, rfl⟩ := hp
      cases hj
      exact (jBillC_writes b).mpr fun t ht => h t (.inr (.inl ⟨b, hb, ht⟩))
    · rintro j ⟨⟩
      exact (jBillC_writes _).mpr fun t ht => h t (.inr (.inr (.inl ht)))
    · intro j hj
      simp only [Content.toJSON, Option.mem_def, Option.map_eq_some_iff] at hj
      obtain ⟨b, hb, rfl⟩ := hj
      exact (jBillC_writes b).mpr fun t ht => h t (.inr (.inr (.inr ⟨b, hb, ht⟩)))

section
variable [C : Curve]

theorem jExpenseC_writes (e : Expense) : jExpenseC.Writes e.toJSON ↔ ∀ t ∈ e.times, Dated t := by
  struct_writes
  simp [Expense.times, Expense.toJSON, jContentC_writes]

omit C in
theorem jAddressC_writes (a : Address) : jAddressC.Writes a.toJSON ↔ Dated a.createdOn := by
  struct_writes
  simp [Address.toJSON]

theorem jTransactionC_writes (x : Transaction) :
    jTransactionC.Writes x.toJSON ↔ ∀ t ∈ x.times, Dated t := by
  struct_writes
  constructor
  · rintro ⟨h1, h2, h3⟩ t ht
    simp only [Transaction.times, List.mem_cons, List.mem_append, List.mem_flatMap, List.mem_map,
      Option.mem_toList] at ht
    rcases ht with rfl | ⟨e, he, ht⟩ | ⟨a, ha, rfl⟩
    · exact h3
    · exact (jExpenseC_writes e).mp (h2 _ (List.mem_map_of_mem he) _ rfl) t ht
    · exact (jAddressC_writes a).mp (h1 _ (by simpa [Transaction.toJSON] using ⟨a, ha, rfl⟩))
  · intro h
    simp only [Transaction.times, List.mem_cons, List.mem_append, List.mem_flatMap, List.mem_map,
      Option.mem_toList] at h
    refine ⟨?_, ?_, h _ (.inl rfl)⟩
    · intro j hj
      simp only [Transaction.toJSON, Option.mem_def, Option.map_eq_some_iff] at hj
      obtain ⟨a, ha, rfl⟩ := hj
      exact (jAddressC_writes a).mpr (h _ (.inr (.inr ⟨a, ha, rfl⟩)))
    · intro p hp j hj
      simp only [Transaction.toJSON, List.mem_map] at hp
      obtain ⟨e, he, rfl⟩ := hp
      cases hj
      exact (jExpenseC_writes e).mpr fun t ht => h t (.inr (.inl ⟨e, he, ht⟩))

variable [FloatText]

omit C in
theorem jGenesisC_writes (g : Genesis) : jGenesisC.Writes g.toJSON ↔
    g.blockIncrease.marshals = true ∧ ∀ t ∈ g.times, Dated t := by
  struct_writes
  simp [Genesis.times, Genesis.toJSON, jBillC_writes]
  tauto

theorem jBlockC_writes (b : Block) : jBlockC.Writes b.toJSON ↔
    b.genesis.blockIncrease.marshals = true ∧ ∀ t ∈ b.times, Dated t := by
  struct_writes
  constructor
  · rintro ⟨h1, h2, h3⟩
    obtain ⟨h4, h5⟩ := (jGenesisC_writes b.genesis).mp (h1 _ rfl)
    refine ⟨h4, fun t ht => ?_⟩
    simp only [Block.times, List.mem_cons, List.mem_append, List.mem_flatMap] at ht
    rcases ht with rfl | ht | ⟨x, hx, ht⟩
    · exact h3
    · exact h5 t ht
    · exact (jTransactionC_writes x).mp (h2 _ (List.mem_map_of_mem hx) _ rfl) t ht
  · rintro ⟨h0, h⟩
    simp only [Block.times, List.mem_cons, List.mem_append, List.mem_flatMap] at h
    refine ⟨?_, ?_, h _ (.inl rfl)⟩
    · rintro j ⟨⟩
      exact (jGenesisC_writes _).mpr ⟨h0, fun t ht => h t (.inr (.inl ht))⟩
    · intro p hp j hj
      simp only [Block.toJSON, List.mem_map] at hp
      obtain ⟨e, he, rfl⟩ := hp
      cases hj
      exact (jTransactionC_writes e).mpr fun t ht => h t (.inr (.inr ⟨e, he, ht⟩))

theorem jLinkC_writes (l : Link) : jLinkC.Writes l.toJSON ↔
    l.next.genesis.blockIncrease.marshals = true ∧ ∀ t ∈ l.times, Dated t := by
  struct_writes
  simp [Link.times, Link.toJSON, jBlockC_writes]
  tauto

/-- Mined links are written exactly if the difficulty is finite and all years have at most four
digits. -/
theorem jMinedLinkC_writes (l : MinedLink) : jMinedLinkC.Writes l.toJSON ↔
    l.link.next.genesis.blockIncrease.marshals = true ∧ ∀ t ∈ l.times, Dated t := by
  struct_writes
  simp [MinedLink.times, MinedLink.toJSON, jLinkC_writes]
  tauto

end

end Verif
