import Verif.Model.Json.Objects
import Verif.Base.Json.FloatText
import Verif.Props.HashTree
import Verif.Props.Json

/-!
# Texts of objects: C128, C129
-/

namespace Verif

section
variable [Sha512]

/-! ## C128 -/

/-- C128: hash trees and compact trees can always be written, and the text is read as the same tree, by
the builder too. -/
theorem C128_trees_read_back (t : HashTree) (c : Compact) :
    (∃ b, t.text = some b ∧ hashTreeFromText b = .ok t ∧ hashTreeBuilderText none (some b) = .ok t) ∧
    ∃ b, c.text = some b ∧ compactFromText b = .ok c := by
  constructor
  · have hw : hashTreeC.Writes t.toJSON := by
      refine structC_writes.mpr ?_
      simp [fld, strC_writes, ptrC_writes, HashTree.toJSON]
      rfl
    obtain ⟨b, hb⟩ := Codec.writes_iff.mp hw
    have h := (unmarshal_text (f := hashTreeFromJSON) (hashTreeC_good _) (hashTreeC_norm t) hb).trans
      (C09_full_round_trip t).1
    exact ⟨b, hb, h, h⟩
  · have hw : compactC.Writes c.toJSON := by
      refine structC_writes.mpr ?_
      simp [fld, strC_writes, listC_writes, Compact.toJSON]
      intro a _
      rfl
    obtain ⟨b, hb⟩ := Codec.writes_iff.mp hw
    exact ⟨b, hb, (unmarshal_text (f := compactFromJSON) (compactC_good _) (compactC_norm c) hb).trans
      (C11_compact_head_unchecked_neg c.head c.leaves)⟩

/-- C128: a block of hashes, which has a text of its own, can be written and is read as the same block. -/
theorem C128_blocks_read_back (l : List Hash) :
    ∃ b, hashBlockText l = some b ∧ hashBlockFromText b = .ok l := by
  have hw : (listC strC).Writes (l.map Hash.str) := by
    simp [listC_writes, strC_writes]
  obtain ⟨b, hb⟩ := Codec.writes_iff.mp hw
  refine ⟨b, hb, ?_⟩
  have hn : (listC strC).norm (l.map Hash.str) = l.map Hash.str := by
    change (l.map Hash.str).map jsonText = _
    rw [List.map_map]
    refine List.map_congr_left fun h _ => ?_
    simp
  exact (unmarshal_text (f := mapO fromString) (listC_good fun a _ => strC_good a) hn hb).trans
    (mapO_fromString l)

/-- C128: what a text of a built entity without signatures is read as, and when there is one. -/
theorem C128_entities_read_back [FloatText] :
    (∀ x : Lock, ((∃ b, jLockC.text x.toJSON = some b) ↔ ∀ t ∈ x.times, Dated t) ∧
      (x.Built → ∀ b, jLockC.text x.toJSON = some b → lockFromText b = .ok x)) ∧
    (∀ x : Bill, ((∃ b, jBillC.text x.toJSON = some b) ↔ ∀ t ∈ x.times, Dated t) ∧
      (x.Built → ∀ b, jBillC.text x.toJSON = some b → billFromText b = .ok x)) ∧
    (∀ x : Content, ((∃ b, jContentC.text x.toJSON = some b) ↔ ∀ t ∈ x.times, Dated t) ∧
      (x.Built → ∀ b, jContentC.text x.toJSON = some b → contentFromText b = .ok x)) ∧
    (∀ x : Address, ((∃ b, jAddressC.text x.toJSON = some b) ↔ Dated x.createdOn) ∧
      (x.Built → ∀ b, jAddressC.text x.toJSON = some b → addressFromText b = .ok x)) ∧
    (∀ x : Genesis, ((∃ b, jGenesisC.text x.toJSON = some b) ↔
        x.blockIncrease.marshals = true ∧ ∀ t ∈ x.times, Dated t) ∧
      (x.Built → x.blockIncrease.IsFloat → ∀ b, jGenesisC.text x.toJSON = some b →
        genesisFromText b = .ok x)) :=
  ⟨fun x => ⟨Codec.writes_iff.symm.trans (jLockC_writes x), fun h _ hb =>
      (unmarshal_text (jLockC_good _) (jLockC_norm x) hb).trans (C29_lock_round_trip x h)⟩,
    fun x => ⟨Codec.writes_iff.symm.trans (jBillC_writes x), fun h _ hb =>
      (unmarshal_text (jBillC_good _) (jBillC_norm x) hb).trans (C29_bill_round_trip x h)⟩,
    fun x => ⟨Codec.writes_iff.symm.trans (jContentC_writes x), fun h _ hb =>
      (unmarshal_text (jContentC_good _) (jContentC_norm x) hb).trans (C29_content_round_trip x h)⟩,
    fun x => ⟨Codec.writes_iff.symm.trans (jAddressC_writes x), fun h _ hb =>
      (unmarshal_text (jAddressC_good _) (jAddressC_norm x) hb).trans (C29_address_round_trip x h)⟩,
    fun x => ⟨Codec.writes_iff.symm.trans (jGenesisC_writes x), fun h hf _ hb =>
      (unmarshal_text (jGenesisC_good x.toJSON hf) (jGenesisC_norm x) hb).trans (C29_genesis_round_trip x h)⟩⟩

/-- C128: the same for entities with signatures: their scalars are at most `largestFactor` and come
back in reduced encoding. -/
theorem C128_signed_entities_read_back [C : Curve] [FloatText] :
    (∀ x : Expense, ((∃ b, jExpenseC.text x.toJSON = some b) ↔ ∀ t ∈ x.times, Dated t) ∧
      (x.Built → x.Fits → ∀ b, jExpenseC.text x.toJSON = some b → expenseFromText b = .ok x.reduced)) ∧
    (∀ x : Transaction, ((∃ b, jTransactionC.text x.toJSON = some b) ↔ ∀ t ∈ x.times, Dated t) ∧
      (x.Built → x.Fits → ∀ b, jTransactionC.text x.toJSON = some b → trxFromText b = .ok x.reduced)) ∧
    (∀ x : Block, ((∃ b, jBlockC.text x.toJSON = some b) ↔
        x.genesis.blockIncrease.marshals = true ∧ ∀ t ∈ x.times, Dated t) ∧
      (x.Built → x.Fits → x.genesis.blockIncrease.IsFloat → ∀ b, jBlockC.text x.toJSON = some b →
        blockFromText b = .ok x.reduced)) ∧
    (∀ x : Link, ((∃ b, jLinkC.text x.toJSON = some b) ↔
        x.next.genesis.blockIncrease.marshals = true ∧ ∀ t ∈ x.times, Dated t) ∧
      (x.Built → x.Fits → x.next.genesis.blockIncrease.IsFloat → ∀ b, jLinkC.text x.toJSON = some b →
        linkFromText b = .ok x.reduced)) :=
  ⟨fun x => ⟨Codec.writes_iff.symm.trans (jExpenseC_writes x), fun h hf _ hb =>
      (unmarshal_text (jExpenseC_good _) (jExpenseC_norm x) hb).trans
        (C29_expense_round_trip_partial x h hf)⟩,
    fun x => ⟨Codec.writes_iff.symm.trans (jTransactionC_writes x), fun h hf _ hb =>
      (unmarshal_text (jTransactionC_good _) (jTransactionC_norm x) hb).trans
        (C29_transaction_round_trip_partial x h hf)⟩,
    fun x => ⟨Codec.writes_iff.symm.trans (jBlockC_writes x), fun h hf hq _ hb =>
      (unmarshal_text (jBlockC_good _ (by rintro g ⟨⟩; exact hq)) (jBlockC_norm x) hb).trans
        (C29_block_round_trip_partial x h hf)⟩,
    fun x => ⟨Codec.writes_iff.symm.trans (jLinkC_writes x), fun h hf hq _ hb =>
      (unmarshal_text (jLinkC_good _ (by rintro b ⟨⟩ g ⟨⟩; exact hq)) (jLinkC_norm x) hb).trans
        (C29_link_round_trip_partial x h hf)⟩⟩

/-- A written object of one of the kinds. -/
inductive WrittenObject [C : Curve] [FloatText] : Bytes → Prop
  | tree (t : HashTree) (b) : t.text = some b → WrittenObject b
  | compact (c : Compact) (b) : c.text = some b → WrittenObject b
  | lock (x : Lock) (b) : jLockC.text x.toJSON = some b → WrittenObject b
  | bill (x : Bill) (b) : jBillC.text x.toJSON = some b → WrittenObject b
  | content (x : Content) (b) : jContentC.text x.toJSON = some b → WrittenObject b
  | address (x : Address) (b) : jAddressC.text x.toJSON = some b → WrittenObject b
  | genesis (x : Genesis) (b) : x.blockIncrease.IsFloat → jGenesisC.text x.toJSON = some b → WrittenObject b
  | expense (x : Expense) (b) : jExpenseC.text x.toJSON = some b → WrittenObject b
  | transaction (x : Transaction) (b) : jTransactionC.text x.toJSON = some b → WrittenObject b
  | block (x : Block) (b) : x.genesis.blockIncrease.IsFloat → jBlockC.text x.toJSON = some b → WrittenObject b
  | link (x : Link) (b) : x.next.genesis.blockIncrease.IsFloat → jLinkC.text x.toJSON = some b → WrittenObject b

omit [Sha512] in
theorem structC_cut {σ α β : Type} {zero s : σ} {fs : List (Fld σ)} (h : (structC zero fs).Good s)
    {b p q : Bytes} (hb : (structC zero fs).text s = some b) (hp : p ++ q = b) (hq : q ≠ [])
    (c : Codec α) (f : α → Outcome β) : unmarshal c f p = .err "invalid JSON" := by
  unfold Codec.text at hb
  simp only [Option.map_eq_some_iff] at hb
  obtain ⟨j, h1, rfl⟩ := hb
  obtain ⟨h2, -⟩ := h j h1
  simp only [structC, Option.map_eq_some_iff] at h1
  obtain ⟨ms, -, rfl⟩ := h1
  simp [unmarshal, Codec.read, parseJson_prefix h2 hp hq]

omit [Sha512] in
/-- C128: a text that was cut off is refused with an error, whatever it is read as; nothing panics. -/
theorem C128_cut_text_refused [C : Curve] [FloatText] {p q : Bytes} (h : WrittenObject (p ++ q)) (hq : q ≠ []) :
    ∀ {α β : Type} (c : Codec α) (f : α → Outcome β), unmarshal c f p = .err "invalid JSON" := by
  intro α β c f
  generalize hb : p ++ q = b at h
  cases h with
  | tree t b h => exact structC_cut (hashTreeC_good _) h hb hq c f
  | compact t b h => exact structC_cut (compactC_good _) h hb hq c f
  | lock x b h => exact structC_cut (jLockC_good _) h hb hq c f
  | bill x b h => exact structC_cut (jBillC_good _) h hb hq c f
  | content x b h => exact structC_cut (jContentC_good _) h hb hq c f
  | address x b h => exact structC_cut (jAddressC_good _) h hb hq c f
  | genesis x b hf h => exact structC_cut (jGenesisC_good x.toJSON hf) h hb hq c f
  | expense x b h => exact structC_cut (jExpenseC_good _) h hb hq c f
  | transaction x b h => exact structC_cut (jTransactionC_good _) h hb hq c f
  | block x b hf h => exact structC_cut (jBlockC_good _ (by rintro g ⟨⟩; exact hf)) h hb hq c f
  | link x b hf h => exact structC_cut (jLinkC_good _ (by rintro y ⟨⟩ g ⟨⟩; exact hf)) h hb hq c f

/-! ## C129 -/

/-- C129 (negation of "a tree with the right head has the right blocks"): for any two trees there is a
text that is read, without an error, as a tree with the head of the first one and the blocks of the second
one; data is ordered as by the second tree. -/
theorem C129_head_unchecked_neg (t t' : HashTree) :
    ∃ b r, hashTreeBuilderText none (some b) = .ok r ∧ r.head = t.head ∧ r.blockLeaves = t'.blockLeaves ∧
      ∀ data, r.order data = t'.order data := by
  obtain ⟨⟨b, -, -, h⟩, -⟩ := C128_trees_read_back ⟨t.head, t'.left, t'.right⟩ t.compact
  exact ⟨b, _, h, rfl, rfl, fun _ => rfl⟩

/-- C129 (negation of "a block that is read can be made a tree"): a list of any length is read as a block, so
are the texts `null` and `[]`; the tree of the block is only built when the number of hashes is a power of
two, at least 2. The process is lost for all others, by a full stack when there are no hashes. -/
theorem C129_block_length_unchecked_neg (l : List Hash) {stack : Nat} (hs : l.length < stack) :
    (∃ b, hashBlockText l = some b ∧ hashBlockFromText b = .ok l) ∧
    ((¬∃ k, l.length = 2 ^ (k + 1)) → ∃ c, leavesHashTreeN stack (l.map .atom) = .crash c) ∧
    hashBlockFromText (ascii "null") = .ok [] ∧ hashBlockFromText (ascii "[]") = .ok [] ∧
    leavesHashTreeN stack [] = .crash .stackOverflow := by
  refine ⟨C128_blocks_read_back l, fun hk => ?_, rfl, rfl, leavesHashTreeN_nil _⟩
  rcases List.eq_nil_or_concat l with rfl | ⟨l', x, rfl⟩
  · exact ⟨_, leavesHashTreeN_nil _⟩
  · exact ⟨_, leavesHashTreeN_not_pow _ stack _ rfl (by simp) (by simp at hs ⊢; omega) (by simpa using hk)⟩

omit [Sha512] in
theorem escByte_hexDigit (b : UInt8) : b < 16 → escByte (hexDigit b) = [hexDigit b] :=
  UInt8.forall_of_fin (P := fun b => b < 16 → escByte (hexDigit b) = [hexDigit b]) (by decide +kernel) b

omit [Sha512] in
theorem jsonEsc_hexEncode (b : Bytes) : jsonEsc (hexEncode b) = hexEncode b := by
  have step : ∀ (d : UInt8) (r : Bytes), d < 16 → jsonEsc (hexDigit d :: r) = hexDigit d :: jsonEsc r := by
    intro d r hd
    have h := hexDigit_ascii d hd
    rw [jsonEsc]
    have : runeSize (hexDigit d :: r) = 1 := by
      have h' : inRange 0 127 (hexDigit d) = true := by
        simp only [inRange, decide_eq_true_eq]
        exact ⟨Nat.zero_le _, Nat.le_of_lt_succ h⟩
      simp [runeSize, h']
    rw [this]
    simp [escByte_hexDigit d hd]
  induction b with
  | nil => rw [hexEncode, jsonEsc]
  | cons c b ih =>
    rw [hexEncode, step _ _ (UInt8.forall_of_fin (P := fun c => c / 16 < 16) (by decide +kernel) c),
      step _ _ (UInt8.forall_of_fin (P := fun c => c % 16 < 16) (by decide +kernel) c), ih]

/-- C129 (negation of "reading returns a tree or an error"): a text with a head but without a node makes
the builder panic. -/
theorem C129_missing_node_panics_neg (h : Hash) :
    hashTreeBuilderText none (some (ascii "{\"head\":\"" ++ h.str ++ ascii "\"}")) = .crash .nilDeref := by
  have hp : (Json.obj [(ascii "head", .str h.str)]).Proper := by
    simp only [Json.Proper, properMembers, and_true]
    refine ⟨(prefixable_tag (by decide +kernel)).isStrLit, ?_⟩
    have := isStrLit_jsonEsc h.str
    rwa [Hash.str, jsonEsc_hexEncode] at this
  have hr : (Json.obj [(ascii "head", .str h.str)]).render = ascii "{\"head\":\"" ++ h.str ++ ascii "\"}" := by
    simp [Json.render, renderMembers, ascii]
  have hu : unquote h.str = h.str := by
    have := unquote_jsonEsc h.str
    rw [jsonText_hash] at this
    rwa [Hash.str, jsonEsc_hexEncode] at this
  have hread : hashTreeC.read (ascii "{\"head\":\"" ++ h.str ++ ascii "\"}") = some ⟨h.str, none⟩ := by
    rw [← hr, Codec.read, parseJson_render hp]
    have hn : unquote (ascii "head") = ascii "head" := unquote_tag (by decide +kernel)
    simp only [hashTreeC, structC, Option.bind_eq_bind, Option.bind_some, List.foldlM_cons, List.foldlM_nil]
    have hpick : pickField [fld "head" strC JHashTree.head fun a s => { s with head := a },
        fld "node" (ptrC (parentC leafC)) JHashTree.node fun a s => { s with node := a }] (ascii "head") =
        some (fld "head" strC JHashTree.head fun a s => { s with head := a }) := rfl
    simp only [readMember, hn, hpick]
    simp [fld, strC, hu]
  show hashTreeFromText _ = _
  unfold hashTreeFromText unmarshal
  rw [hread]
  exact (C11_missing_node_panics_neg h [] []).2

/-- C129: the missing check would suffice: if a tree that was read has as many leaves as a tree of
blocks and rebuilding it from its leaves gives the head of this tree, then it has the same leaves, or there is an
explicit collision between inner nodes of the two. -/
theorem C129_rebuilding_checks {blocks : List Bytes} {t r r' : HashTree} (ht : hashTreeFromBlocks blocks = .ok t)
    (hr : leavesHashTree r.blockLeaves = .ok r') (hl : r.length = t.length) (hh : r'.head = t.head) :
    r.blockLeaves = t.blockLeaves ∨ ∃ x ∈ r'.preimages, ∃ y ∈ t.preimages, ShaCollision x y := by
  obtain ⟨k, m, t₁, a, b, h1, rfl, ha, hb, -, -, -, -⟩ := hashTreeFromBlocks_spec blocks (hashTreeFromBlocks_ne_nil ht)
  obtain rfl : t = _ := Outcome.ok.inj (ht.symm.trans h1)
  have hlen : r.blockLeaves.length = 2 ^ (k + 1) := by
    have : r.blockLeaves.length = (parentHashTree a b).length := hl
    rw [this, HashTree.length, HashTree.blockLeaves]
    simp only [parentHashTree, List.length_append, ha.length, hb.length]
    rw [pow_succ]; omega
  have hat := r.blockLeaves_atoms
  have hwf : ∀ x ∈ r.blockLeaves, x.WF 0 := by
    intro x hx
    rw [hat, List.mem_map] at hx
    obtain ⟨y, -, rfl⟩ := hx
    exact .atom y
  obtain ⟨a', b', h2, ha', hb', h3⟩ := leavesHashTreeN_pow k (r.blockLeaves.length + 1) 0 r.blockLeaves hlen
    (by rw [hlen]; exact (Nat.lt_two_pow_self).trans (by rw [pow_succ]; omega)) hwf
  have h4 : r.blockLeaves.flatMap Leaf.leaves = r.blockLeaves := by
    rw [hat]
    generalize r.blockLeaves.map Leaf.head = l
    induction l with
    | nil => rfl
    | cons x l ih => simpa [Leaf.leaves] using ih
  obtain rfl : r' = parentHashTree a' b' := Outcome.ok.inj (hr.symm.trans h2)
  rw [Nat.zero_add] at ha' hb'
  rw [h4] at h3
  have m1 := IsMerkle.node ha'.merkle hb'.merkle
  have m2 := IsMerkle.node ha.merkle hb.merkle
  rcases m1.binding m2 hh with e | e
  · left
    rw [hat, (parentHashTree a b).blockLeaves_atoms, ← h3]
    simp only [List.map_append] at e ⊢
    simpa [parentHashTree, HashTree.blockLeaves] using congrArg (List.map Leaf.atom) e
  · exact .inr e

end

section examples

attribute [local instance] toyCurve toySha

/-- C128: built entities with times that can be written, among them a link over a block with two
transactions. -/
example : toyLink.Built ∧ toyLink.Fits ∧ toyLink.next.genesis.blockIncrease.IsFloat ∧
    (∀ t ∈ toyLink.times, Dated t) ∧ toyLink.next.trx.length = 2 := by
  refine ⟨toyLink_built, toyMinedLink_fits, ⟨⟨1, -1, by norm_num, by norm_num, ?_⟩, ?_⟩, ?_, rfl⟩
  · norm_num
  · rw [abs_of_pos (by norm_num)]
    exact lt_of_lt_of_le (by norm_num) (one_le_pow₀ (n := 1024) (by norm_num : (1 : ℚ) ≤ 2))
  · have h0 : Dated 0 := by decide
    intro t ht
    suffices t = 0 by rw [this]; exact h0
    simpa [Link.times, Block.times, Genesis.times, Bill.times, Lock.times,
      Transaction.times, toyLink, toyBlock, toyGenesis, toyTrx, toyBill, toyLock] using ht

/-- C128: texts that can be cut exist. -/
example [FloatText] (t : HashTree) : ∃ p q, WrittenObject (p ++ q) ∧ q ≠ [] := by
  obtain ⟨⟨b, hb, h, -⟩, -⟩ := C128_trees_read_back t t.compact
  refine ⟨[], b, .tree t b hb, ?_⟩
  rintro rfl
  have : hashTreeFromText [] = .err "invalid JSON" := by decide +kernel
  rw [this] at h
  cases h

/-- C129: a list of three hashes is read as a block, its tree cannot be built. -/
example : ∃ l : List Hash, l.length = 3 ∧ (∃ b, hashBlockText l = some b ∧ hashBlockFromText b = .ok l) ∧
    ∃ c, leavesHashTreeN 4 (l.map .atom) = .crash c := by
  refine ⟨[fromBytes [1], fromBytes [2], fromBytes [3]], rfl, ?_⟩
  obtain ⟨h1, h2, -⟩ := C129_block_length_unchecked_neg [fromBytes [1], fromBytes [2], fromBytes [3]]
    (stack := 4) (by decide)
  refine ⟨h1, h2 ?_⟩
  rintro ⟨k, hk⟩
  have : (3 : Nat) = 2 * 2 ^ k := by rw [← Nat.pow_succ']; exact hk
  omega

/-- C129: two trees with different heads and leaves. -/
example : ∃ t t', hashTreeFromBlocks [[1], [2], [3]] = .ok t ∧ hashTreeFromBlocks [[7], [8]] = .ok t' ∧
    t.head ≠ t'.head ∧ t.blockLeaves.length ≠ t'.blockLeaves.length := ⟨_, _, rfl, rfl, by decide +kernel, by decide +kernel⟩

/-- C129: a tree that can be rebuilt. -/
example : ∃ t, hashTreeFromBlocks [[1], [2], [3]] = .ok t ∧
    leavesHashTree t.blockLeaves = .ok t := by
  obtain ⟨t, h⟩ : ∃ t, hashTreeFromBlocks [[1], [2], [3]] = .ok t := ⟨_, rfl⟩
  obtain ⟨_, -, rfl, -, -, h'⟩ := C09_compact_round_trip h
  exact ⟨t, h, h'⟩

end examples

end Verif
