import Verif.Spec.Kinds
import Verif.Props.Alike

/-!
# Hashes and kinds of objects: C156
-/

namespace Verif

section
variable [Sha512] [C : Curve]

theorem Thing.hash_eq {x : Thing} (h : x.Built) : x.hash = fromBytes x.text := by
  cases x with
  | lock x => exact Lock.hash_eq h
  | bill x => exact Bill.hash_eq h
  | content x =>
    obtain ⟨e, -, t, -⟩ := Content.parts h
    show x.hash = _
    rw [e, t]
    congr 3
    simp only [hashesBytes, Content.spent, List.map_append, List.map_map, List.flatten_append]
    rfl
  | expense x => exact Expense.hash_eq h
  | genesis x => exact Genesis.parts h
  | address x =>
    show x.hash = _
    rw [Address.hash_eq h]
    simp [Thing.text, hashesBytes]
  | trx x =>
    show x.hash = _
    rw [(Transaction.pieces_facts h).1]
    simp [Thing.text, hashesBytes, Function.comp_def]
  | block x =>
    show x.hash = _
    rw [Block.hash_eq h]
    simp [Thing.text, hashesBytes, Function.comp_def]
  | minedBlock x =>
    obtain ⟨-, -, _, _, _, h⟩ := h
    obtain ⟨_, -, rfl⟩ := minedBlockNow_eq_ok.mp h
    rfl
  | link x =>
    obtain ⟨-, _, _, _, _, h⟩ := h
    obtain ⟨_, _, -, -, rfl⟩ := linkNow_eq_ok.mp h
    rfl
  | minedLink x =>
    obtain ⟨-, -, _, _, _, h⟩ := h
    obtain ⟨_, -, rfl⟩ := minedLinkNow_eq_ok.mp h
    rfl
  | chain x =>
    obtain ⟨-, -, -, _, _, _, _, _, h⟩ := h
    obtain ⟨_, _, _, -, -, -, -, rfl⟩ := chainNow_eq_ok.mp h
    rfl
  | state x =>
    obtain ⟨-, _, _, _, _, _, h⟩ := h
    obtain ⟨_, _, _, -, -, -, -, -, rfl⟩ := stateNow_eq_ok.mp h
    simp [Thing.text, Thing.hash, hashesBytes, Function.comp_def]

/-- C156: objects of any two kinds have the same hash exactly when their hashed texts are equal, or the hashed
text of one is nothing but the hash of the other; barring a collision of the two texts. -/
theorem C156_same_hash_iff_partial {x y : Thing} (hx : x.Built) (hy : y.Built) :
    (x.hash = y.hash ↔ x.text = y.text ∨ x.text = y.hash.bytes ∨ y.text = x.hash.bytes) ∨
      ShaCollision x.text y.text := by
  have ex := Thing.hash_eq hx
  have ey := Thing.hash_eq hy
  by_cases hc : ShaCollision x.text y.text
  · exact .inr hc
  refine .inl ⟨fun h => ?_, ?_⟩
  · rw [ex, ey] at h
    rcases fromBytes_eq_red' h with h | h | h | h
    · exact .inl h
    · exact absurd h hc
    · refine .inr (.inl ?_)
      rw [ey, fromBytes_of_ne h.2.1]
      exact h.2.2.symm
    · refine .inr (.inr ?_)
      rw [ex, fromBytes_of_ne h.2.1]
      exact h.2.2.symm
  · rintro (h | h | h)
    · rw [ex, ey, h]
    · rw [ex, h, fromBytes_hash]
    · rw [ey, h, fromBytes_hash]

omit [Sha512] C in
theorem hashRows_length {α : Type} (f : α → Hash) (l : List α) :
    (l.map fun a => (f a).bytes).flatten.length = 64 * l.length := by
  induction l with
  | nil => rfl
  | cons a l ih =>
    simp only [List.map_cons, List.flatten_cons, List.length_append, (f a).len, ih, List.length_cons]
    omega

omit [Sha512] in
theorem Thing.text_length_numbered {x : Thing} (h : x.Numbered) :
    64 < x.text.length ∧ x.text.length % 64 ≠ 0 := by
  cases x with
  | bill x =>
    have := x.lock.hash.len; have := itoaU_length x.amount
    simp only [Thing.text, List.length_append]; omega
  | content x =>
    have := x.dest.lock.hash.len; have := itoaU_length x.dest.amount
    have := hashRows_length Bill.hash x.source
    have := hashRows_length (fun r : Bill => r.lock.hash) x.remaining.toList
    simp only [Thing.text, List.length_append]; omega
  | block x =>
    have := x.genesis.hash.len; have := itoaU_length x.additional
    have := hashRows_length Transaction.hash x.trx
    simp only [Thing.text, List.length_append]; omega
  | link x =>
    have := x.prevLink.len; have := x.next.hash.len; have := itoaU_length x.index
    simp only [Thing.text, List.length_append]; omega
  | chain x =>
    have := x.genesis.hash.len; have := x.root.hash.len; have := x.head.hash.len
    have := itoaU_length x.total
    simp only [Thing.text, List.length_append]; omega
  | state x =>
    have := x.chain.len; have := x.previous.len; have := itoaU_length x.height
    have := hashRows_length Transaction.hash x.trx
    simp only [Thing.text, List.length_append]; omega
  | _ => exact h.elim

omit [Sha512] in
theorem Thing.text_listed {x : Thing} {l : List Hash} (h : x.listed = some l) : x.text = hashesBytes l := by
  cases x <;> simp only [Thing.listed, Option.some.injEq, reduceCtorEq] at h <;> subst h <;>
    simp [Thing.text, hashesBytes, Function.comp_def]

/-- C156: a bill, a content, a block, a link, a chain or a state has the hash of a lock, an address or a
transaction only when its hash is the sole part of the latter, barring a collision of the two hashed texts. -/
theorem C156_lists_apart_partial {x y : Thing} (hx : x.Built) (hy : y.Built) (hn : x.Numbered)
    {l : List Hash} (hl : y.listed = some l) :
    (x.hash = y.hash ↔ l = [x.hash]) ∨ ShaCollision x.text y.text := by
  obtain ⟨h1, h2⟩ := Thing.text_length_numbered hn
  have ht := Thing.text_listed hl
  have hlen := hashesBytes_length l
  refine (C156_same_hash_iff_partial hx hy).imp_left fun hi => hi.trans ⟨?_, ?_⟩
  · rintro (h | h | h)
    · have := congrArg List.length h
      rw [ht] at this
      omega
    · have := congrArg List.length h
      rw [y.hash.len] at this
      omega
    · rw [ht] at h
      exact hashesBytes_eq_bytes.mp h
  · rintro rfl
    exact .inr (.inr (by rw [ht]; simp))

theorem Thing.apart_of_length {x y : Thing} (hx : x.Built) (hy : y.Built)
    (h1 : x.text.length ≠ 64) (h2 : y.text.length ≠ 64) (h : x.text.length ≠ y.text.length) :
    x.Apart y := by
  intro he
  rcases C156_same_hash_iff_partial hx hy with hi | hi
  · rcases hi.mp he with h' | h' | h'
    · exact absurd (congrArg List.length h') h
    · exact absurd ((congrArg List.length h').trans y.hash.len) h1
    · exact absurd ((congrArg List.length h').trans x.hash.len) h2
  · exact hi

omit [Sha512] in
theorem ringStr_length (s : RingSignature) : 88 ≤ s.str.length := by
  rw [RingSignature.str, b64Encode_length]
  simp only [List.length_append, List.length_cons, scStr_length]
  omega

/-- What is known about the lengths of the hashed texts. -/
theorem Thing.lengths :
    (∀ x, (Thing.bill x).text.length < 128 ∧ 64 < (Thing.bill x).text.length) ∧
    (∀ x, (Thing.link x).text.length < 149 ∧ 128 < (Thing.link x).text.length) ∧
    (∀ x, 192 < (Thing.chain x).text.length ∧ (Thing.chain x).text.length < 256) ∧
    (∀ x : Content, x.Built → 128 < (Thing.content x).text.length) ∧
    (∀ x : Block, x.Built → 128 < (Thing.block x).text.length) ∧
    (∀ x, (Thing.state x).Built → 192 < (Thing.state x).text.length) ∧
    (∀ x : Expense, x.Built → 151 < (Thing.expense x).text.length) := by
  refine ⟨fun x => ?_, fun x => ?_, fun x => ?_, fun x h => ?_, fun x h => ?_, fun x h => ?_, fun x h => ?_⟩
  · have := x.lock.hash.len; have := itoaU_length x.amount
    simp only [Thing.text, List.length_append]; omega
  · have := x.prevLink.len; have := x.next.hash.len; have := itoaU_length x.index
    simp only [Thing.text, List.length_append]; omega
  · have := x.genesis.hash.len; have := x.root.hash.len; have := x.head.hash.len
    have := itoaU_length x.total
    simp only [Thing.text, List.length_append]; omega
  · have := x.dest.lock.hash.len; have := itoaU_length x.dest.amount
    have hl := hashRows_length Bill.hash x.source
    have hs : 0 < x.source.length := by
      obtain ⟨a, src, l, rem, t, h, -⟩ := h
      obtain ⟨_, _, e1, -, h0, hle, -, rfl⟩ := contentNow_eq_ok.mp h
      cases e1
      cases src with
      | nil => simp [sourceTotal] at hle; omega
      | cons b bs => simp
    simp only [Thing.text, List.length_append]; omega
  · have := x.genesis.hash.len; have := itoaU_length x.additional
    have hl := hashRows_length Transaction.hash x.trx
    have hs : 0 < x.trx.length := by
      obtain ⟨-, -, _, _, _, _, h⟩ := h
      obtain ⟨_, _, -, -, hne, rfl⟩ := blockNow_eq_ok.mp h
      exact List.length_pos_of_ne_nil hne
    simp only [Thing.text, List.length_append]; omega
  · have := x.chain.len; have := x.previous.len; have := itoaU_length x.height
    have hl := hashRows_length Transaction.hash x.trx
    have hs : 0 < x.trx.length := by
      obtain ⟨-, _, _, _, _, _, h⟩ := h
      obtain ⟨_, _, _, -, -, -, -, hne, rfl⟩ := stateNow_eq_ok.mp h
      exact List.length_pos_of_ne_nil hne
    simp only [Thing.text, List.length_append]; omega
  · have hl := x.content.hash.len
    have hne : x.signatures ≠ [] := by
      obtain ⟨⟨a, src, l, rem, t, hc, -⟩, c, sigs, he⟩ := h
      obtain ⟨cn, sg, rfl, rfl, hf, rfl⟩ := expenseNow_eq_ok.mp he
      obtain ⟨_, _, e, -, h1, h2, -, hcn⟩ := contentNow_eq_ok.mp hc
      cases e
      rintro rfl
      cases hf' : cn.source with
      | nil =>
        have : src = [] := by rw [← hf']; exact (congrArg Content.source hcn).symm
        subst this
        simp [sourceTotal] at h2
        omega
      | cons x xs => rw [hf'] at hf; cases hf
    obtain ⟨s, ss, hs⟩ := List.exists_cons_of_ne_nil hne
    have := ringStr_length s
    simp only [Thing.text, hs, List.map_cons, List.flatten_cons, List.length_append]
    omega

/-- C156: these kinds are told apart by their hashes, barring collisions: bills from contents, expenses,
blocks, links, chains and states; links from expenses, chains and states. -/
theorem C156_kinds_apart_partial :
    (∀ x y, (Thing.bill x).Built → (Thing.content y).Built → (Thing.bill x).Apart (.content y)) ∧
    (∀ x y, (Thing.bill x).Built → (Thing.expense y).Built → (Thing.bill x).Apart (.expense y)) ∧
    (∀ x y, (Thing.bill x).Built → (Thing.block y).Built → (Thing.bill x).Apart (.block y)) ∧
    (∀ x y, (Thing.bill x).Built → (Thing.link y).Built → (Thing.bill x).Apart (.link y)) ∧
    (∀ x y, (Thing.bill x).Built → (Thing.chain y).Built → (Thing.bill x).Apart (.chain y)) ∧
    (∀ x y, (Thing.bill x).Built → (Thing.state y).Built → (Thing.bill x).Apart (.state y)) ∧
    (∀ x y, (Thing.link x).Built → (Thing.expense y).Built → (Thing.link x).Apart (.expense y)) ∧
    (∀ x y, (Thing.link x).Built → (Thing.chain y).Built → (Thing.link x).Apart (.chain y)) ∧
    (∀ x y, (Thing.link x).Built → (Thing.state y).Built → (Thing.link x).Apart (.state y)) := by
  obtain ⟨lb, ll, lc, lt, lk, ls, le⟩ := Thing.lengths (C := C)
  refine ⟨fun x y hx hy => ?_, fun x y hx hy => ?_, fun x y hx hy => ?_, fun x y hx hy => ?_,
    fun x y hx hy => ?_, fun x y hx hy => ?_, fun x y hx hy => ?_, fun x y hx hy => ?_,
    fun x y hx hy => ?_⟩
  · have := lb x; have := lt y hy
    exact Thing.apart_of_length hx hy (by omega) (by omega) (by omega)
  · have := lb x; have := le y hy
    exact Thing.apart_of_length hx hy (by omega) (by omega) (by omega)
  · have := lb x; have := lk y hy
    exact Thing.apart_of_length hx hy (by omega) (by omega) (by omega)
  · have := lb x; have := ll y
    exact Thing.apart_of_length hx hy (by omega) (by omega) (by omega)
  · have := lb x; have := lc y
    exact Thing.apart_of_length hx hy (by omega) (by omega) (by omega)
  · have := lb x; have := ls y hy
    exact Thing.apart_of_length hx hy (by omega) (by omega) (by omega)
  · have := ll x; have := le y hy
    exact Thing.apart_of_length hx hy (by omega) (by omega) (by omega)
  · have := ll x; have := lc y
    exact Thing.apart_of_length hx hy (by omega) (by omega) (by omega)
  · have := ll x; have := ls y hy
    exact Thing.apart_of_length hx hy (by omega) (by omega) (by omega)

/-- C156 refuted: every hash, in particular that of any object, is the hash of a lock, of an address and of a
transaction that the builders accept. -/
theorem C156_any_hash_neg (h : Hash) (t : Time) :
    (∃ l, lockNow (some [h]) t = .ok l ∧ l.Built ∧ l.hash = h) ∧
    (∃ a, addressNow (some h) [] none t = .ok a ∧ a.Built ∧ a.hash = h) ∧
    ∃ x, trxNow none (some h) [] t = .ok x ∧ x.Built ∧ x.hash = h := by
  refine ⟨?_, ?_, ?_⟩
  · have := (lockNow_eq_ok (t := t)).mpr ⟨[h], rfl, by simp, by simp, rfl⟩
    exact ⟨_, this, ⟨_, _, this⟩, by simp⟩
  · have := (addressNow_eq_ok (s := some h) (r := []) (j := none) (t := t)).mpr ⟨by simp, rfl⟩
    exact ⟨_, this, ⟨_, _, _, _, this⟩, by simp⟩
  · have := (trxNow_eq_ok (C := C) (a := none) (b := some h) (f := []) (t := t)).mpr ⟨by simp, rfl⟩
    exact ⟨_, this, ⟨by simp, by simp, _, _, _, _, this⟩, by simp⟩

omit [Sha512] C in
theorem itoaU_ascii (a : UInt64) : ∀ c ∈ itoaU a, c.toNat < 0x80 := by
  have hd : ∀ n, ∀ c ∈ natDec n, c.toNat < 0x80 := fun n c hc => by
    have := natDec_digits n c hc
    simp only [isDigit, Bool.and_eq_true, decide_eq_true_eq, UInt8.le_iff_toNat_le] at this
    exact lt_of_le_of_lt this.2 (by decide)
  intro c hc
  unfold itoaU itoa at hc
  split at hc
  · rcases List.mem_cons.mp hc with rfl | hc
    · decide
    · exact hd _ c hc
  · exact hd _ c hc

/-- C156 refuted: for every block and amount, the bill of that amount under a lock with the block's hash as its
key has the hash of the block mined with the amount as the mining text. -/
theorem C156_bill_as_mined_block_neg {b : Block} (hb : b.Built) {a : UInt64} (ha : 0 < a.toNat) (t : Time) :
    ∃ (l : Lock) (x : Bill) (m : MinedBlock), l.pubKeys = [b.hash] ∧ billNow (some l) a t = .ok x ∧
      minedBlockNow (some b) (itoaU a) t = .ok m ∧ x.Built ∧ m.Built ∧ x.hash = m.hash := by
  have hl := (lockNow_eq_ok (t := t)).mpr ⟨[b.hash], rfl, by simp, by simp, rfl⟩
  have hx := (billNow_eq_ok (lock := some ⟨fromBytes (hashesBytes [b.hash]), [b.hash], t⟩) (t := t)).mpr
    ⟨_, rfl, ha, rfl⟩
  have hm := (minedBlockNow_eq_ok (m := itoaU a) (t := t)).mpr ⟨b, rfl, rfl⟩
  refine ⟨_, _, _, rfl, hx, hm, ⟨⟨_, _, hl⟩, _, _, _, hx⟩, ⟨hb, ?_, _, _, _, hm⟩, by simp⟩
  exact utf8_of_ascii (itoaU_ascii a)

/-- C156 refuted: the link from a block to another one has the hash of the first block mined with what stands
behind it in the text of the link. -/
theorem C156_link_as_mined_block_neg (b n : Block) (i : UInt64) (t : Time) :
    ∃ (l : Link) (m : MinedBlock), linkNow (some b.hash) (some n) i t = .ok l ∧
      minedBlockNow (some b) (n.hash.bytes ++ itoaU i) t = .ok m ∧ l.hash = m.hash :=
  ⟨_, _, linkNow_eq_ok.mpr ⟨_, _, rfl, rfl, rfl⟩, minedBlockNow_eq_ok.mpr ⟨_, rfl, rfl⟩, rfl⟩

/-- C156 refuted: for every content that pays to a lock with the hash of a genesis as its key there is a block
of that genesis with the same hash. -/
theorem C156_content_as_block_neg {c : Content} (hc : c.Built) {g : Genesis} (hg : g.Built)
    (hl : c.dest.lock.pubKeys = [g.hash]) (t : Time) :
    ∃ b : Block, b.Built ∧ b.genesis = g ∧ b.additional = c.dest.amount ∧
      b.trx.map Transaction.hash = c.spent.map Spent.hash ∧ b.hash = c.hash := by
  obtain ⟨e, -, ht, hd, -⟩ := Content.parts hc
  have hgl : c.dest.lock.hash = g.hash := by
    rw [Lock.hash_eq hd.1]
    simp [Lock.hashedText, hl]
  have hsp : ∀ l : List Hash, ∃ xs : List Transaction, (∀ x ∈ xs, x.Built) ∧ xs.map Transaction.hash = l := by
    intro l
    induction l with
    | nil => exact ⟨[], by simp, rfl⟩
    | cons h l ih =>
      obtain ⟨xs, h1, h2⟩ := ih
      obtain ⟨-, -, x, -, hx, hh⟩ := C156_any_hash_neg (C := C) h t
      exact ⟨x :: xs, by simpa using ⟨hx, h1⟩, by simp [hh, h2]⟩
  obtain ⟨xs, h1, h2⟩ := hsp (c.spent.map Spent.hash)
  have hne : xs ≠ [] := by
    rintro rfl
    obtain ⟨a, src, l, rem, t, h, -⟩ := hc
    obtain ⟨_, _, e1, -, h0, hle, -, rfl⟩ := contentNow_eq_ok.mp h
    cases e1
    cases src with
    | nil => simp [sourceTotal] at hle; omega
    | cons b bs => simp [Content.spent] at h2
  have hb := (blockNow_eq_ok (n := c.dest.amount) (t := t)).mpr ⟨g, xs, rfl, rfl, hne, rfl⟩
  refine ⟨_, ⟨hg, h1, _, _, _, _, hb⟩, rfl, rfl, h2, ?_⟩
  rw [e, ht, hgl]
  simp only [h2]

end

section examples

attribute [local instance] toyCurve toySha FloatText.decimal

/-- C156: a built link and a built bill, kinds that are told apart. -/
example : (Thing.link toyLink).Built ∧ (Thing.bill (toyBill 1 5)).Built ∧ (Thing.link toyLink).Numbered :=
  ⟨toyLink_built, toyBill_built 1 5 (by decide), trivial⟩

/-- C156: a lock whose sole key is the hash of a link, next to that link. -/
example : ∃ l : Lock, (Thing.lock l).Built ∧ (Thing.lock l).listed = some [(Thing.link toyLink).hash] ∧
    (Thing.lock l).hash = (Thing.link toyLink).hash := by
  obtain ⟨⟨l, h, hb, he⟩, -⟩ := C156_any_hash_neg (C := toyCurve) toyLink.hash 0
  obtain ⟨_, e, -, -, rfl⟩ := lockNow_eq_ok.mp h
  cases e
  exact ⟨_, hb, rfl, he⟩

/-- C156: a built block to which bills have the hashes of its mined forms. -/
example : toyBlock.Built ∧ 0 < (7 : UInt64).toNat := ⟨toyBlock_built, by decide⟩

/-- C156: a built content that pays to a lock with the hash of a genesis as its key. -/
example : ∃ c : Content, c.Built ∧ c.dest.lock.pubKeys = [toyGenesis.hash] ∧ c.remaining ≠ none := by
  have hl := (lockNow_eq_ok (t := 0)).mpr ⟨[toyGenesis.hash], rfl, by simp, by simp, rfl⟩
  refine ⟨_, ⟨2, [toyBill 1 5], _, some (toyLock 3), 0, contentNow_eq_ok.mpr
    ⟨_, _, rfl, rfl, by decide, by decide, by simp [sourceTotal, toyBill], rfl⟩, ?_, ⟨_, _, hl⟩, ?_⟩, rfl, by simp⟩
  · intro b hb
    rw [List.mem_singleton.mp hb]
    exact toyBill_built 1 5 (by decide)
  · intro r hr
    cases hr
    exact toyLock_built 3

end examples

end Verif
