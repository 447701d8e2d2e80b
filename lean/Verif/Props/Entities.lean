import Verif.Model.Piastres.EntityLemmas
import Verif.Spec.Piastres
import Verif.Props.Expense

/-!
# Hashes of geneses, transactions, blocks, links, chains and states (C43–C45, C49, C66, C69, C75, C76)
-/

namespace Verif

section
variable [Sha512] [C : Curve]

/-! ## C43 -/

/-- C43: links with equal hashes have the same previous link, next block hash and index, unless the
two hashed texts are an explicit collision. -/
theorem C43_link_hash_binds (p₁ p₂ : Option Hash) (n₁ n₂ : Option Block) (i₁ i₂ : UInt64)
    (t₁ t₂ : Time) (l₁ l₂ : Link) (h₁ : linkNow p₁ n₁ i₁ t₁ = .ok l₁)
    (h₂ : linkNow p₂ n₂ i₂ t₂ = .ok l₂) (h : l₁.hash = l₂.hash) :
    (l₁.prevLink = l₂.prevLink ∧ l₁.next.hash = l₂.next.hash ∧ l₁.index = l₂.index) ∨
    ShaCollision (l₁.prevLink.bytes ++ (l₁.next.hash.bytes ++ itoaU l₁.index))
      (l₂.prevLink.bytes ++ (l₂.next.hash.bytes ++ itoaU l₂.index)) := by
  obtain ⟨p, n, rfl, rfl, rfl⟩ := linkNow_eq_ok.mp h₁
  obtain ⟨p', n', rfl, rfl, rfl⟩ := linkNow_eq_ok.mp h₂
  have key : ∀ (p : Hash) (n : Hash) (i : UInt64), (p.bytes ++ (n.bytes ++ itoaU i)).length ≠ 64 := by
    intro p n i
    have := p.len
    have := n.len
    simp only [List.length_append]
    omega
  rcases fromBytes_eq_red (key _ _ _) (key _ _ _) h with h | h
  · obtain ⟨h1, h2⟩ := hash_append_inj h
    obtain ⟨h3, h4⟩ := hash_append_inj h2
    exact .inl ⟨h1, h3, num_inj h4⟩
  · exact .inr h

/-! ## C44 -/

/-- C44: blocks with equal hashes have the same genesis hash, additional count and transaction
hashes (in the same order and number), unless the two hashed texts are an explicit collision. -/
theorem C44_block_hash_binds (g₁ g₂ : Option Genesis) (n₁ n₂ : UInt64)
    (x₁ x₂ : Option (List Transaction)) (t₁ t₂ : Time) (b₁ b₂ : Block)
    (h₁ : blockNow g₁ n₁ x₁ t₁ = .ok b₁) (h₂ : blockNow g₂ n₂ x₂ t₂ = .ok b₂)
    (h : b₁.hash = b₂.hash) :
    (b₁.genesis.hash = b₂.genesis.hash ∧ b₁.additional = b₂.additional ∧
      b₁.trx.map Transaction.hash = b₂.trx.map Transaction.hash) ∨
    ShaCollision
      (b₁.genesis.hash.bytes ++ (itoaU b₁.additional ++ hashesBytes (b₁.trx.map Transaction.hash)))
      (b₂.genesis.hash.bytes ++
        (itoaU b₂.additional ++ hashesBytes (b₂.trx.map Transaction.hash))) := by
  obtain ⟨g, x, rfl, rfl, -, rfl⟩ := blockNow_eq_ok.mp h₁
  obtain ⟨g', x', rfl, rfl, -, rfl⟩ := blockNow_eq_ok.mp h₂
  have key : ∀ (p : Hash) (i : UInt64) (r : Bytes), (p.bytes ++ (itoaU i ++ r)).length ≠ 64 := by
    intro p i r
    have := p.len
    have := itoaU_length i
    simp only [List.length_append]
    omega
  rcases fromBytes_eq_red (key _ _ _) (key _ _ _) h with h | h
  · obtain ⟨h1, h2⟩ := hash_append_inj h
    obtain ⟨h3, h4⟩ := num_hashes_inj h2
    exact .inl ⟨h1, h3, h4⟩
  · exact .inr h

/-- C44: the block builder accepts exactly a genesis with at least one transaction. -/
theorem C44_block_builder_exact (g : Option Genesis) (n : UInt64) (x : Option (List Transaction))
    (t : Time) :
    (∃ b, blockNow g n x t = .ok b) ↔ g ≠ none ∧ ∃ y ys, x = some (y :: ys) := by
  constructor
  · rintro ⟨b, h⟩
    obtain ⟨g, x, rfl, rfl, hx, -⟩ := blockNow_eq_ok.mp h
    obtain ⟨y, ys, rfl⟩ := List.exists_cons_of_ne_nil hx
    exact ⟨by simp, y, ys, rfl⟩
  · rintro ⟨hg, y, ys, rfl⟩
    obtain ⟨g, rfl⟩ := Option.ne_none_iff_exists'.mp hg
    exact ⟨_, blockNow_eq_ok.mpr ⟨g, _, rfl, rfl, by simp, rfl⟩⟩

/-! ## C45 -/

/-- C45: chains with equal hashes agree in the hashes of genesis, root and head and in the total,
unless the two hashed texts are an explicit collision. -/
theorem C45_chain_hash_binds (g₁ g₂ : Option Genesis) (r₁ r₂ : Option MinedBlock)
    (k₁ k₂ : Option MinedLink) (n₁ n₂ : UInt64) (t₁ t₂ : Time) (c₁ c₂ : Chain)
    (h₁ : chainNow g₁ r₁ k₁ n₁ t₁ = .ok c₁) (h₂ : chainNow g₂ r₂ k₂ n₂ t₂ = .ok c₂)
    (h : c₁.hash = c₂.hash) :
    (c₁.genesis.hash = c₂.genesis.hash ∧ c₁.root.hash = c₂.root.hash ∧
      c₁.head.hash = c₂.head.hash ∧ c₁.total = c₂.total) ∨
    ShaCollision
      (c₁.genesis.hash.bytes ++ (c₁.root.hash.bytes ++ (c₁.head.hash.bytes ++ itoaU c₁.total)))
      (c₂.genesis.hash.bytes ++
        (c₂.root.hash.bytes ++ (c₂.head.hash.bytes ++ itoaU c₂.total))) := by
  obtain ⟨g, r, k, rfl, rfl, rfl, -, rfl⟩ := chainNow_eq_ok.mp h₁
  obtain ⟨g', r', k', rfl, rfl, rfl, -, rfl⟩ := chainNow_eq_ok.mp h₂
  have key : ∀ (a b c : Hash) (i : UInt64),
      (a.bytes ++ (b.bytes ++ (c.bytes ++ itoaU i))).length ≠ 64 := by
    intro a b c i
    have := a.len
    have := b.len
    simp only [List.length_append]
    have := itoaU_length i
    omega
  rcases fromBytes_eq_red (key _ _ _ _) (key _ _ _ _) h with h | h
  · obtain ⟨h1, h2⟩ := hash_append_inj h
    obtain ⟨h3, h4⟩ := hash_append_inj h2
    obtain ⟨h5, h6⟩ := hash_append_inj h4
    exact .inl ⟨h1, h3, h5, num_inj h6⟩
  · exact .inr h

/-- C45: the total of a chain is never below the number of transactions of its root and head blocks
(slices are shorter than `2^63`, so the sum of two lengths fits in a `uint64`). -/
theorem C45_total_covers_known (g : Option Genesis) (r : Option MinedBlock) (k : Option MinedLink)
    (n : UInt64) (t : Time) (c : Chain) (h : chainNow g r k n t = .ok c)
    (hr : c.root.block.trx.length < 2 ^ 63) (hk : c.head.link.next.trx.length < 2 ^ 63) :
    c.root.block.trx.length + c.head.link.next.trx.length ≤ c.total.toNat := by
  obtain ⟨g, r, k, rfl, rfl, rfl, hle, rfl⟩ := chainNow_eq_ok.mp h
  simp only at hr hk ⊢
  rwa [Nat.mod_eq_of_lt (by omega)] at hle

/-! ## C49 -/

/-- C49 (negation of "a mined object satisfies a difficulty"): every block and link is accepted
with every mining text; the empty text leaves the hash unchanged. -/
theorem C49_any_mining_accepted_neg (b : Block) (l : Link) (m : Bytes) (t : Time) :
    (∃ r, minedBlockNow (some b) m t = .ok r ∧ r.mining = m ∧ r.block = b) ∧
    (∃ r, minedLinkNow (some l) m t = .ok r ∧ r.mining = m ∧ r.link = l) ∧
    (∃ r, minedBlockNow (some b) [] t = .ok r ∧ r.hash = b.hash) ∧
    (∃ r, minedLinkNow (some l) [] t = .ok r ∧ r.hash = l.hash) := by
  refine ⟨⟨_, minedBlockNow_eq_ok.mpr ⟨b, rfl, rfl⟩, rfl, rfl⟩,
    ⟨_, minedLinkNow_eq_ok.mpr ⟨l, rfl, rfl⟩, rfl, rfl⟩,
    ⟨_, minedBlockNow_eq_ok.mpr ⟨b, rfl, rfl⟩, ?_⟩, ⟨_, minedLinkNow_eq_ok.mpr ⟨l, rfl, rfl⟩, ?_⟩⟩ <;>
  simp

/-- C49 (what does hold): with non-empty mining texts the hash of a mined block or link binds the
block or link hash and the mining text. Missing: that the text satisfies a difficulty. -/
theorem C49_mined_hash_binds_partial (b₁ b₂ : Block) (l₁ l₂ : Link) (m₁ m₂ : Bytes) (t₁ t₂ : Time)
    (hm₁ : m₁ ≠ []) (hm₂ : m₂ ≠ []) :
    (∀ r₁ r₂, minedBlockNow (some b₁) m₁ t₁ = .ok r₁ → minedBlockNow (some b₂) m₂ t₂ = .ok r₂ →
      r₁.hash = r₂.hash → (b₁.hash = b₂.hash ∧ m₁ = m₂) ∨
        ShaCollision (b₁.hash.bytes ++ m₁) (b₂.hash.bytes ++ m₂)) ∧
    (∀ r₁ r₂, minedLinkNow (some l₁) m₁ t₁ = .ok r₁ → minedLinkNow (some l₂) m₂ t₂ = .ok r₂ →
      r₁.hash = r₂.hash → (l₁.hash = l₂.hash ∧ m₁ = m₂) ∨
        ShaCollision (l₁.hash.bytes ++ m₁) (l₂.hash.bytes ++ m₂)) := by
  have key : ∀ (p : Hash) (m : Bytes), m ≠ [] → (p.bytes ++ m).length ≠ 64 := by
    intro p m hm
    have := p.len
    have := List.length_pos_iff.mpr hm
    simp only [List.length_append]
    omega
  constructor
  · intro r₁ r₂ h₁ h₂ h
    obtain ⟨_, e, rfl⟩ := minedBlockNow_eq_ok.mp h₁
    cases e
    obtain ⟨_, e, rfl⟩ := minedBlockNow_eq_ok.mp h₂
    cases e
    rcases fromBytes_eq_red (key _ _ hm₁) (key _ _ hm₂) h with h | h
    · exact .inl (hash_append_inj h)
    · exact .inr h
  · intro r₁ r₂ h₁ h₂ h
    obtain ⟨_, e, rfl⟩ := minedLinkNow_eq_ok.mp h₁
    cases e
    obtain ⟨_, e, rfl⟩ := minedLinkNow_eq_ok.mp h₂
    cases e
    rcases fromBytes_eq_red (key _ _ hm₁) (key _ _ hm₂) h with h | h
    · exact .inl (hash_append_inj h)
    · exact .inr h

/-! ## C66 -/

omit [Sha512] C in
private theorem append_cons_inj {c : UInt8} : ∀ {x x' r r' : Bytes}, c ∉ x → c ∉ x' →
    x ++ c :: r = x' ++ c :: r' → x = x' ∧ r = r'
  | [], [], _, _, _, _, h => by simpa using h
  | [], a :: x', _, _, _, h', h => by
    simp only [List.nil_append, List.cons_append, List.cons.injEq] at h
    exact absurd h.1 (by simp only [List.mem_cons, not_or] at h'; exact h'.1)
  | a :: x, [], _, _, h', _, h => by
    simp only [List.nil_append, List.cons_append, List.cons.injEq] at h
    exact absurd h.1.symm (by simp only [List.mem_cons, not_or] at h'; exact h'.1)
  | a :: x, b :: x', r, r', h1, h2, h => by
    simp only [List.cons_append, List.cons.injEq] at h
    simp only [List.mem_cons, not_or] at h1 h2
    obtain ⟨h3, h4⟩ := append_cons_inj h1.2 h2.2 h.2
    exact ⟨by rw [h.1, h3], h4⟩

omit [Sha512] C in
private theorem dot_not_mem_natDec (n : Nat) : (46 : UInt8) ∉ natDec n := by
  intro h
  have := natDec_digits n _ h
  simp [isDigit] at this

omit [Sha512] C in
private theorem dot_not_mem_itoaU (n : UInt64) : (46 : UInt8) ∉ itoaU n := by
  unfold itoaU itoa
  split
  · simp [dot_not_mem_natDec]
  · exact dot_not_mem_natDec _

omit [Sha512] C in
private theorem pad12_length {n : Nat} (h : n < 10 ^ 12) : (pad12 (natDec n)).length = 12 := by
  have := natDec_length_le (k := 12) (by norm_num) h
  simp only [pad12, List.length_append, List.length_replicate]
  omega

omit [Sha512] C in
/-- The text of a finite increase is an integer part, a dot and twelve digits. -/
private theorem fmtF12_fin (q : ℚ) : ∃ i f : Bytes, fmtF12 (.fin q) = i ++ 46 :: f ∧
    (46 : UInt8) ∉ i ∧ f.length = 12 := by
  refine ⟨_, _, rfl, ?_, pad12_length (Nat.mod_lt _ (by norm_num))⟩
  simp only [List.mem_append, not_or]
  refine ⟨?_, dot_not_mem_natDec _⟩
  split <;> simp

omit [Sha512] C in
private theorem fmt_link_inj {base₁ base₂ link₁ link₂ : UInt64} {q₁ q₂ : ℚ}
    (h : itoaU base₁ ++ (fmtF12 (.fin q₁) ++ itoaU link₁) =
      itoaU base₂ ++ (fmtF12 (.fin q₂) ++ itoaU link₂)) :
    link₁ = link₂ ∧ (base₁ = base₂ → fmtF12 (.fin q₁) = fmtF12 (.fin q₂)) := by
  obtain ⟨i₁, f₁, e₁, d₁, n₁⟩ := fmtF12_fin q₁
  obtain ⟨i₂, f₂, e₂, d₂, n₂⟩ := fmtF12_fin q₂
  rw [e₁, e₂] at h ⊢
  have h' : (itoaU base₁ ++ i₁) ++ 46 :: (f₁ ++ itoaU link₁) =
      (itoaU base₂ ++ i₂) ++ 46 :: (f₂ ++ itoaU link₂) := by simpa using h
  obtain ⟨h1, h2⟩ := append_cons_inj (by simp [dot_not_mem_itoaU, d₁])
    (by simp [dot_not_mem_itoaU, d₂]) h'
  obtain ⟨h3, h4⟩ := List.append_inj h2 (by rw [n₁, n₂])
  refine ⟨num_inj h4, ?_⟩
  rintro rfl
  rw [List.append_cancel_left h1, h3]

omit C in
/-- C66 (what does hold): geneses with equal hashes have the same bill hash and, for finite
increases, the same link difficulty, and with the same base difficulty also the same increase up to
twelve decimals; unless the two hashed texts are an explicit collision. Missing: the base
difficulty, and the exact increase. -/
theorem C66_genesis_hash_binds_partial (base₁ base₂ : UInt64) (q₁ q₂ : ℚ) (link₁ link₂ : UInt64)
    (b₁ b₂ : Option Bill) (t₁ t₂ : Time) (g₁ g₂ : Genesis)
    (h₁ : genesisNow base₁ (.fin q₁) link₁ b₁ t₁ = .ok g₁)
    (h₂ : genesisNow base₂ (.fin q₂) link₂ b₂ t₂ = .ok g₂) (h : g₁.hash = g₂.hash) :
    (g₁.bill.hash = g₂.bill.hash ∧ g₁.link = g₂.link ∧
      (g₁.blockBase = g₂.blockBase → fmtF12 g₁.blockIncrease = fmtF12 g₂.blockIncrease)) ∨
    ShaCollision
      (itoaU base₁ ++ (fmtF12 (.fin q₁) ++ (itoaU link₁ ++ g₁.bill.hash.bytes)))
      (itoaU base₂ ++ (fmtF12 (.fin q₂) ++ (itoaU link₂ ++ g₂.bill.hash.bytes))) := by
  obtain ⟨b, rfl, -, -, -, rfl⟩ := genesisNow_eq_ok.mp h₁
  obtain ⟨b', rfl, -, -, -, rfl⟩ := genesisNow_eq_ok.mp h₂
  have key : ∀ (i : UInt64) (x y : Bytes) (p : Hash),
      (itoaU i ++ (x ++ (y ++ p.bytes))).length ≠ 64 := by
    intro i x y p
    have := itoaU_length i
    have := p.len
    simp only [List.length_append]
    omega
  rcases fromBytes_eq_red (key _ _ _ _) (key _ _ _ _) h with h | h
  · have h' : (itoaU base₁ ++ (fmtF12 (.fin q₁) ++ itoaU link₁)) ++ b.hash.bytes =
        (itoaU base₂ ++ (fmtF12 (.fin q₂) ++ itoaU link₂)) ++ b'.hash.bytes := by simpa using h
    obtain ⟨h3, h4⟩ := append_hash_inj h'
    obtain ⟨h5, h6⟩ := fmt_link_inj h3
    exact .inl ⟨h4, h5, h6⟩
  · exact .inr h

omit C in
/-- C66: for all increases, finite or not, the bill hash is bound. -/
theorem C66_bill_bound (base₁ base₂ : UInt64) (i₁ i₂ : Flt) (link₁ link₂ : UInt64)
    (b₁ b₂ : Option Bill) (t₁ t₂ : Time) (g₁ g₂ : Genesis)
    (h₁ : genesisNow base₁ i₁ link₁ b₁ t₁ = .ok g₁)
    (h₂ : genesisNow base₂ i₂ link₂ b₂ t₂ = .ok g₂) (h : g₁.hash = g₂.hash) :
    g₁.bill.hash = g₂.bill.hash ∨
    ShaCollision (itoaU base₁ ++ (fmtF12 i₁ ++ (itoaU link₁ ++ g₁.bill.hash.bytes)))
      (itoaU base₂ ++ (fmtF12 i₂ ++ (itoaU link₂ ++ g₂.bill.hash.bytes))) := by
  obtain ⟨b, rfl, -, -, -, rfl⟩ := genesisNow_eq_ok.mp h₁
  obtain ⟨b', rfl, -, -, -, rfl⟩ := genesisNow_eq_ok.mp h₂
  have key : ∀ (i : UInt64) (x y : Bytes) (p : Hash),
      (itoaU i ++ (x ++ (y ++ p.bytes))).length ≠ 64 := by
    intro i x y p
    have := itoaU_length i
    have := p.len
    simp only [List.length_append]
    omega
  rcases fromBytes_eq_red (key _ _ _ _) (key _ _ _ _) h with h | h
  · have h' : (itoaU base₁ ++ (fmtF12 i₁ ++ itoaU link₁)) ++ b.hash.bytes =
        (itoaU base₂ ++ (fmtF12 i₂ ++ itoaU link₂)) ++ b'.hash.bytes := by simpa using h
    exact .inl (append_hash_inj h').2
  · exact .inr h

omit [Sha512] C in
private theorem fmt_10_5 : fmtF12 (.fin (21 / 2)) = ascii "10.500000000000" := by
  have h : roundHalfEven (|(21 / 2 : ℚ)| * 10 ^ 12) = 10500000000000 := by
    rw [abs_of_pos (by norm_num)]
    have : (21 / 2 : ℚ) * 10 ^ 12 = ((10500000000000 : ℤ) : ℚ) := by norm_num
    rw [this]
    simp [roundHalfEven]
  simp only [fmtF12, h]
  rw [if_neg (by norm_num)]
  norm_num [natDec, pad12]
  decide

omit [Sha512] C in
private theorem fmt_0_5 : fmtF12 (.fin (1 / 2)) = ascii "0.500000000000" := by
  have h : roundHalfEven (|(1 / 2 : ℚ)| * 10 ^ 12) = 500000000000 := by
    rw [abs_of_pos (by norm_num)]
    have : (1 / 2 : ℚ) * 10 ^ 12 = ((500000000000 : ℤ) : ℚ) := by norm_num
    rw [this]
    simp [roundHalfEven]
  simp only [fmtF12, h]
  rw [if_neg (by norm_num)]
  norm_num [natDec, pad12]
  decide

omit C in
/-- C66 (negation of "the hash binds the difficulty parameters"): base 1 with increase 10.5 and base
11 with increase 0.5 have the same hash, for every hash function, bill and link difficulty. -/
theorem C66_genesis_hash_ambiguous_neg (b : Bill) (link : UInt64) (hl : 0 < link.toNat) (t : Time) :
    ∃ g₁ g₂, genesisNow 1 (.fin (21 / 2)) link (some b) t = .ok g₁ ∧
      genesisNow 11 (.fin (1 / 2)) link (some b) t = .ok g₂ ∧ g₁.hash = g₂.hash ∧
      g₁.blockBase ≠ g₂.blockBase ∧ g₁.blockIncrease ≠ g₂.blockIncrease := by
  refine ⟨_, _, genesisNow_eq_ok.mpr ⟨b, rfl, by decide, ?_, hl, rfl⟩,
    genesisNow_eq_ok.mpr ⟨b, rfl, by decide, ?_, hl, rfl⟩, ?_, ?_, ?_⟩
  · simp [Flt.le0]
  · simp [Flt.le0]
  · simp only [fmt_10_5, fmt_0_5]
    have h1 : itoaU 1 = ascii "1" := by
      have : toInt 1 = 1 := by decide
      simp [itoaU, itoa, this, natDec]; decide
    have h2 : itoaU 11 = ascii "11" := by
      have : toInt 11 = 11 := by decide
      simp [itoaU, itoa, this, natDec]; decide
    rw [h1, h2, ← List.append_assoc, ← List.append_assoc (ascii "11")]
    rfl
  · simp
  · simp; norm_num

omit C in
/-- C66 (negation, rounding): increases below `5e-13` all have the hash of increase zero, which the
builder itself refuses. -/
theorem C66_small_increase_lost_neg (base link : UInt64) (b : Option Bill) (t : Time) (q₁ q₂ : ℚ)
    (hq₁ : 0 < q₁ ∧ q₁ < 5 / 10 ^ 13) (hq₂ : 0 < q₂ ∧ q₂ < 5 / 10 ^ 13) (g₁ g₂ : Genesis)
    (h₁ : genesisNow base (.fin q₁) link b t = .ok g₁)
    (h₂ : genesisNow base (.fin q₂) link b t = .ok g₂) : g₁.hash = g₂.hash := by
  obtain ⟨b, rfl, -, -, -, rfl⟩ := genesisNow_eq_ok.mp h₁
  obtain ⟨b', e, -, -, -, rfl⟩ := genesisNow_eq_ok.mp h₂
  cases e
  have key : ∀ q : ℚ, 0 < q → q < 5 / 10 ^ 13 → fmtF12 (.fin q) = fmtF12 (.fin 0) := by
    intro q h1 h2
    have hlt : q * 10 ^ 12 < 1 / 2 := by
      rw [lt_div_iff₀ (by norm_num)] at h2
      linarith
    have hpos : 0 < q * 10 ^ 12 := by positivity
    have hf : ⌊q * 10 ^ 12⌋ = 0 := by
      rw [Int.floor_eq_iff]
      constructor
      · simpa using hpos.le
      · push_cast; linarith
    have hr : roundHalfEven (|q| * 10 ^ 12) = 0 := by
      rw [abs_of_pos h1]
      simp only [roundHalfEven, hf, Int.cast_zero, sub_zero]
      rw [if_pos hlt]
    have hr0 : roundHalfEven (|(0 : ℚ)| * 10 ^ 12) = 0 := by simp [roundHalfEven]
    simp only [fmtF12, hr, hr0]
    rw [if_neg (by linarith), if_neg (by norm_num)]
  simp only [key q₁ hq₁.1 hq₁.2, key q₂ hq₂.1 hq₂.2]

/-! ## C69 -/

/-- C69 (negation of "the hash identifies the parts"): a transaction with only a bucket has the
bucket's hash as its own hash, and a transaction with only an address has the address's hash, which
for a one-part address is that part. So with one hash `h`, the bucket-only transaction and the
transactions addressed from, to or about `h` all have hash `h`. -/
theorem C69_transaction_roles_confused_neg (h : Hash) (t : Time) :
    ∃ x₁ x₂ x₃ x₄ a₂ a₃ a₄,
      trxNow none (some h) [] t = .ok x₁ ∧
      addressNow (some h) [] none t = .ok a₂ ∧ trxNow (some a₂) none [] t = .ok x₂ ∧
      addressNow none [h] none t = .ok a₃ ∧ trxNow (some a₃) none [] t = .ok x₃ ∧
      addressNow none [] (some h) t = .ok a₄ ∧ trxNow (some a₄) none [] t = .ok x₄ ∧
      x₁.hash = h ∧ x₂.hash = h ∧ x₃.hash = h ∧ x₄.hash = h ∧
      x₁.bucket ≠ x₂.bucket ∧ x₂.address ≠ x₃.address ∧ x₃.address ≠ x₄.address ∧
      x₂.address ≠ x₄.address := by
  refine ⟨_, _, _, _, _, _, _, trxNow_eq_ok.mpr ⟨by simp, rfl⟩, addressNow_eq_ok.mpr ⟨by simp, rfl⟩,
    trxNow_eq_ok.mpr ⟨by simp, rfl⟩, addressNow_eq_ok.mpr ⟨by simp, rfl⟩,
    trxNow_eq_ok.mpr ⟨by simp, rfl⟩, addressNow_eq_ok.mpr ⟨by simp, rfl⟩,
    trxNow_eq_ok.mpr ⟨by simp, rfl⟩, ?_⟩
  simp [hashesBytes]

/-- The list of hashes that a transaction is made of. -/
def Transaction.parts (x : Transaction) : List Hash :=
  (x.address.map Address.hash).toList ++ x.bucket.toList ++ x.fees.map Expense.hash

/-- C69 (what does hold): two transactions with equal hashes and the same presence of address and
bucket are made of the same hashes, unless the two hashed texts are an explicit collision or one of
them is a 64-byte text that is itself the hash of the other one. Missing: the roles. -/
theorem C69_transaction_hash_binds_partial (a₁ a₂ : Option Address) (b₁ b₂ : Option Hash)
    (f₁ f₂ : List Expense) (t₁ t₂ : Time) (x₁ x₂ : Transaction)
    (h₁ : trxNow a₁ b₁ f₁ t₁ = .ok x₁) (h₂ : trxNow a₂ b₂ f₂ t₂ = .ok x₂) (h : x₁.hash = x₂.hash)
    (ha : a₁.isSome ↔ a₂.isSome) (hb : b₁.isSome ↔ b₂.isSome) :
    (x₁.address.map Address.hash = x₂.address.map Address.hash ∧ x₁.bucket = x₂.bucket ∧
      x₁.fees.map Expense.hash = x₂.fees.map Expense.hash) ∨
    ShaCollision (hashesBytes x₁.parts) (hashesBytes x₂.parts) ∨
    ShaPassThrough (hashesBytes x₁.parts) (hashesBytes x₂.parts) ∨
    ShaPassThrough (hashesBytes x₂.parts) (hashesBytes x₁.parts) := by
  obtain ⟨-, rfl⟩ := trxNow_eq_ok.mp h₁
  obtain ⟨-, rfl⟩ := trxNow_eq_ok.mp h₂
  rcases fromBytes_eq_red' h with h | h
  · left
    have h' := hashesBytes_injective h
    cases a₁ <;> cases a₂ <;> simp at ha <;> cases b₁ <;> cases b₂ <;> simp at hb <;>
      simpa using h'
  · exact .inr h

/-- C69: the creation time of an object never influences its hash: for every builder, the same
arguments with different times give the same hash. -/
theorem C69_time_not_hashed (t t' : Time) :
    (∀ k l l', lockNow k t = .ok l → lockNow k t' = .ok l' → l.hash = l'.hash) ∧
    (∀ k a b b', billNow k a t = .ok b → billNow k a t' = .ok b' → b.hash = b'.hash) ∧
    (∀ a s k r c c', contentNow a s k r t = .ok c → contentNow a s k r t' = .ok c' →
      c.hash = c'.hash) ∧
    (∀ a i l b g g', genesisNow a i l b t = .ok g → genesisNow a i l b t' = .ok g' →
      g.hash = g'.hash) ∧
    (∀ s r j a a', addressNow s r j t = .ok a → addressNow s r j t' = .ok a' → a.hash = a'.hash) ∧
    (∀ a b f x x', trxNow a b f t = .ok x → trxNow a b f t' = .ok x' → x.hash = x'.hash) ∧
    (∀ g n x b b', blockNow g n x t = .ok b → blockNow g n x t' = .ok b' → b.hash = b'.hash) ∧
    (∀ p n i l l', linkNow p n i t = .ok l → linkNow p n i t' = .ok l' → l.hash = l'.hash) ∧
    (∀ b m r r', minedBlockNow b m t = .ok r → minedBlockNow b m t' = .ok r' →
      r.hash = r'.hash) ∧
    (∀ b m r r', minedLinkNow b m t = .ok r → minedLinkNow b m t' = .ok r' → r.hash = r'.hash) ∧
    (∀ g r k n c c', chainNow g r k n t = .ok c → chainNow g r k n t' = .ok c' →
      c.hash = c'.hash) ∧
    (∀ c p n x s s', stateNow c p n x t = .ok s → stateNow c p n x t' = .ok s' →
      s.hash = s'.hash) := by
  refine ⟨?_, ?_, ?_, ?_, ?_, ?_, ?_, ?_, ?_, ?_, ?_, ?_⟩
  · intro k l l' h h'
    obtain ⟨_, rfl, -, -, rfl⟩ := lockNow_eq_ok.mp h
    obtain ⟨_, e, -, -, rfl⟩ := lockNow_eq_ok.mp h'
    cases e; rfl
  · intro k a b b' h h'
    obtain ⟨_, rfl, -, rfl⟩ := billNow_eq_ok.mp h
    obtain ⟨_, e, -, rfl⟩ := billNow_eq_ok.mp h'
    cases e; rfl
  · intro a s k r c c' h h'
    obtain ⟨_, _, rfl, rfl, -, -, -, rfl⟩ := contentNow_eq_ok.mp h
    obtain ⟨_, _, e, e', -, -, -, rfl⟩ := contentNow_eq_ok.mp h'
    cases e; cases e'; rfl
  · intro a i l b g g' h h'
    obtain ⟨_, rfl, -, -, -, rfl⟩ := genesisNow_eq_ok.mp h
    obtain ⟨_, e, -, -, -, rfl⟩ := genesisNow_eq_ok.mp h'
    cases e; rfl
  · intro s r j a a' h h'
    obtain ⟨-, rfl⟩ := addressNow_eq_ok.mp h
    obtain ⟨-, rfl⟩ := addressNow_eq_ok.mp h'
    rfl
  · intro a b f x x' h h'
    obtain ⟨-, rfl⟩ := trxNow_eq_ok.mp h
    obtain ⟨-, rfl⟩ := trxNow_eq_ok.mp h'
    rfl
  · intro g n x b b' h h'
    obtain ⟨_, _, rfl, rfl, -, rfl⟩ := blockNow_eq_ok.mp h
    obtain ⟨_, _, e, e', -, rfl⟩ := blockNow_eq_ok.mp h'
    cases e; cases e'; rfl
  · intro p n i l l' h h'
    obtain ⟨_, _, rfl, rfl, rfl⟩ := linkNow_eq_ok.mp h
    obtain ⟨_, _, e, e', rfl⟩ := linkNow_eq_ok.mp h'
    cases e; cases e'; rfl
  · intro b m r r' h h'
    obtain ⟨_, rfl, rfl⟩ := minedBlockNow_eq_ok.mp h
    obtain ⟨_, e, rfl⟩ := minedBlockNow_eq_ok.mp h'
    cases e; rfl
  · intro b m r r' h h'
    obtain ⟨_, rfl, rfl⟩ := minedLinkNow_eq_ok.mp h
    obtain ⟨_, e, rfl⟩ := minedLinkNow_eq_ok.mp h'
    cases e; rfl
  · intro g r k n c c' h h'
    obtain ⟨_, _, _, rfl, rfl, rfl, -, rfl⟩ := chainNow_eq_ok.mp h
    obtain ⟨_, _, _, e, e', e'', -, rfl⟩ := chainNow_eq_ok.mp h'
    cases e; cases e'; cases e''; rfl
  · intro c p n x s s' h h'
    obtain ⟨_, _, _, rfl, rfl, rfl, -, -, rfl⟩ := stateNow_eq_ok.mp h
    obtain ⟨_, _, _, e, e', e'', -, -, rfl⟩ := stateNow_eq_ok.mp h'
    cases e; cases e'; cases e''; rfl

/-! ## C75 -/

omit C in
/-- C75 (negation of "a genesis has a usable difficulty increase"): NaN and `+Inf` pass the
builder's check although no JSON form of such a genesis exists; `-Inf` is refused. -/
theorem C75_nan_increase_accepted_neg (base link : UInt64) (b : Bill) (t : Time)
    (hb : 0 < base.toNat) (hl : 0 < link.toNat) :
    (∃ g, genesisNow base .nan link (some b) t = .ok g ∧
      g.toJSON.blockIncrease.marshals = false) ∧
    (∃ g, genesisNow base .posInf link (some b) t = .ok g ∧
      g.toJSON.blockIncrease.marshals = false) ∧
    (genesisNow base .negInf link (some b) t).isErr = true := by
  refine ⟨⟨_, genesisNow_eq_ok.mpr ⟨b, rfl, hb, rfl, hl, rfl⟩, rfl⟩,
    ⟨_, genesisNow_eq_ok.mpr ⟨b, rfl, hb, rfl, hl, rfl⟩, rfl⟩, ?_⟩
  simp [genesisNow, Flt.le0, UInt64.not_le_zero.mpr hb]

omit C in
/-- C75: on finite increases the builder is exact: it accepts a genesis iff base, increase and link
difficulty are positive and there is a bill. -/
theorem C75_genesis_builder_exact (base link : UInt64) (q : ℚ) (b : Option Bill) (t : Time) :
    (∃ g, genesisNow base (.fin q) link b t = .ok g) ↔
      0 < base.toNat ∧ 0 < q ∧ 0 < link.toNat ∧ b ≠ none := by
  constructor
  · rintro ⟨g, h⟩
    obtain ⟨b, rfl, h1, h2, h3, -⟩ := genesisNow_eq_ok.mp h
    simp only [Flt.le0, decide_eq_false_iff_not, not_le] at h2
    exact ⟨h1, h2, h3, by simp⟩
  · rintro ⟨h1, h2, h3, hb⟩
    obtain ⟨b, rfl⟩ := Option.ne_none_iff_exists'.mp hb
    exact ⟨_, genesisNow_eq_ok.mpr ⟨b, rfl, h1, by simpa [Flt.le0] using h2, h3, rfl⟩⟩

/-! ## C76 -/

/-- C76: states with equal hashes agree in chain, previous state, height and transaction hashes,
unless the two hashed texts are an explicit collision. -/
theorem C76_state_hash_binds (c₁ c₂ p₁ p₂ : Option Hash) (n₁ n₂ : UInt64)
    (x₁ x₂ : Option (List Transaction)) (t₁ t₂ : Time) (s₁ s₂ : State)
    (h₁ : stateNow c₁ p₁ n₁ x₁ t₁ = .ok s₁) (h₂ : stateNow c₂ p₂ n₂ x₂ t₂ = .ok s₂)
    (h : s₁.hash = s₂.hash) :
    (s₁.chain = s₂.chain ∧ s₁.previous = s₂.previous ∧ s₁.height = s₂.height ∧
      s₁.trx.map Transaction.hash = s₂.trx.map Transaction.hash) ∨
    ShaCollision
      (s₁.chain.bytes ++ (s₁.previous.bytes ++
        (itoaU s₁.height ++ hashesBytes (s₁.trx.map Transaction.hash))))
      (s₂.chain.bytes ++ (s₂.previous.bytes ++
        (itoaU s₂.height ++ hashesBytes (s₂.trx.map Transaction.hash)))) := by
  obtain ⟨c, p, x, rfl, rfl, rfl, -, -, rfl⟩ := stateNow_eq_ok.mp h₁
  obtain ⟨c', p', x', rfl, rfl, rfl, -, -, rfl⟩ := stateNow_eq_ok.mp h₂
  have key : ∀ (a b : Hash) (i : UInt64) (r : Bytes),
      (a.bytes ++ (b.bytes ++ (itoaU i ++ r))).length ≠ 64 := by
    intro a b i r
    have := a.len
    have := b.len
    simp only [List.length_append]
    omega
  rcases fromBytes_eq_red (key _ _ _ _) (key _ _ _ _) h with h | h
  · obtain ⟨h1, h2⟩ := hash_append_inj h
    obtain ⟨h3, h4⟩ := hash_append_inj h2
    obtain ⟨h5, h6⟩ := num_hashes_inj h4
    exact .inl ⟨h1, h3, h5, h6⟩
  · exact .inr h

end

section examples

attribute [local instance] toyCurve toySha

/-- A toy genesis with increase one half. -/
def toyGenesis : Genesis :=
  ⟨fromBytes (itoaU 1 ++ (fmtF12 (.fin (1 / 2)) ++ (itoaU 3 ++ (toyBill 1 5).hash.bytes))),
    toyBill 1 5, 1, .fin (1 / 2), 3, 0⟩

theorem toyGenesis_now : genesisNow 1 (.fin (1 / 2)) 3 (some (toyBill 1 5)) 0 = .ok toyGenesis :=
  genesisNow_eq_ok.mpr ⟨_, rfl, by decide, by simp [Flt.le0], by decide, rfl⟩

/-- A bucket-only transaction. -/
def toyTrx (n : UInt8) : Transaction := ⟨toyHash n, none, some (toyHash n), [], 0⟩

theorem toyTrx_now (n : UInt8) : trxNow none (some (toyHash n)) [] 0 = .ok (toyTrx n) :=
  trxNow_eq_ok.mpr ⟨by simp, by simp [toyTrx, hashesBytes]⟩

/-- A toy block with two transactions, its mined form, a link to it, its mined form and a chain. -/
theorem toy_chain : ∃ (b : Block) (r : MinedBlock) (l : Link) (k : MinedLink) (c : Chain),
    blockNow (some toyGenesis) 4 (some [toyTrx 1, toyTrx 2]) 0 = .ok b ∧
    minedBlockNow (some b) [48] 0 = .ok r ∧ linkNow (some r.hash) (some b) 7 0 = .ok l ∧
    minedLinkNow (some l) [48, 49] 0 = .ok k ∧
    chainNow (some toyGenesis) (some r) (some k) 4 0 = .ok c := by
  refine ⟨_, _, _, _, _, blockNow_eq_ok.mpr ⟨_, _, rfl, rfl, by simp, rfl⟩,
    minedBlockNow_eq_ok.mpr ⟨_, rfl, rfl⟩, linkNow_eq_ok.mpr ⟨_, _, rfl, rfl, rfl⟩,
    minedLinkNow_eq_ok.mpr ⟨_, rfl, rfl⟩,
    chainNow_eq_ok.mpr ⟨_, _, _, rfl, rfl, rfl, by simp, rfl⟩⟩

/-- C43–C45, C49: such objects exist, also with different times and equal hashes. -/
example : ∃ b b' : Block, blockNow (some toyGenesis) 4 (some [toyTrx 1, toyTrx 2]) 0 = .ok b ∧
    blockNow (some toyGenesis) 4 (some [toyTrx 1, toyTrx 2]) 1 = .ok b' ∧ b ≠ b' ∧
    b.hash = b'.hash := by
  refine ⟨_, _, blockNow_eq_ok.mpr ⟨_, _, rfl, rfl, by simp, rfl⟩,
    blockNow_eq_ok.mpr ⟨_, _, rfl, rfl, by simp, rfl⟩, ?_, rfl⟩
  simp

/-- C76: a state. -/
example : ∃ s : State, stateNow (some (toyHash 1)) (some (toyHash 2)) 1 (some [toyTrx 1]) 0 =
    .ok s := ⟨_, stateNow_eq_ok.mpr ⟨_, _, _, rfl, rfl, rfl, by decide, by simp, rfl⟩⟩

/-- C66: two geneses that differ only far below twelve decimals. -/
example : ∃ g₁ g₂ : Genesis, genesisNow 1 (.fin (1 / 2 ^ 50)) 3 (some (toyBill 1 5)) 0 = .ok g₁ ∧
    genesisNow 1 (.fin (1 / 2 ^ 51)) 3 (some (toyBill 1 5)) 0 = .ok g₂ ∧ g₁ ≠ g₂ ∧
    g₁.hash = g₂.hash := by
  have h₁ := genesisNow_eq_ok (t := 0).mpr ⟨toyBill 1 5, rfl, (by decide : 0 < (1 : UInt64).toNat),
    (by simp [Flt.le0] : (Flt.fin (1 / 2 ^ 50)).le0 = false), (by decide : 0 < (3 : UInt64).toNat), rfl⟩
  have h₂ := genesisNow_eq_ok (t := 0).mpr ⟨toyBill 1 5, rfl, (by decide : 0 < (1 : UInt64).toNat),
    (by simp [Flt.le0] : (Flt.fin (1 / 2 ^ 51)).le0 = false), (by decide : 0 < (3 : UInt64).toNat), rfl⟩
  refine ⟨_, _, h₁, h₂, ?_, ?_⟩
  · simp
  · exact C66_small_increase_lost_neg _ _ _ _ _ _ (by norm_num) (by norm_num) _ _ h₁ h₂

end examples

end Verif
