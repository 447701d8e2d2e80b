import Verif.Spec.Ledger
import Verif.Props.Entities

/-!
# What blocks and chains accept as spending (C131–C134)
-/

namespace Verif

section
variable [Sha512] [C : Curve]

/-! ## C131 -/

/-- Blocks take every transaction, transactions every expense. -/
theorem block_of_expenses (g : Genesis) (n : UInt64) (t : Time) (es : List Expense) (hes : es ≠ []) :
    ∃ x b, trxNow none none es t = .ok x ∧ blockNow (some g) n (some [x]) t = .ok b ∧
      b.genesis = g ∧ b.trx = [x] ∧ b.expenses = es := by
  refine ⟨_, _, trxNow_eq_ok.mpr ⟨?_, rfl⟩, blockNow_eq_ok.mpr ⟨_, _, rfl, rfl, by simp, rfl⟩, rfl,
    rfl, ?_⟩
  · simpa using hes
  · simp [Block.expenses]

/-- Blocks that come out of the builders make bills that come out of the bill builder. -/
theorem madeIn_built {bs : List Block} (hbs : ∀ b ∈ bs, b.Built) : ∀ k ∈ madeIn bs, k.Built := by
  intro k hk
  simp only [madeIn, Block.expenses, List.mem_flatMap, List.mem_cons, Option.mem_toList] at hk
  obtain ⟨b, hb, e, ⟨x, hx, he⟩, hk⟩ := hk
  obtain ⟨a, src, l, rem, t, hc, -, hl, hr⟩ := (((hbs b hb).2.1 x hx).2.1 e he).1
  obtain ⟨src', l', e1, e2, h0, hle, hiff, hc'⟩ := contentNow_eq_ok.mp hc
  simp only [Option.some.injEq] at e1 e2
  subst e1 e2
  rw [hc'] at hk
  rcases hk with rfl | hk
  · exact ⟨hl, some l, a, t, billNow_eq_ok.mpr ⟨_, rfl, h0, rfl⟩⟩
  · simp only [Option.map_eq_some_iff] at hk
    obtain ⟨r, hr', rfl⟩ := hk
    refine ⟨hr r hr', some r, _, t, billNow_eq_ok.mpr ⟨_, rfl, ?_, rfl⟩⟩
    have hne : ¬ a.toNat = (sourceTotal src).toNat := fun h => by
      rw [hiff.mpr h] at hr'
      exact absurd hr' (by simp)
    have : a ≤ sourceTotal src := UInt64.le_iff_toNat_le.mpr hle
    rw [UInt64.toNat_sub_of_le _ _ this]
    omega

omit C in
/-- A lock with one key has the hash of that key. -/
theorem single_key_hash {k : Hash} {t : Time} {l : Lock} (h : lockNow (some [k]) t = .ok l) :
    l.hash = k := by
  obtain ⟨ks, e, -, -, rfl⟩ := lockNow_eq_ok.mp h
  cases e
  simp [hashesBytes]

/-- C131 (negation of "only bills of the chain are spent"): whatever the genesis, the bills made so
far and the blocks that made them, everybody with a private key at most `largestFactor` can pay any
amount to any lock: they make a bill of that amount for themselves, and the expense that spends it,
the transaction with it and the block with that are all accepted, although the bill is neither the
genesis bill nor a bill made by the blocks of the chain (unless SHA-512 collides). The only condition
is that the chain has no bill of this amount for their own key alone. -/
theorem C131_made_up_bill_neg (g : Genesis) (hg : g.Built) (bs : List Block)
    (hbs : ∀ b ∈ bs, b.Built) (x : Scalar) (hx : x.Fits) (a : UInt64) (ha : 0 < a.toNat)
    (hnew : ∀ k ∈ g.bill :: madeIn bs, k.lock.hash = fromBytes (ptStr (publicKey x)) → k.amount ≠ a)
    (l : Lock) (hl : l.Built) (n : UInt64) (t : Time) :
    ∃ (own : Lock) (bill : Bill) (sig : RingSignature) (c : Content) (e : Expense)
      (trx : Transaction) (b : Block),
      lockNow (some [fromBytes (ptStr (publicKey x))]) t = .ok own ∧
      billNow (some own) a t = .ok bill ∧ ringSign x own.hash.str [publicKey x] = .ok sig ∧
      contentNow a (some [bill]) (some l) none t = .ok c ∧
      expenseNow (some c) (some [sig]) = .ok e ∧ trxNow none none [e] t = .ok trx ∧
      blockNow (some g) n (some [trx]) t = .ok b ∧ b.Built ∧
      spentIn [b] = [bill.hash] ∧ c.dest.lock = l ∧ c.dest.amount = a ∧
      (bill.hash ∉ (g.bill :: madeIn bs).map Bill.hash ∨
        ∃ k ∈ g.bill :: madeIn bs, ShaCollision (own.hash.bytes ++ itoaU a)
          (k.lock.hash.bytes ++ itoaU k.amount)) := by
  obtain ⟨own, sig, h1, h2, h3⟩ := C21_unlock_complete_partial [publicKey x] (by simp) x hx
    (by simp) t
  have hob : own.Built := ⟨_, _, h1⟩
  have hbill := billNow_eq_ok (t := t).mpr ⟨own, rfl, ha, rfl⟩
  set bill : Bill := ⟨fromBytes (own.hash.bytes ++ itoaU a), own, a, t⟩ with hbd
  have hbb : bill.Built := ⟨hob, _, _, _, hbill⟩
  have hs : sourceTotal [bill] = a := by simp [sourceTotal, hbd]
  obtain ⟨c, hcd⟩ : ∃ c, c = (⟨fromBytes (contentData l a [bill] none).flatten, [bill],
    ⟨fromBytes (l.hash.bytes ++ itoaU a), l, a, t⟩, none, t⟩ : Content) := ⟨_, rfl⟩
  have hc : contentNow a (some [bill]) (some l) none t = .ok c :=
    contentNow_eq_ok.mpr ⟨[bill], l, rfl, rfl, ha, by rw [hs], by rw [hs]; simp, hcd⟩
  have hcs : c.source = [bill] := by rw [hcd]
  have hcb : c.Built := ⟨a, [bill], l, none, t, hc, by simpa using hbb, hl, by simp⟩
  obtain ⟨e, he⟩ : ∃ e, expenseNow (some c) (some [sig]) = .ok e :=
    ⟨_, expenseNow_eq_ok.mpr ⟨_, _, rfl, rfl, by rw [hcs]; exact .cons h3 .nil, rfl⟩⟩
  obtain ⟨_, _, e1, e2, -, e3⟩ := expenseNow_eq_ok.mp he
  simp only [Option.some.injEq] at e1
  have hec : e.content = c := by rw [e3, e1]
  have heb : e.Built := ⟨by rw [hec]; exact hcb, _, _, he⟩
  obtain ⟨trx, b, hx1, hb1, hbg, hbt, hbe⟩ := block_of_expenses g n t [e] (by simp)
  have hxf : trx.fees = [e] ∧ trx.address = none := by
    obtain ⟨-, rfl⟩ := trxNow_eq_ok.mp hx1
    exact ⟨rfl, rfl⟩
  refine ⟨own, bill, sig, c, e, trx, b, h1, hbill, h2, hc, he, hx1, hb1, ?_, ?_, by rw [hcd],
    by rw [hcd], ?_⟩
  · refine ⟨by rw [hbg]; exact hg, ?_, _, _, _, _, hb1⟩
    intro y hy
    rw [hbt] at hy
    obtain rfl := List.mem_singleton.mp hy
    refine ⟨by simp [hxf.2], ?_, _, _, _, _, hx1⟩
    intro f hf
    rw [hxf.1] at hf
    obtain rfl := List.mem_singleton.mp hf
    exact heb
  · simp [spentIn, hbe, hec, hcs]
  · by_cases hin : bill.hash ∈ (g.bill :: madeIn bs).map Bill.hash
    · obtain ⟨k, hk, hkh⟩ := List.mem_map.mp hin
      have hkb : k.Built := by
        rcases List.mem_cons.mp hk with rfl | hk
        · exact hg.1
        · exact madeIn_built hbs k hk
      obtain ⟨-, kl, ka, kt, hkn⟩ := hkb
      rcases C23_bill_hash_binds _ _ _ _ _ _ _ _ hbill hkn hkh.symm with ⟨h0, h⟩ | h
      · exact absurd h.symm (hnew k hk (h0.symm.trans (single_key_hash h1)))
      · exact .inr ⟨k, hk, h⟩
    · exact .inl hin

/-- C131: what holds: the expenses of every block pay out no more than the bills they list, and each
listed bill comes with a signature that opens its lock. Missing: the listed bills need not exist. -/
theorem C131_block_expenses_opened_partial (b : Block) (hb : b.Built) (e : Expense)
    (he : e ∈ b.expenses) :
    e.content.dest.amount.toNat + e.content.change ≤ trueTotal e.content.source ∧
    e.signatures.length = e.content.source.length ∧
    ∀ i (hi : i < e.content.source.length) (hj : i < e.signatures.length),
      Opens (e.content.source[i]).lock e.signatures[i] := by
  simp only [Block.expenses, List.mem_flatMap] at he
  obtain ⟨x, hx, he⟩ := he
  obtain ⟨⟨a, src, l, rem, t, hc, -, -, -⟩, c, sigs, hn⟩ := (hb.2.1 x hx).2.1 e he
  obtain ⟨rfl, rfl, -, -⟩ := C26_built_expense _ _ _ hn
  have hsrc := (C24_conservation_mod _ _ _ _ _ _ hc).1
  simp only [Option.some.injEq] at hsrc
  obtain ⟨h1, h2⟩ := (C26_expense_builder_accepts_iff _ _).mp ⟨e, hn⟩
  exact ⟨hsrc ▸ C25_never_above_listed_total _ _ _ _ _ _ hc, h1, h2⟩

/-! ## C132 -/

/-- C132 (negation of "a bill is spent once"): from every accepted expense anybody can make, without any key, a second accepted expense that spends the same bills with the same
signatures and pays everything to a lock of their choice; both are accepted in one transaction of one
block, and in two blocks of the same genesis. -/
theorem C132_spent_twice_neg (e : Expense) (he : e.Built) (thief : Lock) (g : Genesis) (n : UInt64)
    (t : Time) :
    ∃ (a : UInt64) (c' : Content) (e' : Expense),
      a.toNat = trueTotal e.content.source % 2 ^ 64 ∧
      contentNow a (some e.content.source) (some thief) none t = .ok c' ∧
      expenseNow (some c') (some e.signatures) = .ok e' ∧ e'.content.dest.lock = thief ∧
      e'.content.dest.amount = a ∧
      (∃ trx b, trxNow none none [e, e'] t = .ok trx ∧ blockNow (some g) n (some [trx]) t = .ok b ∧
        ¬ (spentIn [b]).Nodup) ∧
      (∃ trx₁ trx₂ b₁ b₂, trxNow none none [e] t = .ok trx₁ ∧ trxNow none none [e'] t = .ok trx₂ ∧
        blockNow (some g) n (some [trx₁]) t = .ok b₁ ∧
        blockNow (some g) n (some [trx₂]) t = .ok b₂ ∧ ¬ (spentIn [b₁, b₂]).Nodup) := by
  obtain ⟨⟨a, src, l, rem, t₀, hc, -, -, -⟩, c, sigs, hn⟩ := he
  obtain ⟨rfl, rfl, -, -⟩ := C26_built_expense _ _ _ hn
  obtain ⟨src', l', e1, e2, h0, hle, -, hcd⟩ := contentNow_eq_ok.mp hc
  simp only [Option.some.injEq] at e1 e2
  subst e1 e2
  have hs : e.content.source = src := by rw [hcd]
  obtain ⟨c', hcd'⟩ : ∃ c, c = (⟨fromBytes (contentData thief (sourceTotal e.content.source)
    e.content.source none).flatten, e.content.source,
    ⟨fromBytes (thief.hash.bytes ++ itoaU (sourceTotal e.content.source)), thief,
      sourceTotal e.content.source, t⟩, none, t⟩ : Content) := ⟨_, rfl⟩
  have hc' : contentNow (sourceTotal e.content.source) (some e.content.source) (some thief) none t =
    .ok c' := contentNow_eq_ok.mpr ⟨e.content.source, thief, rfl, rfl,
      (by rw [hs]; omega : 0 < (sourceTotal e.content.source).toNat), le_refl _, by simp, hcd'⟩
  have hcs : c'.source = e.content.source := by rw [hcd']
  obtain ⟨e', he', hec⟩ := C27_signatures_replay_neg e.content c' e.signatures e hn
    (by rw [hcs]; exact List.forall₂_same.mpr fun _ _ => ⟨rfl, rfl⟩)
  have hdup : ∀ s : List Hash, s ≠ [] → ¬ (s ++ s).Nodup := by
    intro s hs h
    obtain ⟨x, hx⟩ := List.exists_mem_of_ne_nil s hs
    exact (List.nodup_append.mp h).2.2 x hx x hx rfl
  have hm : e.content.source.map Bill.hash ≠ [] := by
    intro h
    rw [List.map_eq_nil_iff, hs] at h
    rw [h] at hle
    simp only [sourceTotal, List.foldl_nil, UInt64.toNat_zero] at hle
    omega
  refine ⟨_, c', e', sourceTotal_eq _, hc', he', by rw [hec, hcd'], by rw [hec, hcd'], ?_, ?_⟩
  · obtain ⟨x, b, h1, h2, -, -, h5⟩ := block_of_expenses g n t [e, e'] (by simp)
    refine ⟨x, b, h1, h2, ?_⟩
    simp only [spentIn, List.flatMap_cons, List.flatMap_nil, h5, hec, hcs, List.append_nil]
    exact hdup _ hm
  · obtain ⟨x, b, h1, h2, -, -, h5⟩ := block_of_expenses g n t [e] (by simp)
    obtain ⟨x', b', h1', h2', -, -, h5'⟩ := block_of_expenses g n t [e'] (by simp)
    refine ⟨x, x', b, b', h1, h1', h2, h2', ?_⟩
    simp only [spentIn, List.flatMap_cons, List.flatMap_nil, h5, h5', hec, hcs, List.append_nil]
    exact hdup _ hm

omit C in
/-- C132: what holds: two accepted expenses that spend a bill with the same hash spend bills of the
same lock and amount (unless SHA-512 collides on the texts of the two bills), so both are opened
with signatures for that one lock. Missing: that there is no second time. -/
theorem C132_same_owner_partial (b₁ b₂ : Bill) (h₁ : b₁.Built) (h₂ : b₂.Built)
    (h : b₁.hash = b₂.hash) :
    (b₁.lock.hash = b₂.lock.hash ∧ b₁.amount = b₂.amount) ∨
    ShaCollision (b₁.lock.hash.bytes ++ itoaU b₁.amount)
      (b₂.lock.hash.bytes ++ itoaU b₂.amount) := by
  obtain ⟨-, _, _, _, n₁⟩ := h₁
  obtain ⟨-, _, _, _, n₂⟩ := h₂
  exact C23_bill_hash_binds _ _ _ _ _ _ _ _ n₁ n₂ h

/-! ## C133 -/

omit C in
/-- C133 (negation of "two payments make two bills"): two payments of the same amount to the same
lock, out of whatever bills and at whatever times, make bills with the same hash. -/
theorem C133_equal_payments_one_bill_neg (a : UInt64) (l : Lock) (s₁ s₂ : Option (List Bill))
    (r₁ r₂ : Option Lock) (t₁ t₂ : Time) (c₁ c₂ : Content)
    (h₁ : contentNow a s₁ (some l) r₁ t₁ = .ok c₁) (h₂ : contentNow a s₂ (some l) r₂ t₂ = .ok c₂) :
    c₁.dest.hash = c₂.dest.hash := by
  obtain ⟨_, l₁, -, e₁, -, -, -, rfl⟩ := contentNow_eq_ok.mp h₁
  obtain ⟨_, l₂, -, e₂, -, -, -, rfl⟩ := contentNow_eq_ok.mp h₂
  simp only [Option.some.injEq] at e₁ e₂
  subst e₁ e₂
  rfl

/-- C133 (negation): paying the whole of a bill to its own lock makes the bill that was spent: the
payment has the hash of the bill it spends, and with any signature that opens the bill the payment is
accepted as an expense, in a transaction and in a block. -/
theorem C133_payment_to_oneself_neg (b : Bill) (hb : b.Built) (sig : RingSignature)
    (hs : Opens b.lock sig) (g : Genesis) (n : UInt64) (t : Time) :
    ∃ c e trx bl, contentNow b.amount (some [b]) (some b.lock) none t = .ok c ∧
      expenseNow (some c) (some [sig]) = .ok e ∧ trxNow none none [e] t = .ok trx ∧
      blockNow (some g) n (some [trx]) t = .ok bl ∧ spentIn [bl] = [b.hash] ∧
      e.content.dest.hash = b.hash := by
  obtain ⟨-, l, a, t', hn⟩ := hb
  obtain ⟨l', rfl, ha, rfl⟩ := billNow_eq_ok.mp hn
  have hc := contentNow_eq_ok (a := a) (rem := none) (t := t).mpr
    ⟨[⟨fromBytes (l'.hash.bytes ++ itoaU a), l', a, t'⟩], l', rfl, rfl, ha, by simp [sourceTotal],
      by simp [sourceTotal], rfl⟩
  obtain ⟨c, hcd⟩ : ∃ c, contentNow a (some [⟨fromBytes (l'.hash.bytes ++ itoaU a), l', a, t'⟩])
    (some l') none t = .ok c := ⟨_, hc⟩
  have hcs : c.source = [⟨fromBytes (l'.hash.bytes ++ itoaU a), l', a, t'⟩] ∧
      c.dest.hash = fromBytes (l'.hash.bytes ++ itoaU a) := by
    rw [hc] at hcd
    obtain rfl := Outcome.ok.inj hcd
    exact ⟨rfl, rfl⟩
  have he := expenseNow_eq_ok (c := some c) (sigs := some [sig]).mpr ⟨c, [sig], rfl, rfl, by
    rw [hcs.1]; exact .cons ((C20_unlock_exact _ _).mpr hs) .nil, rfl⟩
  obtain ⟨x, bl, h1, h2, -, -, h5⟩ := block_of_expenses g n t [_] (by simp)
  refine ⟨c, _, x, bl, hcd, he, h1, h2, ?_, hcs.2⟩
  simp only [spentIn, List.flatMap_cons, List.flatMap_nil, h5, List.append_nil, hcs.1, List.map_cons,
    List.map_nil]

omit C in
/-- C133: what holds: payments of different amounts or to locks of different hashes make bills of
different hashes, unless SHA-512 collides. -/
theorem C133_different_payments_partial (a₁ a₂ : UInt64) (l₁ l₂ : Lock) (s₁ s₂ : Option (List Bill))
    (r₁ r₂ : Option Lock) (t₁ t₂ : Time) (c₁ c₂ : Content)
    (h₁ : contentNow a₁ s₁ (some l₁) r₁ t₁ = .ok c₁)
    (h₂ : contentNow a₂ s₂ (some l₂) r₂ t₂ = .ok c₂) (h : l₁.hash ≠ l₂.hash ∨ a₁ ≠ a₂) :
    c₁.dest.hash ≠ c₂.dest.hash ∨
    ShaCollision (l₁.hash.bytes ++ itoaU a₁) (l₂.hash.bytes ++ itoaU a₂) := by
  obtain ⟨_, l₁', -, e₁, p₁, -, -, rfl⟩ := contentNow_eq_ok.mp h₁
  obtain ⟨_, l₂', -, e₂, p₂, -, -, rfl⟩ := contentNow_eq_ok.mp h₂
  simp only [Option.some.injEq] at e₁ e₂
  subst e₁ e₂
  by_cases hh : fromBytes (l₁.hash.bytes ++ itoaU a₁) = fromBytes (l₂.hash.bytes ++ itoaU a₂)
  · rcases C23_bill_hash_binds (some l₁) (some l₂) a₁ a₂ t₁ t₂ _ _
      (billNow_eq_ok.mpr ⟨_, rfl, p₁, rfl⟩) (billNow_eq_ok.mpr ⟨_, rfl, p₂, rfl⟩) hh with ⟨h', h''⟩ | h'
    · rcases h with h | h
      · exact absurd h' h
      · exact absurd h'' h
    · exact .inr h'
  · exact .inl hh

/-! ## C134 -/

/-- C134: the chain builder accepts exactly: a genesis, a root and a head are given, and the total is
at least the number of transactions of the root and head blocks (slices are shorter than `2^63`).
Missing for the expectation: that the parts belong together. -/
theorem C134_chain_builder_accepts_iff_partial (g : Option Genesis) (r : Option MinedBlock)
    (k : Option MinedLink) (n : UInt64) (t : Time)
    (hr : ∀ x, r = some x → x.block.trx.length < 2 ^ 63)
    (hk : ∀ x, k = some x → x.link.next.trx.length < 2 ^ 63) :
    (∃ c, chainNow g r k n t = .ok c) ↔ ∃ g' r' k', g = some g' ∧ r = some r' ∧ k = some k' ∧
      r'.block.trx.length + k'.link.next.trx.length ≤ n.toNat := by
  constructor
  · rintro ⟨c, h⟩
    obtain ⟨g', r', k', rfl, rfl, rfl, hle, -⟩ := chainNow_eq_ok.mp h
    refine ⟨_, _, _, rfl, rfl, rfl, ?_⟩
    have := hr _ rfl
    have := hk _ rfl
    rwa [Nat.mod_eq_of_lt (by omega)] at hle
  · rintro ⟨g', r', k', rfl, rfl, rfl, hle⟩
    refine ⟨_, chainNow_eq_ok.mpr ⟨_, _, _, rfl, rfl, rfl, ?_, rfl⟩⟩
    exact (Nat.mod_le _ _).trans hle

/-- C134 (negation of "a chain hangs together"): every chain stays accepted when its genesis is
replaced by any other one, when its head is replaced by a link that follows no link of the chain, and
when its total is raised at will. -/
theorem C134_disconnected_chain_neg (c : Chain) (hc : c.Built) (t : Time) :
    (∀ g, ∃ c', chainNow (some g) (some c.root) (some c.head) c.total t = .ok c' ∧
      (g.hash ≠ c.root.block.genesis.hash → ¬ c'.Connected)) ∧
    (∀ p : Hash, ∃ l k c', linkNow (some p) (some c.head.link.next) 1 t = .ok l ∧
      minedLinkNow (some l) c.head.mining t = .ok k ∧
      chainNow (some c.genesis) (some c.root) (some k) c.total t = .ok c' ∧
      (p ≠ c.root.hash → ¬ c'.Connected)) ∧
    (∀ n : UInt64, c.total.toNat ≤ n.toNat → ∃ c',
      chainNow (some c.genesis) (some c.root) (some c.head) n t = .ok c' ∧ c'.total = n) := by
  obtain ⟨-, -, -, g, r, h, n, t', hn⟩ := hc
  obtain ⟨g, r, k, rfl, rfl, rfl, hle, rfl⟩ := chainNow_eq_ok.mp hn
  refine ⟨fun g' => ⟨_, chainNow_eq_ok.mpr ⟨_, _, _, rfl, rfl, rfl, hle, rfl⟩, ?_⟩,
    fun p => ⟨_, _, _, linkNow_eq_ok.mpr ⟨_, _, rfl, rfl, rfl⟩, minedLinkNow_eq_ok.mpr ⟨_, rfl, rfl⟩,
      chainNow_eq_ok.mpr ⟨_, _, _, rfl, rfl, rfl, hle, rfl⟩, ?_⟩,
    fun n' hn' => ⟨_, chainNow_eq_ok.mpr ⟨_, _, _, rfl, rfl, rfl, hle.trans hn', rfl⟩, rfl⟩⟩
  · intro hne hcon
    exact hne hcon.1.symm
  · intro hne hcon
    exact hne (hcon.2.2 rfl)

end

section examples

attribute [local instance] toyCurve toySha

/-- C131: the toy genesis and a block of it; a payment of 1000, which the chain never had. -/
example : ∃ (own : Lock) (bill : Bill) (c : Content) (b : Block),
    lockNow (some [fromBytes (ptStr (publicKey (toySc 2)))]) 0 = .ok own ∧
    billNow (some own) 1000 0 = .ok bill ∧ b.genesis.bill.amount = 5 ∧ spentIn [b] = [bill.hash] ∧
    c.dest.amount = 1000 := by
  obtain ⟨own, bill, sig, c, e, trx, b, h1, h2, -, -, -, -, h7, -, h9, -, h11, -⟩ :=
    C131_made_up_bill_neg toyGenesis ⟨toyBill_built 1 5 (by decide), _, _, _, _, _, toyGenesis_now⟩ []
      (by simp) (toySc 2) (by decide) 1000 (by decide)
      (by simp [madeIn, toyGenesis, toyBill]) (toyLock 3) (toyLock_built 3) 0 0
  obtain ⟨_, _, e1, -, -, rfl⟩ := blockNow_eq_ok.mp h7
  simp only [Option.some.injEq] at e1
  exact ⟨own, bill, c, _, h1, h2, by rw [← e1]; rfl, h9, h11⟩

/-- C131, C132: an accepted expense out of the builders. -/
theorem toy_expense : ∃ e : Expense, e.Built ∧ e.content.dest.amount = 3 ∧ e.content.change = 2 := by
  obtain ⟨l, sig, h1, h2⟩ := toy_openable
  have hs : sourceTotal [⟨fromBytes (l.hash.bytes ++ itoaU 5), l, 5, 0⟩] = 5 := by simp [sourceTotal]
  obtain ⟨c, hc⟩ : ∃ c, contentNow 3 (some [⟨fromBytes (l.hash.bytes ++ itoaU 5), l, 5, 0⟩])
      (some (toyLock 3)) (some (toyLock 4)) 0 = .ok c :=
    ⟨_, contentNow_eq_ok.mpr ⟨_, _, rfl, rfl, by decide, by rw [hs]; decide, by rw [hs]; simp, rfl⟩⟩
  obtain ⟨_, _, e1, e2, -, -, -, hcd⟩ := contentNow_eq_ok.mp hc
  simp only [Option.some.injEq] at e1 e2
  subst e1 e2
  have he := expenseNow_eq_ok.mpr ⟨c, [sig], rfl, rfl, by rw [hcd]; exact .cons h2 .nil, rfl⟩
  refine ⟨_, ⟨⟨_, _, _, _, _, hc, ?_, toyLock_built 3, ?_⟩, _, _, he⟩,
    by rw [hcd], ?_⟩
  · intro b hb
    obtain rfl := List.mem_singleton.mp hb
    exact ⟨h1, some l, 5, 0, billNow_eq_ok.mpr ⟨_, rfl, by decide, rfl⟩⟩
  · rintro r hr
    obtain rfl := Option.some.inj hr
    exact toyLock_built 4
  · simp [Content.change, hcd, hs]

/-- C132: that expense is spent again in favour of another lock. -/
example : ∃ e e' : Expense, ∃ b : Block, e'.content.dest.lock = toyLock 9 ∧
    b.expenses = [e, e'] ∧ ¬ (spentIn [b]).Nodup := by
  obtain ⟨e, he, -⟩ := toy_expense
  obtain ⟨a, c', e', -, -, -, h3, -, ⟨x, b, h4, h5, h6⟩, -⟩ :=
    C132_spent_twice_neg e he (toyLock 9) toyGenesis 0 0
  obtain ⟨-, rfl⟩ := trxNow_eq_ok.mp h4
  obtain ⟨_, _, -, e2, -, rfl⟩ := blockNow_eq_ok.mp h5
  simp only [Option.some.injEq] at e2
  exact ⟨e, e', _, h3, by simp [Block.expenses, ← e2], h6⟩

/-- C133: 5 paid out of two different bills to one lock. -/
example : ∃ c₁ c₂ : Content,
    contentNow 5 (some [toyBill 1 5]) (some (toyLock 3)) none 0 = .ok c₁ ∧
    contentNow 5 (some [toyBill 2 7]) (some (toyLock 3)) (some (toyLock 4)) 1 = .ok c₂ ∧
    c₁.dest ≠ c₂.dest ∧ c₁.dest.hash = c₂.dest.hash := by
  have h₁ := contentNow_eq_ok (a := 5) (rem := none) (t := 0).mpr
    ⟨[toyBill 1 5], toyLock 3, rfl, rfl, by decide, by simp [sourceTotal, toyBill],
      by simp [sourceTotal, toyBill], rfl⟩
  have h₂ := contentNow_eq_ok (a := 5) (rem := some (toyLock 4)) (t := 1).mpr
    ⟨[toyBill 2 7], toyLock 3, rfl, rfl, by decide, by simp [sourceTotal, toyBill],
      by simp [sourceTotal, toyBill], rfl⟩
  refine ⟨_, _, h₁, h₂, by simp, C133_equal_payments_one_bill_neg _ _ _ _ _ _ _ _ _ _ h₁ h₂⟩

/-- C133: a bill of 5 that its holder can open, paid to its own lock. -/
example : ∃ (b : Bill) (e : Expense), b.amount = 5 ∧ e.content.source = [b] ∧
    e.content.dest.hash = b.hash := by
  obtain ⟨l, sig, h1, h2⟩ := toy_openable
  obtain ⟨c, e, _, _, hc, he, -, -, -, h⟩ := C133_payment_to_oneself_neg
    ⟨fromBytes (l.hash.bytes ++ itoaU 5), l, 5, 0⟩
    ⟨h1, some l, 5, 0, billNow_eq_ok.mpr ⟨_, rfl, by decide, rfl⟩⟩ sig
    ((C20_unlock_exact _ _).mp h2) toyGenesis 0 0
  obtain ⟨_, _, e1, e2, -, rfl⟩ := expenseNow_eq_ok.mp he
  obtain ⟨_, _, e3, -, -, -, -, rfl⟩ := contentNow_eq_ok.mp hc
  simp only [Option.some.injEq] at e1 e3
  subst e1 e3
  exact ⟨_, _, rfl, rfl, h⟩

/-- C133: two different payments. -/
example : ∃ c₁ c₂ : Content,
    contentNow 5 (some [toyBill 1 5]) (some (toyLock 3)) none 0 = .ok c₁ ∧
    contentNow 6 (some [toyBill 2 7]) (some (toyLock 3)) (some (toyLock 4)) 1 = .ok c₂ := by
  exact ⟨_, _, contentNow_eq_ok.mpr
    ⟨[toyBill 1 5], toyLock 3, rfl, rfl, by decide, by simp [sourceTotal, toyBill],
      by simp [sourceTotal, toyBill], rfl⟩, contentNow_eq_ok.mpr
    ⟨[toyBill 2 7], toyLock 3, rfl, rfl, by decide, by simp [sourceTotal, toyBill],
      by simp [sourceTotal, toyBill], rfl⟩⟩

end examples

end Verif
