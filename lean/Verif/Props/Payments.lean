import Verif.Spec.Payments
import Verif.Props.Spending
import Verif.Props.Objects

/-!
# Payments from the keys to the block: C140
-/

namespace Verif

section
variable [Sha512] [C : Curve]

/-- The holder opens their bill. -/
theorem Holding.Held.opens {h : Holding} (hh : h.Held) :
    ∃ s, ringSign h.key h.bill.lock.hash.str h.ring = .ok s ∧ h.bill.lock.unlock s = .ok () := by
  obtain ⟨hf, hn, hm, -, t, hl⟩ := hh
  obtain ⟨l, s, h1, h2, h3⟩ := C21_unlock_complete_partial h.ring hn h.key hf hm t
  rw [hl] at h1
  obtain rfl := Outcome.ok.inj h1
  exact ⟨s, h2, h3⟩

/-- All bills of the holders are opened. -/
theorem holders_open : ∀ hs : List Holding, (∀ h ∈ hs, h.Held) → ∃ sigs,
    List.Forall₂ (fun (h : Holding) s => ringSign h.key h.bill.lock.hash.str h.ring = .ok s) hs sigs ∧
    List.Forall₂ (fun b s => b.lock.unlock s = .ok ()) (hs.map Holding.bill) sigs
  | [], _ => ⟨[], .nil, .nil⟩
  | h :: hs, H => by
    obtain ⟨s, h1, h2⟩ := (H h (by simp)).opens
    obtain ⟨sigs, h3, h4⟩ := holders_open hs fun x hx => H x (by simp [hx])
    exact ⟨s :: sigs, .cons h1 h3, .cons h2 h4⟩

/-- The holders of bills make an expense. -/
theorem holders_spend (hs : List Holding) (hh : ∀ h ∈ hs, h.Held) (a : UInt64)
    (ha : 0 < a.toNat) (hle : a.toNat ≤ trueTotal (hs.map Holding.bill))
    (htot : trueTotal (hs.map Holding.bill) < 2 ^ 64) (dst : Lock) (hto : dst.Built)
    (rest : Option Lock) (hrb : ∀ r, rest = some r → r.Built)
    (hrest : rest.isNone ↔ a.toNat = trueTotal (hs.map Holding.bill)) (t : Time) :
    ∃ sigs c e,
      List.Forall₂ (fun (h : Holding) s => ringSign h.key h.bill.lock.hash.str h.ring = .ok s) hs sigs ∧
      contentNow a (some (hs.map Holding.bill)) (some dst) rest t = .ok c ∧
      expenseNow (some c) (some sigs) = .ok e ∧ e.Built ∧ e.signatures = sigs ∧
      e.content.source = hs.map Holding.bill ∧
      e.content.dest.lock = dst ∧ e.content.dest.amount = a ∧ e.content.dest.Built ∧
      e.content.change = trueTotal (hs.map Holding.bill) - a.toNat ∧
      e.content.remaining.map Bill.lock = rest := by
  obtain ⟨sigs, h1, h2⟩ := holders_open hs hh
  obtain ⟨c, hc⟩ := (C24_content_builder_accepts_iff a (some (hs.map Holding.bill)) (some dst) rest
    t).mpr ⟨_, rfl, rfl, ha, by rwa [Nat.mod_eq_of_lt htot], by rwa [Nat.mod_eq_of_lt htot]⟩
  obtain ⟨k1, k2, -, -⟩ := C24_content_locks _ _ _ _ _ _ hc
  obtain ⟨k5, k6, -, -, -⟩ := C24_conservation_mod _ _ _ _ _ _ hc
  have k7 := C24_conservation_exact _ _ _ _ _ _ hc htot
  have k8 : c.dest.Built := by
    obtain ⟨_, l, -, e2, p, -, -, rfl⟩ := contentNow_eq_ok.mp hc
    obtain rfl := Option.some.inj e2
    exact ⟨hto, _, _, _, billNow_eq_ok.mpr ⟨_, rfl, p, rfl⟩⟩
  simp only [Option.some.injEq] at k1 k5
  obtain ⟨e, he⟩ : ∃ e, expenseNow (some c) (some sigs) = .ok e :=
    ⟨_, expenseNow_eq_ok.mpr ⟨c, sigs, rfl, rfl, by rw [← k5]; exact h2, rfl⟩⟩
  have e12 : e.content = c ∧ e.signatures = sigs := by
    obtain ⟨_, _, e1, e2, -, rfl⟩ := expenseNow_eq_ok.mp he
    exact ⟨(Option.some.inj e1).symm, (Option.some.inj e2).symm⟩
  obtain ⟨e1, e2⟩ := e12
  have hcb : c.Built := ⟨a, _, dst, rest, t, hc, by
    intro b hb
    obtain ⟨h, hh', rfl⟩ := List.mem_map.mp hb
    exact (hh h hh').2.2.2.1, hto, hrb⟩
  refine ⟨sigs, c, e, h1, hc, he, ⟨by rw [e1]; exact hcb, _, _, he⟩, e2, ?_⟩
  rw [e1]
  exact ⟨k5.symm, k1.symm, k6, k8, by rw [← k6]; omega, k2.symm⟩

/-! ## C140 -/

/-- C140: the holders of any bills with a total below `2^64` can pay every amount up to that total to
any lock: their ring signatures, the content, the expense, a transaction with it and a block with that
are all accepted; the amount goes to the lock and exactly the rest to the lock for the rest. -/
theorem C140_holders_can_pay (hs : List Holding) (hh : ∀ h ∈ hs, h.Held) (a : UInt64)
    (ha : 0 < a.toNat) (hle : a.toNat ≤ trueTotal (hs.map Holding.bill))
    (htot : trueTotal (hs.map Holding.bill) < 2 ^ 64) (dst : Lock) (hto : dst.Built)
    (rest : Option Lock) (hrb : ∀ r, rest = some r → r.Built)
    (hrest : rest.isNone ↔ a.toNat = trueTotal (hs.map Holding.bill)) (g : Genesis) (hg : g.Built)
    (n : UInt64) (t : Time) :
    ∃ sigs c e x b,
      List.Forall₂ (fun (h : Holding) s => ringSign h.key h.bill.lock.hash.str h.ring = .ok s) hs sigs ∧
      contentNow a (some (hs.map Holding.bill)) (some dst) rest t = .ok c ∧
      expenseNow (some c) (some sigs) = .ok e ∧ trxNow none none [e] t = .ok x ∧
      blockNow (some g) n (some [x]) t = .ok b ∧ b.Built ∧ b.expenses = [e] ∧
      e.signatures = sigs ∧ e.content.source = hs.map Holding.bill ∧
      e.content.dest.lock = dst ∧ e.content.dest.amount = a ∧
      e.content.change = trueTotal (hs.map Holding.bill) - a.toNat ∧
      e.content.remaining.map Bill.lock = rest := by
  obtain ⟨sigs, c, e, h1, hc, he, hb, hsg, hso, hd1, hd2, -, hch, hre⟩ :=
    holders_spend hs hh a ha hle htot dst hto rest hrb hrest t
  obtain ⟨x, b, h3, h4, h5, h6, h7⟩ := block_of_expenses g n t [e] (by simp)
  have hxf : x.fees = [e] ∧ x.address = none := by
    obtain ⟨-, rfl⟩ := trxNow_eq_ok.mp h3
    exact ⟨rfl, rfl⟩
  refine ⟨sigs, c, e, x, b, h1, hc, he, h3, h4, ⟨by rw [h5]; exact hg, ?_, _, _, _, _, h4⟩, h7, hsg,
    hso, hd1, hd2, hch, hre⟩
  intro y hy
  rw [h6] at hy
  obtain rfl := List.mem_singleton.mp hy
  refine ⟨by rw [hxf.2]; simp, ?_, _, _, _, _, h3⟩
  intro f hf
  rw [hxf.1] at hf
  obtain rfl := List.mem_singleton.mp hf
  exact hb

/-- C140: a block with such payments, written as JSON on one node, is read as exactly that block on
another one: signatures that were made by `RingSign` come back unchanged. -/
theorem C140_payments_travel [FloatText] (b : Block) (hb : b.Built)
    (hs : ∀ e ∈ b.expenses, ∀ s ∈ e.signatures, ∃ k m r, ringSign k m r = .ok s)
    (ht : ∀ t ∈ b.times, Dated t) (hm : b.genesis.blockIncrease.marshals = true)
    (hf : b.genesis.blockIncrease.IsFloat) :
    ∃ text, jBlockC.text b.toJSON = some text ∧ blockFromText text = .ok b := by
  have hcan : b.Canonical := by
    intro x hx e he s hse
    obtain ⟨k, m, r, h⟩ := hs e (by simp only [Block.expenses, List.mem_flatMap]; exact ⟨x, hx, he⟩) s hse
    exact C29_ring_sign_canonical _ _ _ _ h
  have hfit : b.Fits := by
    intro x hx e he s hse y hy
    obtain ⟨a, rfl⟩ := (hcan x hx e he s hse).1 y hy
    exact C.canon_fits a
  obtain ⟨h1, h2⟩ := C128_signed_entities_read_back.2.2.1 b
  obtain ⟨text, h3⟩ := h1.mpr ⟨hm, ht⟩
  refine ⟨text, h3, ?_⟩
  rw [h2 hb hfit hf text h3, Block.reduced_of_canonical hcan]

/-- A bill that is held is handed on. -/
theorem bill_travels (t : Time) : ∀ ps : List (Scalar × List C.Pt),
    (∀ p ∈ ps, p.1.Fits ∧ p.2.Nodup ∧ publicKey p.1 ∈ p.2) →
    ∀ h : Holding, h.Held → ∃ xs h', Passes h xs h' ∧ xs.length = ps.length ∧ h'.Held ∧
      h'.bill.amount = h.bill.amount ∧
      (h'.key, h'.ring) = ((h.key, h.ring) :: ps).getLast (by simp)
  | [], _, h, hh => ⟨[], h, .here h, rfl, hh, rfl, rfl⟩
  | p :: ps, H, h, hh => by
    obtain ⟨p1, p2, p3⟩ := H p (by simp)
    obtain ⟨l, -, hl, -, -⟩ := C21_unlock_complete_partial p.2 p2 p.1 p1 p3 t
    have hpos : 0 < h.bill.amount.toNat := by
      obtain ⟨-, _, _, _, hn⟩ := hh.2.2.2.1
      obtain ⟨_, -, h0, hb⟩ := billNow_eq_ok.mp hn
      rw [hb]
      exact h0
    have hlb : l.Built := ⟨_, _, hl⟩
    obtain ⟨sigs, c, e, -, -, -, hb, -, hso, hd1, hd2, hd3, hch, hre⟩ :=
      holders_spend [h] (by simpa using hh) h.bill.amount hpos (by simp [trueTotal])
        (by simpa [trueTotal] using h.bill.amount.toNat_lt) l hlb none (by simp)
        (by simp [trueTotal]) t
    obtain ⟨xs, h', i1, i2, i3, i4, i5⟩ := bill_travels t ps (fun q hq => H q (by simp [hq]))
      ⟨p.1, p.2, e.content.dest⟩ ⟨p1, p2, p3, hd3, t, by rw [hd1]; exact hl⟩
    refine ⟨e :: xs, h', .next hb hso (by simpa using hre) rfl hd2 i1, by simp [i2], i3,
      i4.trans hd2, i5⟩

/-- C140: a bill that is held can be handed on to any number of payees in turn: each payment is
accepted, spends the bill made by the one before, and leaves a bill of the same amount that the next
payee holds, up to the last one; all payments are accepted in one transaction and block too. -/
theorem C140_bill_travels (t : Time) (ps : List (Scalar × List C.Pt))
    (hps : ∀ p ∈ ps, p.1.Fits ∧ p.2.Nodup ∧ publicKey p.1 ∈ p.2) (h : Holding) (hh : h.Held) :
    ∃ xs h', Passes h xs h' ∧ xs.length = ps.length ∧ h'.Held ∧
      h'.bill.amount = h.bill.amount ∧
      (h'.key, h'.ring) = ((h.key, h.ring) :: ps).getLast (by simp) ∧
      (ps ≠ [] → ∀ g n, ∃ x b, trxNow none none xs t = .ok x ∧
        blockNow (some g) n (some [x]) t = .ok b ∧ b.expenses = xs) := by
  obtain ⟨xs, h', h1, h2, h3, h4, h5⟩ := bill_travels t ps hps h hh
  refine ⟨xs, h', h1, h2, h3, h4, h5, fun hne g n => ?_⟩
  obtain ⟨x, b, k1, k2, -, -, k3⟩ := block_of_expenses g n t xs (by
    intro h0
    rw [h0] at h2
    exact hne (List.length_eq_zero_iff.mp h2.symm))
  exact ⟨x, b, k1, k2, k3⟩

end

section examples

attribute [local instance] toyCurve toySha

/-- A bill of five piastres that the key of the second of two points opens. -/
theorem toy_held : ∃ h : Holding, h.Held ∧ h.bill.amount = 5 ∧ h.ring.length = 2 ∧
    h.bill.times = [0, 0] := by
  obtain ⟨l, -, h1, -, -⟩ := C21_unlock_complete_partial [publicKey (toySc 1),
    publicKey (toySc 2)] (by decide) (toySc 2) (by decide) (by simp) 0
  have hl : l.createdOn = 0 := by
    obtain ⟨_, -, -, -, rfl⟩ := lockNow_eq_ok.mp h1
    rfl
  refine ⟨⟨toySc 2, [publicKey (toySc 1), publicKey (toySc 2)],
    ⟨fromBytes (l.hash.bytes ++ itoaU 5), l, 5, 0⟩⟩, ⟨(by decide : (toySc 2).Fits),
    (by decide : [publicKey (toySc 1), publicKey (toySc 2)].Nodup), by simp,
    ⟨⟨_, _, h1⟩, some l, 5, 0, billNow_eq_ok.mpr ⟨_, rfl, by decide, rfl⟩⟩, 0, h1⟩, rfl, rfl, ?_⟩
  simp [Bill.times, Lock.times, hl]

/-- C140: seven out of two bills of five, with three left over; the block is read elsewhere. -/
theorem toy_payment : ∃ (b : Block) (e : Expense), b.Built ∧ b.expenses = [e] ∧
    e.content.dest.amount = 7 ∧ e.content.change = 3 ∧ e.signatures.length = 2 ∧
    (∀ s ∈ e.signatures, ∃ k m r, ringSign k m r = .ok s) ∧ (∀ t ∈ b.times, Dated t) ∧
    b.genesis = toyGenesis := by
  obtain ⟨h, hh, ha, -, htm⟩ := toy_held
  have htot : trueTotal ([h, h].map Holding.bill) = 10 := by simp [trueTotal, ha]
  obtain ⟨sigs, c, e, x, b, h1, h2, h3, h4, h5, h6, h7, h8, -, -, h9, h10, -⟩ :=
    C140_holders_can_pay [h, h] (by simpa using hh) 7 (by decide) (by rw [htot]; decide)
      (by rw [htot]; decide) (toyLock 3) (toyLock_built 3) (some (toyLock 4))
      (by rintro _ ⟨⟩; exact toyLock_built 4) (by rw [htot]; simp) toyGenesis toyGenesis_built 4 0
  refine ⟨b, e, h6, h7, h9, by rw [h10, htot]; rfl, by rw [h8, ← h1.length_eq]; rfl, ?_, ?_, ?_⟩
  · intro s hs
    rw [h8] at hs
    cases h1 with
    | cons k1 k2 => cases k2 with
      | cons k2 k3 => cases k3; simp only [List.mem_cons, List.not_mem_nil, or_false] at hs
                      rcases hs with rfl | rfl <;> exact ⟨_, _, _, by assumption⟩
  · have h0 : Dated 0 := by decide
    intro t ht
    suffices t = 0 by rw [this]; exact h0
    obtain ⟨_, _, e1, e2, -, rfl⟩ := blockNow_eq_ok.mp h5
    obtain rfl := Option.some.inj e1
    obtain rfl := Option.some.inj e2
    obtain ⟨-, rfl⟩ := trxNow_eq_ok.mp h4
    obtain ⟨_, _, e3, -, -, rfl⟩ := expenseNow_eq_ok.mp h3
    obtain rfl := Option.some.inj e3
    obtain ⟨_, _, e4, e5, -, -, -, rfl⟩ := contentNow_eq_ok.mp h2
    obtain rfl := Option.some.inj e4
    obtain rfl := Option.some.inj e5
    simp only [Block.times, Genesis.times, Transaction.times, Expense.times, Content.times,
      List.map_cons, List.map_nil, List.flatMap_cons, List.flatMap_nil, htm] at ht
    simpa [Bill.times, Lock.times, toyGenesis, toyBill, toyLock] using ht
  · obtain ⟨_, _, e1, -, -, rfl⟩ := blockNow_eq_ok.mp h5
    exact (Option.some.inj e1).symm

/-- C140: that block is read back from its text. -/
example [FloatText] : ∃ (b : Block) (text : Bytes), b.expenses ≠ [] ∧
    jBlockC.text b.toJSON = some text ∧ blockFromText text = .ok b := by
  obtain ⟨b, e, h1, h2, -, -, -, h3, h4, h5⟩ := toy_payment
  obtain ⟨text, h6, h7⟩ := C140_payments_travel b h1 (by
    intro e' he'
    rw [h2] at he'
    obtain rfl := List.mem_singleton.mp he'
    exact h3) h4 (by rw [h5]; rfl) (by
    rw [h5]
    refine ⟨⟨1, -1, by norm_num, by norm_num, ?_⟩, ?_⟩
    · norm_num
    · rw [abs_of_pos (by norm_num)]
      exact lt_of_lt_of_le (by norm_num) (one_le_pow₀ (n := 1024) (by norm_num : (1 : ℚ) ≤ 2)))
  exact ⟨b, text, by rw [h2]; simp, h6, h7⟩

/-- C140: the bill goes through three hands. -/
example : ∃ h xs h', Passes h xs h' ∧ xs.length = 3 ∧ h'.Held ∧ h'.bill.amount = 5 ∧
    h'.key = toySc 1 := by
  obtain ⟨h, hh, ha, -⟩ := toy_held
  obtain ⟨xs, h', h1, h2, h3, h4, h5, -⟩ := C140_bill_travels 0
    [(toySc 1, [publicKey (toySc 1)]), (toySc 2, [publicKey (toySc 2), publicKey (toySc 1)]),
      (toySc 1, [publicKey (toySc 1)])] (by
      intro p hp
      simp only [List.mem_cons, List.not_mem_nil, or_false] at hp
      rcases hp with rfl | rfl | rfl <;> exact ⟨by decide, by decide, by simp⟩) h hh
  exact ⟨h, xs, h', h1, h2, h3, h4.trans ha, congrArg Prod.fst h5⟩

end examples

end Verif
