import Verif.Model.Piastres.ExpenseLemmas
import Verif.Spec.Piastres
import Verif.Props.Lock

/-!
# Properties of bills and expenses (C23 - C28, C74)
-/

namespace Verif

section
variable [Sha512]

/-! ## C23 -/

/-- C23: two bills with equal hashes have the same lock hash and the same amount, unless the two
hashed texts are an explicit SHA-512 collision. -/
theorem C23_bill_hash_binds (l₁ l₂ : Option Lock) (a₁ a₂ : UInt64) (t₁ t₂ : Time) (b₁ b₂ : Bill)
    (h₁ : billNow l₁ a₁ t₁ = .ok b₁) (h₂ : billNow l₂ a₂ t₂ = .ok b₂) (h : b₁.hash = b₂.hash) :
    (b₁.lock.hash = b₂.lock.hash ∧ b₁.amount = b₂.amount) ∨
    ShaCollision (b₁.lock.hash.bytes ++ itoaU b₁.amount)
      (b₂.lock.hash.bytes ++ itoaU b₂.amount) := by
  obtain ⟨l₁, rfl, -, rfl⟩ := billNow_eq_ok.mp h₁
  obtain ⟨l₂, rfl, -, rfl⟩ := billNow_eq_ok.mp h₂
  have n1 := itoaU_length a₁
  have n2 := itoaU_length a₂
  have m1 := l₁.hash.len
  have m2 := l₂.hash.len
  rcases fromBytes_eq_red (by rw [List.length_append]; omega) (by rw [List.length_append]; omega) h
    with h | h
  · obtain ⟨h1, h2⟩ := hash_append_inj h
    exact .inl ⟨h1, itoaU_injective h2⟩
  · exact .inr h

/-- C23: the bill builder accepts exactly a lock with a positive amount; the bill carries them. -/
theorem C23_bill_builder_exact (l : Option Lock) (a : UInt64) (t : Time) (b : Bill) :
    billNow l a t = .ok b ↔
      l = some b.lock ∧ a = b.amount ∧ t = b.createdOn ∧ 0 < a.toNat ∧
      b.hash = fromMultiBytes [b.lock.hash.bytes, itoaU b.amount] := by
  rw [billNow_eq_ok]
  constructor
  · rintro ⟨l, rfl, h, rfl⟩
    simp [h, fromMultiBytes]
  · rintro ⟨rfl, rfl, rfl, h, h'⟩
    refine ⟨_, rfl, h, ?_⟩
    cases b
    simp [fromMultiBytes] at h' ⊢
    exact h'

/-! ## C24 -/

/-- C24: amount paid + change = sum of the spent bills modulo `2^64`; the paid amount is positive
and a change bill exists only for a positive change. -/
theorem C24_conservation_mod (a : UInt64) (src : Option (List Bill)) (l r : Option Lock) (t : Time)
    (c : Content) (h : contentNow a src l r t = .ok c) :
    src = some c.source ∧ c.dest.amount = a ∧
    (c.dest.amount.toNat + c.change) % 2 ^ 64 = trueTotal c.source % 2 ^ 64 ∧
    0 < c.dest.amount.toNat ∧ (c.remaining.isSome ↔ 0 < c.change) := by
  obtain ⟨s, l, rfl, rfl, h1, h2, h3, rfl⟩ := contentNow_eq_ok.mp h
  have ht := sourceTotal_eq s
  have hlt := (sourceTotal s).toNat_lt
  have hsub : (sourceTotal s - a).toNat = (sourceTotal s).toNat - a.toNat :=
    UInt64.toNat_sub_of_le _ _ (UInt64.le_iff_toNat_le.mpr h2)
  cases r with
  | none =>
    have := h3.mp rfl
    refine ⟨rfl, rfl, ?_, h1, ?_⟩
    · simp only [Content.change, Option.map_none, Nat.add_zero, trueTotal]
      rw [this, ht, Nat.mod_mod]
    · simp [Content.change]
  | some r =>
    have h4 : a.toNat ≠ (sourceTotal s).toNat := fun e => by simpa using h3.mpr e
    refine ⟨rfl, rfl, ?_, h1, ?_⟩
    · simp only [Content.change, Option.map_some, trueTotal]
      rw [hsub, ← ht]
      omega
    · simp only [Content.change, Option.map_some, Option.isSome_some, true_iff]
      rw [hsub]
      omega

/-- C24: when the true sum of the spent bills is below `2^64`, conservation is exact. -/
theorem C24_conservation_exact (a : UInt64) (src : List Bill) (l r : Option Lock) (t : Time)
    (c : Content) (h : contentNow a (some src) l r t = .ok c) (hsum : trueTotal src < 2 ^ 64) :
    c.dest.amount.toNat + c.change = trueTotal src := by
  obtain ⟨s, l, e, rfl, h1, h2, h3, rfl⟩ := contentNow_eq_ok.mp h
  cases e
  have ht := sourceTotal_eq src
  unfold trueTotal at hsum
  rw [Nat.mod_eq_of_lt hsum] at ht
  have hsub : (sourceTotal src - a).toNat = (sourceTotal src).toNat - a.toNat :=
    UInt64.toNat_sub_of_le _ _ (UInt64.le_iff_toNat_le.mpr h2)
  unfold trueTotal
  cases r with
  | none =>
    simp only [Content.change, Option.map_none, Nat.add_zero]
    rw [h3.mp rfl, ht]
  | some r =>
    simp only [Content.change, Option.map_some]
    omega

/-- C24: the content builder accepts exactly: bills and lock given, a positive amount not above the
`uint64` sum, and a change lock exactly when something is left. The result pays the amount to the
lock and the rest to the change lock. -/
theorem C24_content_builder_accepts_iff (a : UInt64) (src : Option (List Bill)) (l r : Option Lock)
    (t : Time) :
    (∃ c, contentNow a src l r t = .ok c) ↔
      ∃ s, src = some s ∧ l.isSome ∧ 0 < a.toNat ∧ a.toNat ≤ trueTotal s % 2 ^ 64 ∧
        (r.isNone ↔ a.toNat = trueTotal s % 2 ^ 64) := by
  simp only [contentNow_eq_ok, trueTotal, ← sourceTotal_eq]
  constructor
  · rintro ⟨c, s, l, rfl, rfl, h1, h2, h3, -⟩
    exact ⟨s, rfl, rfl, h1, h2, by simpa using h3⟩
  · rintro ⟨s, rfl, hl, h1, h2, h3⟩
    obtain ⟨l, rfl⟩ := Option.isSome_iff_exists.mp hl
    exact ⟨_, s, l, rfl, rfl, h1, h2, by simpa using h3, rfl⟩

/-- C24: who gets the money: the paid bill has the destination lock, the change bill the change
lock. -/
theorem C24_content_locks (a : UInt64) (src : Option (List Bill)) (l r : Option Lock)
    (t : Time) (c : Content) (h : contentNow a src l r t = .ok c) :
    l = some c.dest.lock ∧ r = c.remaining.map Bill.lock ∧ c.dest.createdOn = t ∧
      c.createdOn = t := by
  obtain ⟨s, l, rfl, rfl, -, -, -, rfl⟩ := contentNow_eq_ok.mp h
  refine ⟨rfl, ?_, rfl, rfl⟩
  simp [Option.map_map, Function.comp_def]

/-! ## C25 -/

/-- C25: no content pays out more than the true (unbounded) total of the bills it lists: overflow
can only lose value. -/
theorem C25_never_above_listed_total (a : UInt64) (src : List Bill) (l r : Option Lock) (t : Time)
    (c : Content) (h : contentNow a (some src) l r t = .ok c) :
    c.dest.amount.toNat + c.change ≤ trueTotal src := by
  obtain ⟨s, l, e, rfl, h1, h2, h3, rfl⟩ := contentNow_eq_ok.mp h
  cases e
  have ht := sourceTotal_eq src
  have hle : (sourceTotal src).toNat ≤ trueTotal src := by
    rw [ht]; exact Nat.mod_le _ _
  have hsub : (sourceTotal src - a).toNat = (sourceTotal src).toNat - a.toNat :=
    UInt64.toNat_sub_of_le _ _ (UInt64.le_iff_toNat_le.mpr h2)
  cases r with
  | none => simp only [Content.change, Option.map_none, Nat.add_zero]; omega
  | some r => simp only [Content.change, Option.map_some]; omega

/-- C25: counting every distinct bill once, the payout is covered when no bill is listed twice.
Missing: the general case, which is false (next theorem). -/
theorem C25_never_above_distinct_total_partial (a : UInt64) (src : List Bill) (l r : Option Lock)
    (t : Time) (c : Content) (h : contentNow a (some src) l r t = .ok c)
    (hd : (src.map Bill.hash).Nodup) :
    c.dest.amount.toNat + c.change ≤ distinctTotal src := by
  have : src.pwFilter (fun a b => a.hash ≠ b.hash) = src := by
    rw [List.pwFilter_eq_self]
    exact List.pairwise_map.mp hd
  unfold distinctTotal
  rw [this]
  exact C25_never_above_listed_total a src l r t c h

/-- C25 (negation for repeated bills): every bill below `2^63` can be listed twice and pays out
twice its amount; with one signature opening its lock, the expense itself is accepted. -/
theorem C25_same_bill_twice_neg [C : Curve] (b : Bill) (hb : 0 < b.amount.toNat)
    (hlt : b.amount.toNat < 2 ^ 63) (l : Lock) (t : Time) (sig : RingSignature)
    (hs : b.lock.unlock sig = .ok ()) :
    ∃ c e, contentNow (b.amount + b.amount) (some [b, b]) (some l) none t = .ok c ∧
      c.dest.amount.toNat = 2 * b.amount.toNat ∧ distinctTotal c.source = b.amount.toNat ∧
      expenseNow (some c) (some [sig, sig]) = .ok e := by
  have h2 : (b.amount + b.amount).toNat = 2 * b.amount.toNat := by
    rw [UInt64.toNat_add]; omega
  have ht := sourceTotal_eq [b, b]
  simp only [List.map_cons, List.map_nil, List.sum_cons, List.sum_nil] at ht
  refine ⟨_, _, contentNow_eq_ok.mpr ⟨[b, b], l, rfl, rfl, by omega, by omega, ?_, rfl⟩, h2, ?_,
    expenseNow_eq_ok.mpr ⟨_, _, rfl, rfl, by simp [hs], rfl⟩⟩
  · simp; omega
  · have : [b, b].pwFilter (fun a b : Bill => a.hash ≠ b.hash) = [b] := by
      have h1 : [b].pwFilter (fun a b : Bill => a.hash ≠ b.hash) = [b] := by
        rw [List.pwFilter_cons_of_pos (by simp), List.pwFilter_nil]
      rw [List.pwFilter_cons_of_neg (by rw [h1]; simp), h1]
    simp only [distinctTotal, this]
    simp [trueTotal]

variable [C : Curve]

/-! ## C26 -/

/-- C26: an expense is built exactly when the signatures are as many as the spent bills and the
i-th signature opens the i-th bill's lock. -/
theorem C26_expense_builder_accepts_iff (c : Content) (sigs : List RingSignature) :
    (∃ e, expenseNow (some c) (some sigs) = .ok e) ↔
      sigs.length = c.source.length ∧
      ∀ i (hi : i < c.source.length) (hj : i < sigs.length),
        Opens (c.source[i]).lock sigs[i] := by
  simp only [← C20_unlock_exact]
  simp only [expenseNow_eq_ok, Option.some.injEq]
  constructor
  · rintro ⟨e, cn, sg, rfl, rfl, h, -⟩
    exact ⟨h.length_eq.symm, fun i hi hj => List.forall₂_iff_get.mp h |>.2 i hi hj⟩
  · rintro ⟨h1, h2⟩
    exact ⟨_, c, sigs, rfl, rfl, List.forall₂_iff_get.mpr ⟨h1.symm, h2⟩, rfl⟩

/-- C26: the built expense carries exactly the content and the signatures; a missing content or
missing signatures are an error. -/
theorem C26_built_expense (c : Option Content) (sigs : Option (List RingSignature)) (e : Expense)
    (h : expenseNow c sigs = .ok e) :
    c = some e.content ∧ sigs = some e.signatures ∧ e.createdOn = e.content.createdOn ∧
    e.hash = fromMultiBytes (e.content.hash.bytes :: e.signatures.map RingSignature.str) := by
  obtain ⟨cn, sg, rfl, rfl, -, rfl⟩ := expenseNow_eq_ok.mp h
  exact ⟨rfl, rfl, rfl, rfl⟩

/-! ## C27 -/

private theorem forall₂_unlock_congr {x y : List Bill} {sigs : List RingSignature}
    (hl : List.Forall₂ (fun b b' : Bill =>
      b.lock.hash = b'.lock.hash ∧ b.lock.pubKeys = b'.lock.pubKeys) x y)
    (hf : List.Forall₂ (fun (b : Bill) s => b.lock.unlock s = .ok ()) x sigs) :
    List.Forall₂ (fun (b : Bill) s => b.lock.unlock s = .ok ()) y sigs := by
  induction hl generalizing sigs with
  | nil => cases hf; simp
  | cons hab _ ih =>
    cases hf with
    | cons h1 h2 =>
      refine .cons ?_ (ih h2)
      rw [unlock_eq_ok] at h1 ⊢
      rw [← hab.1, ← hab.2]
      exact h1

/-- C27 (negation of "a signature authorises one payment"): signatures accepted for one content are
accepted for every content that spends bills with the same locks (same hash, same keys), whatever
its recipient, amount and change. -/
theorem C27_signatures_replay_neg (c c' : Content) (sigs : List RingSignature) (e : Expense)
    (h : expenseNow (some c) (some sigs) = .ok e)
    (hl : List.Forall₂ (fun b b' : Bill =>
      b.lock.hash = b'.lock.hash ∧ b.lock.pubKeys = b'.lock.pubKeys) c.source c'.source) :
    ∃ e', expenseNow (some c') (some sigs) = .ok e' ∧ e'.content = c' := by
  obtain ⟨cn, sg, e1, e2, hf, -⟩ := expenseNow_eq_ok.mp h
  cases e1; cases e2
  exact ⟨_, expenseNow_eq_ok.mpr ⟨c', sigs, rfl, rfl, forall₂_unlock_congr hl hf, rfl⟩, rfl⟩

/-- C27: what holds: a signature that opens two locks shows that both have the same key set, so
signatures do not carry over to bills of other owners. -/
theorem C27_signature_bound_to_keys_partial (l₁ l₂ : Lock) (sig : RingSignature)
    (h₁ : l₁.unlock sig = .ok ()) (h₂ : l₂.unlock sig = .ok ()) :
    ∀ k, k ∈ l₁.pubKeys ↔ k ∈ l₂.pubKeys := fun k =>
  ((unlock_eq_ok.mp h₁).1 k).trans ((unlock_eq_ok.mp h₂).1 k).symm

/-! ## C28 -/

omit C in
/-- C28: contents with equal hash, the same number of spent bills (or the same presence of change)
agree in destination lock, amount, spent bills and change lock, as hashes, unless the two hashed
texts are an explicit collision. -/
theorem C28_content_hash_binds_shape (a₁ a₂ : UInt64) (s₁ s₂ : List Bill) (l₁ l₂ : Lock)
    (r₁ r₂ : Option Lock) (t₁ t₂ : Time) (c₁ c₂ : Content)
    (h₁ : contentNow a₁ (some s₁) (some l₁) r₁ t₁ = .ok c₁)
    (h₂ : contentNow a₂ (some s₂) (some l₂) r₂ t₂ = .ok c₂) (h : c₁.hash = c₂.hash)
    (hn : s₁.length = s₂.length ∨ (r₁.isSome ↔ r₂.isSome)) :
    (l₁.hash = l₂.hash ∧ a₁ = a₂ ∧ s₁.map Bill.hash = s₂.map Bill.hash ∧
      r₁.map Lock.hash = r₂.map Lock.hash) ∨
    ShaCollision (contentData l₁ a₁ s₁ r₁).flatten (contentData l₂ a₂ s₂ r₂).flatten := by
  obtain ⟨_, _, e1, e2, -, -, -, rfl⟩ := contentNow_eq_ok.mp h₁
  cases e1; cases e2
  obtain ⟨_, _, e1, e2, -, -, -, rfl⟩ := contentNow_eq_ok.mp h₂
  cases e1; cases e2
  have n1 := contentData_length l₁ a₁ s₁ r₁
  have n2 := contentData_length l₂ a₂ s₂ r₂
  rcases fromBytes_eq_red (by omega) (by omega) h with h | h
  · left
    rw [contentData_flatten, contentData_flatten] at h
    obtain ⟨h1, h2⟩ := hash_append_inj h
    obtain ⟨h2, h3⟩ := num_hashes_inj h2
    refine ⟨h1, h2, ?_⟩
    have hlen : s₁.length = s₂.length := by
      rcases hn with hn | hn
      · exact hn
      · have := congrArg List.length h3
        simp only [List.length_append, List.length_map] at this
        cases r₁ <;> cases r₂ <;> simp at this hn <;> exact this
    obtain ⟨h4, h5⟩ := List.append_inj h3 (by simpa using hlen)
    refine ⟨h4, ?_⟩
    cases r₁ <;> cases r₂ <;> simp_all
  · exact .inr h

omit C in
private theorem amounts_of_hashes : ∀ {x y : List Bill}, (∀ b ∈ x, b.Built) → (∀ b ∈ y, b.Built) →
    x.map Bill.hash = y.map Bill.hash →
    trueTotal x = trueTotal y ∨
    ∃ a ∈ x, ∃ b ∈ y, ShaCollision (a.lock.hash.bytes ++ itoaU a.amount)
      (b.lock.hash.bytes ++ itoaU b.amount)
  | [], [], _, _, _ => by simp
  | [], _ :: _, _, _, h => by simp at h
  | _ :: _, [], _, _, h => by simp at h
  | a :: x, b :: y, ha, hb, h => by
    simp only [List.map_cons, List.cons.injEq] at h
    obtain ⟨-, _, _, _, h1⟩ := ha a (by simp)
    obtain ⟨-, _, _, _, h2⟩ := hb b (by simp)
    rcases C23_bill_hash_binds _ _ _ _ _ _ _ _ h1 h2 h.1 with h3 | h3
    · rcases amounts_of_hashes (fun c hc => ha c (by simp [hc])) (fun c hc => hb c (by simp [hc]))
        h.2 with h4 | ⟨c, hc, d, hd, h4⟩
      · left
        simp only [trueTotal, List.map_cons, List.sum_cons] at h4 ⊢
        rw [h3.2, h4]
      · exact .inr ⟨c, by simp [hc], d, by simp [hd], h4⟩
    · exact .inr ⟨a, by simp, b, by simp, h3⟩

omit C in
private theorem change_vs_no_change {x y : List Bill} {k : Hash} {a : UInt64}
    (hx : ∀ b ∈ x, b.Built) (hy : ∀ b ∈ y, b.Built)
    (h : x.map Bill.hash ++ [k] = y.map Bill.hash) (hax : a.toNat < trueTotal x)
    (hay : a.toNat = trueTotal y) :
    ∃ a ∈ x, ∃ b ∈ y, ShaCollision (a.lock.hash.bytes ++ itoaU a.amount)
      (b.lock.hash.bytes ++ itoaU b.amount) := by
  have hlen := congrArg List.length h
  simp only [List.length_append, List.length_map, List.length_cons, List.length_nil] at hlen
  have hsplit : y.take x.length ++ y.drop x.length = y := List.take_append_drop _ _
  have h1 : x.map Bill.hash = (y.take x.length).map Bill.hash := by
    rw [← hsplit, List.map_append] at h
    exact (List.append_inj h (by simp; omega)).1
  rcases amounts_of_hashes hx (fun b hb => hy b (List.mem_of_mem_take hb)) h1 with h2 | h2
  · exfalso
    have h3 : trueTotal (y.take x.length) ≤ trueTotal y := by
      conv_rhs => rw [← hsplit]
      simp only [trueTotal, List.map_append, List.sum_append]
      omega
    omega
  · obtain ⟨c, hc, d, hd, h4⟩ := h2
    exact ⟨c, hc, d, List.mem_of_mem_take hd, h4⟩

omit C in
/-- C28: for contents over built bills whose true totals do not overflow, the shape condition is
not needed: equal hash means equal content, unless the contents' texts or the texts of two of the
bills are an explicit collision. -/
theorem C28_content_hash_binds_no_overflow (a₁ a₂ : UInt64) (s₁ s₂ : List Bill) (l₁ l₂ : Lock)
    (r₁ r₂ : Option Lock) (t₁ t₂ : Time) (c₁ c₂ : Content)
    (h₁ : contentNow a₁ (some s₁) (some l₁) r₁ t₁ = .ok c₁)
    (h₂ : contentNow a₂ (some s₂) (some l₂) r₂ t₂ = .ok c₂) (h : c₁.hash = c₂.hash)
    (b₁ : ∀ b ∈ s₁, b.Built) (b₂ : ∀ b ∈ s₂, b.Built)
    (o₁ : trueTotal s₁ < 2 ^ 64) (o₂ : trueTotal s₂ < 2 ^ 64) :
    (l₁.hash = l₂.hash ∧ a₁ = a₂ ∧ s₁.map Bill.hash = s₂.map Bill.hash ∧
      r₁.map Lock.hash = r₂.map Lock.hash) ∨
    ShaCollision (contentData l₁ a₁ s₁ r₁).flatten (contentData l₂ a₂ s₂ r₂).flatten ∨
    ∃ x ∈ s₁, ∃ y ∈ s₂, ShaCollision (x.lock.hash.bytes ++ itoaU x.amount)
      (y.lock.hash.bytes ++ itoaU y.amount) := by
  by_cases hp : r₁.isSome ↔ r₂.isSome
  · rcases C28_content_hash_binds_shape a₁ a₂ s₁ s₂ l₁ l₂ r₁ r₂ t₁ t₂ c₁ c₂ h₁ h₂ h (.inr hp)
      with h | h
    · exact .inl h
    · exact .inr (.inl h)
  · right
    obtain ⟨_, _, e1, e2, -, u1, v1, rfl⟩ := contentNow_eq_ok.mp h₁
    cases e1; cases e2
    obtain ⟨_, _, e1, e2, -, u2, v2, rfl⟩ := contentNow_eq_ok.mp h₂
    cases e1; cases e2
    have n1 := contentData_length l₁ a₁ s₁ r₁
    have n2 := contentData_length l₂ a₂ s₂ r₂
    have w1 : (sourceTotal s₁).toNat = trueTotal s₁ := by
      rw [sourceTotal_eq]; exact Nat.mod_eq_of_lt o₁
    have w2 : (sourceTotal s₂).toNat = trueTotal s₂ := by
      rw [sourceTotal_eq]; exact Nat.mod_eq_of_lt o₂
    rcases fromBytes_eq_red (by omega) (by omega) h with h | h
    · right
      rw [contentData_flatten, contentData_flatten] at h
      obtain ⟨-, h2⟩ := hash_append_inj h
      obtain ⟨rfl, h3⟩ := num_hashes_inj h2
      cases r₁ with
      | none =>
        cases r₂ with
        | none => simp at hp
        | some r =>
          simp only [Option.map_none, Option.toList_none, List.append_nil, Option.map_some,
            Option.toList_some] at h3
          have hne : a₁.toNat ≠ (sourceTotal s₂).toNat := fun e => by simpa using v2.mpr e
          obtain ⟨x, hx, y, hy, h4⟩ := change_vs_no_change b₂ b₁ h3.symm (by omega)
            ((v1.mp rfl).trans w1)
          exact ⟨y, hy, x, hx, h4.1.symm, h4.2.2.1, h4.2.1, h4.2.2.2.symm⟩
      | some r =>
        cases r₂ with
        | some r => simp at hp
        | none =>
          simp only [Option.map_none, Option.toList_none, List.append_nil, Option.map_some,
            Option.toList_some] at h3
          have hne : a₁.toNat ≠ (sourceTotal s₁).toNat := fun e => by simpa using v1.mpr e
          exact change_vs_no_change b₁ b₂ h3 (by omega) ((v2.mp rfl).trans w2)
    · exact .inl h

omit C in
/-- C28 (negation in the presence of overflow): for every hash function, any two bills whose sum
overflows can be spent together without change, or the first one alone with a change lock, giving
two different contents with the same hash. -/
theorem C28_content_hash_ambiguous_neg (a b : Bill) (ha : a.amount.toNat + b.amount.toNat > 2 ^ 64)
    (l : Lock) (t : Time) :
    ∃ (x : UInt64) (r : Lock) (c₁ c₂ : Content), r.Built ∧
      contentNow x (some [a, b]) (some l) none t = .ok c₁ ∧
      contentNow x (some [a]) (some l) (some r) t = .ok c₂ ∧
      c₁.hash = c₂.hash ∧ c₁.source ≠ c₂.source ∧ c₁.remaining ≠ c₂.remaining := by
  have la := a.amount.toNat_lt
  have lb := b.amount.toNat_lt
  have h2 := sourceTotal_eq [a, b]
  have h1 := sourceTotal_eq [a]
  simp only [List.map_cons, List.map_nil, List.sum_cons, List.sum_nil] at h1 h2
  have hr : lockNow (some [b.hash]) t = .ok ⟨b.hash, [b.hash], t⟩ :=
    lockNow_eq_ok.mpr ⟨_, rfl, by simp, by simp, by simp [fromBytes_hash]⟩
  refine ⟨sourceTotal [a, b], ⟨b.hash, [b.hash], t⟩, _, _, ⟨_, _, hr⟩,
    contentNow_eq_ok.mpr ⟨_, _, rfl, rfl, by omega, le_refl _, by simp, rfl⟩,
    contentNow_eq_ok.mpr ⟨_, _, rfl, rfl, by omega, by omega, by simp; omega, rfl⟩, ?_, ?_, ?_⟩
  · simp only [contentData_flatten]
    simp
  · simp
  · simp

/-! ## C74 -/

omit [Sha512] in
theorem ringStr_ne_nil (sig : RingSignature) : sig.str ≠ [] := by
  intro h
  have h1 := congrArg List.length h
  rw [RingSignature.str, b64Encode_length] at h1
  simp only [List.length_append, List.length_cons, List.length_nil] at h1
  omega

/-- C74: two expenses over built contents with equal hashes have the same content hash and the same
concatenation of signature texts, unless the hashed texts are an explicit collision. -/
theorem C74_expense_hash_binds (e₁ e₂ : Expense) (b₁ : e₁.Built) (b₂ : e₂.Built)
    (h : e₁.hash = e₂.hash) :
    (e₁.content.hash = e₂.content.hash ∧ (e₁.signatures.map RingSignature.str).flatten =
      (e₂.signatures.map RingSignature.str).flatten) ∨
    ShaCollision (e₁.content.hash.bytes ++ (e₁.signatures.map RingSignature.str).flatten)
      (e₂.content.hash.bytes ++ (e₂.signatures.map RingSignature.str).flatten) := by
  have key : ∀ e : Expense, e.Built → e.hash = fromBytes (e.content.hash.bytes ++
      (e.signatures.map RingSignature.str).flatten) ∧ (e.content.hash.bytes ++
      (e.signatures.map RingSignature.str).flatten).length ≠ 64 := by
    rintro e ⟨⟨a, src, l, rem, t, hc, -⟩, c, sigs, he⟩
    obtain ⟨cn, sg, rfl, rfl, hf, rfl⟩ := expenseNow_eq_ok.mp he
    refine ⟨rfl, ?_⟩
    obtain ⟨_, _, e, -, h1, h2, -, hcn⟩ := contentNow_eq_ok.mp hc
    cases e
    have hne : sg ≠ [] := by
      rintro rfl
      cases hf' : cn.source with
      | nil =>
        have : src = [] := by rw [← hf']; exact (congrArg Content.source hcn).symm
        subst this
        simp [sourceTotal] at h2
        omega
      | cons x xs => rw [hf'] at hf; cases hf
    obtain ⟨s, ss, rfl⟩ := List.exists_cons_of_ne_nil hne
    have := cn.hash.len
    have := List.length_pos_of_ne_nil (ringStr_ne_nil s)
    simp only [List.map_cons, List.flatten_cons, List.length_append]
    omega
  obtain ⟨k1, n1⟩ := key e₁ b₁
  obtain ⟨k2, n2⟩ := key e₂ b₂
  rw [k1, k2] at h
  rcases fromBytes_eq_red n1 n2 h with h | h
  · exact .inl (hash_append_inj h)
  · exact .inr h

/-! ## C77 -/

omit C in
/-- C77 (negation of "bills of separate payments are different"): any two contents that pay the
same amount to the same lock produce destination bills with the same hash, whatever bills they
spend and whenever they are made. -/
theorem C77_payments_indistinguishable_neg (a : UInt64) (s s' : Option (List Bill)) (l : Lock)
    (r r' : Option Lock) (t t' : Time) (c c' : Content)
    (h : contentNow a s (some l) r t = .ok c) (h' : contentNow a s' (some l) r' t' = .ok c') :
    c.dest.hash = c'.dest.hash := by
  obtain ⟨_, _, -, e, -, -, -, rfl⟩ := contentNow_eq_ok.mp h
  cases e
  obtain ⟨_, _, -, e, -, -, -, rfl⟩ := contentNow_eq_ok.mp h'
  cases e
  rfl

end

section examples

attribute [local instance] toyCurve toySha

/-- A lock of the toy curve that can be opened, its opener, and a bill on it. -/
theorem toy_openable : ∃ (l : Lock) (sig : RingSignature), l.Built ∧ l.unlock sig = .ok () := by
  obtain ⟨l, sig, h1, -, h3⟩ := C21_unlock_complete_partial [publicKey (toySc 1),
    publicKey (toySc 2)] (by decide) (toySc 2) (by decide) (by simp) 0
  exact ⟨l, sig, ⟨_, _, h1⟩, h3⟩

/-- A toy lock without an opener. -/
def toyLock (n : UInt8) : Lock := ⟨toyHash n, [toyHash n], 0⟩

theorem toyLock_built (n : UInt8) : (toyLock n).Built :=
  ⟨some [toyHash n], 0, lockNow_eq_ok.mpr ⟨_, rfl, by simp, by simp, by simp [toyLock, fromBytes_hash]⟩⟩

/-- A toy bill. -/
def toyBill (n : UInt8) (a : UInt64) : Bill :=
  ⟨fromBytes ((toyHash n).bytes ++ itoaU a), toyLock n, a, 0⟩

theorem toyBill_built (n : UInt8) (a : UInt64) (h : 0 < a.toNat) : (toyBill n a).Built :=
  ⟨toyLock_built n, some (toyLock n), a, 0, billNow_eq_ok.mpr ⟨_, rfl, h, rfl⟩⟩

/-- C24, C25, C28: two bills of 5 and 7, paying 10 with a change of 2. -/
example : ∃ c, contentNow 10 (some [toyBill 1 5, toyBill 2 7]) (some (toyLock 3)) (some (toyLock 4)) 0
    = .ok c ∧ c.change = 2 ∧ trueTotal [toyBill 1 5, toyBill 2 7] = 12 := by
  have h : sourceTotal [toyBill 1 5, toyBill 2 7] = 12 := by simp [sourceTotal, toyBill]
  refine ⟨_, contentNow_eq_ok.mpr ⟨_, _, rfl, rfl, by decide, by rw [h]; decide,
    by rw [h]; simp, rfl⟩, ?_, ?_⟩
  · simp [Content.change, h]
  · simp [trueTotal, toyBill]

/-- C24: an overflowing sum still builds: the payout is the sum modulo `2^64`. -/
example : ∃ c, contentNow 1 (some [toyBill 1 18446744073709551615, toyBill 2 2]) (some (toyLock 3)) none 0
    = .ok c ∧ trueTotal c.source > 2 ^ 64 := by
  have h : sourceTotal [toyBill 1 18446744073709551615, toyBill 2 2] = 1 := by
    simp [sourceTotal, toyBill]
  refine ⟨_, contentNow_eq_ok.mpr ⟨_, _, rfl, rfl, by decide, by rw [h],
    by rw [h]; simp, rfl⟩, ?_⟩
  simp [trueTotal, toyBill]

/-- C25, C26, C27, C74: a bill on an openable lock, spent (twice) by an accepted expense. -/
example : ∃ (b : Bill) (sig : RingSignature) (c : Content) (e : Expense), b.Built ∧
    b.lock.unlock sig = .ok () ∧ c.source = [b, b] ∧
    expenseNow (some c) (some [sig, sig]) = .ok e := by
  obtain ⟨l, sig, h1, h2⟩ := toy_openable
  obtain ⟨c, e, h3, -, -, h4⟩ := C25_same_bill_twice_neg ⟨fromBytes (l.hash.bytes ++ itoaU 5), l, 5, 0⟩
    (show 0 < (5 : UInt64).toNat by decide) (show (5 : UInt64).toNat < 2 ^ 63 by decide)
    (toyLock 3) 0 sig h2
  refine ⟨_, sig, c, e, ⟨h1, some l, 5, 0, billNow_eq_ok.mpr ⟨_, rfl, by decide, rfl⟩⟩, h2, ?_, h4⟩
  have := (C24_conservation_mod _ _ _ _ _ _ h3).1
  simpa using this.symm

end examples

end Verif
