import Verif.Spec.Audit
import Verif.Props.Spending
import Verif.Props.Binding

/-!
# Auditing the blocks of a chain: C146
-/

namespace Verif

section
variable [Sha512] [C : Curve]

omit [Sha512] in
/-- The bills in the beginning and those made have the hashes of the bills spent and those left. -/
theorem Audit.balance {P R : List Bill} {es : List Expense} (h : Audit P es R) :
    (P.map Bill.hash ++ (madeBy es).map Bill.hash).Perm
      ((listedIn es).map Bill.hash ++ R.map Bill.hash) := by
  induction h with
  | done P => simp [listedIn, madeBy]
  | @pay P Q R taken e es hp ht _ ih =>
    have h1 : (P.map Bill.hash).Perm (e.content.source.map Bill.hash ++ Q.map Bill.hash) := by
      rw [← ht, ← List.map_append]
      exact hp.map _
    have h2 : (listedIn (e :: es)).map Bill.hash =
        e.content.source.map Bill.hash ++ (listedIn es).map Bill.hash := by
      simp [listedIn]
    have h3 : madeBy (e :: es) = e.content.dest :: e.content.remaining.toList ++ madeBy es := rfl
    rw [h2, List.append_assoc, h3]
    refine (h1.append_right _).trans ?_
    rw [List.append_assoc]
    refine List.Perm.append_left _ (List.Perm.trans ?_ ih)
    simp only [List.map_cons, List.map_append, List.cons_append, List.append_assoc]
    refine List.Perm.trans (List.perm_middle) ?_
    refine List.Perm.cons _ ?_
    rw [← List.append_assoc, ← List.append_assoc]
    exact List.Perm.append_right _ List.perm_append_comm

omit [Sha512] C in
theorem trueTotal_perm {a b : List Bill} (h : a.Perm b) : trueTotal a = trueTotal b :=
  (h.map _).sum_eq

omit [Sha512] C in
theorem trueTotal_append (a b : List Bill) : trueTotal (a ++ b) = trueTotal a + trueTotal b := by
  simp [trueTotal]

omit C in
/-- Bills with the same hashes have the same total. -/
theorem trueTotal_of_hashes : ∀ {a b : List Bill}, (∀ x ∈ a, x.Built) → (∀ x ∈ b, x.Built) →
    a.map Bill.hash = b.map Bill.hash → trueTotal a = trueTotal b ∨
      ∃ x ∈ a, ∃ y ∈ b, ShaCollision x.hashedText y.hashedText
  | [], [], _, _, _ => .inl rfl
  | [], _ :: _, _, _, h => by simp at h
  | _ :: _, [], _, _, h => by simp at h
  | x :: a, y :: b, ha, hb, h => by
    simp only [List.map_cons, List.cons.injEq] at h
    obtain ⟨-, _, _, _, n₁⟩ := ha x (by simp)
    obtain ⟨-, _, _, _, n₂⟩ := hb y (by simp)
    rcases C23_bill_hash_binds _ _ _ _ _ _ _ _ n₁ n₂ h.1 with ⟨-, h1⟩ | h1
    · rcases trueTotal_of_hashes (fun z hz => ha z (by simp [hz])) (fun z hz => hb z (by simp [hz]))
        h.2 with h2 | ⟨z, hz, w, hw, h2⟩
      · left
        simp only [trueTotal, List.map_cons, List.sum_cons, h1] at h2 ⊢
        omega
      · exact .inr ⟨z, by simp [hz], w, by simp [hw], h2⟩
    · exact .inr ⟨x, by simp, y, by simp, h1⟩

theorem Expense.Built.parts {e : Expense} (h : e.Built) :
    (∀ b ∈ e.content.source, b.Built) ∧ (∀ b ∈ e.content.dest :: e.content.remaining.toList, b.Built) ∧
    (trueTotal e.content.source < 2 ^ 64 →
      trueTotal (e.content.dest :: e.content.remaining.toList) = trueTotal e.content.source) ∧
    List.Forall₂ (fun (b : Bill) s => Opens b.lock s) e.content.source e.signatures := by
  obtain ⟨⟨a, src, l, rem, t, hc, h1, h2, h3⟩, c, sigs, hn⟩ := h
  obtain ⟨rfl, rfl, -, -⟩ := C26_built_expense _ _ _ hn
  have hx := C24_conservation_exact _ _ _ _ _ _ hc
  obtain ⟨hl, hf⟩ := (C26_expense_builder_accepts_iff _ _).mp ⟨e, hn⟩
  obtain ⟨s, l', e1, e2, ha, hle, hr, hcd⟩ := contentNow_eq_ok.mp hc
  cases e1; cases e2
  have hsrc : e.content.source = src := by rw [hcd]
  refine ⟨hsrc ▸ h1, ?_, ?_, List.forall₂_iff_get.mpr ⟨hl.symm, fun i hi hj => hf i hi hj⟩⟩
  · rw [hcd]
    intro b hb
    simp only [List.mem_cons] at hb
    rcases hb with rfl | hb
    · exact ⟨h2, some l, a, t, billNow_eq_ok.mpr ⟨_, rfl, ha, rfl⟩⟩
    · cases rem with
      | none => simp at hb
      | some r =>
        simp only [Option.map_some, Option.toList_some, List.mem_singleton] at hb
        subst hb
        refine ⟨h3 r rfl, some r, sourceTotal src - a, t, billNow_eq_ok.mpr ⟨_, rfl, ?_, rfl⟩⟩
        rw [UInt64.toNat_sub_of_le _ _ (UInt64.le_iff_toNat_le.mpr hle)]
        have : ¬ a.toNat = (sourceTotal src).toNat := fun h => by simpa using hr.mpr h
        omega
  · intro hlt
    rw [hsrc] at hlt ⊢
    rw [← hx hlt]
    cases hrem : e.content.remaining <;> simp [trueTotal, Content.change, hrem]

/-- As long as every expense passes, the total stays the same. -/
theorem Audit.total {P R : List Bill} {es : List Expense} (h : Audit P es R)
    (hP : ∀ b ∈ P, b.Built) (he : ∀ e ∈ es, e.Built) (hlt : trueTotal P < 2 ^ 64) :
    trueTotal R = trueTotal P ∨
      ∃ k ∈ P ++ madeBy es, ∃ s ∈ listedIn es, ShaCollision k.hashedText s.hashedText := by
  induction h with
  | done P => exact .inl rfl
  | @pay P Q R taken e es hp ht _ ih =>
    obtain ⟨h1, h2, h3, -⟩ := (he e (by simp)).parts
    have hT : ∀ b ∈ taken, b ∈ P := fun b hb => hp.mem_iff.mpr (by simp [hb])
    have hQ : ∀ b ∈ Q, b ∈ P := fun b hb => hp.mem_iff.mpr (by simp [hb])
    rcases trueTotal_of_hashes (fun b hb => hP b (hT b hb)) h1 ht with h4 | ⟨k, hk, s, hs, h4⟩
    · have h5 := trueTotal_perm hp
      rw [trueTotal_append] at h5
      have h6 := h3 (by omega)
      have h7 : trueTotal (e.content.dest :: (e.content.remaining.toList ++ Q)) = trueTotal P := by
        rw [← List.cons_append, trueTotal_append]
        omega
      have h9 : ∀ b ∈ e.content.dest :: (e.content.remaining.toList ++ Q), b.Built := by
        intro b hb
        rw [← List.cons_append, List.mem_append] at hb
        exact hb.elim (h2 b) fun hb => hP b (hQ b hb)
      rcases ih h9 (fun x hx => he x (by simp [hx])) (by omega) with h8 | ⟨k, hk, s, hs, h8⟩
      · exact .inl (h8.trans h7)
      · refine .inr ⟨k, ?_, s, ?_, h8⟩
        · simp only [List.cons_append, List.mem_cons, List.mem_append] at hk
          simp only [madeBy, List.flatMap_cons, List.mem_append, List.mem_cons]
          rcases hk with rfl | (hk | hk) | hk
          · exact .inr (.inl (.inl rfl))
          · exact .inr (.inl (.inr hk))
          · exact .inl (hQ k hk)
          · exact .inr (.inr hk)
        · simp only [listedIn, List.flatMap_cons, List.mem_append]
          exact .inr hs
    · exact .inr ⟨k, by simp [hT k hk], s, by simp [listedIn, hs], h4⟩

omit [Sha512] in
theorem Audit.split {P R : List Bill} {es : List Expense} (pre : List Expense)
    (h : Audit P (pre ++ es) R) : ∃ M, Audit P pre M ∧ Audit M es R := by
  induction pre generalizing P with
  | nil => exact ⟨P, .done P, h⟩
  | cons e pre ih =>
    cases h with
    | pay hp ht h =>
      obtain ⟨M, h1, h2⟩ := ih h
      exact ⟨M, .pay hp ht h1, h2⟩

omit [Sha512] in
theorem Audit.left {P R : List Bill} {es : List Expense} (h : Audit P es R) :
    ∀ b ∈ R, b ∈ P ++ madeBy es := by
  induction h with
  | done P => intro b hb; simp [hb]
  | @pay P Q R taken e es hp ht _ ih =>
    intro b hb
    have h1 := ih b hb
    simp only [List.cons_append, List.mem_cons, List.mem_append] at h1
    simp only [madeBy, List.flatMap_cons, List.mem_append, List.mem_cons]
    rcases h1 with rfl | (h1 | h1) | h1
    · exact .inr (.inl (.inl rfl))
    · exact .inr (.inl (.inr h1))
    · exact .inl (hp.mem_iff.mpr (by simp [h1]))
    · exact .inr (.inr h1)

/-- Who opens a lock with the hash of another one opens that one, too, or has broken SHA-512. -/
theorem opens_same_hash {k s : Bill} {sig : RingSignature} (hk : k.Built) (hs : s.Built)
    (h : k.hash = s.hash) (ho : Opens s.lock sig) : Opens k.lock sig ∨ Broken k s sig := by
  obtain ⟨⟨ks₁, t₁, hl₁⟩, _, _, _, n₁⟩ := hk
  obtain ⟨⟨ks₂, t₂, hl₂⟩, _, _, _, n₂⟩ := hs
  rcases C23_bill_hash_binds _ _ _ _ _ _ _ _ n₁ n₂ h with ⟨hh, -⟩ | h1
  · obtain ⟨k₁, rfl, a1, b1, c1⟩ := lockNow_eq_ok.mp hl₁
    obtain ⟨k₂, rfl, a2, b2, c2⟩ := lockNow_eq_ok.mp hl₂
    have p1 : k.lock.pubKeys = k₁ := by rw [c1]
    have p2 : s.lock.pubKeys = k₂ := by rw [c2]
    have q1 : k.lock.hash = fromBytes k.lock.hashedText := by rw [Lock.hashedText, p1, c1]; rfl
    have q2 : s.lock.hash = fromBytes s.lock.hashedText := by rw [Lock.hashedText, p2, c2]; rfl
    have same : k₁ = k₂ → Opens k.lock sig := fun h1 => ⟨hh ▸ ho.1, by rw [p1, h1, ← p2]; exact ho.2⟩
    have single : ∀ l : Lock, l.hashedText.length = 64 → l.hash = fromBytes l.hashedText →
        l.pubKeys = [l.hash] := by
      intro l h64 hl
      have : l.pubKeys.length = 1 := by
        have h3 : (l.pubKeys.map Hash.bytes).flatten.length = 64 * l.pubKeys.length := hashesBytes_length _
        rw [Lock.hashedText] at h64
        omega
      obtain ⟨x, hx⟩ := List.length_eq_one_iff.mp this
      rw [hl, Lock.hashedText, hx]
      simp
    rcases C73_same_hash_iff hl₁ hl₂ with hiff | hc
    · rcases hiff.mp hh with h1 | h1 | h1
      · exact .inl (same h1)
      · by_cases h64 : s.lock.hashedText.length = 64
        · exact .inl (same (by rw [h1, ← p2, single _ h64 q2]))
        · refine .inr (.inr (.inr (.inl ⟨by rw [p1, h1, hh], h64, ?_⟩)))
          rw [hh, q2, fromBytes_of_ne h64]
      · by_cases h64 : k.lock.hashedText.length = 64
        · exact .inl (same (by rw [h1, ← p1, single _ h64 q1]))
        · refine .inr (.inr (.inr (.inr ⟨h64, ?_⟩)))
          have h2 := (ho.2 k.lock.hash).mp (by rw [p2, h1]; simp)
          obtain ⟨p, hp, h3⟩ := List.mem_map.mp h2
          refine ⟨p, hp, ?_⟩
          rw [← fromBytes_of_ne h64, ← q1, ← h3]
          exact ringKey_bytes p
    · exact .inr (.inr (.inl (by simpa [Lock.hashedText, p1, p2] using hc)))
  · exact .inr (.inl h1)

omit [Sha512] in
theorem expensesOf_append (a b : List Block) : expensesOf (a ++ b) = expensesOf a ++ expensesOf b := by
  simp [expensesOf]

omit [Sha512] in
theorem madeIn_eq (bs : List Block) : madeIn bs = madeBy (expensesOf bs) := by
  simp [madeIn, madeBy, expensesOf, List.flatMap_assoc]

omit [Sha512] in
theorem spentIn_eq (bs : List Block) : spentIn bs = (listedIn (expensesOf bs)).map Bill.hash := by
  simp [spentIn, listedIn, expensesOf, List.flatMap_assoc, List.map_flatMap]

theorem expensesOf_built {bs : List Block} (h : ∀ b ∈ bs, b.Built) : ∀ e ∈ expensesOf bs, e.Built := by
  intro e he
  simp only [expensesOf, Block.expenses, List.mem_flatMap] at he
  obtain ⟨b, hb, x, hx, hf⟩ := he
  exact ((h b hb).2.1 x hx).2.1 e hf

omit [Sha512] C in
theorem take_of_count (hs : List Hash) (P : List Bill)
    (h : ∀ x, hs.count x ≤ (P.map Bill.hash).count x) :
    ∃ taken Q : List Bill, P.Perm (taken ++ Q) ∧ taken.map Bill.hash = hs := by
  induction hs generalizing P with
  | nil => exact ⟨[], P, .refl _, rfl⟩
  | cons y hs ih =>
    have h1 : y ∈ P.map Bill.hash := by
      refine List.count_pos_iff.mp (Nat.lt_of_lt_of_le ?_ (h y))
      simp
    obtain ⟨b, hb, rfl⟩ := List.mem_map.mp h1
    obtain ⟨s, t, rfl⟩ := List.append_of_mem hb
    obtain ⟨taken, Q, h2, h3⟩ := ih (s ++ t) (fun x => by
      have := h x
      simp only [List.count_cons, List.map_append, List.map_cons, List.count_append] at this ⊢
      omega)
    exact ⟨b :: taken, Q, List.perm_middle.trans (h2.cons b), by simp [h3]⟩

/-! ## C146 -/

/-- C146: if the blocks of a chain pass the audit, starting with the genesis bill, then what is left is
worth exactly as much as the genesis bill, in whole numbers, whatever was paid to whom; or two different
bills have texts with the same hash. -/
theorem C146_supply_constant (g : Genesis) (hg : g.Built) (bs : List Block) (hbs : ∀ b ∈ bs, b.Built)
    (R : List Bill) (h : Audit [g.bill] (expensesOf bs) R) :
    trueTotal R = g.bill.amount.toNat ∨
      ∃ k ∈ g.bill :: madeIn bs, ∃ s ∈ listedIn (expensesOf bs),
        ShaCollision k.hashedText s.hashedText := by
  have h0 : trueTotal [g.bill] = g.bill.amount.toNat := by simp [trueTotal]
  rw [← h0, madeIn_eq]
  exact h.total (by simpa using hg.1) (expensesOf_built hbs) (by rw [h0]; exact g.bill.amount.toNat_lt)

omit [Sha512] in
/-- C146: the hashes of the genesis bill and of the bills made are exactly those of the bills spent and
of those left, each as often. -/
theorem C146_each_bill_once (g : Genesis) (bs : List Block) (R : List Bill)
    (h : Audit [g.bill] (expensesOf bs) R) :
    ((g.bill :: madeIn bs).map Bill.hash).Perm (spentIn bs ++ R.map Bill.hash) ∧
    ∀ x, (spentIn bs).count x ≤ ((g.bill :: madeIn bs).map Bill.hash).count x := by
  have h1 : ((g.bill :: madeIn bs).map Bill.hash).Perm (spentIn bs ++ R.map Bill.hash) := by
    rw [madeIn_eq, spentIn_eq]
    exact h.balance
  refine ⟨h1, fun x => ?_⟩
  rw [h1.count_eq, List.count_append]
  omega

omit [Sha512] in
/-- C146: what is left does not depend on which bills were taken out of the list: two audits of the same
blocks leave bills with the same hashes. -/
theorem C146_outcome_unique (P R₁ R₂ : List Bill) (es : List Expense) (h₁ : Audit P es R₁)
    (h₂ : Audit P es R₂) : (R₁.map Bill.hash).Perm (R₂.map Bill.hash) :=
  (List.perm_append_left_iff _).mp (h₁.balance.symm.trans h₂.balance)

omit [Sha512] in
/-- C146: exactly which expenses pass: those where every bill listed up to some expense was, counted
by its hash, there in the beginning or made by the expenses before that one. -/
theorem C146_passes_iff (P : List Bill) (es : List Expense) :
    (∃ R, Audit P es R) ↔
      ∀ (pre : List Expense) (e : Expense) (post : List Expense), es = pre ++ e :: post →
        ∀ x, ((listedIn (pre ++ [e])).map Bill.hash).count x ≤
          ((P ++ madeBy pre).map Bill.hash).count x := by
  constructor
  · rintro ⟨R, h⟩ pre e post rfl x
    obtain ⟨M, h1, h2⟩ := h.split pre
    cases h2 with
    | pay hp ht _ =>
      have h3 := h1.balance.count_eq x
      have h4 := (hp.map Bill.hash).count_eq x
      rw [List.map_append, ht] at h4
      simp only [listedIn, List.flatMap_append, List.map_append, List.count_append, List.flatMap_cons,
        List.flatMap_nil, List.append_nil] at h3 h4 ⊢
      omega
  · intro h
    induction es generalizing P with
    | nil => exact ⟨P, .done P⟩
    | cons e es ih =>
      obtain ⟨taken, Q, h1, h2⟩ := take_of_count (e.content.source.map Bill.hash) P (fun x => by
        simpa [listedIn, madeBy] using h [] e es rfl x)
      obtain ⟨R, hR⟩ := ih (e.content.dest :: (e.content.remaining.toList ++ Q)) (by
        rintro pre e' post rfl x
        have h3 := h (e :: pre) e' post rfl x
        have h4 := (h1.map Bill.hash).count_eq x
        rw [List.map_append, h2] at h4
        simp only [listedIn, madeBy, List.cons_append, List.flatMap_append, List.map_append,
          List.map_cons, List.count_cons, List.count_append, List.flatMap_cons, List.flatMap_nil,
          List.append_nil] at h3 h4 ⊢
        omega)
      exact ⟨R, .pay h1 h2 hR⟩

/-- C146: in blocks that pass the audit, every bill that an expense lists has the hash of the genesis
bill or of a bill made by an expense before it, and the signature beside it opens the lock of that bill,
too; or whoever made the expense had broken SHA-512. -/
theorem C146_owners (g : Genesis) (hg : g.Built) (bs : List Block) (hbs : ∀ b ∈ bs, b.Built)
    (R : List Bill) (h : Audit [g.bill] (expensesOf bs) R) (pre post : List Expense) (e : Expense)
    (he : expensesOf bs = pre ++ e :: post) (i : Nat) (hi : i < e.content.source.length)
    (hj : i < e.signatures.length) :
    ∃ k ∈ g.bill :: madeBy pre, k.hash = (e.content.source[i]).hash ∧
      (Opens k.lock e.signatures[i] ∨ Broken k e.content.source[i] e.signatures[i]) := by
  have hb := expensesOf_built hbs
  rw [he] at h hb
  obtain ⟨M, h1, h2⟩ := h.split pre
  obtain ⟨p1, -, -, p4⟩ := (hb e (by simp)).parts
  cases h2 with
  | @pay _ Q _ taken _ _ hp ht _ =>
    have hl : i < taken.length := by
      have := congrArg List.length ht
      simp only [List.length_map] at this
      omega
    have hk : taken[i] ∈ g.bill :: madeBy pre := by
      have := h1.left taken[i] (hp.mem_iff.mpr (by simp))
      simpa using this
    have hh : (taken[i]).hash = (e.content.source[i]).hash := by
      have := congrArg (fun l => l[i]?) ht
      simpa [hl, hi] using this
    refine ⟨taken[i], hk, hh, ?_⟩
    refine opens_same_hash ?_ (p1 _ (by simp)) hh ((List.forall₂_iff_get.mp p4).2 i hi hj)
    rcases List.mem_cons.mp hk with hk | hk
    · rw [hk]; exact hg.1
    · obtain ⟨x, hx, hk⟩ := List.mem_flatMap.mp hk
      exact (hb x (by simp [hx])).parts.2.1 _ hk

/-- C146 (negation of "the builders make this audit"): whatever the blocks before, everybody with a
private key at most `largestFactor` can make a block with which they do not pass, and which all of the
builders accept; or two different bills have texts with the same hash. -/
theorem C146_not_audited_neg (g : Genesis) (hg : g.Built) (bs : List Block)
    (hbs : ∀ b ∈ bs, b.Built) (x : Scalar) (hx : x.Fits) (a : UInt64) (ha : 0 < a.toNat)
    (hnew : ∀ k ∈ g.bill :: madeIn bs, k.lock.hash = fromBytes (ptStr (publicKey x)) → k.amount ≠ a)
    (l : Lock) (hl : l.Built) (n : UInt64) (t : Time) :
    ∃ (b : Block) (own : Lock), b.Built ∧ b.genesis = g ∧
      lockNow (some [fromBytes (ptStr (publicKey x))]) t = .ok own ∧
      ((∀ R, ¬ Audit [g.bill] (expensesOf (bs ++ [b])) R) ∨
        ∃ k ∈ g.bill :: madeIn bs, ShaCollision (own.hash.bytes ++ itoaU a) k.hashedText) := by
  obtain ⟨own, bill, sig, c, e, trx, b, h1, h2, -, hc, he, hx', h7, h8, -, -, -, h12⟩ :=
    C131_made_up_bill_neg g hg bs hbs x hx a ha hnew l hl n t
  refine ⟨b, own, h8, ?_, h1, h12.imp (fun hn R hR => hn ?_) id⟩
  · obtain ⟨_, _, e1, -, -, rfl⟩ := blockNow_eq_ok.mp h7
    exact (Option.some.inj e1).symm
  · rw [expensesOf_append] at hR
    obtain ⟨M, h3, h4⟩ := hR.split
    have h5 : bill.hash ∈ M.map Bill.hash := by
      have h9 : expensesOf [b] = [e] := by
        obtain ⟨-, rfl⟩ := trxNow_eq_ok.mp hx'
        obtain ⟨_, _, -, e2, -, rfl⟩ := blockNow_eq_ok.mp h7
        simp [expensesOf, Block.expenses, ← Option.some.inj e2]
      have h10 : e.content.source = [bill] := by
        obtain ⟨he', -⟩ := C26_built_expense _ _ _ he
        obtain ⟨_, _, e1, -, -, -, -, hcd⟩ := contentNow_eq_ok.mp hc
        rw [← Option.some.inj he', hcd]
        exact (Option.some.inj e1).symm
      rw [h9] at h4
      cases h4 with
      | @pay _ Q _ taken _ _ hp ht _ =>
        rw [(hp.map Bill.hash).mem_iff, List.map_append, ht, h10]
        simp
    obtain ⟨k, hk, hkh⟩ := List.mem_map.mp h5
    rw [madeIn_eq, ← hkh]
    exact List.mem_map_of_mem (by simpa using h3.left k hk)

end

section examples

attribute [local instance] toyCurve toySha

/-- C146: a genesis bill of 5 that can be spent, and a block that pays 3 out of it and gives 2 back: it
passes the audit, and 3 and 2 are left. -/
example : ∃ (g : Genesis) (b : Block) (e : Expense) (R : List Bill), g.Built ∧ b.Built ∧
    b.genesis = g ∧ expensesOf [b] = [e] ∧ e.content.source.length = 1 ∧
    Audit [g.bill] (expensesOf [b]) R ∧ R.map Bill.amount = [3, 2] := by
  obtain ⟨l, sig, h1, h2⟩ := toy_openable
  set bill : Bill := ⟨fromBytes (l.hash.bytes ++ itoaU 5), l, 5, 0⟩ with hbd
  have hbb : bill.Built := ⟨h1, some l, 5, 0, billNow_eq_ok.mpr ⟨_, rfl, by decide, rfl⟩⟩
  have hs : sourceTotal [bill] = 5 := by simp [sourceTotal, hbd]
  obtain ⟨c, hc⟩ : ∃ c, contentNow 3 (some [bill]) (some (toyLock 3)) (some (toyLock 4)) 0 = .ok c :=
    ⟨_, contentNow_eq_ok.mpr ⟨_, _, rfl, rfl, by decide, by rw [hs]; decide, by rw [hs]; simp, rfl⟩⟩
  obtain ⟨_, _, e1, e2, -, -, -, hcd⟩ := contentNow_eq_ok.mp hc
  simp only [Option.some.injEq] at e1 e2
  subst e1 e2
  obtain ⟨e, he, hec⟩ : ∃ e, expenseNow (some c) (some [sig]) = .ok e ∧ e.content = c :=
    ⟨_, expenseNow_eq_ok.mpr ⟨c, [sig], rfl, rfl, by rw [hcd]; exact .cons h2 .nil, rfl⟩, rfl⟩
  have heb : e.Built := ⟨⟨_, _, _, _, _, hec ▸ hc, by simpa using hbb, toyLock_built 3, by
    rintro r hr
    obtain rfl := Option.some.inj hr
    exact toyLock_built 4⟩, _, _, he⟩
  obtain ⟨g, hg, hgb⟩ : ∃ g, genesisNow 1 (.fin (1 / 2)) 3 (some bill) 0 = .ok g ∧ g.bill = bill :=
    ⟨_, genesisNow_eq_ok.mpr ⟨_, rfl, by decide, by simp [Flt.le0], by decide, rfl⟩, rfl⟩
  have hgB : g.Built := ⟨hgb ▸ hbb, _, _, _, _, _, hg⟩
  obtain ⟨x, hx, hxa, hxf⟩ : ∃ x, trxNow none none [e] 0 = .ok x ∧ x.address = none ∧ x.fees = [e] :=
    ⟨_, trxNow_eq_ok.mpr ⟨by simp, rfl⟩, rfl, rfl⟩
  obtain ⟨b, hb, hbg, hbx⟩ : ∃ b, blockNow (some g) 0 (some [x]) 0 = .ok b ∧ b.genesis = g ∧
      b.trx = [x] := ⟨_, blockNow_eq_ok.mpr ⟨_, _, rfl, rfl, by simp, rfl⟩, rfl, rfl⟩
  have hes : expensesOf [b] = [e] := by simp [expensesOf, Block.expenses, hbx, hxf]
  refine ⟨g, b, e, e.content.dest :: e.content.remaining.toList, hgB, ⟨hbg ▸ hgB, ?_, _, _, _, _, hb⟩,
    hbg, hes, by rw [hec, hcd]; rfl, ?_, ?_⟩
  · rw [hbx]
    intro y hy
    obtain rfl := List.mem_singleton.mp hy
    exact ⟨by simp [hxa], by simpa [hxf] using heb, _, _, _, _, hx⟩
  · rw [hes]
    refine .pay (taken := [bill]) (Q := []) (by simp [hgb]) (by rw [hec, hcd]) ?_
    rw [List.append_nil]
    exact .done _
  · rw [hec, hcd, hs]
    rfl

/-- C146: with the toy genesis, whose bill is worth 5, a payment of 1000 is accepted. -/
example : ∃ b : Block, b.Built ∧ b.genesis = toyGenesis := by
  obtain ⟨b, _, h1, h2, -⟩ := C146_not_audited_neg toyGenesis
    ⟨toyBill_built 1 5 (by decide), _, _, _, _, _, toyGenesis_now⟩ []
    (by simp) (toySc 2) (by decide) 1000 (by decide)
    (by simp [madeIn, toyGenesis, toyBill]) (toyLock 3) (toyLock_built 3) 0 0
  exact ⟨b, h1, h2⟩

end examples

end Verif
