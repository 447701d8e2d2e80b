import Verif.Props.Binding
import Verif.Props.Expense
import Verif.Props.Encryption
import Verif.Props.Json

/-!
# What a hash commits to, exactly: C23, C28, C43, C44, C45, C74, C76, C84

The theorems of `Expense.lean`, `Entities.lean` and `Buckets.lean` say what follows from equal hashes. Here
the converse is added, so that the hash is shown to depend on nothing else. For expenses the texts of the
signatures are shown to be separable although they are hashed without separation.
-/

namespace Verif

section
variable [Sha512]

omit [Sha512] in
private theorem iff_of_binds {p q r : Prop} (h : p → q ∨ r) (h' : q → p) : (p ↔ q) ∨ r := by
  by_cases hp : p
  · exact (h hp).imp (fun hq => iff_of_true hp hq) id
  · exact .inl (iff_of_false hp fun hq => hp (h' hq))

/-- C23, exactly when two bills have the same hash. -/
theorem C23_same_hash_iff {l₁ l₂ : Option Lock} {a₁ a₂ : UInt64} {t₁ t₂ : Time} {b₁ b₂ : Bill}
    (h₁ : billNow l₁ a₁ t₁ = .ok b₁) (h₂ : billNow l₂ a₂ t₂ = .ok b₂) :
    (b₁.hash = b₂.hash ↔ b₁.lock.hash = b₂.lock.hash ∧ b₁.amount = b₂.amount) ∨
    ShaCollision (b₁.lock.hash.bytes ++ itoaU b₁.amount) (b₂.lock.hash.bytes ++ itoaU b₂.amount) := by
  refine iff_of_binds (C23_bill_hash_binds _ _ _ _ _ _ _ _ h₁ h₂) ?_
  obtain ⟨l₁, rfl, -, rfl⟩ := billNow_eq_ok.mp h₁
  obtain ⟨l₂, rfl, -, rfl⟩ := billNow_eq_ok.mp h₂
  rintro ⟨e, e'⟩
  simp only at e e'
  simp only [e, e']

/-- C28, exactly when two contents have the same hash: when they pay the same amount to locks with the same
hash, and the hashes of the bills spent, followed by the hash of the lock for the remaining amount if there
is one, are the same; unless the two texts are an explicit collision. -/
theorem C28_same_hash_iff {a₁ a₂ : UInt64} {s₁ s₂ : List Bill} {l₁ l₂ : Lock} {r₁ r₂ : Option Lock}
    {t₁ t₂ : Time} {c₁ c₂ : Content} (h₁ : contentNow a₁ (some s₁) (some l₁) r₁ t₁ = .ok c₁)
    (h₂ : contentNow a₂ (some s₂) (some l₂) r₂ t₂ = .ok c₂) :
    (c₁.hash = c₂.hash ↔ l₁.hash = l₂.hash ∧ a₁ = a₂ ∧
      s₁.map Bill.hash ++ r₁.toList.map Lock.hash = s₂.map Bill.hash ++ r₂.toList.map Lock.hash) ∨
    ShaCollision (contentData l₁ a₁ s₁ r₁).flatten (contentData l₂ a₂ s₂ r₂).flatten := by
  obtain ⟨_, _, e1, e2, -, -, -, rfl⟩ := contentNow_eq_ok.mp h₁
  cases e1; cases e2
  obtain ⟨_, _, e1, e2, -, -, -, rfl⟩ := contentNow_eq_ok.mp h₂
  cases e1; cases e2
  have n1 := contentData_length l₁ a₁ s₁ r₁
  have n2 := contentData_length l₂ a₂ s₂ r₂
  refine iff_of_binds (fun h => ?_) ?_
  · rcases fromBytes_eq_red (by omega) (by omega) h with h | h
    · left
      rw [contentData_flatten, contentData_flatten] at h
      obtain ⟨h1, h2⟩ := hash_append_inj h
      obtain ⟨h2, h3⟩ := num_hashes_inj h2
      refine ⟨h1, h2, ?_⟩
      cases r₁ <;> cases r₂ <;> simpa using h3
    · exact .inr h
  · rintro ⟨e1, e2, e3⟩
    simp only [contentData_flatten]
    rw [e1, e2]
    congr 3
    have := congrArg hashesBytes e3
    cases r₁ <;> cases r₂ <;> simpa using this

section
variable [C : Curve]

/-- C43, exactly when two links have the same hash. -/
theorem C43_same_hash_iff {p₁ p₂ : Option Hash} {n₁ n₂ : Option Block} {i₁ i₂ : UInt64}
    {t₁ t₂ : Time} {l₁ l₂ : Link} (h₁ : linkNow p₁ n₁ i₁ t₁ = .ok l₁)
    (h₂ : linkNow p₂ n₂ i₂ t₂ = .ok l₂) :
    (l₁.hash = l₂.hash ↔
      l₁.prevLink = l₂.prevLink ∧ l₁.next.hash = l₂.next.hash ∧ l₁.index = l₂.index) ∨
    ShaCollision (l₁.prevLink.bytes ++ (l₁.next.hash.bytes ++ itoaU l₁.index))
      (l₂.prevLink.bytes ++ (l₂.next.hash.bytes ++ itoaU l₂.index)) := by
  refine iff_of_binds (C43_link_hash_binds _ _ _ _ _ _ _ _ _ _ h₁ h₂) ?_
  obtain ⟨_, _, rfl, rfl, rfl⟩ := linkNow_eq_ok.mp h₁
  obtain ⟨_, _, rfl, rfl, rfl⟩ := linkNow_eq_ok.mp h₂
  rintro ⟨e, e', e''⟩
  simp only at e e' e''
  simp only [e, e', e'']

/-- C44, exactly when two blocks have the same hash. -/
theorem C44_same_hash_iff {g₁ g₂ : Option Genesis} {n₁ n₂ : UInt64}
    {x₁ x₂ : Option (List Transaction)} {t₁ t₂ : Time} {b₁ b₂ : Block}
    (h₁ : blockNow g₁ n₁ x₁ t₁ = .ok b₁) (h₂ : blockNow g₂ n₂ x₂ t₂ = .ok b₂) :
    (b₁.hash = b₂.hash ↔ b₁.genesis.hash = b₂.genesis.hash ∧ b₁.additional = b₂.additional ∧
      b₁.trx.map Transaction.hash = b₂.trx.map Transaction.hash) ∨
    ShaCollision
      (b₁.genesis.hash.bytes ++ (itoaU b₁.additional ++ hashesBytes (b₁.trx.map Transaction.hash)))
      (b₂.genesis.hash.bytes ++
        (itoaU b₂.additional ++ hashesBytes (b₂.trx.map Transaction.hash))) := by
  refine iff_of_binds (C44_block_hash_binds _ _ _ _ _ _ _ _ _ _ h₁ h₂) ?_
  obtain ⟨_, _, -, -, -, rfl⟩ := blockNow_eq_ok.mp h₁
  obtain ⟨_, _, -, -, -, rfl⟩ := blockNow_eq_ok.mp h₂
  rintro ⟨e, e', e''⟩
  simp only at e e' e''
  simp only [e, e', e'']

/-- C45, exactly when two chains have the same hash. -/
theorem C45_same_hash_iff {g₁ g₂ : Option Genesis} {r₁ r₂ : Option MinedBlock}
    {k₁ k₂ : Option MinedLink} {n₁ n₂ : UInt64} {t₁ t₂ : Time} {c₁ c₂ : Chain}
    (h₁ : chainNow g₁ r₁ k₁ n₁ t₁ = .ok c₁) (h₂ : chainNow g₂ r₂ k₂ n₂ t₂ = .ok c₂) :
    (c₁.hash = c₂.hash ↔ c₁.genesis.hash = c₂.genesis.hash ∧ c₁.root.hash = c₂.root.hash ∧
      c₁.head.hash = c₂.head.hash ∧ c₁.total = c₂.total) ∨
    ShaCollision
      (c₁.genesis.hash.bytes ++ (c₁.root.hash.bytes ++ (c₁.head.hash.bytes ++ itoaU c₁.total)))
      (c₂.genesis.hash.bytes ++ (c₂.root.hash.bytes ++ (c₂.head.hash.bytes ++ itoaU c₂.total))) := by
  refine iff_of_binds (C45_chain_hash_binds _ _ _ _ _ _ _ _ _ _ _ _ h₁ h₂) ?_
  obtain ⟨_, _, _, -, -, -, -, rfl⟩ := chainNow_eq_ok.mp h₁
  obtain ⟨_, _, _, -, -, -, -, rfl⟩ := chainNow_eq_ok.mp h₂
  rintro ⟨e, e', e'', e'''⟩
  simp only at e e' e'' e'''
  simp only [e, e', e'', e''']

/-- C76, exactly when two states have the same hash. -/
theorem C76_same_hash_iff {c₁ c₂ p₁ p₂ : Option Hash} {n₁ n₂ : UInt64}
    {x₁ x₂ : Option (List Transaction)} {t₁ t₂ : Time} {s₁ s₂ : State}
    (h₁ : stateNow c₁ p₁ n₁ x₁ t₁ = .ok s₁) (h₂ : stateNow c₂ p₂ n₂ x₂ t₂ = .ok s₂) :
    (s₁.hash = s₂.hash ↔ s₁.chain = s₂.chain ∧ s₁.previous = s₂.previous ∧ s₁.height = s₂.height ∧
      s₁.trx.map Transaction.hash = s₂.trx.map Transaction.hash) ∨
    ShaCollision
      (s₁.chain.bytes ++ (s₁.previous.bytes ++
        (itoaU s₁.height ++ hashesBytes (s₁.trx.map Transaction.hash))))
      (s₂.chain.bytes ++ (s₂.previous.bytes ++
        (itoaU s₂.height ++ hashesBytes (s₂.trx.map Transaction.hash)))) := by
  refine iff_of_binds (C76_state_hash_binds _ _ _ _ _ _ _ _ _ _ _ _ h₁ h₂) ?_
  obtain ⟨_, _, _, -, -, -, -, -, rfl⟩ := stateNow_eq_ok.mp h₁
  obtain ⟨_, _, _, -, -, -, -, -, rfl⟩ := stateNow_eq_ok.mp h₂
  rintro ⟨e, e', e'', e'''⟩
  simp only at e e' e'' e'''
  simp only [e, e', e'', e''']

end

/-- C84, exactly when two chunks have the same hash. -/
theorem C84_chunk_same_hash_iff {n n' : UInt64} {d d' : Option Hash} {t t' : Time} {c c' : Chunk}
    (hc : chunkNow n d t = .ok c) (hc' : chunkNow n' d' t' = .ok c') :
    (c.hash = c'.hash ↔ c.sizeInBytes = c'.sizeInBytes ∧ c.data = c'.data) ∨
      ShaCollision (itoaU n ++ c.data.bytes) (itoaU n' ++ c'.data.bytes) := by
  refine iff_of_binds (C84_chunk_binding hc hc') ?_
  obtain ⟨_, -, -, rfl⟩ := chunkNow_eq_ok.mp hc
  obtain ⟨_, -, -, rfl⟩ := chunkNow_eq_ok.mp hc'
  rintro ⟨e, e'⟩
  simp only at e e'
  simp only [e, e']

end

/-! ## The texts of signatures, written one after the other -/

theorem b64Encode_append : ∀ {x : Bytes}, x.length % 3 = 0 → ∀ y, b64Encode (x ++ y) = b64Encode x ++ b64Encode y
  | [], _, _ => rfl
  | [_], h, _ => by simp at h
  | [_, _], h, _ => by simp at h
  | a :: b :: c :: x, h, y => by
    simp only [List.cons_append, b64Encode]
    rw [b64Encode_append (by simp only [List.length_cons] at h; omega) y]

/-- If an encoding is the beginning of another one, the encoded bytes are, or the texts are the same. -/
theorem b64Encode_prefix {x y r : Bytes} (h : b64Encode x ++ r = b64Encode y) :
    (∃ z, y = x ++ z) ∨ x = y := by
  have hl := congrArg List.length h
  rw [List.length_append, b64Encode_length, b64Encode_length] at hl
  by_cases h3 : x.length % 3 = 0
  · by_cases hle : x.length ≤ y.length
    swap
    · have hr : r = [] := List.length_eq_zero_iff.mp (by omega)
      rw [hr, List.append_nil] at h
      exact .inr (b64Encode_injective h)
    left
    refine ⟨y.drop x.length, ?_⟩
    have hs : y = y.take x.length ++ y.drop x.length := (List.take_append_drop _ _).symm
    have ht : (y.take x.length).length = x.length := by simp; omega
    rw [hs, b64Encode_append (by rw [ht]; exact h3)] at h
    have := (List.append_inj h (by rw [b64Encode_length, b64Encode_length, ht])).1
    rw [← b64Encode_injective this] at hs
    exact hs
  · right
    obtain ⟨-, body, pad, e, rfl, -⟩ := C54_base64_alphabet x
    obtain ⟨-, body', pad', e', rfl, hb'⟩ := C54_base64_alphabet y
    have lx := congrArg List.length e
    have ly := congrArg List.length e'
    rw [b64Encode_length, List.length_append, List.length_replicate] at lx ly
    -- the last character of the encoding of `x` is a padding character of the other one
    have hget : (b64Encode y)[(b64Encode x).length - 1]? = some 61 := by
      rw [← h, List.getElem?_append_left (by rw [b64Encode_length]; omega), e,
        List.getElem?_append_right (by rw [List.length_append, List.length_replicate]; omega)]
      rw [List.getElem?_replicate, if_pos (by rw [List.length_append, List.length_replicate]; omega)]
    have hpos : body'.length ≤ (b64Encode x).length - 1 := by
      by_contra hlt
      rw [e', List.getElem?_append_left (by omega)] at hget
      have := hb' 61 (List.mem_of_getElem? hget)
      revert this
      decide
    rw [b64Encode_length] at hpos
    have hr : r = [] := by
      apply List.length_eq_zero_iff.mp
      omega
    rw [hr, List.append_nil] at h
    exact b64Encode_injective h

section
variable [C : Curve]

omit C in
private theorem not35_hex (x : Bytes) : (35 : UInt8) ∉ hexEncode x := by
  intro h
  have := hexEncode_alphabet x 35 h
  revert this
  decide

omit C in
private theorem not35_elements {l : List Bytes} (h : ∀ x ∈ l, (35 : UInt8) ∉ x) : 35 ∉ elements l := by
  intro hm
  simp only [elements, List.mem_flatten, List.mem_map] at hm
  obtain ⟨_, ⟨x, hx, rfl⟩, hc⟩ := hm
  rcases List.mem_append.mp hc with hc | hc
  · exact h x hx hc
  · simp at hc

omit C in
private theorem cut35 {a a' b b' : Bytes} (ha : 35 ∉ a) (ha' : 35 ∉ a') (h : a ++ 35 :: b = a' ++ 35 :: b') :
    a = a' ∧ b = b' := by
  induction a generalizing a' with
  | nil =>
    cases a' with
    | nil => simpa using h
    | cons x a' => simp at h; simp [← h.1] at ha'
  | cons y a ih =>
    cases a' with
    | nil => simp at h; simp [h.1] at ha
    | cons x a' =>
      simp only [List.cons_append, List.cons.injEq] at h
      simp only [List.mem_cons, not_or] at ha ha'
      obtain ⟨e, e'⟩ := ih ha.2 ha'.2 h.2
      exact ⟨by rw [h.1, e], e'⟩

/-- No text of a ring signature is the beginning of another one. -/
theorem ringStr_prefix {x y : RingSignature} {u v : Bytes} (h : x.str ++ u = y.str ++ v) :
    x.str = y.str := by
  -- the shorter one is a prefix
  have key : ∀ {x y : RingSignature} {r : Bytes}, x.str ++ r = y.str → x.str = y.str := by
    intro x y r h
    rcases b64Encode_prefix h with ⟨z, e⟩ | e
    · have hn : ∀ s : RingSignature, (35 : UInt8) ∉ elements (s.ring.map ptStr) ∧
          (35 : UInt8) ∉ elements (s.s.map scStr) := fun s =>
        ⟨not35_elements fun t ht => by
          obtain ⟨p, -, rfl⟩ := List.mem_map.mp ht; exact not35_hex _,
         not35_elements fun t ht => by
          obtain ⟨p, -, rfl⟩ := List.mem_map.mp ht; exact not35_hex _⟩
      have e' := e
      simp only [List.append_assoc, List.cons_append] at e'
      obtain ⟨-, e'⟩ := cut35 (hn y).1 (hn x).1 e'
      obtain ⟨-, e'⟩ := cut35 (hn y).2 (hn x).2 e'
      have hz := congrArg List.length e'
      rw [List.length_append, scStr_length, scStr_length] at hz
      have hz : z = [] := List.length_eq_zero_iff.mp (by omega)
      rw [hz, List.append_nil] at e
      unfold RingSignature.str
      rw [e]
    · exact congrArg b64Encode e
  rcases List.append_eq_append_iff.mp h with ⟨r, e, -⟩ | ⟨r, e, -⟩
  · exact key e.symm
  · exact (key e.symm).symm

/-- The texts of signatures, written one after the other, determine the list of texts. -/
theorem ringStrs_injective : ∀ {l l' : List RingSignature},
    (l.map RingSignature.str).flatten = (l'.map RingSignature.str).flatten →
    l.map RingSignature.str = l'.map RingSignature.str
  | [], [], _ => rfl
  | [], y :: l', h => by
    have := ringStr_ne_nil y
    simp only [List.map_nil, List.flatten_nil, List.map_cons, List.flatten_cons] at h
    exact absurd (List.append_eq_nil_iff.mp h.symm).1 this
  | x :: l, [], h => by
    have := ringStr_ne_nil x
    simp only [List.map_nil, List.flatten_nil, List.map_cons, List.flatten_cons] at h
    exact absurd (List.append_eq_nil_iff.mp h).1 this
  | x :: l, y :: l', h => by
    simp only [List.map_cons, List.flatten_cons] at h ⊢
    have e := ringStr_prefix h
    rw [e] at h
    rw [e, ringStrs_injective (List.append_cancel_left h)]

/-- Signatures have the same text exactly when they are the same up to the encoding of their scalars. -/
theorem ringStr_eq_iff {x y : RingSignature} : x.str = y.str ↔ x.reduced = y.reduced := by
  constructor
  · intro h
    have := toRingSignature_str x
    rw [h, toRingSignature_str y] at this
    simpa [RingSignature.reduced] using this.symm
  · intro h
    have key : ∀ z : RingSignature, z.reduced.str = z.str := by
      intro z
      obtain ⟨z', h1, -, -, -, h2⟩ := C15_text_round_trip z
      rw [toRingSignature_str z] at h1
      cases h1
      exact h2
    rw [← key x, h, key y]

/-- The texts of signatures, written one after the other, are the same exactly when the signatures are, up to
the encoding of their scalars. -/
theorem ringStrs_eq_iff {l l' : List RingSignature} :
    (l.map RingSignature.str).flatten = (l'.map RingSignature.str).flatten ↔
      l.map RingSignature.reduced = l'.map RingSignature.reduced := by
  have hr : ∀ l l' : List RingSignature, l.map RingSignature.str = l'.map RingSignature.str ↔
      l.map RingSignature.reduced = l'.map RingSignature.reduced := by
    intro l
    induction l with
    | nil => intro l'; cases l' <;> simp
    | cons x l ih =>
      intro l'
      cases l' with
      | nil => simp
      | cons y l' => simp only [List.map_cons, List.cons.injEq, ih, ringStr_eq_iff]
  exact ⟨fun h => (hr _ _).mp (ringStrs_injective h), fun h => by rw [(hr _ _).mpr h]⟩

variable [Sha512]

/-- C74, exactly when two expenses have the same hash: when their contents have the same hash and they have
the same signatures, in the same order, up to the encoding of the scalars; unless the two texts are an
explicit collision. -/
theorem C74_same_hash_iff {e₁ e₂ : Expense} (b₁ : e₁.Built) (b₂ : e₂.Built) :
    (e₁.hash = e₂.hash ↔ e₁.content.hash = e₂.content.hash ∧
      e₁.signatures.map RingSignature.reduced = e₂.signatures.map RingSignature.reduced) ∨
    ShaCollision (e₁.content.hash.bytes ++ (e₁.signatures.map RingSignature.str).flatten)
      (e₂.content.hash.bytes ++ (e₂.signatures.map RingSignature.str).flatten) := by
  refine iff_of_binds (fun h => (C74_expense_hash_binds e₁ e₂ b₁ b₂ h).imp (fun ⟨h1, h2⟩ =>
    ⟨h1, ringStrs_eq_iff.mp h2⟩) id) ?_
  rintro ⟨h1, h2⟩
  have key : ∀ e : Expense, e.Built → e.hash = fromBytes (e.content.hash.bytes ++
      (e.signatures.map RingSignature.str).flatten) := by
    rintro e ⟨-, c, sigs, he⟩
    obtain ⟨cn, sg, rfl, rfl, hf, rfl⟩ := expenseNow_eq_ok.mp he
    rfl
  rw [key _ b₁, key _ b₂, h1, ringStrs_eq_iff.mpr h2]

end

section examples

attribute [local instance] toyCurve toySha

/-- C23, C28, C44, C43: built objects, from which the hypotheses are met. -/
example : (toyBill 1 5).Built ∧ (toyBill 2 7).Built ∧ (toyBill 1 5).lock.hash ≠ (toyBill 2 7).lock.hash :=
  ⟨toyBill_built 1 5 (by decide), toyBill_built 2 7 (by decide), toyHash_ne (by decide)⟩

/-- C74: an expense with a real signature. -/
example : ∃ e : Expense, e.Built ∧ e.signatures ≠ [] := by
  obtain ⟨l, sig, h1, h2⟩ := toy_openable
  obtain ⟨e, he, hs⟩ := exists_expense h1 h2
  exact ⟨e, he, by simp [hs]⟩

end examples

end Verif
