import Verif.Base.BigNat

/-!
# Distinguished encoding rules (`encoding/asn1`), as far as RSA keys need them

Values with a one byte tag and definite length, and integers.  Errors are `none`.
-/

namespace Verif

set_option maxRecDepth 20000

/-- Tag of `INTEGER`. -/
def tagInteger : UInt8 := 2

/-- Tag of `SEQUENCE` (constructed). -/
def tagSequence : UInt8 := 48

/-- The octets of a non-negative integer: `makeBigInt` (and `int64Encoder`) of `marshal.go`. -/
def derNat (n : Nat) : Bytes :=
  if n = 0 then [0]
  else if 128 ≤ (beBytes n).headD 0 then 0 :: beBytes n
  else beBytes n

/-- `parseBigInt` of `asn1.go` with `checkInteger`: two's complement, the shortest form only. -/
def derIntVal (b : Bytes) : Option Int :=
  match b with
  | [] => none
  | x :: t =>
    if (x = 0 ∧ t ≠ [] ∧ t.headD 0 < 128) ∨ (x = 255 ∧ t ≠ [] ∧ 128 ≤ t.headD 0) then none
    else if 128 ≤ x then some (-((beNat (b.map (255 - ·)) : Nat) + 1 : Int))
    else some (beNat b : Nat)

/-- `appendTagAndLength` of `marshal.go`: the short form below 128, then the shortest long form. -/
def derLen (n : Nat) : Bytes :=
  if n < 128 then [UInt8.ofNat n]
  else UInt8.ofNat (128 + (beBytes n).length) :: beBytes n

/-- Tag, length, contents. -/
def tlv (tag : UInt8) (c : Bytes) : Bytes := tag :: (derLen c.length ++ c)

/-- The loop of `parseTagAndLength` over the octets of a long length. -/
def lenLoop : Nat → Nat → Bytes → Option (Nat × Bytes)
  | 0, len, rest => some (len, rest)
  | _ + 1, _, [] => none
  | k + 1, len, x :: rest =>
    if 2 ^ 23 ≤ len then none
    else if len * 256 + x.toNat = 0 then none
    else lenLoop k (len * 256 + x.toNat) rest

/-- The first `n` bytes and the others, if there are as many. -/
def cutBytes (n : Nat) (b : Bytes) : Option (Bytes × Bytes) :=
  if n ≤ b.length then some (b.take n, b.drop n) else none

/-- `parseTagAndLength` followed by the comparison of the tag and the check of the length in
`parseField`: contents and the bytes behind. -/
def derCut (tag : UInt8) (b : Bytes) : Option (Bytes × Bytes) :=
  match b with
  | t :: l :: rest =>
    if t ≠ tag then none
    else if l < 128 then cutBytes l.toNat rest
    else if l = 128 then none
    else
      match lenLoop (l.toNat - 128) 0 rest with
      | none => none
      | some (n, rest') => if n < 128 then none else cutBytes n rest'
  | _ => none

/-- A mandatory integer field: value and the bytes behind. -/
def derInt (b : Bytes) : Option (Int × Bytes) :=
  match derCut tagInteger b with
  | none => none
  | some (c, rest) =>
    match derIntVal c with
    | none => none
    | some v => some (v, rest)

theorem cutBytes_append (c rest : Bytes) : cutBytes c.length (c ++ rest) = some (c, rest) := by
  simp [cutBytes]

theorem cutBytes_eq_some {n : Nat} {b c rest : Bytes} (h : cutBytes n b = some (c, rest)) :
    c.length = n ∧ b = c ++ rest := by
  unfold cutBytes at h
  split at h
  · simp only [Option.some.injEq, Prod.mk.injEq] at h
    obtain ⟨rfl, rfl⟩ := h
    simp; assumption
  · simp at h

theorem lenLoop_append (rest : Bytes) : ∀ (b : Bytes) (acc : Nat),
    acc * 256 ^ b.length + beNat b < 2 ^ 31 → (0 < acc ∨ b.headD 1 ≠ 0) →
    lenLoop b.length acc (b ++ rest) = some (acc * 256 ^ b.length + beNat b, rest)
  | [], acc, _, _ => by simp [lenLoop]
  | x :: b, acc, h, h0 => by
    rw [beNat_cons] at h
    have hp : 1 ≤ 256 ^ b.length := Nat.pow_pos (by decide)
    simp only [List.length_cons, pow_succ] at h
    have hacc : acc < 2 ^ 23 := by nlinarith
    have hne : 0 < acc * 256 + x.toNat := by
      rcases h0 with h0 | h0
      · omega
      · rcases Nat.eq_zero_or_pos x.toNat with hx | hx
        · exact absurd (UInt8.toNat_inj.mp (by simpa using hx)) h0
        · omega
    simp only [List.length_cons, List.cons_append, lenLoop]
    rw [if_neg (by omega), if_neg (by omega), lenLoop_append rest b _ ?_ (Or.inl hne), beNat_cons]
    · congr 2
      ring
    · nlinarith

theorem lenLoop_eq_some : ∀ {k acc n : Nat} {b rest : Bytes},
    lenLoop k acc b = some (n, rest) →
    ∃ p : Bytes, p.length = k ∧ b = p ++ rest ∧ n = acc * 256 ^ k + beNat p ∧
      (0 < k → acc = 0 → p.headD 0 ≠ 0)
  | 0, acc, n, b, rest, h => by
    simp only [lenLoop, Option.some.injEq, Prod.mk.injEq] at h
    obtain ⟨rfl, rfl⟩ := h
    exact ⟨[], rfl, rfl, by simp, by simp⟩
  | k + 1, acc, n, [], rest, h => by simp [lenLoop] at h
  | k + 1, acc, n, x :: b, rest, h => by
    simp only [lenLoop] at h
    split at h
    · simp at h
    · split at h
      · simp at h
      · rename_i h0
        obtain ⟨p, hl, hb, hn, _⟩ := lenLoop_eq_some h
        refine ⟨x :: p, by simp [hl], by simp [hb], ?_, ?_⟩
        · rw [hn, beNat_cons, hl]; ring
        · intro _ ha
          simp only [List.headD_cons]
          rintro rfl
          simp [ha] at h0

/-- Lengths below 2³¹ take at most four octets. -/
theorem beBytes_length_of_lt {n : Nat} (h : n < 2 ^ 31) : (beBytes n).length ≤ 4 :=
  beBytes_length_le.mpr (by omega)

theorem derCut_tlv (tag : UInt8) (c rest : Bytes) (h : c.length < 2 ^ 31) :
    derCut tag (tlv tag c ++ rest) = some (c, rest) := by
  unfold tlv derLen
  split
  · rename_i h1
    simp only [List.cons_append, List.nil_append, derCut, ne_eq, not_true_eq_false, if_false]
    have h2 : (UInt8.ofNat c.length).toNat = c.length := by simp; omega
    rw [if_pos (by rw [UInt8.lt_iff_toNat_lt, h2]; exact h1), h2, cutBytes_append]
  · rename_i h1
    have h4 := beBytes_length_of_lt h
    have hpos : 0 < c.length := by omega
    obtain ⟨x, t, e, hx⟩ := beBytes_head hpos
    have h2 : (UInt8.ofNat (128 + (beBytes c.length).length)).toNat
        = 128 + (beBytes c.length).length := by
      rw [UInt8.toNat_ofNat']; omega
    have h3 : 0 < (beBytes c.length).length := by rw [e]; simp
    simp only [List.cons_append, derCut, ne_eq, not_true_eq_false, if_false]
    rw [if_neg (by rw [UInt8.lt_iff_toNat_lt, h2]; simp),
      if_neg (by
        intro e'
        have h5 : (128 : UInt8).toNat = 128 := rfl
        rw [← e', h2] at h5
        omega),
      h2, Nat.add_sub_cancel_left, List.append_assoc,
      lenLoop_append _ _ _ (by rw [beNat_beBytes]; omega) (Or.inr (by rw [e]; simpa using hx))]
    simp only [beNat_beBytes, Nat.zero_mul, Nat.zero_add]
    rw [if_neg h1, cutBytes_append]

/-- What is accepted is the encoding itself. -/
theorem derCut_eq_some {tag : UInt8} {b c rest : Bytes} (h : derCut tag b = some (c, rest)) :
    b = tlv tag c ++ rest := by
  unfold derCut at h
  split at h
  · rename_i t l rest₁
    split at h
    · simp at h
    rename_i ht
    have ht : t = tag := by simpa using ht
    subst ht
    split at h
    · rename_i hl
      obtain ⟨hc, rfl⟩ := cutBytes_eq_some h
      have : c.length < 128 := by rw [hc]; exact UInt8.lt_iff_toNat_lt.mp hl
      rw [hc] at this
      simp [tlv, derLen, this, hc]
    · split at h
      · simp at h
      · rename_i hl1 hl2
        split at h
        · simp at h
        · rename_i n rest' hloop
          split at h
          · simp at h
          · rename_i hn
            obtain ⟨hc, rfl⟩ := cutBytes_eq_some h
            obtain ⟨p, hp, rfl, hpn, hp0⟩ := lenLoop_eq_some hloop
            have hl : 128 < l.toNat := by
              have h1 : 128 ≤ l.toNat := by
                rw [UInt8.lt_iff_toNat_lt] at hl1; simpa using hl1
              have h2 : l.toNat ≠ 128 := fun e => hl2 (UInt8.toNat_inj.mp (by simpa using e))
              omega
            have hb : beBytes n = p := by
              rw [hpn]
              have h0 := hp0 (by omega) rfl
              cases p with
              | nil => simp at hp; omega
              | cons x p =>
                simp only [Nat.zero_mul, Nat.zero_add]
                exact beBytes_beNat (by simpa using h0)
            have hlen : UInt8.ofNat (128 + p.length) = l := by
              apply UInt8.toNat_inj.mp
              have := l.toNat_lt
              rw [UInt8.toNat_ofNat']
              omega
            simp [tlv, derLen, hc, hn, hb, hlen]
  · simp at h

theorem derNat_length_pos (n : Nat) : 0 < (derNat n).length := by
  unfold derNat
  rcases Nat.eq_zero_or_pos n with rfl | h
  · simp
  · obtain ⟨x, t, e, _⟩ := beBytes_head h
    rw [if_neg (by omega), e]
    split <;> simp

theorem derNat_of {n : Nat} {x : UInt8} {t : Bytes} (e : beBytes n = x :: t) :
    derNat n = if 128 ≤ x then 0 :: x :: t else x :: t := by
  have hn : n ≠ 0 := by rintro rfl; simp [beBytes_zero] at e
  unfold derNat
  rw [if_neg hn, e]
  rfl

theorem derIntVal_derNat (n : Nat) : derIntVal (derNat n) = some (n : Int) := by
  rcases Nat.eq_zero_or_pos n with rfl | h
  · decide
  · obtain ⟨x, t, e, hx⟩ := beBytes_head h
    have hv := beNat_beBytes n
    rw [e] at hv
    rw [derNat_of e]
    by_cases h1 : 128 ≤ x
    · rw [if_pos h1]
      simp only [derIntVal, List.headD_cons]
      rw [if_neg, if_neg (by decide), beNat_cons]
      · simp [hv]
      · rintro (⟨_, _, h2⟩ | ⟨h2, _⟩)
        · exact absurd h2 (by simpa using h1)
        · exact absurd h2 (by decide)
    · rw [if_neg h1]
      simp only [derIntVal]
      rw [if_neg, if_neg h1, hv]
      rintro (⟨h2, _⟩ | ⟨h2, _⟩)
      · exact hx h2
      · rw [h2] at h1; exact h1 (by decide)

/-- The only encoding of a non-negative integer that is accepted. -/
theorem derIntVal_eq_some {b : Bytes} {n : Nat} (h : derIntVal b = some (n : Int)) :
    b = derNat n := by
  cases b with
  | nil => simp [derIntVal] at h
  | cons x t =>
    simp only [derIntVal] at h
    split at h
    · simp at h
    · rename_i hmin
      split at h
      · simp only [Option.some.injEq] at h; omega
      · rename_i hx
        have h : beNat (x :: t) = n := by
          simp only [Option.some.injEq] at h; exact_mod_cast h
        unfold derNat
        by_cases hx0 : x = 0
        · subst hx0
          cases t with
          | nil =>
            have : n = 0 := by rw [← h]; rfl
            simp [this]
          | cons y t =>
            have hy : 128 ≤ y := by
              by_contra hy
              exact hmin (Or.inl ⟨rfl, by simp, by simpa using hy⟩)
            have hy0 : y ≠ 0 := by rintro rfl; exact absurd hy (by decide)
            have h' : beNat (y :: t) = n := by rw [← h, beNat_cons 0]; simp
            have hb : beBytes n = y :: t := by rw [← h']; exact beBytes_beNat hy0
            have hn : n ≠ 0 := by
              rintro rfl; simp [beBytes_zero] at hb
            rw [if_neg hn, hb, if_pos (by simpa using hy)]
        · have hb : beBytes n = x :: t := by rw [← h]; exact beBytes_beNat hx0
          have hn : n ≠ 0 := by
            rintro rfl; simp [beBytes_zero] at hb
          rw [if_neg hn, hb, if_neg (by simpa using hx)]

theorem derInt_tlv {n : Nat} {rest : Bytes} (h : (derNat n).length < 2 ^ 31) :
    derInt (tlv tagInteger (derNat n) ++ rest) = some ((n : Int), rest) := by
  simp [derInt, derCut_tlv _ _ _ h, derIntVal_derNat]

theorem derInt_eq_some {b rest : Bytes} {n : Nat} (h : derInt b = some ((n : Int), rest)) :
    b = tlv tagInteger (derNat n) ++ rest := by
  unfold derInt at h
  split at h
  · simp at h
  · rename_i c rest' hc
    split at h
    · simp at h
    · rename_i v hv
      simp only [Option.some.injEq, Prod.mk.injEq] at h
      obtain ⟨rfl, rfl⟩ := h
      rw [derCut_eq_some hc, derIntVal_eq_some hv]

theorem derNat_injective : Function.Injective derNat := by
  intro a b h
  have h1 := derIntVal_derNat a
  rw [h, derIntVal_derNat b] at h1
  simp only [Option.some.injEq] at h1
  exact_mod_cast h1.symm

end Verif
