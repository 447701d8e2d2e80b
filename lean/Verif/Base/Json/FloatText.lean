import Verif.Base.Json.Codec

/-!
# A way to write float64 values

`FloatText` has an instance: the exact decimal value of a float64 in scientific notation. (The
library writes fewer digits; only the laws of the class are used.)
-/

namespace Verif

/-- The exact value `± n / 10^k`. -/
def sciText (neg : Bool) (n k : Nat) : Bytes :=
  (if neg then [45] else []) ++ (natDec n ++ 101 :: 45 :: natDec k)

theorem takeWhile_digits_stop {l : Bytes} (h : ∀ c ∈ l, isDigit c = true) (r : Bytes) :
    (l ++ 101 :: r).takeWhile isDigit = l ∧ (l ++ 101 :: r).dropWhile isDigit = 101 :: r := by
  induction l with
  | nil => simp [isDigit]
  | cons c l ih =>
    obtain ⟨h1, h2⟩ := ih fun x hx => h x (by simp [hx])
    have hc := h c (by simp)
    simp only [List.cons_append]
    rw [List.takeWhile_cons_of_pos hc, List.dropWhile_cons_of_pos hc, h1, h2]
    exact ⟨rfl, rfl⟩

theorem natDec_head (n : Nat) : ∃ d l, natDec n = d :: l ∧ isDigit d = true := by
  match h : natDec n with
  | [] => exact absurd h (natDec_ne_nil n)
  | d :: l => exact ⟨d, l, rfl, natDec_digits n d (by simp [h])⟩

theorem intPart_natDec (n : Nat) (r : Bytes) :
    intPart (natDec n ++ 101 :: r) = some (natDec n, 101 :: r) := by
  obtain ⟨d, l, h, hd⟩ := natDec_head n
  by_cases h0 : d = 48
  · subst h0
    have hn : l = [] := by
      have h1 := isNumLit_natDec n
      rw [h] at h1
      unfold IsNumLit numLit at h1
      simp only [absNum, intPart] at h1
      cases l with
      | nil => rfl
      | cons c l =>
        have hc := natDec_digits n c (by simp [h])
        have c46 : c ≠ 46 := by rintro rfl; simp [isDigit] at hc
        have c101 : c ≠ 101 := by rintro rfl; simp [isDigit] at hc
        have c69 : c ≠ 69 := by rintro rfl; simp [isDigit] at hc
        have e1 : fracPart (c :: l) = some ([], c :: l) := by
          unfold fracPart
          split
          · rename_i heq; simp only [List.cons.injEq] at heq; exact absurd heq.1 c46
          · rfl
        simp [e1, expPart, c101, c69] at h1
    subst hn
    rw [h]
    rfl
  · obtain ⟨h1, h2⟩ := takeWhile_digits_stop (natDec_digits n) r
    unfold intPart
    split
    · rename_i heq
      rw [h] at heq
      simp only [List.cons_append, List.cons.injEq] at heq
      exact absurd heq.1 h0
    · simp [digits1, h1, h2, natDec_ne_nil]

theorem absNum_sci (n k : Nat) :
    absNum (natDec n ++ 101 :: 45 :: natDec k) = some (natDec n ++ 101 :: 45 :: natDec k, []) := by
  have h1 : digits1 (natDec k) = some (natDec k, []) := by
    simp [digits1, takeWhile_of_all (natDec_digits k), dropWhile_of_all (natDec_digits k), natDec_ne_nil]
  simp [absNum, intPart_natDec, fracPart, expPart, h1]

theorem isNumLit_sci (neg : Bool) (n k : Nat) : IsNumLit (sciText neg n k) := by
  unfold IsNumLit sciText
  cases neg with
  | true => simp [numLit, absNum_sci]
  | false =>
    obtain ⟨d, l, h, hd⟩ := natDec_head n
    simp only [Bool.false_eq_true, if_false, List.nil_append]
    unfold numLit
    split
    · rename_i heq
      rw [h] at heq
      simp only [List.cons_append, List.cons.injEq] at heq
      rw [heq.1] at hd
      simp [isDigit] at hd
    · exact absNum_sci n k

theorem numVal_sci (neg : Bool) (n k : Nat) :
    numVal (sciText neg n k) = (if neg then -1 else 1) * ((n : ℚ) / 10 ^ k) := by
  obtain ⟨h1, h2⟩ := takeWhile_digits_stop (natDec_digits n) (45 :: natDec k)
  obtain ⟨d, l, h, hd⟩ := natDec_head n
  have hd45 : d ≠ 45 := by rintro rfl; simp [isDigit] at hd
  have hh : (natDec n ++ 101 :: 45 :: natDec k).head? ≠ some 45 := by simp [h, hd45]
  unfold numVal sciText
  cases neg with
  | true =>
    simp [h1, h2, decNat_natDec, zpow_neg, div_eq_mul_inv]
  | false =>
    simp only [Bool.false_eq_true, if_false, List.nil_append, hh, h1, h2]
    simp [decNat_natDec, zpow_neg, div_eq_mul_inv]

/-- Every float64 is `± n / 10^k` with natural numbers. -/
theorem isF64_decimal {q : ℚ} (h : IsF64 q) :
    ∃ (neg : Bool) (n k : Nat), q = (if neg then -1 else 1) * ((n : ℚ) / 10 ^ k) := by
  obtain ⟨m, e, -, -, rfl⟩ := h
  refine ⟨decide (m < 0), m.natAbs * 2 ^ e.toNat * 5 ^ (-e).toNat, (-e).toNat, ?_⟩
  have h1 : (m : ℚ) = (if decide (m < 0) = true then -1 else 1) * (m.natAbs : ℚ) := by
    obtain ⟨n, rfl | rfl⟩ := m.eq_nat_or_neg
    · rw [if_neg (by simp)]; simp
    · rcases Nat.eq_zero_or_pos n with rfl | hn
      · simp
      · rw [if_pos (by simpa using hn)]; simp
  have h2 : (2 : ℚ) ^ e = 2 ^ e.toNat * 5 ^ (-e).toNat / 10 ^ (-e).toNat := by
    have : (10 : ℚ) ^ (-e).toNat = 2 ^ (-e).toNat * 5 ^ (-e).toNat := by
      rw [← mul_pow]; norm_num
    rw [this]
    have h5 : (5 : ℚ) ^ (-e).toNat ≠ 0 := by positivity
    rw [mul_div_mul_right _ _ h5]
    rcases le_total 0 e with he | he
    · obtain ⟨n, rfl⟩ := Int.eq_ofNat_of_zero_le he
      have : (-(n : ℤ)).toNat = 0 := by omega
      simp [this]
    · obtain ⟨n, hn⟩ := Int.eq_ofNat_of_zero_le (neg_nonneg.mpr he)
      obtain rfl : e = -n := by omega
      have : (-(n : ℤ)).toNat = 0 := by omega
      simp [this]
  rw [h2]
  conv_lhs => rw [h1]
  push_cast
  ring

theorem parseFloat_of_numVal {l : Bytes} {q : ℚ} (h : IsFloat q) (hv : numVal l = q) :
    parseFloat l = some q := by
  simp [parseFloat, hv, rnd64_of_isF64 h.1, h.2]

open Classical in
/-- Exact decimal values. -/
@[reducible] noncomputable def FloatText.decimal : FloatText where
  fmt q := if h : IsF64 q then
      sciText (isF64_decimal h).choose (isF64_decimal h).choose_spec.choose
        (isF64_decimal h).choose_spec.choose_spec.choose
    else []
  lit q h := by rw [dif_pos h.1]; exact isNumLit_sci _ _ _
  exact q h := by
    rw [dif_pos h.1]
    refine parseFloat_of_numVal h ?_
    rw [numVal_sci]
    exact (isF64_decimal h.1).choose_spec.choose_spec.choose_spec.symm

end Verif
