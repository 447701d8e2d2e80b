import Verif.Base.Flt
import Mathlib.Data.Int.Log
import Mathlib.Tactic.Linarith
import Mathlib.Tactic.Positivity
import Mathlib.Tactic.FieldSimp
import Mathlib.Tactic.Ring

/-!
# Rounding to float64

IEEE 754 binary64, to nearest, ties to even: 53 bits of significand, exponents from -1074.
-/

namespace Verif

/-! ## Rounding to integers -/

theorem roundHalfEven_intCast (n : ℤ) : roundHalfEven n = n := by
  unfold roundHalfEven
  simp

/-- The result is the floor or the ceiling, and nearer ones are chosen. -/
theorem roundHalfEven_bounds (q : ℚ) :
    (roundHalfEven q : ℚ) - 1 / 2 ≤ q ∧ q ≤ (roundHalfEven q : ℚ) + 1 / 2 := by
  have h1 := Int.floor_le q
  have h2 := Int.lt_floor_add_one q
  unfold roundHalfEven
  simp only
  split
  · constructor <;> linarith
  split
  · push_cast; constructor <;> linarith
  split
  · constructor <;> linarith
  · push_cast; constructor <;> linarith

theorem roundHalfEven_mono {a b : ℚ} (h : a ≤ b) : roundHalfEven a ≤ roundHalfEven b := by
  by_contra hlt
  have hlt : roundHalfEven b + 1 ≤ roundHalfEven a := by omega
  have hq : (roundHalfEven b : ℚ) + 1 ≤ roundHalfEven a := by exact_mod_cast hlt
  have ha := roundHalfEven_bounds a
  have hb := roundHalfEven_bounds b
  have e : a = b := by linarith
  subst e
  omega

theorem roundHalfEven_neg (q : ℚ) : roundHalfEven (-q) = -roundHalfEven q := by
  have f1 := Int.floor_le q
  have f2 := Int.lt_floor_add_one q
  by_cases hi : q = ⌊q⌋
  · rw [hi, ← Int.cast_neg, roundHalfEven_intCast, roundHalfEven_intCast]
  · have h1 : (⌊q⌋ : ℚ) < q := lt_of_le_of_ne f1 (Ne.symm hi)
    have h2 : ⌊-q⌋ = -⌊q⌋ - 1 := by
      rw [Int.floor_eq_iff]
      push_cast
      constructor <;> linarith
    unfold roundHalfEven
    simp only [h2]
    push_cast
    by_cases hlt : q - ⌊q⌋ < 1 / 2
    · rw [if_pos hlt, if_neg (by linarith), if_pos (by linarith)]
      omega
    · rw [if_neg hlt]
      by_cases hgt : 1 / 2 < q - ⌊q⌋
      · rw [if_pos hgt, if_pos (by linarith)]
        omega
      · rw [if_neg hgt, if_neg (by linarith), if_neg (by linarith)]
        split <;> split <;> omega

/-! ## Rounding to binary64 -/

/-- The exponent of the last bit. -/
def ulpExp (q : ℚ) : ℤ := max (-1074) (Int.log 2 |q| - 52)

/-- The nearest binary64 value, were there no largest one. -/
def rnd64 (q : ℚ) : ℚ := roundHalfEven (q / 2 ^ ulpExp q) * 2 ^ ulpExp q

/-- The binary64 values, without upper bound. -/
def IsF64 (q : ℚ) : Prop := ∃ (m e : ℤ), |m| ≤ 2 ^ 53 ∧ -1074 ≤ e ∧ q = m * 2 ^ e

theorem two_zpow_pos (e : ℤ) : (0 : ℚ) < 2 ^ e := zpow_pos (by norm_num) e

theorem rnd64_neg (q : ℚ) : rnd64 (-q) = -rnd64 q := by
  unfold rnd64 ulpExp
  rw [abs_neg, neg_div, roundHalfEven_neg]
  push_cast
  ring

theorem rnd64_zero : rnd64 0 = 0 := by
  have : roundHalfEven 0 = 0 := by
    have := roundHalfEven_intCast 0
    simpa using this
  simp [rnd64, this]

/-- A multiple of a power of two at or above the last bit is an integer multiple of it. -/
theorem zpow_mul_int {e u : ℤ} (h : u ≤ e) (m : ℤ) :
    ∃ k : ℤ, (m : ℚ) * 2 ^ e / 2 ^ u = k := by
  obtain ⟨j, rfl⟩ : ∃ j : ℕ, e = u + j := ⟨(e - u).toNat, by omega⟩
  refine ⟨m * 2 ^ j, ?_⟩
  rw [zpow_add₀ (by norm_num)]
  have := (two_zpow_pos u).ne'
  push_cast
  field_simp
  rw [zpow_natCast]

/-- binary64 values are not changed. -/
theorem rnd64_of_isF64 {q : ℚ} (h : IsF64 q) : rnd64 q = q := by
  obtain ⟨m, e, hm, he, rfl⟩ := h
  by_cases h0 : m = 0
  · subst h0; simp [rnd64_zero]
  have hq : (0 : ℚ) < |(m : ℚ) * 2 ^ e| := abs_pos.mpr (mul_ne_zero (by exact_mod_cast h0) (two_zpow_pos e).ne')
  have key : ∃ k : ℤ, (m : ℚ) * 2 ^ e / 2 ^ ulpExp ((m : ℚ) * 2 ^ e) = k := by
    by_cases hlt : |m| < 2 ^ 53
    · refine zpow_mul_int ?_ m
      unfold ulpExp
      refine max_le he ?_
      have : Int.log 2 |(m : ℚ) * 2 ^ e| < e + 53 := by
        rw [← Int.lt_zpow_iff_log_lt (by norm_num) hq]
        rw [abs_mul, abs_of_pos (two_zpow_pos e), zpow_add₀ (by norm_num), mul_comm]
        have h1 : (|m| : ℚ) < 2 ^ 53 := by exact_mod_cast hlt
        have h2 : ((2 : ℕ) : ℚ) ^ (53 : ℤ) = 2 ^ 53 := by norm_num
        rw [h2]
        push_cast
        exact mul_lt_mul_of_pos_left h1 (two_zpow_pos e)
      omega
    · have hm' : |m| = 2 ^ 53 := le_antisymm hm (not_lt.mp hlt)
      have hx : |(m : ℚ) * 2 ^ e| = 2 ^ (e + 53) := by
        rw [abs_mul, abs_of_pos (two_zpow_pos e), zpow_add₀ (by norm_num), mul_comm]
        have h1 : (|(m : ℚ)|) = 2 ^ 53 := by exact_mod_cast hm'
        rw [h1]; norm_num
      have hl : Int.log 2 |(m : ℚ) * 2 ^ e| = e + 53 := by
        rw [hx]
        have := Int.log_zpow (R := ℚ) (b := 2) (by norm_num) (e + 53)
        simpa using this
      have hu : ulpExp ((m : ℚ) * 2 ^ e) = e + 1 := by
        unfold ulpExp; rw [hl]; omega
      rw [hu]
      have hm2 : ∃ s : ℤ, m = s * 2 := by
        rcases abs_choice m with h | h
        · exact ⟨2 ^ 52, by rw [← h, hm']; norm_num⟩
        · exact ⟨-2 ^ 52, by rw [show m = -|m| by omega, hm']; norm_num⟩
      obtain ⟨s, hs⟩ := hm2
      refine ⟨s, ?_⟩
      rw [hs, zpow_add₀ (by norm_num)]
      have := (two_zpow_pos e).ne'
      push_cast
      field_simp
  obtain ⟨k, hk⟩ := key
  unfold rnd64
  rw [hk, roundHalfEven_intCast, ← hk]
  have := (two_zpow_pos (ulpExp ((m : ℚ) * 2 ^ e))).ne'
  field_simp

/-- The result is a binary64 value. -/
theorem rnd64_isF64 (q : ℚ) : IsF64 (rnd64 q) := by
  refine ⟨roundHalfEven (q / 2 ^ ulpExp q), ulpExp q, ?_, le_max_left _ _, rfl⟩
  have hu := two_zpow_pos (ulpExp q)
  have hle : |q / 2 ^ ulpExp q| ≤ 2 ^ 53 := by
    rw [abs_div, abs_of_pos hu, div_le_iff₀ hu]
    have h1 : |q| < (2 : ℚ) ^ (Int.log 2 |q| + 1) := by
      have := Int.lt_zpow_succ_log_self (b := 2) (by norm_num) |q|
      simpa using this
    have h2 : (2 : ℚ) ^ (Int.log 2 |q| + 1) ≤ 2 ^ (53 + ulpExp q) := by
      apply zpow_le_zpow_right₀ (by norm_num)
      unfold ulpExp
      omega
    rw [zpow_add₀ (a := (2 : ℚ)) (by norm_num) 53] at h2
    have h3 : (2 : ℚ) ^ (53 : ℤ) = 2 ^ 53 := by norm_num
    rw [h3] at h2
    linarith
  rw [abs_le] at hle ⊢
  have e1 : roundHalfEven ((2 : ℚ) ^ 53) = 2 ^ 53 := by
    have := roundHalfEven_intCast (2 ^ 53); push_cast at this; exact this
  constructor
  · have := roundHalfEven_mono hle.1
    rw [roundHalfEven_neg, e1] at this
    exact this
  · have := roundHalfEven_mono hle.2
    rw [e1] at this
    exact this

theorem rnd64_nonneg {q : ℚ} (h : 0 ≤ q) : 0 ≤ rnd64 q := by
  unfold rnd64
  have hu := two_zpow_pos (ulpExp q)
  have h1 := roundHalfEven_mono (div_nonneg h hu.le)
  have h0 : roundHalfEven 0 = 0 := by
    have := roundHalfEven_intCast 0
    simpa using this
  rw [h0] at h1
  have : (0 : ℚ) ≤ roundHalfEven (q / 2 ^ ulpExp q) := by exact_mod_cast h1
  positivity

theorem rnd64_mono_pos {a b : ℚ} (ha : 0 < a) (h : a ≤ b) : rnd64 a ≤ rnd64 b := by
  have hb := lt_of_lt_of_le ha h
  have hlog : Int.log 2 |a| ≤ Int.log 2 |b| := by
    rw [abs_of_pos ha, abs_of_pos hb]
    exact Int.log_mono_right ha h
  have ua := two_zpow_pos (ulpExp a)
  have ub := two_zpow_pos (ulpExp b)
  by_cases he : ulpExp a = ulpExp b
  · unfold rnd64
    rw [he]
    have := roundHalfEven_mono (div_le_div_of_nonneg_right h ub.le)
    have h2 : (roundHalfEven (a / 2 ^ ulpExp b) : ℚ) ≤ roundHalfEven (b / 2 ^ ulpExp b) := by
      exact_mod_cast this
    exact mul_le_mul_of_nonneg_right h2 ub.le
  · have h1 : ulpExp a < ulpExp b := lt_of_le_of_ne (by unfold ulpExp; omega) he
    have hub : ulpExp b = Int.log 2 |b| - 52 := by unfold ulpExp at h1 ⊢; omega
    have hla : Int.log 2 |a| < Int.log 2 |b| := by unfold ulpExp at h1; omega
    set k := Int.log 2 |b| with hk
    have hak : a < 2 ^ k := by
      have h3 := (Int.lt_zpow_iff_log_lt (b := 2) (by norm_num) (abs_pos.mpr ha.ne')).mpr hla
      rw [abs_of_pos ha] at h3
      simpa using h3
    have hkb : (2 : ℚ) ^ k ≤ b := by
      have := Int.zpow_log_le_self (b := 2) (r := |b|) (by norm_num) (abs_pos.mpr hb.ne')
      rw [← hk, abs_of_pos hb] at this
      simpa using this
    have e1 : rnd64 a ≤ 2 ^ k := by
      obtain ⟨j, hj⟩ := zpow_mul_int (e := k) (u := ulpExp a) (by omega) 1
      rw [Int.cast_one, one_mul] at hj
      have := roundHalfEven_mono (div_le_div_of_nonneg_right hak.le ua.le)
      rw [hj, roundHalfEven_intCast] at this
      have h2 : (roundHalfEven (a / 2 ^ ulpExp a) : ℚ) ≤ j := by exact_mod_cast this
      unfold rnd64
      calc _ ≤ (j : ℚ) * 2 ^ ulpExp a := mul_le_mul_of_nonneg_right h2 ua.le
        _ = 2 ^ k := by rw [← hj]; field_simp
    have e2 : 2 ^ k ≤ rnd64 b := by
      obtain ⟨j, hj⟩ := zpow_mul_int (e := k) (u := ulpExp b) (by omega) 1
      rw [Int.cast_one, one_mul] at hj
      have := roundHalfEven_mono (div_le_div_of_nonneg_right hkb ub.le)
      rw [hj, roundHalfEven_intCast] at this
      have h2 : (j : ℚ) ≤ roundHalfEven (b / 2 ^ ulpExp b) := by exact_mod_cast this
      unfold rnd64
      calc (2 : ℚ) ^ k = (j : ℚ) * 2 ^ ulpExp b := by rw [← hj]; field_simp
        _ ≤ _ := mul_le_mul_of_nonneg_right h2 ub.le
    linarith

/-- Rounding is monotone. -/
theorem rnd64_mono {a b : ℚ} (h : a ≤ b) : rnd64 a ≤ rnd64 b := by
  rcases lt_or_ge 0 a with ha | ha
  · exact rnd64_mono_pos ha h
  rcases le_or_gt 0 b with hb | hb
  · have h1 : rnd64 a ≤ 0 := by
      have := rnd64_nonneg (q := -a) (by linarith)
      rw [rnd64_neg] at this; linarith
    exact h1.trans (rnd64_nonneg hb)
  · have := rnd64_mono_pos (a := -b) (b := -a) (by linarith) (by linarith)
    rw [rnd64_neg, rnd64_neg] at this
    linarith

/-- Integers up to `2^53` are binary64 values. -/
theorem isF64_natCast {n : ℕ} (h : n ≤ 2 ^ 53) : IsF64 n :=
  ⟨n, 0, by simpa using h, by norm_num, by simp⟩

end Verif
