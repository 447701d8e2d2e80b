import Verif.Base.Float64

/-!
# float64 arithmetic

Sums and products of float64 values, rounded to the nearest value with overflow to infinity
(IEEE 754), and the fused multiplication and addition that Go allows its compilers to use.
-/

namespace Verif

/-- The nearest float64. -/
def Flt.ofRat (q : ℚ) : Flt :=
  let r := rnd64 q
  if |r| < 2 ^ 1024 then .fin r else if 0 < r then .posInf else .negInf

/-- `x + y`. -/
def Flt.add : Flt → Flt → Flt
  | .nan, _ => .nan
  | _, .nan => .nan
  | .posInf, .negInf => .nan
  | .negInf, .posInf => .nan
  | .posInf, _ => .posInf
  | _, .posInf => .posInf
  | .negInf, _ => .negInf
  | _, .negInf => .negInf
  | .fin a, .fin b => .ofRat (a + b)

/-- An infinity of the given sign; NaN for zero. -/
def Flt.infOf (q : ℚ) : Flt := if 0 < q then .posInf else if q < 0 then .negInf else .nan

/-- `x * y`. -/
def Flt.mul : Flt → Flt → Flt
  | .nan, _ => .nan
  | _, .nan => .nan
  | .posInf, .posInf => .posInf
  | .posInf, .negInf => .negInf
  | .negInf, .posInf => .negInf
  | .negInf, .negInf => .posInf
  | .posInf, .fin b => .infOf b
  | .negInf, .fin b => .infOf (-b)
  | .fin a, .posInf => .infOf a
  | .fin a, .negInf => .infOf (-a)
  | .fin a, .fin b => .ofRat (a * b)

/-- `x * y + z` rounded once. -/
def Flt.fma : Flt → Flt → Flt → Flt
  | .fin a, .fin b, .fin c => .ofRat (a * b + c)
  | .fin _, .fin _, z => z
  | x, y, z => (x.mul y).add z

/-! ## The error of rounding -/

theorem roundHalfEven_error (q : ℚ) : |(roundHalfEven q : ℚ) - q| ≤ 1 / 2 := by
  unfold roundHalfEven
  have h1 := Int.floor_le q
  have h2 := Int.lt_floor_add_one q
  simp only
  rw [abs_le]
  split
  · constructor <;> linarith
  · split
    · push_cast; constructor <;> linarith
    · split
      · constructor <;> linarith
      · push_cast; constructor <;> linarith

/-- Multiples of the smallest positive float64. -/
def Fine (q : ℚ) : Prop := ∃ k : ℤ, q = k * 2 ^ (-1074 : ℤ)

theorem Fine.add {a b : ℚ} (ha : Fine a) (hb : Fine b) : Fine (a + b) := by
  obtain ⟨k, rfl⟩ := ha
  obtain ⟨l, rfl⟩ := hb
  exact ⟨k + l, by rw [Int.cast_add, add_mul]⟩

theorem Fine.natMul {a : ℚ} (ha : Fine a) (n : ℕ) : Fine (n * a) := by
  obtain ⟨k, rfl⟩ := ha
  exact ⟨n * k, by rw [Int.cast_mul, Int.cast_natCast, mul_assoc]⟩

theorem IsF64.fine {q : ℚ} (h : IsF64 q) : Fine q := by
  obtain ⟨m, e, -, he, rfl⟩ := h
  obtain ⟨k, hk⟩ := zpow_mul_int he m
  refine ⟨k, ?_⟩
  rw [← hk]
  have := (two_zpow_pos (-1074)).ne'
  field_simp

theorem fine_natCast (n : ℕ) : Fine n := by
  have h : Fine 1 := IsF64.fine ⟨1, 0, by norm_num, by norm_num, by norm_num⟩
  simpa using h.natMul n

/-- The relative error of rounding is at most `2^-53` for values that are not subnormal. -/
theorem rnd64_error_normal {q : ℚ} (h : 2 ^ (-1022 : ℤ) ≤ |q|) : |rnd64 q - q| ≤ |q| / 2 ^ 53 := by
  have hu := two_zpow_pos (ulpExp q)
  have hq : 0 < |q| := lt_of_lt_of_le (two_zpow_pos _) h
  have hlow : -1022 ≤ Int.log 2 |q| := by
    rw [← Int.zpow_le_iff_le_log (by norm_num) hq]
    simpa using h
  have e : ulpExp q = Int.log 2 |q| - 52 := by unfold ulpExp; omega
  have h1 : rnd64 q - q = ((roundHalfEven (q / 2 ^ ulpExp q) : ℚ) - q / 2 ^ ulpExp q) * 2 ^ ulpExp q := by
    unfold rnd64
    rw [sub_mul, div_mul_cancel₀ _ hu.ne']
  have h2 := roundHalfEven_error (q / 2 ^ ulpExp q)
  have h3 : (2 : ℚ) ^ (Int.log 2 |q|) ≤ |q| := by
    have := Int.zpow_log_le_self (b := 2) (r := |q|) (by norm_num) hq
    simpa using this
  have h4 : (2 : ℚ) ^ ulpExp q = 2 ^ (Int.log 2 |q|) / 2 ^ 52 := by
    rw [e, zpow_sub₀ (by norm_num)]
    norm_num
  rw [h1, abs_mul, abs_of_pos hu]
  calc _ ≤ 1 / 2 * (2 : ℚ) ^ ulpExp q := mul_le_mul_of_nonneg_right h2 hu.le
    _ = 2 ^ (Int.log 2 |q|) / 2 ^ 53 := by rw [h4]; ring
    _ ≤ _ := div_le_div_of_nonneg_right h3 (by norm_num)

/-- The relative error of rounding is at most `2^-53`. -/
theorem rnd64_error {q : ℚ} (h : Fine q) : |rnd64 q - q| ≤ |q| / 2 ^ 53 := by
  by_cases h0 : q = 0
  · subst h0; simp [rnd64_zero]
  have hq : 0 < |q| := abs_pos.mpr h0
  by_cases hlow : Int.log 2 |q| - 52 ≤ -1074
  · -- subnormal
    have e : ulpExp q = -1074 := by unfold ulpExp; omega
    obtain ⟨k, hk⟩ := h
    have : rnd64 q = q := by
      unfold rnd64
      rw [e]
      have h1 : q / 2 ^ (-1074 : ℤ) = k := by
        rw [hk]
        have := (two_zpow_pos (-1074)).ne'
        field_simp
      rw [h1, roundHalfEven_intCast, ← hk]
    rw [this]
    simp only [sub_self, abs_zero]
    positivity
  · refine rnd64_error_normal ?_
    have := (Int.zpow_le_iff_le_log (b := 2) (x := -1022) (by norm_num) hq).mpr (by omega)
    simpa using this

/-- The bounds of a rounded value that is not negative. -/
theorem rnd64_between {q : ℚ} (h : Fine q) (h0 : 0 ≤ q) :
    q * (1 - 1 / 2 ^ 53) ≤ rnd64 q ∧ rnd64 q ≤ q * (1 + 1 / 2 ^ 53) := by
  have := rnd64_error h
  rw [abs_of_nonneg h0, abs_le] at this
  constructor <;> nlinarith [this.1, this.2]

/-- Rounding at a known exponent. -/
theorem rnd64_at {q : ℚ} (e : ℤ) (he : -1074 ≤ e) (h1 : 2 ^ (e + 52) ≤ q) (h2 : q < 2 ^ (e + 53)) :
    rnd64 q = roundHalfEven (q / 2 ^ e) * 2 ^ e := by
  have h0 : 0 < q := lt_of_lt_of_le (two_zpow_pos _) h1
  have hl : Int.log 2 |q| = e + 52 := by
    rw [abs_of_pos h0]
    refine le_antisymm ?_ ?_
    · have : Int.log 2 q < e + 53 := by
        rw [← Int.lt_zpow_iff_log_lt (by norm_num) h0]
        simpa using h2
      omega
    · rw [← Int.zpow_le_iff_le_log (by norm_num) h0]
      simpa using h1
  unfold rnd64
  have : ulpExp q = e := by unfold ulpExp; rw [hl]; omega
  rw [this]

end Verif
