import Verif.Base.FltArith
import Verif.Model.HashTree
import Verif.Model.Buckets.Buckets
import Mathlib.Analysis.SpecialFunctions.Log.Basic
import Mathlib.Analysis.Complex.ExponentialBounds
import Mathlib.Tactic.Linarith

/-!
# Floating point expressions that are modelled by integers

Two expressions of the code compute integers with float64 values. The models of these functions use
integers; here is shown that this makes no difference.
-/

namespace Verif

/-! ## The number of chunks -/

/-- `application/identities/buckets/application.go:187`:
`int(math.Floor(float64(len(data)) / float64(app.chunkSizeInBytes)))`. -/
def chunkLoopsFloat (len size : Nat) : Int := ⌊rnd64 (rnd64 len / rnd64 size)⌋

/-- The division of float64 values does not cross an integer. -/
theorem chunkLoopsFloat_eq {len size : Nat} (hs : 0 < size) (hs' : size ≤ 2 ^ 53) (hl : len < 2 ^ 53) :
    chunkLoopsFloat len size = chunkLoops len size := by
  unfold chunkLoopsFloat chunkLoops
  rw [rnd64_of_isF64 (isF64_natCast hl.le), rnd64_of_isF64 (isF64_natCast hs')]
  have hsq : (0 : ℚ) < size := by exact_mod_cast hs
  rw [Int.floor_eq_iff]
  have hk : len / size ≤ 2 ^ 53 := le_trans (Nat.div_le_self _ _) hl.le
  constructor
  · have h1 : ((len / size : Nat) : ℚ) ≤ (len : ℚ) / size := Nat.cast_div_le
    have := rnd64_mono h1
    rw [rnd64_of_isF64 (isF64_natCast hk)] at this
    exact_mod_cast this
  · by_cases h0 : len = 0
    · subst h0
      simp [rnd64_zero]
    have h1 : (1 : ℚ) ≤ len := by exact_mod_cast Nat.one_le_iff_ne_zero.mpr h0
    have hs2 : (size : ℚ) ≤ 2 ^ 53 := by exact_mod_cast hs'
    have hq0 : (0 : ℚ) < (len : ℚ) / size := div_pos (by linarith) hsq
    have hn : (2 : ℚ) ^ (-1022 : ℤ) ≤ |(len : ℚ) / size| := by
      rw [abs_of_pos hq0]
      have : (2 : ℚ) ^ (-1022 : ℤ) ≤ 2 ^ (-53 : ℤ) := zpow_le_zpow_right₀ (by norm_num) (by norm_num)
      refine this.trans ?_
      have e : (2 : ℚ) ^ (-53 : ℤ) = 1 / 2 ^ 53 := by norm_num
      rw [e, div_le_div_iff₀ (by norm_num) hsq]
      nlinarith
    have herr := rnd64_error_normal hn
    rw [abs_of_pos hq0, abs_le] at herr
    have h2 := herr.2
    -- the next integer is far away
    have h3 : len + 1 ≤ (len / size + 1) * size := by
      have := Nat.lt_div_mul_add (a := len) hs
      have e : (len / size + 1) * size = len / size * size + size := by ring
      omega
    have h4 : (len : ℚ) + 1 ≤ ((len / size : Nat) + 1) * size := by exact_mod_cast h3
    have h5 : (len : ℚ) / size + 1 / size ≤ (len / size : Nat) + 1 := by
      rw [← add_div, div_le_iff₀ hsq]
      exact h4
    have h6 : (len : ℚ) / size / 2 ^ 53 < 1 / size := by
      rw [div_div, div_lt_div_iff₀ (by positivity) hsq]
      have : (len : ℚ) < 2 ^ 53 := by exact_mod_cast hl
      nlinarith
    have : rnd64 ((len : ℚ) / size) < (len / size : Nat) + 1 := by linarith
    exact_mod_cast this

/-! ## The next power of two -/

/-- `math.Log`, for which no exact values are specified: within two units in the last place. -/
structure MathLog where
  log : Nat → ℚ
  near : ∀ n : Nat, 2 ≤ n → n < 2 ^ 63 → |(log n : ℝ) - Real.log n| ≤ Real.log n / 2 ^ 51

/-- `libs/hashtree/block.go:54`:
`uint(math.Pow(2, math.Ceil(math.Log(lengthAsFloat)/math.Log(2))))`; powers of two are exact. -/
def nextPowerFloat (L : MathLog) (n : Nat) : Nat := 2 ^ ⌈rnd64 (L.log n / L.log 2)⌉.toNat

theorem log_next_bounds {n k : Nat} (hk : k ≤ 43) (h1 : 2 ^ k < n) (h2 : n < 2 ^ (k + 1)) :
    k * Real.log 2 + 1 / 2 ^ 44 ≤ Real.log n ∧ Real.log n ≤ (k + 1) * Real.log 2 - 1 / 2 ^ 44 := by
  have hp : (0 : ℝ) < 2 ^ k := by positivity
  have hn0 : (0 : ℝ) < n := by exact_mod_cast (by omega : 0 < n)
  have hpk : (2 : ℝ) ^ k ≤ 2 ^ 43 := pow_le_pow_right₀ (by norm_num) hk
  have hd1 : (2 : ℝ) ^ k + 1 ≤ n := by exact_mod_cast h1
  have hd2 : (n : ℝ) + 1 ≤ 2 ^ (k + 1) := by exact_mod_cast h2
  constructor
  · have e : Real.log n = k * Real.log 2 + Real.log (n / 2 ^ k) := by
      rw [Real.log_div hn0.ne' hp.ne', Real.log_pow]; ring
    have h3 := Real.one_sub_inv_le_log_of_pos (x := (n : ℝ) / 2 ^ k) (by positivity)
    have h4 : 1 / 2 ^ 44 ≤ 1 - ((n : ℝ) / 2 ^ k)⁻¹ := by
      rw [inv_div]
      have h5 : (2 : ℝ) ^ k / n ≤ 2 ^ k / (2 ^ k + 1) := div_le_div_of_nonneg_left hp.le (by positivity) hd1
      have h6 : (2 : ℝ) ^ k / (2 ^ k + 1) = 1 - 1 / (2 ^ k + 1) := by field_simp; ring
      have h7 : (1 : ℝ) / 2 ^ 44 ≤ 1 / (2 ^ k + 1) :=
        one_div_le_one_div_of_le (by positivity) (by linarith [show (2 : ℝ) ^ 43 + 1 ≤ 2 ^ 44 by norm_num])
      linarith
    linarith
  · have e : Real.log n = (k + 1) * Real.log 2 + Real.log (n / 2 ^ (k + 1)) := by
      rw [Real.log_div hn0.ne' (by positivity), Real.log_pow]; push_cast; ring
    have h3 := Real.log_le_sub_one_of_pos (x := (n : ℝ) / 2 ^ (k + 1)) (by positivity)
    have h4 : (n : ℝ) / 2 ^ (k + 1) ≤ 1 - 1 / 2 ^ 44 := by
      rw [div_le_iff₀ (by positivity)]
      have : (1 - 1 / 2 ^ 44) * (2 : ℝ) ^ (k + 1) = 2 ^ (k + 1) - 2 ^ (k + 1) / 2 ^ 44 := by ring
      rw [this]
      have h5 : (2 : ℝ) ^ (k + 1) / 2 ^ 44 ≤ 1 := by
        rw [div_le_one (by positivity)]
        exact pow_le_pow_right₀ (by norm_num) (by omega)
      linarith
    linarith

/-- The logarithms do not cross an integer: for lengths that are no powers of two, the expression is
the least power of two above. -/
theorem nextPowerFloat_eq (L : MathLog) {n : Nat} (h2 : 2 ≤ n) (hn : n < 2 ^ 44)
    (hp : ∀ k, n ≠ 2 ^ k) : nextPowerFloat L n = nextPowerOfTwo n := by
  obtain ⟨k, hk1, hk2⟩ : ∃ k, 2 ^ k < n ∧ n < 2 ^ (k + 1) := by
    refine ⟨Nat.log 2 n, lt_of_le_of_ne (Nat.pow_log_le_self 2 (by omega)) (hp _).symm,
      Nat.lt_pow_succ_log_self (by norm_num) n⟩
  have hk : k ≤ 43 := by
    by_contra h
    have : 2 ^ 44 ≤ 2 ^ k := Nat.pow_le_pow_right (by norm_num) (by omega)
    omega
  have hclog : Nat.clog 2 n = k + 1 := by
    refine le_antisymm ?_ ?_
    · exact Nat.clog_le_of_le_pow hk2.le
    · by_contra h
      have := Nat.le_pow_clog (b := 2) (by norm_num) n
      have h3 : 2 ^ Nat.clog 2 n ≤ 2 ^ k := Nat.pow_le_pow_right (by norm_num) (by omega)
      omega
  obtain ⟨l1, l2⟩ := log_next_bounds hk hk1 hk2
  have a1 := L.near n h2 (by omega)
  have b1 := L.near 2 le_rfl (by norm_num)
  have c1 := Real.log_two_lt_d9
  have c2 := Real.log_two_gt_d9
  rw [abs_le] at a1 b1
  have e2 : ((2 : Nat) : ℝ) = 2 := by norm_num
  rw [e2] at b1
  generalize Real.log 2 = l at *
  generalize Real.log n = m at *
  have hk43 : (k : ℝ) ≤ 43 := by exact_mod_cast hk
  have hk0 : (0 : ℝ) ≤ k := Nat.cast_nonneg k
  have hb0 : (0 : ℝ) < L.log 2 := by nlinarith [b1.1]
  have hb0' : (0 : ℚ) < L.log 2 := by exact_mod_cast hb0
  have hkl : k * l ≤ 43 * 0.6931471808 := by nlinarith
  -- lower bound of the quotient
  have low : ((k : ℚ) + 1 / 2 ^ 45) ≤ L.log n / L.log 2 := by
    rw [le_div_iff₀ hb0']
    have : ((k : ℝ) + 1 / 2 ^ 45) * L.log 2 ≤ L.log n := by
      have g1 : (L.log 2 : ℝ) ≤ l + l / 2 ^ 51 := by linarith [b1.2]
      have g2 : m - m / 2 ^ 51 ≤ L.log n := by linarith [a1.1]
      have g3 : ((k : ℝ) + 1 / 2 ^ 45) * L.log 2 ≤ (k + 1 / 2 ^ 45) * (l + l / 2 ^ 51) :=
        mul_le_mul_of_nonneg_left g1 (by positivity)
      have g4 : (k + 1 / 2 ^ 45) * (l + l / 2 ^ 51) =
          (k * l + l / 2 ^ 45) * (1 + 1 / 2 ^ 51) := by ring
      have g5 : (k * l + 1 / 2 ^ 44) * (1 - 1 / 2 ^ 51) ≤ m - m / 2 ^ 51 := by
        have : m - m / 2 ^ 51 = m * (1 - 1 / 2 ^ 51) := by ring
        rw [this]
        exact mul_le_mul_of_nonneg_right l1 (by norm_num)
      have g6 : (k * l + l / 2 ^ 45) * (1 + 1 / 2 ^ 51) ≤ (k * l + 1 / 2 ^ 44) * (1 - 1 / 2 ^ 51) := by
        nlinarith
      linarith
    rw [← Rat.cast_le (K := ℝ), Rat.cast_mul, Rat.cast_add, Rat.cast_div, Rat.cast_pow, Rat.cast_natCast,
      Rat.cast_one, Rat.cast_ofNat]
    exact this
  have high : L.log n / L.log 2 ≤ ((k + 1 : Nat) : ℚ) := by
    rw [div_le_iff₀ hb0']
    have : (L.log n : ℝ) ≤ ((k + 1 : Nat) : ℝ) * L.log 2 := by
      have g1 : l - l / 2 ^ 51 ≤ L.log 2 := by linarith [b1.1]
      have g2 : (L.log n : ℝ) ≤ m + m / 2 ^ 51 := by linarith [a1.2]
      have g3 : ((k : ℝ) + 1) * (l - l / 2 ^ 51) ≤ (k + 1) * L.log 2 :=
        mul_le_mul_of_nonneg_left g1 (by positivity)
      have g5 : m + m / 2 ^ 51 ≤ ((k + 1) * l - 1 / 2 ^ 44) * (1 + 1 / 2 ^ 51) := by
        have : m + m / 2 ^ 51 = m * (1 + 1 / 2 ^ 51) := by ring
        rw [this]
        exact mul_le_mul_of_nonneg_right l2 (by norm_num)
      have g6 : ((k + 1) * l - 1 / 2 ^ 44) * (1 + 1 / 2 ^ 51) ≤ ((k : ℝ) + 1) * (l - l / 2 ^ 51) := by
        nlinarith
      push_cast
      linarith
    exact_mod_cast this
  have f1 : IsF64 ((k : ℚ) + 1 / 2 ^ 45) := by
    refine ⟨k * 2 ^ 45 + 1, -45, ?_, by norm_num, ?_⟩
    · rw [abs_of_nonneg (by positivity)]
      have : (k : ℤ) ≤ 43 := by exact_mod_cast hk
      omega
    · push_cast
      norm_num
      ring
  have r1 := rnd64_mono low
  rw [rnd64_of_isF64 f1] at r1
  have r2 := rnd64_mono high
  rw [rnd64_of_isF64 (isF64_natCast (by omega))] at r2
  have hc : ⌈rnd64 (L.log n / L.log 2)⌉ = ((k + 1 : Nat) : ℤ) := by
    rw [Int.ceil_eq_iff]
    constructor
    · push_cast
      have : (0 : ℚ) < 1 / 2 ^ 45 := by norm_num
      linarith
    · exact_mod_cast r2
  unfold nextPowerFloat nextPowerOfTwo
  rw [hc, hclog]
  rfl

/-- `block.go:37-66` (`resize`, `resizeToNextPowerOfTwo`) with the expression of floats. -/
def resizeFloat [Sha512] (L : MathLog) (l : List Hash) : List Hash :=
  if isLengthPowerForTwo l.length then l
  else l ++ List.replicate (nextPowerFloat L l.length - l.length) (fromBytes [])

/-- `application.go:187-221` with the expression of floats. -/
def slicesFloat (data : Bytes) (size : Nat) : List Bytes :=
  let loops := (chunkLoopsFloat data.length size).toNat
  (List.range loops).map fun i =>
    if i + 1 = loops then data.drop (i * size) else (data.take ((i + 1) * size)).drop (i * size)

/-- Such logarithms exist: values as near as one wants. -/
example : Nonempty MathLog := by
  have h : ∀ n : Nat, 2 ≤ n → ∃ q : ℚ, |(q : ℝ) - Real.log n| ≤ Real.log n / 2 ^ 51 := by
    intro n hn
    have hpos : 0 < Real.log n := Real.log_pos (by exact_mod_cast hn)
    obtain ⟨q, h1, h2⟩ := exists_rat_btwn (show Real.log n < Real.log n + Real.log n / 2 ^ 51 by
      linarith [show 0 < Real.log n / 2 ^ 51 by positivity])
    refine ⟨q, abs_le.mpr ⟨?_, ?_⟩⟩
    · linarith [show 0 < Real.log n / 2 ^ 51 by positivity]
    · linarith
  classical
  exact ⟨⟨fun n => if hn : 2 ≤ n then (h n hn).choose else 0, fun n hn _ => by
    simp only [dif_pos hn]
    exact (h n hn).choose_spec⟩⟩

end Verif
