import Verif.Spec.Rsa
import Mathlib.NumberTheory.LucasPrimality
import Mathlib.Tactic.NormNum.Prime
import Mathlib.Tactic.Ring

/-!
# A concrete RSA key for non-vacuity examples
-/

namespace Verif

set_option maxRecDepth 20000

/-- Fast exponentiation, to check examples. -/
def powMod (m : Nat) : Nat → Nat → Nat → Nat
  | 0, _, _ => 1 % m
  | f + 1, a, e =>
    if e % 2 = 1 then a * powMod m f (a * a % m) (e / 2) % m else powMod m f (a * a % m) (e / 2)

theorem powMod_eq (m : Nat) : ∀ f a e, e < 2 ^ f → powMod m f a e = a ^ e % m
  | 0, a, e, h => by
    have : e = 0 := by simpa using h
    simp [powMod, this]
  | f + 1, a, e, h => by
    have h2 : e / 2 < 2 ^ f := by rw [pow_succ] at h; omega
    have ih := powMod_eq m f (a * a % m) (e / 2) h2
    have hpow : (a * a % m) ^ (e / 2) % m = a ^ (2 * (e / 2)) % m := by
      rw [← Nat.pow_mod, ← pow_two, ← pow_mul]
    unfold powMod
    rw [ih, hpow]
    split
    · rename_i h1
      have : e = 2 * (e / 2) + 1 := by omega
      conv_rhs => rw [this, pow_succ]
      rw [Nat.mul_mod, Nat.mod_mod, ← Nat.mul_mod, Nat.mul_comm]
    · have : e = 2 * (e / 2) := by omega
      conv_rhs => rw [this]

/-- Lucas' test for numbers `c 2ᵐ + 1` with a single odd prime `s` in `c`. -/
theorem prime_of_powMod {f p a c m s : Nat} (hp : p = s ^ c * 2 ^ m + 1) (hs : s.Prime)
    (hf : p < 2 ^ f) (hp1 : 1 < p) (h1 : powMod p f a (p - 1) = 1)
    (h2 : powMod p f a ((p - 1) / 2) ≠ 1)
    (h3 : powMod p f a ((p - 1) / s) ≠ 1) : p.Prime := by
  have hle : ∀ t, (p - 1) / t < 2 ^ f := fun t => lt_of_le_of_lt (Nat.div_le_self _ _) (by omega)
  rw [powMod_eq p f a _ (by omega)] at h1
  rw [powMod_eq p f a _ (hle 2)] at h2
  rw [powMod_eq p f a _ (hle s)] at h3
  have key : ∀ e, ((a : ZMod p) ^ e = 1 ↔ a ^ e % p = 1) := by
    intro e
    have : ((a ^ e : Nat) : ZMod p) = ((1 : Nat) : ZMod p) ↔ a ^ e % p = 1 % p :=
      ZMod.natCast_eq_natCast_iff' _ _ _
    rw [Nat.mod_eq_of_lt hp1] at this
    simpa using this
  apply lucas_primality p (a : ZMod p)
  · exact (key _).mpr h1
  · intro q hq hd
    rw [hp, Nat.add_sub_cancel] at hd
    rcases (Nat.Prime.dvd_mul hq).mp hd with hd | hd
    · have := (Nat.prime_dvd_prime_iff_eq hq hs).mp (hq.dvd_of_dvd_pow hd)
      rw [this]
      exact fun e => h3 ((key _).mp e)
    · have := (Nat.prime_dvd_prime_iff_eq hq Nat.prime_two).mp (hq.dvd_of_dvd_pow hd)
      rw [this]
      exact fun e => h2 ((key _).mp e)

/-- A prime of 278 bits. -/
def toyP : Nat := 3 * 2 ^ 276 + 1

/-- A prime of 273 bits. -/
def toyQ : Nat := 25 * 2 ^ 268 + 1

theorem toyP_prime : toyP.Prime :=
  prime_of_powMod (f := 280) (a := 19) (c := 1) (m := 276) (s := 3) (by decide +kernel)
    Nat.prime_three (by decide +kernel) (by decide +kernel) (by decide +kernel)
    (by decide +kernel) (by decide +kernel)

theorem toyQ_prime : toyQ.Prime :=
  prime_of_powMod (f := 280) (a := 3) (c := 2) (m := 268) (s := 5) (by decide +kernel)
    Nat.prime_five (by decide +kernel) (by decide +kernel) (by decide +kernel)
    (by decide +kernel) (by decide +kernel)

/-- A key of 550 bits with exponent 7. -/
def toyRsa : RsaKey :=
  ⟨⟨toyP * toyQ, 7⟩, (2 * (toyP - 1) * (toyQ - 1) + 1) / 7, toyP, toyQ, true⟩

theorem toyRsa_proper : toyRsa.Proper where
  p_prime := toyP_prime
  q_prime := toyQ_prime
  p_odd := by decide +kernel
  q_odd := by decide +kernel
  ne := by decide +kernel
  modulus := by decide +kernel
  e_low := by decide +kernel
  e_high := by decide +kernel
  inv_p := by unfold Nat.ModEq; decide +kernel
  inv_q := by unfold Nat.ModEq; decide +kernel

/-- The modulus has 69 bytes. -/
theorem toyRsa_size : toyRsa.pub.size = 69 := by
  have h1 : Nat.size toyRsa.pub.n ≤ 551 := Nat.size_le.mpr (by decide +kernel)
  have h2 : 545 < Nat.size toyRsa.pub.n := Nat.lt_size.mpr (by decide +kernel)
  unfold RsaPub.size
  omega

/-- "Factors" that are equal, and not prime, but pass the checks of the library. -/
def badRsa : RsaKey :=
  ⟨⟨(2 ^ 264 + 1) * (2 ^ 264 + 1), 3⟩, (2 ^ 265 + 1) / 3, 2 ^ 264 + 1, 2 ^ 264 + 1, true⟩

theorem badRsa_size : badRsa.pub.size = 67 := by
  have h1 : Nat.size badRsa.pub.n ≤ 536 := Nat.size_le.mpr (by decide +kernel)
  have h2 : 528 < Nat.size badRsa.pub.n := Nat.lt_size.mpr (by decide +kernel)
  unfold RsaPub.size
  omega

end Verif
