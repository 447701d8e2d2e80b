import Verif.Ed25519.FieldEnc
import Mathlib.FieldTheory.Finite.Basic

/-!
# `feInvert` and `fePow22523`
-/

namespace Verif.Kyber

/-- The limbs are within the bounds for products and stand for the power `k` of `z`. -/
def Pw (z : Fp) (f : Fe) (k : Nat) : Prop := f.Bd 1 ∧ f.val = z ^ k

theorem Pw.mul {z : Fp} {f g : Fe} {j k : Nat} (hf : Pw z f j) (hg : Pw z g k) :
    Pw z (feMul f g) (j + k) := by
  obtain ⟨b, e⟩ := feMul_spec (hf.1.mono (by decide)) (hg.1.mono (by decide))
  exact ⟨b, by rw [e, hf.2, hg.2, pow_add]⟩

theorem Pw.square {z : Fp} {f : Fe} {k : Nat} (hf : Pw z f k) : Pw z (feSquare f) (2 * k) := by
  obtain ⟨b, e⟩ := feSquare_spec (hf.1.mono (by decide))
  exact ⟨b, by rw [e, hf.2, ← pow_add, two_mul]⟩

theorem Pw.squares {z : Fp} : ∀ (n : Nat) {f : Fe} {k : Nat}, Pw z f k →
    Pw z (feSquares n f) (2 ^ n * k)
  | 0, f, k, h => by simpa [feSquares] using h
  | n + 1, f, k, h => by
    have := Pw.squares n h.square
    rw [feSquares]
    convert this using 1
    rw [pow_succ]
    ring

theorem Pw.one {f : Fe} (h : f.Bd 1) : Pw f.val f 1 := ⟨h, (pow_one _).symm⟩

theorem feInvert_pow {z : Fe} (h : z.Bd 1) : Pw z.val (feInvert z) (prime25519 - 2) := by
  unfold feInvert
  have z1 := Pw.one h
  have t0 := z1.square
  have t1 := z1.mul (t0.squares 2)
  have t0 := t0.mul t1
  have t2 := t0.square
  have t1 := t1.mul t2
  have t2 := t1.squares 5
  have t1 := t2.mul t1
  have t2 := t1.squares 10
  have t2 := t2.mul t1
  have t3 := t2.squares 20
  have t2 := t3.mul t2
  have t2 := t2.squares 10
  have t1 := t2.mul t1
  have t2 := t1.squares 50
  have t2 := t2.mul t1
  have t3 := t2.squares 100
  have t2 := t3.mul t2
  have t2 := t2.squares 50
  have t1 := t2.mul t1
  have t1 := t1.squares 5
  have r := t1.mul t0
  convert r using 1
  unfold prime25519
  decide +kernel

theorem fePow22523_pow {z : Fe} (h : z.Bd 1) : Pw z.val (fePow22523 z) ((prime25519 - 5) / 8) := by
  unfold fePow22523
  have z1 := Pw.one h
  have t0 := z1.squares 1
  have t1 := t0.squares 2
  have t1 := z1.mul t1
  have t0 := t0.mul t1
  have t0 := t0.squares 1
  have t0 := t1.mul t0
  have t1 := t0.squares 5
  have t0 := t1.mul t0
  have t1 := t0.squares 10
  have t1 := t1.mul t0
  have t2 := t1.squares 20
  have t1 := t2.mul t1
  have t1 := t1.squares 10
  have t0 := t1.mul t0
  have t1 := t0.squares 50
  have t1 := t1.mul t0
  have t2 := t1.squares 100
  have t1 := t2.mul t1
  have t1 := t1.squares 50
  have t0 := t1.mul t0
  have t0 := t0.squares 2
  have r := t0.mul z1
  convert r using 1
  unfold prime25519
  decide +kernel

theorem prime25519_ge : 2 ^ 254 ≤ prime25519 := by
  unfold prime25519
  decide +kernel

theorem fp_pow {x : Fp} (h : x ≠ 0) : x ^ (prime25519 - 1) = 1 := ZMod.pow_card_sub_one_eq_one h

theorem feInvert_spec {z : Fe} (h : z.Bd 1) (h0 : z.val ≠ 0) :
    (feInvert z).Bd 1 ∧ (feInvert z).val = z.val⁻¹ := by
  obtain ⟨b, e⟩ := feInvert_pow h
  refine ⟨b, ?_⟩
  rw [e]
  apply eq_inv_of_mul_eq_one_left
  rw [← pow_succ]
  have : prime25519 - 2 + 1 = prime25519 - 1 := by
    have := prime25519_ge
    omega
  rw [this, fp_pow h0]

theorem prime25519_mod : 8 * ((prime25519 - 5) / 8) + 5 = prime25519 := by
  unfold prime25519
  decide +kernel

end Verif.Kyber
