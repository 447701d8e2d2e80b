import Verif.Spec.Rsa
import Mathlib.FieldTheory.Finite.Basic
import Mathlib.Data.Nat.ChineseRemainder
import Mathlib.Data.Int.ModEq

/-!
# Lemmas about RSA
-/

namespace Verif

/-! ## Number theory -/

/-- Exponents that are inverse modulo `p - 1` cancel modulo the prime `p`. -/
theorem pow_inv_modEq {p a x : Nat} (hp : p.Prime) (h2 : 2 < p) (ha : a ≡ 1 [MOD p - 1]) :
    x ^ a ≡ x [MOD p] := by
  have ha1 : 1 ≤ a := by
    rcases Nat.eq_zero_or_pos a with rfl | h
    · have h : (p - 1) ∣ 1 := (Nat.modEq_iff_dvd' (by omega)).mp ha
      have := Nat.le_of_dvd (by decide) h
      omega
    · exact h
  obtain ⟨t, ht⟩ := (Nat.modEq_iff_dvd' ha1).mp ha.symm
  have ha' : a = (p - 1) * t + 1 := by omega
  have := Fact.mk hp
  rw [← ZMod.natCast_eq_natCast_iff]
  push_cast
  rw [ha', pow_succ, pow_mul]
  by_cases hx : (x : ZMod p) = 0
  · simp [hx]
  · rw [ZMod.pow_card_sub_one_eq_one hx]; simp

theorem modInverse_eq_none {a n : Nat} : modInverse a n = none ↔ ¬ Nat.Coprime a n := by
  unfold modInverse Nat.Coprime
  split <;> simp_all

/-- The inverse is one, whenever numbers are coprime. -/
theorem modInverse_coprime {a n : Nat} (hn : 0 < n) (h : Nat.Coprime a n) :
    ∃ b, modInverse a n = some b ∧ a * b ≡ 1 [MOD n] := by
  refine ⟨_, if_pos h, ?_⟩
  have hn' : (n : Int) ≠ 0 := by omega
  rw [← Int.natCast_modEq_iff]
  push_cast
  rw [Int.toNat_of_nonneg (Int.emod_nonneg _ hn')]
  have h1 : (a : Int) * (Nat.gcdA a n % n) ≡ a * Nat.gcdA a n [ZMOD n] :=
    Int.ModEq.mul_left _ (Int.mod_modEq _ _)
  refine h1.trans ?_
  have h2 := Nat.gcd_eq_gcd_ab a n
  rw [show Nat.gcd a n = 1 from h] at h2
  push_cast at h2
  rw [h2]
  exact (Int.modEq_iff_dvd.mpr ⟨Nat.gcdB a n, by ring⟩)

/-- Garner's formula. -/
theorem garner {p q x : Nat} {i : Nat} (hp : 0 < p) (hq : 0 < q) (hc : Nat.Coprime p q)
    (hi : q * i ≡ 1 [MOD p]) (m : Int) (hm : m ≡ (x : Int) - (x % q : Nat) [ZMOD p]) :
    (m * i % p * q + (x % q : Nat)).toNat = x % (p * q) := by
  have hp' : (0 : Int) < p := by exact_mod_cast hp
  set v : Int := m * i % p with hv
  have hv0 : 0 ≤ v := Int.emod_nonneg _ (by omega)
  have hv1 : v < p := Int.emod_lt_of_pos _ hp'
  have hr : x % q < q := Nat.mod_lt _ hq
  obtain ⟨w, hw⟩ : ∃ w : Nat, v = w := ⟨v.toNat, by omega⟩
  have e : (v * q + (x % q : Nat)).toNat = w * q + x % q := by
    rw [hw]; exact_mod_cast Int.toNat_natCast _
  rw [e]
  have hwp : w < p := by omega
  have hlt : w * q + x % q < p * q := by
    have : (w + 1) * q ≤ p * q := Nat.mul_le_mul_right _ (by omega)
    nlinarith
  have h1 : w * q + x % q ≡ x [MOD q] := by
    unfold Nat.ModEq
    rw [Nat.mul_comm, Nat.mul_add_mod, Nat.mod_mod]
  have h2 : w * q + x % q ≡ x [MOD p] := by
    rw [← Int.natCast_modEq_iff]
    push_cast
    rw [← hw, hv]
    have a1 : m * i % p * q ≡ m * i * q [ZMOD p] := Int.ModEq.mul_right _ (Int.mod_modEq _ _)
    have a2 : (q : Int) * i ≡ 1 [ZMOD p] := by exact_mod_cast Int.natCast_modEq_iff.mpr hi
    have a3 : m * i * q ≡ m [ZMOD p] := by
      have := Int.ModEq.mul_left m a2
      rw [mul_one] at this
      convert this using 1; ring
    have a4 := (a1.trans a3).trans hm
    have a5 := Int.ModEq.add_right ((x : Int) % q) a4
    push_cast at a5
    simpa using a5
  have h3 : w * q + x % q ≡ x [MOD p * q] :=
    (Nat.modEq_and_modEq_iff_modEq_mul hc).mp ⟨h2, h1⟩
  have := h3
  unfold Nat.ModEq at this
  rw [Nat.mod_eq_of_lt hlt] at this
  exact this

namespace RsaKey.Proper

variable {k : RsaKey} (hk : k.Proper)
include hk

theorem coprime : Nat.Coprime k.p k.q := (Nat.coprime_primes hk.p_prime hk.q_prime).mpr hk.ne

theorem n_pos : 0 < k.pub.n := by
  rw [hk.modulus]; exact Nat.mul_pos hk.p_prime.pos hk.q_prime.pos

theorem exp_p : k.pub.e * ((k.d : Int) % ((k.p : Int) - 1)).toNat ≡ 1 [MOD k.p - 1] := by
  have h : ((k.d : Int) % ((k.p : Int) - 1)).toNat = k.d % (k.p - 1) := by
    have := hk.p_odd
    rw [show ((k.p : Int) - 1) = ((k.p - 1 : Nat) : Int) by omega]
    exact_mod_cast Int.toNat_natCast _
  rw [h]
  exact ((Nat.mod_modEq _ _).mul_left _).trans hk.inv_p

theorem exp_q : k.pub.e * ((k.d : Int) % ((k.q : Int) - 1)).toNat ≡ 1 [MOD k.q - 1] := by
  have h : ((k.d : Int) % ((k.q : Int) - 1)).toNat = k.d % (k.q - 1) := by
    have := hk.q_odd
    rw [show ((k.q : Int) - 1) = ((k.q - 1 : Nat) : Int) by omega]
    exact_mod_cast Int.toNat_natCast _
  rw [h]
  exact ((Nat.mod_modEq _ _).mul_left _).trans hk.inv_q

/-- The private operation undoes the public one, with or without precomputed values. -/
theorem raw_pow (x : Nat) : rsaRaw k (x ^ k.pub.e % k.pub.n) = .ok (x % k.pub.n) := by
  have hp : ∀ f, k.pub.e * f ≡ 1 [MOD k.p - 1] → (x ^ k.pub.e % k.pub.n) ^ f ≡ x [MOD k.p] := by
    intro f hf
    have h1 : x ^ k.pub.e % k.pub.n ≡ x ^ k.pub.e [MOD k.p] := by
      have := Nat.mod_modEq (x ^ k.pub.e) k.pub.n
      rw [hk.modulus] at this ⊢
      exact this.of_mul_right _
    have h2 := h1.pow f
    rw [← pow_mul] at h2
    exact h2.trans (pow_inv_modEq hk.p_prime hk.p_odd hf)
  have hq : ∀ f, k.pub.e * f ≡ 1 [MOD k.q - 1] → (x ^ k.pub.e % k.pub.n) ^ f ≡ x [MOD k.q] := by
    intro f hf
    have h1 : x ^ k.pub.e % k.pub.n ≡ x ^ k.pub.e [MOD k.q] := by
      have := Nat.mod_modEq (x ^ k.pub.e) k.pub.n
      rw [hk.modulus] at this ⊢
      exact this.of_mul_left _
    have h2 := h1.pow f
    rw [← pow_mul] at h2
    exact h2.trans (pow_inv_modEq hk.q_prime hk.q_odd hf)
  unfold rsaRaw
  cases k.pre with
  | false =>
    simp only [Bool.not_false, if_true]
    congr 1
    have h := (Nat.modEq_and_modEq_iff_modEq_mul hk.coprime).mp
      ⟨hp k.d hk.inv_p, hq k.d hk.inv_q⟩
    rw [← hk.modulus] at h
    exact h
  | true =>
    obtain ⟨i, hi, hi1⟩ := modInverse_coprime hk.p_prime.pos hk.coprime.symm
    have h1 := hp _ hk.exp_p
    have h2 := hq _ hk.exp_q
    unfold Nat.ModEq at h1 h2
    simp only [Bool.not_true, Bool.false_eq_true, if_false, hi, Outcome.deref_some,
      Outcome.bind_ok, h1, h2]
    congr 1
    rw [hk.modulus]
    apply garner hk.p_prime.pos hk.q_prime.pos hk.coprime hi1
    have h3 : ((x % k.p : Nat) : Int) ≡ x [ZMOD k.p] := by
      push_cast; exact Int.mod_modEq _ _
    split
    · have h4 : ((x % k.p : Nat) : Int) - (x % k.q : Nat) + k.p ≡
          ((x % k.p : Nat) : Int) - (x % k.q : Nat) [ZMOD k.p] := by
        simp [Int.ModEq]
      exact h4.trans (h3.sub_right _)
    · exact h3.sub_right _

/-- So does the blinded one, for every invertible factor. -/
theorem decrypt_pow {r x : Nat} (hr : Nat.Coprime r k.pub.n) (hx : x < k.pub.n) :
    rsaDecryptNat k r (x ^ k.pub.e % k.pub.n) = .ok x := by
  obtain ⟨i, hi, hi1⟩ := modInverse_coprime hk.n_pos hr
  have hlt := Nat.mod_lt (x ^ k.pub.e) hk.n_pos
  have hn := hk.n_pos
  unfold rsaDecryptNat
  have e : x ^ k.pub.e % k.pub.n * (r ^ k.pub.e % k.pub.n) % k.pub.n
      = (x * r) ^ k.pub.e % k.pub.n := by
    rw [mul_pow, Nat.mul_mod (x ^ k.pub.e)]
  rw [e, hk.raw_pow, hi]
  simp only [Outcome.deref_some, Outcome.bind_ok]
  have g1 : Outcome.guardNot (decide (k.pub.n < x ^ k.pub.e % k.pub.n))
      "crypto/rsa: decryption error" = .ok () := by
    rw [Outcome.guardNot_eq_ok]; simp; omega
  have g2 : Outcome.guardNot (decide (k.pub.n = 0))
      "crypto/rsa: decryption error" = .ok () := by
    rw [Outcome.guardNot_eq_ok]; simp; omega
  rw [g1, g2]
  simp only [Outcome.bind_ok]
  congr 1
  have h1 : x * r % k.pub.n * i ≡ x [MOD k.pub.n] := by
    have a := (Nat.mod_modEq (x * r) k.pub.n).mul_right i
    have b := hi1.mul_left x
    rw [mul_one, ← mul_assoc] at b
    exact a.trans b
  unfold Nat.ModEq at h1
  rw [h1, Nat.mod_eq_of_lt hx]

/-- The public operation undoes the blinded private one. -/
theorem pow_decrypt {r c m : Nat} (hr : Nat.Coprime r k.pub.n)
    (h : rsaDecryptNat k r c = .ok m) : m ^ k.pub.e % k.pub.n = c % k.pub.n := by
  obtain ⟨i, hi, hi1⟩ := modInverse_coprime hk.n_pos hr
  unfold rsaDecryptNat at h
  obtain ⟨_, h⟩ := Outcome.guardNot_bind_eq_ok.mp h
  obtain ⟨_, h⟩ := Outcome.guardNot_bind_eq_ok.mp h
  rw [hi, Outcome.deref_some, Outcome.bind_ok] at h
  set c₂ := c * (r ^ k.pub.e % k.pub.n) % k.pub.n with hc₂
  have hroot : (c₂ ^ k.d) ^ k.pub.e ≡ c₂ [MOD k.pub.n] := by
    rw [hk.modulus, ← pow_mul, mul_comm k.d]
    exact (Nat.modEq_and_modEq_iff_modEq_mul hk.coprime).mp
      ⟨pow_inv_modEq hk.p_prime hk.p_odd hk.inv_p, pow_inv_modEq hk.q_prime hk.q_odd hk.inv_q⟩
  have hlt : c₂ < k.pub.n := Nat.mod_lt _ hk.n_pos
  have e : (c₂ ^ k.d) ^ k.pub.e % k.pub.n = c₂ := by
    have := hroot
    unfold Nat.ModEq at this
    rw [this, Nat.mod_eq_of_lt hlt]
  have hraw := hk.raw_pow (c₂ ^ k.d)
  rw [e] at hraw
  rw [hraw, Outcome.bind_ok] at h
  simp only [Outcome.ok.injEq] at h
  have h1 : m ≡ c₂ ^ k.d * i [MOD k.pub.n] := by
    rw [← h]
    exact (Nat.mod_modEq _ _).trans ((Nat.mod_modEq _ _).mul_right _)
  have h2 : m ^ k.pub.e ≡ c₂ * i ^ k.pub.e [MOD k.pub.n] := by
    have := h1.pow k.pub.e
    rw [mul_pow] at this
    exact this.trans (hroot.mul_right _)
  have h3 : c₂ ≡ c * r ^ k.pub.e [MOD k.pub.n] :=
    (Nat.mod_modEq _ _).trans ((Nat.mod_modEq _ _).mul_left _)
  have h4 : (r * i) ^ k.pub.e ≡ 1 [MOD k.pub.n] := by
    have := hi1.pow k.pub.e
    rwa [one_pow] at this
  have h5 : c * r ^ k.pub.e * i ^ k.pub.e ≡ c [MOD k.pub.n] := by
    have := h4.mul_left c
    rw [mul_pow, mul_one, ← mul_assoc] at this
    exact this
  exact (h2.trans (h3.mul_right _)).trans h5

end RsaKey.Proper

end Verif
