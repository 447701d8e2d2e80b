import Verif.Props.RsaKeys
import Verif.Spec.RsaImported
import Mathlib.Data.Nat.Squarefree
import Mathlib.NumberTheory.Basic
import Mathlib.RingTheory.IntegralDomain
import Mathlib.Algebra.BigOperators.Associated
import Mathlib.Data.Fintype.Pigeonhole

/-!
# Imported private keys: C162
-/

namespace Verif

/-- Taking powers is the identity exactly for products of different primes with fitting exponents. -/
theorem pow_self_iff {m j : Nat} (hm : 0 < m) (hj : 1 < j) :
    (∀ x, x ^ j ≡ x [MOD m]) ↔ Squarefree m ∧ ∀ s : Nat, s.Prime → s ∣ m → s - 1 ∣ j - 1 := by
  constructor
  · intro h
    refine ⟨?_, fun s hs hd => ?_⟩
    · rw [Nat.squarefree_iff_prime_squarefree]
      rintro s hs ⟨t, rfl⟩
      have ht : 0 < t := Nat.pos_of_ne_zero (by rintro rfl; simp at hm)
      have h1 : s * s * t ∣ (s * t) ^ j := by
        have : s * s * t ∣ (s * t) ^ 2 := ⟨t, by ring⟩
        exact this.trans (pow_dvd_pow _ hj)
      have h2 : s * s * t ∣ s * t := by
        have := (h (s * t)).symm.dvd_iff (d := s * s * t) dvd_rfl
        exact this.mpr h1
      have h3 := Nat.le_of_dvd (Nat.mul_pos hs.pos ht) h2
      have := hs.two_le
      nlinarith [Nat.mul_pos hs.pos ht]
    · have := Fact.mk hs
      obtain ⟨g, hg⟩ := IsCyclic.exists_generator (α := (ZMod s)ˣ)
      have ho : orderOf g = s - 1 := by
        rw [orderOf_eq_card_of_forall_mem_zpowers hg, Nat.card_eq_fintype_card, ZMod.card_units]
      rw [← ho]
      apply orderOf_dvd_of_pow_eq_one
      have h1 := (h (g : ZMod s).val).of_dvd hd
      rw [← ZMod.natCast_eq_natCast_iff] at h1
      push_cast at h1
      rw [ZMod.natCast_zmod_val] at h1
      have h2 : g ^ j = g := Units.ext (by push_cast; exact h1)
      rw [show j = j - 1 + 1 by omega, pow_succ] at h2
      simpa using h2
  · rintro ⟨hsq, h⟩ x
    have hle : x ≤ x ^ j := Nat.le_self_pow (by omega) x
    refine ((Nat.modEq_iff_dvd' hle).mpr ?_).symm
    rw [← Nat.prod_primeFactors_of_squarefree hsq]
    refine Finset.prod_primes_dvd _ (fun s hs => (Nat.prime_of_mem_primeFactors hs).prime) fun s hs => ?_
    have hp := Nat.prime_of_mem_primeFactors hs
    have := Fact.mk hp
    obtain ⟨t, ht⟩ := h s hp (Nat.dvd_of_mem_primeFactors hs)
    rw [← Nat.modEq_iff_dvd' hle]
    refine Nat.ModEq.symm ?_
    rw [← ZMod.natCast_eq_natCast_iff]
    push_cast
    rw [show j = (s - 1) * t + 1 by omega, pow_succ, pow_mul]
    by_cases hx : (x : ZMod s) = 0
    · simp [hx]
    · rw [ZMod.pow_card_sub_one_eq_one hx]; simp

/-- What the private operation does, with precomputed values and coprime factors. -/
theorem raw_exact {k : RsaKey} (hpre : k.pre = true) (hp : 2 < k.p) (hq : 2 < k.q) (hc : Nat.Coprime k.p k.q)
    (c : Nat) : ∃ z, rsaRaw k c = .ok z ∧ z < k.p * k.q ∧ z ≡ c ^ (k.d % (k.p - 1)) [MOD k.p] ∧
      z ≡ c ^ (k.d % (k.q - 1)) [MOD k.q] := by
  have ed : ∀ m : Nat, 2 < m → ((k.d : Int) % ((m : Int) - 1)).toNat = k.d % (m - 1) := by
    intro m hm
    rw [show ((m : Int) - 1) = ((m - 1 : Nat) : Int) by omega]
    exact_mod_cast Int.toNat_natCast _
  obtain ⟨x, hx1, hx2⟩ := Nat.chineseRemainder hc (c ^ (k.d % (k.p - 1))) (c ^ (k.d % (k.q - 1)))
  obtain ⟨i, hi, hi1⟩ := modInverse_coprime (by omega : 0 < k.p) hc.symm
  have hn : 0 < k.p * k.q := Nat.mul_pos (by omega) (by omega)
  refine ⟨x % (k.p * k.q), ?_, Nat.mod_lt _ hn, ?_, ?_⟩
  · unfold rsaRaw
    simp only [hpre, Bool.not_true, Bool.false_eq_true, if_false, hi, Outcome.deref_some, Outcome.bind_ok,
      ed _ hp, ed _ hq]
    rw [show c ^ (k.d % (k.p - 1)) % k.p = x % k.p from hx1.symm,
      show c ^ (k.d % (k.q - 1)) % k.q = x % k.q from hx2.symm]
    congr 1
    apply garner (by omega) (by omega) hc hi1
    have h3 : ((x % k.p : Nat) : Int) ≡ x [ZMOD k.p] := by
      push_cast; exact Int.mod_modEq _ _
    split
    · have h4 : ((x % k.p : Nat) : Int) - (x % k.q : Nat) + k.p ≡
          ((x % k.p : Nat) : Int) - (x % k.q : Nat) [ZMOD k.p] := by
        simp [Int.ModEq]
      exact h4.trans (h3.sub_right _)
    · exact h3.sub_right _
  · exact ((Nat.mod_modEq x _).of_mul_right _).trans hx1
  · exact ((Nat.mod_modEq x _).of_mul_left _).trans hx2

/-- The blinded operation on a number below the modulus. -/
theorem decryptNat_eq {k : RsaKey} (hn : 0 < k.pub.n) {r i : Nat} (hi : modInverse r k.pub.n = some i) (x : Nat) :
    rsaDecryptNat k r (x ^ k.pub.e % k.pub.n) =
      (rsaRaw k ((x * r) ^ k.pub.e % k.pub.n)).bind fun m => .ok (m * i % k.pub.n) := by
  have hlt := Nat.mod_lt (x ^ k.pub.e) hn
  have e : x ^ k.pub.e % k.pub.n * (r ^ k.pub.e % k.pub.n) % k.pub.n = (x * r) ^ k.pub.e % k.pub.n := by
    rw [mul_pow, Nat.mul_mod (x ^ k.pub.e)]
  have g1 : Outcome.guardNot (decide (k.pub.n < x ^ k.pub.e % k.pub.n))
      "crypto/rsa: decryption error" = .ok () := by
    rw [Outcome.guardNot_eq_ok]; simp; omega
  have g2 : Outcome.guardNot (decide (k.pub.n = 0)) "crypto/rsa: decryption error" = .ok () := by
    rw [Outcome.guardNot_eq_ok]; simp; omega
  unfold rsaDecryptNat
  rw [g1, g2, hi, e]
  rfl

private theorem undoes_iff {k : RsaKey} (hpre : k.pre = true) (hn : k.pub.n = k.p * k.q) (hp : 2 < k.p)
    (hq : 2 < k.q) (he : 2 ≤ k.pub.e) (hip : k.pub.e * k.d ≡ 1 [MOD k.p - 1])
    (hiq : k.pub.e * k.d ≡ 1 [MOD k.q - 1]) (hc : Nat.Coprime k.p k.q) :
    (∀ y, rsaRaw k (y ^ k.pub.e % k.pub.n) = .ok (y % k.pub.n)) ↔ k.Undoes := by
  have hj : ∀ m, 2 < m → k.pub.e * k.d ≡ 1 [MOD m - 1] → 1 < k.pub.e * (k.d % (m - 1)) := by
    intro m hm h
    have h1 : k.pub.e * (k.d % (m - 1)) ≡ 1 [MOD m - 1] := ((Nat.mod_modEq _ _).mul_left _).trans h
    have : k.d % (m - 1) ≠ 0 := by
      intro h0
      rw [h0, Nat.mul_zero] at h1
      have := (Nat.modEq_iff_dvd' (by omega)).mp h1
      have := Nat.le_of_dvd (by decide) this
      omega
    calc 1 < k.pub.e * 1 := by omega
      _ ≤ _ := Nat.mul_le_mul_left _ (by omega)
  unfold RsaKey.Undoes Cancels
  rw [← pow_self_iff (by omega) (hj _ hp hip), ← pow_self_iff (by omega) (hj _ hq hiq)]
  have key : ∀ y, (rsaRaw k (y ^ k.pub.e % k.pub.n) = .ok (y % k.pub.n) ↔
      y ^ (k.pub.e * (k.d % (k.p - 1))) ≡ y [MOD k.p] ∧ y ^ (k.pub.e * (k.d % (k.q - 1))) ≡ y [MOD k.q]) := by
    intro y
    obtain ⟨z, hz, hlt, h1, h2⟩ := raw_exact hpre hp hq hc (y ^ k.pub.e % k.pub.n)
    have e1 : (y ^ k.pub.e % k.pub.n) ^ (k.d % (k.p - 1)) ≡ y ^ (k.pub.e * (k.d % (k.p - 1))) [MOD k.p] := by
      rw [pow_mul]
      have := Nat.mod_modEq (y ^ k.pub.e) k.pub.n
      rw [hn] at this ⊢
      exact (this.of_mul_right _).pow _
    have e2 : (y ^ k.pub.e % k.pub.n) ^ (k.d % (k.q - 1)) ≡ y ^ (k.pub.e * (k.d % (k.q - 1))) [MOD k.q] := by
      rw [pow_mul]
      have := Nat.mod_modEq (y ^ k.pub.e) k.pub.n
      rw [hn] at this ⊢
      exact (this.of_mul_left _).pow _
    rw [hz, Outcome.ok.injEq]
    have h3 : z = y % k.pub.n ↔ z ≡ y [MOD k.p * k.q] := by
      rw [hn]
      unfold Nat.ModEq
      rw [Nat.mod_eq_of_lt hlt]
    rw [h3, ← Nat.modEq_and_modEq_iff_modEq_mul hc]
    constructor
    · rintro ⟨a, b⟩
      exact ⟨(e1.symm.trans h1.symm).trans a, (e2.symm.trans h2.symm).trans b⟩
    · rintro ⟨a, b⟩
      exact ⟨(h1.trans e1).trans a, (h2.trans e2).trans b⟩
  simp only [key]
  exact forall_and

/-- C162, exactly which accepted private keys with coprime factors undo the public operation, for every random
number that the library accepts: those for whose factors the exponents cancel. -/
theorem C162_numbers_exact {b : Bytes} {k : RsaKey} (hb : rsaKeyFromBytes b = .ok k) (hc : Nat.Coprime k.p k.q)
    {r : Nat} (hr : Nat.Coprime r k.pub.n) :
    (∀ x < k.pub.n, rsaDecryptNat k r (x ^ k.pub.e % k.pub.n) = .ok x) ↔ k.Undoes := by
  obtain ⟨hpre, hn, hp, hq, he, he', hip, hiq⟩ := C102_imported_checked hb
  have hn0 : 0 < k.pub.n := by rw [hn]; exact Nat.mul_pos (by omega) (by omega)
  obtain ⟨i, hi, hi1⟩ := modInverse_coprime hn0 hr
  rw [← undoes_iff hpre hn hp hq he hip hiq hc]
  simp only [decryptNat_eq hn0 hi]
  constructor
  · intro h y
    obtain ⟨z, hz, hlt, -⟩ := raw_exact hpre hp hq hc (y ^ k.pub.e % k.pub.n)
    rw [hz, Outcome.ok.injEq]
    have hx := h (y * i % k.pub.n) (Nat.mod_lt _ hn0)
    have e0 : y * i % k.pub.n * r ≡ y [MOD k.pub.n] := by
      have a := (Nat.mod_modEq (y * i) k.pub.n).mul_right r
      have b := hi1.mul_left y
      rw [mul_one, mul_comm r i, ← mul_assoc] at b
      exact a.trans b
    have e1 : (y * i % k.pub.n * r) ^ k.pub.e % k.pub.n = y ^ k.pub.e % k.pub.n := e0.pow _
    rw [e1, hz] at hx
    simp only [Outcome.bind, Outcome.ok.injEq] at hx
    have e2 : z * i ≡ y * i [MOD k.pub.n] := by
      unfold Nat.ModEq
      exact hx
    have e3 := e2.mul_right r
    have e4 : ∀ w, w * i * r ≡ w [MOD k.pub.n] := by
      intro w
      have b := hi1.mul_left w
      rw [mul_one, mul_comm r i, ← mul_assoc] at b
      exact b
    have e5 : z ≡ y [MOD k.pub.n] := ((e4 z).symm.trans e3).trans (e4 y)
    unfold Nat.ModEq at e5
    rwa [Nat.mod_eq_of_lt (by rw [hn]; exact hlt)] at e5
  · intro h x hx
    rw [h (x * r)]
    simp only [Outcome.bind, Outcome.ok.injEq]
    have h1 : x * r % k.pub.n * i ≡ x [MOD k.pub.n] := by
      have a := (Nat.mod_modEq (x * r) k.pub.n).mul_right i
      have b := hi1.mul_left x
      rw [mul_one, ← mul_assoc] at b
      exact a.trans b
    unfold Nat.ModEq at h1
    rw [h1, Nat.mod_eq_of_lt hx]

/-- C162: two different primes suffice. -/
theorem C162_primes_cancel {b : Bytes} {k : RsaKey} (hb : rsaKeyFromBytes b = .ok k) (hp : k.p.Prime)
    (hq : k.q.Prime) (hne : k.p ≠ k.q) : Nat.Coprime k.p k.q ∧ k.Undoes := by
  obtain ⟨-, -, h1, h2, -, -, hep, heq⟩ := C102_imported_checked hb
  have one : ∀ {m : Nat}, m.Prime → 2 < m → k.pub.e * k.d ≡ 1 [MOD m - 1] →
      Cancels k.pub.e (k.d % (m - 1)) m := by
    intro m hm h2 h
    refine ⟨hm.prime.squarefree, fun s hs hd => ?_⟩
    obtain rfl := (Nat.prime_dvd_prime_iff_eq hs hm).mp hd
    have h' : k.pub.e * (k.d % (s - 1)) ≡ 1 [MOD s - 1] :=
      ((Nat.mod_modEq k.d (s - 1)).mul_left _).trans h
    have hpos : 1 ≤ k.pub.e * (k.d % (s - 1)) := by
      rcases Nat.eq_zero_or_pos (k.pub.e * (k.d % (s - 1))) with h0 | h0
      · rw [h0] at h'
        have := (Nat.modEq_iff_dvd' (Nat.zero_le 1)).mp h'
        have := Nat.le_of_dvd (by decide) this
        omega
      · exact h0
    exact (Nat.modEq_iff_dvd' hpos).mp h'.symm
  exact ⟨(Nat.coprime_primes hp hq).mpr hne, one hp h1 hep, one hq h2 heq⟩

section
variable [H : Sha256]

/-- The encryption of a message that leaves room for the padding, and what a decryption of it does. -/
theorem decrypt_encrypt_eq {k : RsaKey} (hn : 0 < k.pub.n) (he : 2 ≤ k.pub.e) (he' : k.pub.e < 2 ^ 31)
    {seed msg : Bytes} (hs : seed.length = 32) (hm : msg.length + 66 ≤ k.pub.size) :
    beNat (oaepPad k.pub.size seed msg) < k.pub.n ∧ ∃ c, rsaEncrypt k.pub seed msg = .ok c ∧
      ∀ r, rsaDecrypt k r c =
        (rsaDecryptNat k r (beNat (oaepPad k.pub.size seed msg) ^ k.pub.e % k.pub.n)).bind fun m =>
          oaepUnpad (leftPad k.pub.size (beBytes m)) := by
  have hc : checkPub k.pub = .ok () := checkPub_eq_ok.mpr ⟨he, he'⟩
  have hl := oaepPad_length (H := H) hs hm
  have hlt : beNat (oaepPad k.pub.size seed msg) < k.pub.n := by
    refine lt_of_lt_of_le ?_ (size_pow (by omega : 0 < k.pub.size))
    unfold oaepPad at hl ⊢
    rw [beNat_cons]
    simp only [UInt8.toNat_zero, Nat.zero_mul, Nat.zero_add]
    refine lt_of_lt_of_eq (beNat_lt _) ?_
    congr 1
    simp only [List.length_cons] at hl
    omega
  set m := beNat (oaepPad k.pub.size seed msg) with hmdef
  have hcl : (beBytes (m ^ k.pub.e % k.pub.n)).length ≤ k.pub.size :=
    beBytes_length_le.mpr ((Nat.mod_lt _ hn).trans (n_lt_size _))
  refine ⟨hlt, leftPad k.pub.size (beBytes (m ^ k.pub.e % k.pub.n)), ?_, fun r => ?_⟩
  · unfold rsaEncrypt
    rw [hc, Outcome.bind_ok, if_neg (by omega)]
  · unfold rsaDecrypt
    have g : Outcome.guardNot (decide (k.pub.size <
        (leftPad k.pub.size (beBytes (m ^ k.pub.e % k.pub.n))).length) || decide (k.pub.size < 66))
        "crypto/rsa: decryption error" = .ok () := by
      rw [Outcome.guardNot_eq_ok, leftPad_length hcl]; simp; omega
    rw [hc, Outcome.bind_ok, g, Outcome.bind_ok, beNat_leftPad, beNat_beBytes]
    rfl

/-- C162, what holds: an accepted private key with coprime factors for which the exponents cancel decrypts what
its public key encrypts, whatever the message that leaves room for the padding, the seed and the blinding. -/
theorem C162_decrypts_partial {b : Bytes} {k : RsaKey} (hb : rsaKeyFromBytes b = .ok k)
    (hc : Nat.Coprime k.p k.q) (hu : k.Undoes) {seed msg : Bytes} {r : Nat} (hs : seed.length = 32)
    (hm : msg.length + 66 ≤ k.pub.size) (hr : Nat.Coprime r k.pub.n) :
    ∃ c, rsaEncrypt k.pub seed msg = .ok c ∧ rsaDecrypt k r c = .ok msg := by
  obtain ⟨hpre, hn, hp, hq, he, he', -⟩ := C102_imported_checked hb
  have hn0 : 0 < k.pub.n := by rw [hn]; exact Nat.mul_pos (by omega) (by omega)
  obtain ⟨hlt, c, hc1, hc2⟩ := decrypt_encrypt_eq (H := H) hn0 he he' hs hm
  refine ⟨c, hc1, ?_⟩
  rw [hc2, (C162_numbers_exact hb hc hr).mpr hu _ hlt]
  simp only [Outcome.bind]
  have hl := oaepPad_length (H := H) hs hm
  have := leftPad_beBytes_beNat (oaepPad k.pub.size seed msg)
  rw [hl] at this
  rw [this, oaepUnpad_pad hs]

end

/-- A key with the factors 4 and 7²⁰¹. -/
def wrongRsa : RsaKey := ⟨⟨4 * 7 ^ 201, 7⟩, 7 ^ 200, 4, 7 ^ 201, true⟩

theorem wrongRsa_size : wrongRsa.pub.size = 71 := by
  have h1 : Nat.size wrongRsa.pub.n ≤ 568 := Nat.size_le.mpr (by decide +kernel)
  have h2 : 560 < Nat.size wrongRsa.pub.n := Nat.lt_size.mpr (by decide +kernel)
  unfold RsaPub.size
  omega

/-- Its file. -/
def wrongRsaBytes : Bytes := tlv tagSequence
  (derField 0 ++ (derField wrongRsa.pub.n ++ (derField wrongRsa.pub.e ++ (derField wrongRsa.d ++
    (derField wrongRsa.p ++ (derField wrongRsa.q ++ (derField 1 ++ (derField 1 ++ derField 1))))))))

theorem wrongRsa_imported : rsaKeyFromBytes wrongRsaBytes = .ok wrongRsa := by
  have h := rsaKeyFromBytes_fields (k := wrongRsa) (dp := 1) (dq := 1) (i := 1)
    (rsaValidate_eq_ok.mpr (by decide +kernel)) (by decide +kernel) (by
      have h0 := derField_length (n := 0) (m := 99) (by decide +kernel) (by decide)
      have h1 := derField_length (n := wrongRsa.pub.n) (m := 99) (by decide +kernel) (by decide)
      have h2 := derField_length (n := wrongRsa.pub.e) (m := 99) (by decide +kernel) (by decide)
      have h3 := derField_length (n := wrongRsa.d) (m := 99) (by decide +kernel) (by decide)
      have h4 := derField_length (n := wrongRsa.p) (m := 99) (by decide +kernel) (by decide)
      have h5 := derField_length (n := wrongRsa.q) (m := 99) (by decide +kernel) (by decide)
      have h6 := derField_length (n := 1) (m := 99) (by decide +kernel) (by decide)
      exact tlv_length_le (by simp only [List.length_append]; omega))
  exact h

/-- Numbers that agree modulo 28 are decrypted to the same one. -/
theorem wrongRsa_same {r x y : Nat} (hr : Nat.Coprime r wrongRsa.pub.n) (h : x ≡ y [MOD 28]) :
    rsaDecryptNat wrongRsa r (x ^ wrongRsa.pub.e % wrongRsa.pub.n) =
      rsaDecryptNat wrongRsa r (y ^ wrongRsa.pub.e % wrongRsa.pub.n) := by
  have hn0 : 0 < wrongRsa.pub.n := by decide +kernel
  obtain ⟨i, hi, hi1⟩ := modInverse_coprime hn0 hr
  rw [decryptNat_eq hn0 hi, decryptNat_eq hn0 hi]
  have hc : Nat.Coprime wrongRsa.p wrongRsa.q := by decide +kernel
  have hp : 2 < wrongRsa.p := by decide +kernel
  have hq : 2 < wrongRsa.q := by decide +kernel
  obtain ⟨z, hz, hz0, hz1, hz2⟩ := raw_exact rfl hp hq hc ((x * r) ^ wrongRsa.pub.e % wrongRsa.pub.n)
  obtain ⟨w, hw, hw0, hw1, hw2⟩ := raw_exact rfl hp hq hc ((y * r) ^ wrongRsa.pub.e % wrongRsa.pub.n)
  have hn : wrongRsa.pub.n = wrongRsa.p * wrongRsa.q := rfl
  have hxy : x * r ≡ y * r [MOD 28] := h.mul_right r
  have s1 : ∀ a, a ^ wrongRsa.pub.e % wrongRsa.pub.n ≡ a ^ wrongRsa.pub.e [MOD wrongRsa.p] := by
    intro a
    have := Nat.mod_modEq (a ^ wrongRsa.pub.e) wrongRsa.pub.n
    rw [hn] at this ⊢
    exact this.of_mul_right _
  have s2 : ∀ a, a ^ wrongRsa.pub.e % wrongRsa.pub.n ≡ a ^ wrongRsa.pub.e [MOD wrongRsa.q] := by
    intro a
    have := Nat.mod_modEq (a ^ wrongRsa.pub.e) wrongRsa.pub.n
    rw [hn] at this ⊢
    exact this.of_mul_left _
  have e1 : z ≡ w [MOD wrongRsa.p] := by
    refine (hz1.trans (Nat.ModEq.pow _ ?_)).trans hw1.symm
    refine ((s1 _).trans (Nat.ModEq.pow _ ?_)).trans (s1 _).symm
    exact hxy.of_dvd (by decide)
  have e2 : z ≡ w [MOD wrongRsa.q] := by
    refine (hz2.trans ?_).trans hw2.symm
    have hd : wrongRsa.d % (wrongRsa.q - 1) = 7 ^ 200 := by decide +kernel
    rw [hd]
    refine (((s2 _).pow _).trans ?_).trans ((s2 _).pow _).symm
    rw [← pow_mul, ← pow_mul]
    have he : wrongRsa.pub.e * 7 ^ 200 = 7 ^ 201 := by decide +kernel
    rw [he]
    have h7 : ((7 : Nat) : Int) ∣ ((x * r : Nat) : Int) - ((y * r : Nat) : Int) :=
      (Nat.modEq_iff_dvd.mp (hxy.symm.of_dvd (by decide)))
    have := dvd_sub_pow_of_dvd_sub h7 201
    refine (Nat.modEq_iff_dvd.mpr ?_).symm
    refine (Dvd.dvd.trans ?_ (by exact_mod_cast this))
    show ((7 ^ 201 : Nat) : Int) ∣ _
    exact_mod_cast pow_dvd_pow (7 : Int) (by decide : 201 ≤ 201 + 1)
  have e3 : z = w := by
    have := (Nat.modEq_and_modEq_iff_modEq_mul hc).mp ⟨e1, e2⟩
    unfold Nat.ModEq at this
    rwa [Nat.mod_eq_of_lt hz0, Nat.mod_eq_of_lt hw0] at this
  rw [hz, hw, e3]

/-- C162: the expectation fails: there is a file that is accepted as a private key with coprime factors, and
whatever the hash function, the seed and the blinding, some message of one byte is encrypted with its public key
but not decrypted with the private key. -/
theorem C162_wrong_key_neg : ∃ b k, rsaKeyFromBytes b = .ok k ∧ Nat.Coprime k.p k.q ∧ 67 ≤ k.pub.size ∧
    ∀ (_ : Sha256) (seed : Bytes) (r : Nat), seed.length = 32 → Nat.Coprime r k.pub.n →
      ∃ msg c, msg.length = 1 ∧ rsaEncrypt k.pub seed msg = .ok c ∧ rsaDecrypt k r c ≠ .ok msg := by
  refine ⟨_, wrongRsa, wrongRsa_imported, by decide +kernel, by rw [wrongRsa_size]; decide, ?_⟩
  intro H seed r hs hr
  by_contra hno
  push Not at hno
  have hn0 : 0 < wrongRsa.pub.n := by decide +kernel
  obtain ⟨a, b, hab, hf⟩ := Fintype.exists_ne_map_eq_of_card_lt
    (fun a : Fin 256 => (⟨beNat (oaepPad wrongRsa.pub.size seed [UInt8.ofFin a]) % 28,
      Nat.mod_lt _ (by decide)⟩ : Fin 28)) (by rw [Fintype.card_fin, Fintype.card_fin]; decide)
  have key : ∀ a : UInt8, ((rsaDecryptNat wrongRsa r
      (beNat (oaepPad wrongRsa.pub.size seed [a]) ^ wrongRsa.pub.e % wrongRsa.pub.n)).bind fun m =>
          oaepUnpad (leftPad wrongRsa.pub.size (beBytes m))) = .ok [a] := by
    intro a
    obtain ⟨-, c, hc1, hc2⟩ := decrypt_encrypt_eq (k := wrongRsa) (msg := [a]) hn0 (by decide) (by decide) hs
      (by rw [wrongRsa_size]; simp)
    rw [← hc2]
    exact hno [a] c rfl hc1
  have h1 := key (UInt8.ofFin a)
  rw [wrongRsa_same hr (by simpa [Nat.ModEq] using hf), key (UInt8.ofFin b)] at h1
  simp only [Outcome.ok.injEq, List.cons.injEq, and_true] at h1
  exact hab (by simpa using (congrArg UInt8.toFin h1).symm)

section examples

attribute [local instance] toySha256

/-- C162: a key with prime factors. -/
example : ∃ b c, rsaKeyFromBytes b = .ok toyRsa ∧ toyRsa.Undoes ∧
    rsaEncrypt toyRsa.pub (List.replicate 32 7) [1, 2] = .ok c ∧ rsaDecrypt toyRsa 2 c = .ok [1, 2] := by
  have h := rsaKeyFromBytes_fields (k := toyRsa) (dp := 1) (dq := 1) (i := 1)
    toyRsa_proper.validate toyRsa_proper.d_pos (by
      have h0 := derField_length (n := 0) (m := 99) (by decide +kernel) (by decide)
      have h1 := toyRsa_n_length
      have h2 := toyRsa_e_length
      have h3 := derField_length (n := toyRsa.d) (m := 99) (by decide +kernel) (by decide)
      have h4 := derField_length (n := toyRsa.p) (m := 99) (by decide +kernel) (by decide)
      have h5 := derField_length (n := toyRsa.q) (m := 99) (by decide +kernel) (by decide)
      have h6 := derField_length (n := 1) (m := 99) (by decide +kernel) (by decide)
      exact tlv_length_le (by simp only [List.length_append]; omega))
  obtain ⟨hc, hu⟩ := C162_primes_cancel h toyRsa_proper.p_prime toyRsa_proper.q_prime toyRsa_proper.ne
  obtain ⟨c, h1, h2⟩ := C162_decrypts_partial h hc hu (seed := List.replicate 32 7) (msg := [1, 2]) (r := 2)
    (by simp) (by rw [toyRsa_size]; simp) (by decide +kernel)
  exact ⟨_, c, h, hu, h1, h2⟩

/-- C162: the key with the factors 4 and 7²⁰¹ is accepted, and does not decrypt some number. -/
example : ¬ ∀ x < wrongRsa.pub.n,
    rsaDecryptNat wrongRsa 1 (x ^ wrongRsa.pub.e % wrongRsa.pub.n) = .ok x := by
  rw [C162_numbers_exact wrongRsa_imported (by decide +kernel) (by decide +kernel)]
  rintro ⟨⟨h, -⟩, -⟩
  have := h 2 ⟨1, rfl⟩
  rw [Nat.isUnit_iff] at this
  omega

end examples

end Verif
