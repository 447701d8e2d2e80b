import Verif.Spec.RsaMany
import Verif.Props.RsaImported
import Verif.Props.RsaCreate
import Mathlib.Data.Nat.GCD.BigOperators

/-!
# Private keys with more than two primes: C164
-/

namespace Verif

/-- Congruences modulo coprime numbers are one modulo their product. -/
theorem modEq_prod {a b : Nat} : ∀ {l : List Nat}, l.Pairwise Nat.Coprime → (∀ s ∈ l, a ≡ b [MOD s]) →
    a ≡ b [MOD l.prod]
  | [], _, _ => by simp [Nat.modEq_one]
  | s :: l, hc, h => by
    rw [List.pairwise_cons] at hc
    rw [List.prod_cons]
    exact (Nat.modEq_and_modEq_iff_modEq_mul (Nat.coprime_list_prod_right_iff.mpr hc.1)).mp
      ⟨h s (List.mem_cons_self ..), modEq_prod hc.2 fun t ht => h t (List.mem_cons_of_mem _ ht)⟩

/-- What the loop over the further primes computes. -/
theorem crtLoop_ok (d c : Nat) : ∀ (more : List Nat) (r m : Nat), 0 < r → m < r → (∀ s ∈ more, 0 < s) →
    (∀ s ∈ more, Nat.Coprime r s) → more.Pairwise Nat.Coprime →
    ∃ z, crtLoop d c r m more = .ok z ∧ z < r * more.prod ∧ z ≡ m [MOD r] ∧
      ∀ s ∈ more, z ≡ c ^ (d % (s - 1)) [MOD s]
  | [], r, m, _, hm, _, _, _ => ⟨m, rfl, by simpa using hm, rfl, by simp⟩
  | s :: more, r, m, hr, hm, hs, hc, hp => by
    rw [List.pairwise_cons] at hp
    have hs0 : 0 < s := hs s (List.mem_cons_self ..)
    have hc0 : Nat.Coprime r s := hc s (List.mem_cons_self ..)
    obtain ⟨i, hi, hi1⟩ := modInverse_coprime hs0 hc0
    set y := c ^ (d % (s - 1)) % s with hy
    set v : Int := ((y : Int) - (m : Int)) * (i : Int) % (s : Int) with hv
    have hv0 : 0 ≤ v := Int.emod_nonneg _ (by omega)
    have hv1 : v < s := Int.emod_lt_of_pos _ (by omega)
    have hm' : m + v.toNat * r < r * s := by
      have h1 : v.toNat + 1 ≤ s := by omega
      have h2 : (v.toNat + 1) * r ≤ s * r := Nat.mul_le_mul_right r h1
      rw [Nat.mul_comm r s]
      rw [Nat.add_mul, Nat.one_mul] at h2
      omega
    have e1 : m + v.toNat * r ≡ m [MOD r] := by simp [Nat.ModEq]
    have e2 : m + v.toNat * r ≡ y [MOD s] := by
      rw [← Int.natCast_modEq_iff]
      push_cast
      rw [Int.toNat_of_nonneg hv0]
      have a1 : v ≡ ((y : Int) - m) * i [ZMOD s] := Int.mod_modEq _ _
      have a2 : (r : Int) * i ≡ 1 [ZMOD s] := by
        have := Int.natCast_modEq_iff.mpr hi1
        push_cast at this
        exact this
      have a3 : v * r ≡ (y : Int) - m [ZMOD s] := by
        have b1 := a1.mul_right (r : Int)
        have b2 := a2.mul_left ((y : Int) - m)
        rw [mul_one] at b2
        refine b1.trans ?_
        have : ((y : Int) - m) * i * r = ((y : Int) - m) * (r * i) := by ring
        rw [this]
        exact b2
      have := a3.add_left (m : Int)
      simpa using this
    obtain ⟨z, hz, hz1, hz2, hz3⟩ := crtLoop_ok d c more (r * s) (m + v.toNat * r) (Nat.mul_pos hr hs0) hm'
      (fun t ht => hs t (List.mem_cons_of_mem _ ht))
      (fun t ht => Nat.Coprime.mul_left (hc t (List.mem_cons_of_mem _ ht)) (hp.1 t ht)) hp.2
    refine ⟨z, ?_, ?_, (hz2.of_mul_right _).trans e1, ?_⟩
    · rw [crtLoop, hi]
      exact hz
    · rw [List.prod_cons, ← Nat.mul_assoc]
      exact hz1
    · intro t ht
      rcases List.mem_cons.mp ht with rfl | ht
      · exact ((hz2.of_mul_left _).trans e2).trans (Nat.mod_modEq _ _)
      · exact hz3 t ht

/-- A common factor is found by the loop, as a nil coefficient. -/
theorem crtLoop_crash (d c : Nat) : ∀ (more : List Nat) (r m : Nat),
    ¬ ((∀ s ∈ more, Nat.Coprime r s) ∧ more.Pairwise Nat.Coprime) → crtLoop d c r m more = .crash .nilDeref
  | [], r, m, h => absurd ⟨by simp, List.Pairwise.nil⟩ h
  | s :: more, r, m, h => by
    rw [crtLoop]
    by_cases hc : Nat.Coprime r s
    · have hi : modInverse r s = some (Nat.gcdA r s % s).toNat := if_pos hc
      rw [hi]
      refine crtLoop_crash d c more (r * s) _ fun hall => h ⟨?_, ?_⟩
      · intro t ht
        rcases List.mem_cons.mp ht with rfl | ht
        · exact hc
        · exact (hall.1 t ht).coprime_mul_right
      · exact List.pairwise_cons.mpr ⟨fun t ht => (hall.1 t ht).coprime_mul_left, hall.2⟩
    · rw [modInverse_eq_none.mpr hc]
      rfl

theorem manyRaw_ok {k : RsaMany} (hs : ∀ s ∈ k.primes, 2 < s) (hc : k.primes.Pairwise Nat.Coprime) (c : Nat) :
    ∃ z, rsaManyRaw k c = .ok z ∧ z < k.primes.prod ∧ ∀ s ∈ k.primes, z ≡ c ^ (k.d % (s - 1)) [MOD s] := by
  unfold RsaMany.primes at hs hc ⊢
  rw [List.pairwise_cons, List.pairwise_cons] at hc
  have hp := hs k.p (by simp)
  have hq := hs k.q (by simp)
  have hpq : Nat.Coprime k.p k.q := hc.1 k.q (by simp)
  obtain ⟨m, hm, hm0, hm1, hm2⟩ := raw_exact (k := k.two) rfl hp hq hpq c
  obtain ⟨z, hz, hz0, hz1, hz2⟩ := crtLoop_ok k.d c k.more (k.p * k.q) m (Nat.mul_pos (by omega) (by omega)) hm0
    (fun s hs' => by have := hs s (by simp [hs']); omega)
    (fun s hs' => Nat.Coprime.mul_left (hc.1 s (by simp [hs'])) (hc.2.1 s hs')) hc.2.2
  refine ⟨z, ?_, ?_, ?_⟩
  · unfold rsaManyRaw
    rw [hm]
    exact hz
  · rw [List.prod_cons, List.prod_cons, ← Nat.mul_assoc]
    exact hz0
  · intro s hs'
    rcases List.mem_cons.mp hs' with rfl | hs'
    · exact (hz1.of_mul_right _).trans hm1
    · rcases List.mem_cons.mp hs' with rfl | hs'
      · exact (hz1.of_mul_left _).trans hm2
      · exact hz2 s hs'

/-- The blinded operation on a number below the modulus. -/
theorem manyDecryptNat_eq {k : RsaMany} (hn : 0 < k.pub.n) {r i : Nat} (hi : modInverse r k.pub.n = some i)
    (x : Nat) : rsaManyDecryptNat k r (x ^ k.pub.e % k.pub.n) =
      (rsaManyRaw k ((x * r) ^ k.pub.e % k.pub.n)).bind fun m => .ok (m * i % k.pub.n) := by
  have hlt := Nat.mod_lt (x ^ k.pub.e) hn
  have e : x ^ k.pub.e % k.pub.n * (r ^ k.pub.e % k.pub.n) % k.pub.n = (x * r) ^ k.pub.e % k.pub.n := by
    rw [mul_pow, Nat.mul_mod (x ^ k.pub.e)]
  have g1 : Outcome.guardNot (decide (k.pub.n < x ^ k.pub.e % k.pub.n))
      "crypto/rsa: decryption error" = .ok () := by
    rw [Outcome.guardNot_eq_ok]; simp; omega
  have g2 : Outcome.guardNot (decide (k.pub.n = 0)) "crypto/rsa: decryption error" = .ok () := by
    rw [Outcome.guardNot_eq_ok]; simp; omega
  unfold rsaManyDecryptNat
  rw [g1, g2, hi, e]
  rfl

namespace RsaMany.Proper

variable {k : RsaMany} (hk : k.Proper)
include hk

theorem coprime : k.primes.Pairwise Nat.Coprime := by
  refine (List.Pairwise.and_mem.mp hk.different).imp ?_
  rintro a b ⟨ha, hb, hne⟩
  exact (Nat.coprime_primes (hk.prime a ha).1 (hk.prime b hb).1).mpr hne

theorem n_pos : 0 < k.pub.n := by
  rw [hk.modulus]
  exact Nat.pos_of_ne_zero (List.prod_ne_zero fun h => by have := (hk.prime 0 h).2; omega)

theorem decrypt_pow {r x : Nat} (hr : Nat.Coprime r k.pub.n) (hx : x < k.pub.n) :
    rsaManyDecryptNat k r (x ^ k.pub.e % k.pub.n) = .ok x := by
  obtain ⟨i, hi, hi1⟩ := modInverse_coprime hk.n_pos hr
  rw [manyDecryptNat_eq hk.n_pos hi]
  obtain ⟨z, hz, hz0, hz1⟩ := manyRaw_ok (fun s hs => (hk.prime s hs).2) hk.coprime
    ((x * r) ^ k.pub.e % k.pub.n)
  rw [hz]
  have h0 : z ≡ x * r [MOD k.pub.n] := by
    rw [hk.modulus]
    refine modEq_prod hk.coprime fun s hs => ?_
    have hd : s ∣ k.pub.n := by rw [hk.modulus]; exact List.dvd_prod hs
    have h1 : (x * r) ^ k.pub.e % k.pub.n ≡ (x * r) ^ k.pub.e [MOD s] := (Nat.mod_modEq _ _).of_dvd hd
    refine (hz1 s hs).trans ((h1.pow _).trans ?_)
    rw [← pow_mul]
    refine pow_inv_modEq (hk.prime s hs).1 (hk.prime s hs).2 ?_
    exact ((Nat.mod_modEq k.d (s - 1)).mul_left _).trans (hk.inverse s hs)
  have h1 : z * i ≡ x [MOD k.pub.n] := by
    have b := hi1.mul_left x
    rw [mul_one, ← mul_assoc] at b
    exact (h0.mul_right i).trans b
  unfold Nat.ModEq at h1
  show Outcome.ok (z * i % k.pub.n) = .ok x
  rw [h1, Nat.mod_eq_of_lt hx]

end RsaMany.Proper

section
variable [H : Sha256]

/-- C164: whatever the number of primes, the key decrypts what was encrypted for its public key. -/
theorem C164_decrypts {k : RsaMany} (hk : k.Proper) {seed msg : Bytes} {r : Nat} (hs : seed.length = 32)
    (hm : msg.length + 66 ≤ k.pub.size) (hr : Nat.Coprime r k.pub.n) :
    ∃ c, rsaEncrypt k.pub seed msg = .ok c ∧ rsaManyDecrypt k r c = .ok msg := by
  have hc : checkPub k.pub = .ok () := checkPub_eq_ok.mpr ⟨hk.e_low, hk.e_high⟩
  have hl := oaepPad_length (H := H) hs hm
  have hlt : beNat (oaepPad k.pub.size seed msg) < k.pub.n := by
    refine lt_of_lt_of_le ?_ (size_pow (by omega : 0 < k.pub.size))
    unfold oaepPad at hl ⊢
    rw [beNat_cons]
    simp only [UInt8.toNat_zero, Nat.zero_mul, Nat.zero_add]
    refine lt_of_lt_of_eq (beNat_lt _) ?_
    congr 1
    simp only [List.length_cons] at hl
    omega
  set m := beNat (oaepPad k.pub.size seed msg) with hmdef
  have hcl : (beBytes (m ^ k.pub.e % k.pub.n)).length ≤ k.pub.size :=
    beBytes_length_le.mpr ((Nat.mod_lt _ hk.n_pos).trans (n_lt_size _))
  refine ⟨leftPad k.pub.size (beBytes (m ^ k.pub.e % k.pub.n)), ?_, ?_⟩
  · unfold rsaEncrypt
    rw [hc, Outcome.bind_ok, if_neg (by omega)]
  · unfold rsaManyDecrypt
    have g : Outcome.guardNot (decide (k.pub.size <
        (leftPad k.pub.size (beBytes (m ^ k.pub.e % k.pub.n))).length) || decide (k.pub.size < 66))
        "crypto/rsa: decryption error" = .ok () := by
      rw [Outcome.guardNot_eq_ok, leftPad_length hcl]; simp; omega
    rw [hc, Outcome.bind_ok, g, Outcome.bind_ok, beNat_leftPad, beNat_beBytes, hk.decrypt_pow hr hlt,
      Outcome.bind_ok]
    have := leftPad_beBytes_beNat (oaepPad k.pub.size seed msg)
    rw [hl] at this
    rw [this, oaepUnpad_pad hs]

end

theorem rsaManyValidate_eq_ok {k : RsaMany} {u : Unit} : rsaManyValidate k = .ok u ↔
    (2 ≤ k.pub.e ∧ k.pub.e < 2 ^ 31) ∧ (∀ s ∈ k.primes, 1 < s) ∧ k.primes.prod = k.pub.n ∧
      ∀ s ∈ k.primes, k.pub.e * k.d % (s - 1) = 1 := by
  unfold rsaManyValidate
  rw [Outcome.bind_eq_ok]
  simp only [checkPub_eq_ok, Outcome.guardNot_bind_eq_ok, Outcome.guardNot_eq_ok, List.any_eq_false,
    decide_eq_true_eq, not_le, bne_eq_false_iff_eq, bne_iff_ne, ne_eq, not_not]
  constructor
  · rintro ⟨_, h⟩; exact h
  · intro h; exact ⟨(), h⟩

/-- C164: what is read has passed the checks. -/
theorem C164_imported_checked {b : Bytes} {k : RsaMany} (h : rsaManyFromBytes b = .ok k) :
    (∀ s ∈ k.primes, 2 < s ∧ k.pub.e * k.d ≡ 1 [MOD s - 1]) ∧ k.pub.n = k.primes.prod ∧ 2 ≤ k.pub.e ∧
      k.pub.e < 2 ^ 31 := by
  unfold rsaManyFromBytes at h
  split at h
  · simp at h
  split at h
  · simp at h
  split at h
  · simp at h
  split at h
  · simp at h
  split at h
  · simp at h
  obtain ⟨u, hv, h⟩ := Outcome.bind_eq_ok.mp h
  simp only [Outcome.ok.injEq] at h
  rw [h] at hv
  obtain ⟨⟨h1, h2⟩, h3, h4, h5⟩ := rsaManyValidate_eq_ok.mp hv
  refine ⟨fun s hs => ?_, h4.symm, h1, h2⟩
  have a := h3 s hs
  have b := h5 s hs
  have : 2 < s := by
    by_contra hle
    have : s = 2 := by omega
    subst this
    simp [Nat.mod_one] at b
  refine ⟨this, ?_⟩
  unfold Nat.ModEq
  rw [b, Nat.mod_eq_of_lt (by omega)]

/-- C164: an imported key can be used exactly if no two of its factors have a common divisor: otherwise every
decryption panics. -/
theorem C164_panics_iff {b : Bytes} {k : RsaMany} (hb : rsaManyFromBytes b = .ok k) {r c : Nat}
    (hr : Nat.Coprime r k.pub.n) (hc : c ≤ k.pub.n) :
    (rsaManyDecryptNat k r c = .crash .nilDeref ↔ ¬ k.primes.Pairwise Nat.Coprime) ∧
    (k.primes.Pairwise Nat.Coprime → ∃ m, rsaManyDecryptNat k r c = .ok m) := by
  obtain ⟨h1, h2, h3, h4⟩ := C164_imported_checked hb
  have hn : 0 < k.pub.n := by
    rw [h2]
    exact Nat.pos_of_ne_zero (List.prod_ne_zero fun h => by have := (h1 0 h).1; omega)
  obtain ⟨i, hi, -⟩ := modInverse_coprime hn hr
  have g1 : Outcome.guardNot (decide (k.pub.n < c)) "crypto/rsa: decryption error" = .ok () := by
    rw [Outcome.guardNot_eq_ok]; simp; omega
  have g2 : Outcome.guardNot (decide (k.pub.n = 0)) "crypto/rsa: decryption error" = .ok () := by
    rw [Outcome.guardNot_eq_ok]; simp; omega
  have key : rsaManyDecryptNat k r c =
      (rsaManyRaw k (c * (r ^ k.pub.e % k.pub.n) % k.pub.n)).bind fun m => .ok (m * i % k.pub.n) := by
    unfold rsaManyDecryptNat
    rw [g1, g2, hi]
    rfl
  have good : k.primes.Pairwise Nat.Coprime → ∃ m, rsaManyDecryptNat k r c = .ok m := by
    intro hp
    obtain ⟨z, hz, -⟩ := manyRaw_ok (fun s hs => (h1 s hs).1) hp (c * (r ^ k.pub.e % k.pub.n) % k.pub.n)
    rw [key, hz]
    exact ⟨_, rfl⟩
  refine ⟨⟨fun h hp => ?_, fun hp => ?_⟩, good⟩
  · obtain ⟨m, hm⟩ := good hp
    rw [hm] at h
    simp at h
  · rw [key]
    have : rsaManyRaw k (c * (r ^ k.pub.e % k.pub.n) % k.pub.n) = .crash .nilDeref := by
      unfold rsaManyRaw
      by_cases hpq : Nat.Coprime k.p k.q
      · have hp0 := (h1 k.p (by simp [RsaMany.primes])).1
        have hq0 := (h1 k.q (by simp [RsaMany.primes])).1
        obtain ⟨m, hm, -⟩ := raw_exact (k := k.two) rfl hp0 hq0 hpq (c * (r ^ k.pub.e % k.pub.n) % k.pub.n)
        rw [hm]
        refine crtLoop_crash _ _ _ _ _ fun hall => hp ?_
        unfold RsaMany.primes
        rw [List.pairwise_cons, List.pairwise_cons]
        refine ⟨fun t ht => ?_, fun t ht => (hall.1 t ht).coprime_mul_left, hall.2⟩
        rcases List.mem_cons.mp ht with rfl | ht
        · exact hpq
        · exact (hall.1 t ht).coprime_mul_right
      · have : modInverse k.two.q k.two.p = none :=
          modInverse_eq_none.mpr fun h => hpq (Nat.Coprime.symm h)
        unfold rsaRaw
        rw [this]
        rfl
    rw [this]
    rfl

/-! ## Files -/

theorem derPrimes_eq_nil {n : Nat} {b : Bytes} : derPrimes n b = some [] ↔ b = [] := by
  constructor
  · intro h
    cases b with
    | nil => rfl
    | cons x b =>
      cases n with
      | zero => simp [derPrimes] at h
      | succ n =>
        simp only [derPrimes, Option.bind_eq_bind, Option.bind_eq_some_iff] at h
        obtain ⟨⟨c, rest⟩, -, ⟨s, c₁⟩, -, ⟨u, c₂⟩, -, ⟨w, c₃⟩, -, more, -, h⟩ := h
        simp at h
  · rintro rfl
    cases n <;> rfl

theorem derMore_eq_nil {b : Bytes} : derMore b = some [] ↔ derNoPrimes b = some () := by
  cases b with
  | nil => simp [derMore, derNoPrimes]
  | cons t b =>
    unfold derMore derNoPrimes
    simp only []
    by_cases ht : t = tagSequence
    · rw [if_pos ht, if_pos ht]
      cases hc : derCut tagSequence (t :: b) with
      | none => simp
      | some x =>
        obtain ⟨c, rest⟩ := x
        simp only []
        rw [derPrimes_eq_nil]
        cases c <;> simp
    · rw [if_neg ht, if_neg ht]
      split <;> simp

theorem map_toNat (l : List Nat) : (l.map fun s : Nat => (s : Int)).map Int.toNat = l := by
  induction l with
  | nil => rfl
  | cons a t ih => simpa using ih

theorem parseRsaMany_two {b : Bytes} {v n e d p q : Int} :
    parseRsaMany b = some (v, n, e, d, p, q, []) ↔ parseRsaKey b = some (v, n, e, d, p, q) := by
  unfold parseRsaMany parseRsaKey
  simp only [Option.bind_eq_bind, Option.bind_eq_some_iff]
  constructor
  · rintro ⟨⟨seq, rest⟩, h0, h⟩
    refine ⟨⟨seq, rest⟩, h0, ?_⟩
    simp only [] at h ⊢
    split at h
    · simp at h
    rename_i hr
    rw [if_neg hr]
    simp only [Option.bind_eq_some_iff] at h ⊢
    obtain ⟨x1, h1, x2, h2, x3, h3, x4, h4, x5, h5, x6, h6, x7, h7, x8, h8, x9, h9, x10, h10, h⟩ := h
    simp only [Option.some.injEq, Prod.mk.injEq] at h
    obtain ⟨a1, a2, a3, a4, a5, a6, rfl⟩ := h
    exact ⟨x1, h1, x2, h2, x3, h3, x4, h4, x5, h5, x6, h6, x7, h7, x8, h8, x9, h9, (), derMore_eq_nil.mp h10,
      by rw [a1, a2, a3, a4, a5, a6]⟩
  · rintro ⟨⟨seq, rest⟩, h0, h⟩
    refine ⟨⟨seq, rest⟩, h0, ?_⟩
    simp only [] at h ⊢
    split at h
    · simp at h
    rename_i hr
    rw [if_neg hr]
    simp only [Option.bind_eq_some_iff] at h ⊢
    obtain ⟨x1, h1, x2, h2, x3, h3, x4, h4, x5, h5, x6, h6, x7, h7, x8, h8, x9, h9, x10, h10, h⟩ := h
    simp only [Option.some.injEq, Prod.mk.injEq] at h
    obtain ⟨a1, a2, a3, a4, a5, a6⟩ := h
    exact ⟨x1, h1, x2, h2, x3, h3, x4, h4, x5, h5, x6, h6, x7, h7, x8, h8, x9, h9, [], derMore_eq_nil.mpr h10,
      by rw [a1, a2, a3, a4, a5, a6]⟩

theorem validate_two {k : RsaMany} (h : k.more = []) {u : Unit} :
    rsaManyValidate k = .ok u ↔ rsaValidate k.two = .ok u := by
  rw [rsaManyValidate_eq_ok, rsaValidate_eq_ok]
  unfold RsaMany.primes RsaMany.two
  simp [h]

/-- C164: files without further primes are read as keys with two primes, and only they are. -/
theorem C164_two_primes_as_before {b : Bytes} {k : RsaKey} :
    rsaKeyFromBytes b = .ok k ↔ k.pre = true ∧ rsaManyFromBytes b = .ok ⟨k.pub, k.d, k.p, k.q, []⟩ := by
  constructor
  · intro h
    refine ⟨(C102_imported_checked h).1, ?_⟩
    unfold rsaKeyFromBytes at h
    split at h
    · simp at h
    rename_i v n e d p q hp
    split at h
    · simp at h
    rename_i c1
    split at h
    · simp at h
    rename_i c2
    split at h
    · simp at h
    rename_i c3
    obtain ⟨u, hv, h⟩ := Outcome.bind_eq_ok.mp h
    simp only [rsaKeyNow, rsaPubNow, Outcome.require_some, Outcome.bind_ok, Outcome.ok.injEq] at h
    subst h
    unfold rsaManyFromBytes
    rw [parseRsaMany_two.mpr hp]
    simp only []
    rw [if_neg c1, if_neg c2, if_neg (by simp), if_neg c3]
    have := (validate_two (k := ⟨⟨n.toNat, e.toNat⟩, d.toNat, p.toNat, q.toNat, []⟩) rfl).mpr hv
    simp only [List.map_nil]
    rw [this]
    rfl
  · rintro ⟨hpre, h⟩
    unfold rsaManyFromBytes at h
    split at h
    · simp at h
    rename_i v n e d p q more hp
    split at h
    · simp at h
    rename_i c1
    split at h
    · simp at h
    rename_i c2
    split at h
    · simp at h
    split at h
    · simp at h
    rename_i c3
    obtain ⟨u, hv, h⟩ := Outcome.bind_eq_ok.mp h
    simp only [Outcome.ok.injEq, RsaMany.mk.injEq, List.map_eq_nil_iff] at h
    obtain ⟨e1, e2, e3, e4, rfl⟩ := h
    unfold rsaKeyFromBytes
    rw [parseRsaMany_two.mp hp]
    simp only []
    rw [if_neg c1, if_neg c2, if_neg c3]
    have := (validate_two (k := ⟨⟨n.toNat, e.toNat⟩, d.toNat, p.toNat, q.toNat, []⟩) rfl).mp hv
    rw [show (⟨⟨n.toNat, e.toNat⟩, d.toNat, p.toNat, q.toNat, true⟩ : RsaKey) = k by
      obtain ⟨pub, d', p', q', pre⟩ := k
      simp only at e1 e2 e3 e4 hpre
      simp [e1, e2, e3, e4, hpre]] at *
    have h' : rsaValidate k = .ok u := by
      have e : RsaMany.two ⟨⟨n.toNat, e.toNat⟩, d.toNat, p.toNat, q.toNat, []⟩ = k := by
        obtain ⟨pub, d', p', q', pre⟩ := k
        simp only at e1 e2 e3 e4 hpre
        simp [RsaMany.two, e1, e2, e3, e4, hpre]
      rwa [e] at this
    rw [h']
    simp [rsaKeyNow, rsaPubNow]

/-- The further primes are read back. -/
theorem derPrimes_fields (d : Nat) : ∀ (more : List Nat) (r : Nat) (b : Bytes) (n : Nat),
    crtFields d r more = some b → b.length < 2 ^ 31 → more.length ≤ n →
    derPrimes n b = some (more.map fun s : Nat => (s : Int))
  | [], r, b, n, h, _, _ => by
    simp only [crtFields, Option.some.injEq] at h
    subst h
    cases n <;> rfl
  | s :: more, r, b, 0, _, _, hn => by simp at hn
  | s :: more, r, b, n + 1, h, hl, hn => by
    rw [crtFields] at h
    split at h
    · simp at h
    rename_i coeff _
    split at h
    · simp at h
    rename_i b' hb'
    simp only [Option.some.injEq] at h
    subst h
    have ih := derPrimes_fields d more (r * s) b' n hb' (by simp at hl; omega) (by simpa using hn)
    have l0 := tlv_length_lt tagSequence (derField s ++ (derField (d % (s - 1)) ++ derField coeff))
    have l1 : (derField s ++ (derField (d % (s - 1)) ++ derField coeff)).length < 2 ^ 31 := by
      simp only [List.length_append] at hl l0 ⊢
      omega
    have l2 := derNat_length_lt l1
    have l3 := derNat_length_lt l2.2
    have l4 := derNat_length_lt (b := []) (n := coeff) (by simpa using l3.2)
    have hcut := derCut_tlv tagSequence (derField s ++ (derField (d % (s - 1)) ++ derField coeff)) b' l1
    have f : ∀ (n : Nat) (rest : Bytes), (derNat n).length < 2 ^ 31 →
        derInt (derField n ++ rest) = some ((n : Int), rest) := fun n rest h => derInt_tlv h
    have f4 : derInt (derField coeff) = some ((coeff : Int), []) := by
      have := f coeff [] l4.1
      rwa [List.append_nil] at this
    have hcons : ∃ x t, tlv tagSequence (derField s ++ (derField (d % (s - 1)) ++ derField coeff)) ++ b' = x :: t :=
      ⟨_, _, rfl⟩
    obtain ⟨x, t, hx⟩ := hcons
    rw [hx] at hcut ⊢
    simp only [derPrimes, Option.bind_eq_bind]
    rw [hcut]
    simp only [Option.bind_some]
    rw [f _ _ l2.1]
    simp only [Option.bind_some]
    rw [f _ _ l3.1]
    simp only [Option.bind_some]
    rw [f4]
    simp only [Option.bind_some]
    rw [ih]
    rfl

theorem crtFields_some (d : Nat) : ∀ (more : List Nat) (r : Nat), (∀ s ∈ more, Nat.Coprime r s) →
    more.Pairwise Nat.Coprime → ∃ b, crtFields d r more = some b ∧ more.length ≤ b.length
  | [], r, _, _ => ⟨[], rfl, by simp⟩
  | s :: more, r, hc, hp => by
    rw [List.pairwise_cons] at hp
    obtain ⟨b, hb, hl⟩ := crtFields_some d more (r * s)
      (fun t ht => Nat.Coprime.mul_left (hc t (List.mem_cons_of_mem _ ht)) (hp.1 t ht)) hp.2
    have hi : modInverse r s = some (Nat.gcdA r s % s).toNat := if_pos (hc s (List.mem_cons_self ..))
    rw [crtFields, hi]
    simp only [hb]
    refine ⟨_, rfl, ?_⟩
    simp [tlv]
    omega

theorem RsaMany.Proper.validate {k : RsaMany} (hk : k.Proper) : rsaManyValidate k = .ok () := by
  rw [rsaManyValidate_eq_ok]
  refine ⟨⟨hk.e_low, hk.e_high⟩, fun s hs => by have := (hk.prime s hs).2; omega, hk.modulus.symm, fun s hs => ?_⟩
  have h1 := (hk.prime s hs).2
  have h2 := hk.inverse s hs
  unfold Nat.ModEq at h2
  rw [h2, Nat.mod_eq_of_lt (by omega)]

theorem RsaMany.Proper.d_pos {k : RsaMany} (hk : k.Proper) : 0 < k.d := by
  rcases Nat.eq_zero_or_pos k.d with h | h
  · have h1 := (rsaManyValidate_eq_ok.mp hk.validate).2.2.2 k.p (by simp [RsaMany.primes])
    rw [h] at h1
    simp at h1
  · exact h

/-- C164: a key with any number of primes comes back from its bytes. -/
theorem C164_round_trip {k : RsaMany} (hk : k.Proper) :
    ∃ b, rsaManyToBytes k = .ok b ∧ (b.length < 2 ^ 31 → rsaManyFromBytes b = .ok k) := by
  have hcop := hk.coprime
  unfold RsaMany.primes at hcop
  rw [List.pairwise_cons, List.pairwise_cons] at hcop
  have hpq : Nat.Coprime k.p k.q := hcop.1 k.q (by simp)
  have hp := (hk.prime k.p (by simp [RsaMany.primes])).2
  have hq := (hk.prime k.q (by simp [RsaMany.primes])).2
  obtain ⟨i, hi, -⟩ := modInverse_coprime (by omega : 0 < k.p) hpq.symm
  obtain ⟨more, hmore, hml⟩ := crtFields_some k.d k.more (k.p * k.q)
    (fun s hs => Nat.Coprime.mul_left (hcop.1 s (by simp [hs])) (hcop.2.1 s hs)) hcop.2.2
  have hany : k.primes.any (· == 1) = false := by
    rw [List.any_eq_false]
    intro s hs
    have := (hk.prime s hs).2
    simp
    omega
  set tail : Bytes := if k.more = [] then [] else tlv tagSequence more with htail
  set ver : Nat := if k.more = [] then 0 else 1 with hver
  have hver1 : ver ≤ 1 := by rw [hver]; split <;> omega
  have hb : rsaManyToBytes k = .ok (tlv tagSequence
      (derField ver ++ (derField k.pub.n ++ (derField k.pub.e ++ (derField k.d ++ (derField k.p ++
        (derField k.q ++ (derField (k.d % (k.p - 1)) ++ (derField (k.d % (k.q - 1)) ++
          (derField i ++ tail)))))))))) := by
    unfold rsaManyToBytes
    rw [hany, hi, hmore]
    rfl
  refine ⟨_, hb, fun hlen => ?_⟩
  have l0 := lt_trans (tlv_length_lt tagSequence _) hlen
  have l1 := derNat_length_lt l0
  have l2 := derNat_length_lt l1.2
  have l3 := derNat_length_lt l2.2
  have l4 := derNat_length_lt l3.2
  have l5 := derNat_length_lt l4.2
  have l6 := derNat_length_lt l5.2
  have l7 := derNat_length_lt l6.2
  have l8 := derNat_length_lt l7.2
  have l9 := derNat_length_lt l8.2
  have hm : derMore tail = some (k.more.map fun s : Nat => (s : Int)) := by
    rw [htail]
    split
    · rename_i h
      rw [h]
      rfl
    · rename_i h
      have lt : (tlv tagSequence more).length < 2 ^ 31 := by
        have := l9.2
        rw [htail, if_neg h] at this
        exact this
      have lm := lt_trans (tlv_length_lt tagSequence more) lt
      have hc := derCut_tlv tagSequence more [] lm
      rw [List.append_nil] at hc
      have : derMore (tlv tagSequence more) = derPrimes more.length more := by
        unfold derMore
        show (if tagSequence = tagSequence then _ else _) = _
        rw [if_pos rfl, hc]
      rw [this]
      exact derPrimes_fields k.d k.more _ more _ hmore lm hml
  have hparse : parseRsaMany (tlv tagSequence
      (derField ver ++ (derField k.pub.n ++ (derField k.pub.e ++ (derField k.d ++ (derField k.p ++
        (derField k.q ++ (derField (k.d % (k.p - 1)) ++ (derField (k.d % (k.q - 1)) ++
          (derField i ++ tail)))))))))) =
      some ((ver : Int), (k.pub.n : Int), (k.pub.e : Int), (k.d : Int), (k.p : Int), (k.q : Int),
        k.more.map fun s : Nat => (s : Int)) := by
    unfold parseRsaMany
    have e := derCut_tlv tagSequence _ [] l0
    rw [List.append_nil] at e
    have f : ∀ (n : Nat) (rest : Bytes), (derNat n).length < 2 ^ 31 →
        derInt (derField n ++ rest) = some ((n : Int), rest) := fun n rest h => derInt_tlv h
    rw [e]
    simp only [Option.bind_eq_bind, Option.bind_some, ne_eq, not_true_eq_false, if_false]
    rw [derSmallInt_tlv (by omega)]
    simp only [Option.bind_some]
    rw [f _ _ l2.1]
    simp only [Option.bind_some]
    rw [derSmallInt_tlv hk.e_high]
    simp only [Option.bind_some]
    rw [f _ _ l4.1]
    simp only [Option.bind_some]
    rw [f _ _ l5.1]
    simp only [Option.bind_some]
    rw [f _ _ l6.1]
    simp only [Option.bind_some]
    rw [derOptInt_field l7.1]
    simp only [Option.bind_some]
    rw [derOptInt_field l8.1]
    simp only [Option.bind_some]
    rw [derOptInt_field l9.1]
    simp only [Option.bind_some]
    rw [hm]
    rfl
  have hn0 := hk.n_pos
  have hd0 := hk.d_pos
  have he := hk.e_low
  unfold rsaManyFromBytes
  rw [hparse]
  simp only []
  rw [if_neg (by omega), if_neg (by omega), if_neg ?_, if_neg (by omega)]
  · have e : (⟨⟨(k.pub.n : Int).toNat, (k.pub.e : Int).toNat⟩, (k.d : Int).toNat, (k.p : Int).toNat,
        (k.q : Int).toNat, (k.more.map fun s : Nat => (s : Int)).map Int.toNat⟩ : RsaMany) = k := by
      rw [map_toNat]
      rfl
    rw [e, hk.validate]
    rfl
  · intro h
    obtain ⟨x, hx, hle⟩ := List.any_eq_true.mp h
    obtain ⟨s, hs, rfl⟩ := List.mem_map.mp hx
    rw [decide_eq_true_eq] at hle
    have := (hk.prime s (by simp [RsaMany.primes, hs])).2
    omega

section examples

attribute [local instance] toySha256

/-- A third prime of 270 bits. -/
def drawnS : Nat := 1871 ^ 1 * 2 ^ 259 + 1

theorem drawnS_prime : drawnS.Prime :=
  prime_of_powMod (f := 280) (a := 3) (c := 1) (m := 259) (s := 1871) rfl
    (by norm_num) (by decide +kernel) (by decide +kernel) (by decide +kernel)
    (by decide +kernel) (by decide +kernel)

/-- A key with three primes. -/
def toyMany : RsaMany :=
  ⟨⟨drawnP * (drawnQ * drawnS), 7⟩, (1 * (491 * 997 * 1871 * 4 * 2 ^ 252 * 2 ^ 7) + 1) / 7, drawnP, drawnQ, [drawnS]⟩

theorem toyMany_proper : toyMany.Proper where
  prime := by
    intro s hs
    simp only [toyMany, RsaMany.primes, List.mem_cons, List.not_mem_nil, or_false] at hs
    rcases hs with rfl | rfl | rfl
    · exact ⟨drawnP_prime, by decide +kernel⟩
    · exact ⟨drawnQ_prime, by decide +kernel⟩
    · exact ⟨drawnS_prime, by decide +kernel⟩
  different := by decide +kernel
  modulus := by simp [toyMany, RsaMany.primes]
  e_low := by decide +kernel
  e_high := by decide +kernel
  inverse := by
    intro s hs
    simp only [toyMany, RsaMany.primes, List.mem_cons, List.not_mem_nil, or_false] at hs
    unfold Nat.ModEq
    rcases hs with rfl | rfl | rfl <;> decide +kernel

theorem toyMany_size : toyMany.pub.size = 102 := by
  have h1 : Nat.size toyMany.pub.n ≤ 816 := Nat.size_le.mpr (by decide +kernel)
  have h2 : 808 < Nat.size toyMany.pub.n := Nat.lt_size.mpr (by decide +kernel)
  unfold RsaPub.size
  omega

/-- C164: a message of 36 bytes for a key with three primes. -/
example : ∃ c, rsaEncrypt toyMany.pub (List.replicate 32 7) (List.replicate 36 5) = .ok c ∧
    rsaManyDecrypt toyMany 2 c = .ok (List.replicate 36 5) :=
  C164_decrypts toyMany_proper (by simp) (by rw [toyMany_size]; simp) (by decide +kernel)

example : ∃ b, rsaManyToBytes toyMany = .ok b ∧ (b.length < 2 ^ 31 → rsaManyFromBytes b = .ok toyMany) :=
  C164_round_trip toyMany_proper

/-- C164: a key with equal factors, which are not prime, panics. -/
example : ∃ b, rsaManyFromBytes b = .ok ⟨badRsa.pub, badRsa.d, badRsa.p, badRsa.q, []⟩ ∧
    rsaManyDecryptNat ⟨badRsa.pub, badRsa.d, badRsa.p, badRsa.q, []⟩ 1 5 = .crash .nilDeref := by
  have h := (C164_two_primes_as_before.mp badRsa_imported).2
  refine ⟨_, h, (C164_panics_iff h (Nat.coprime_one_left _) (by decide +kernel)).1.mpr ?_⟩
  simp only [RsaMany.primes, List.pairwise_cons]
  intro hc
  exact absurd (hc.1 badRsa.q (by simp)) (by decide +kernel)

end examples

end Verif
