import Mathlib.FieldTheory.Finite.Basic
import Verif.Model.ProbablyPrime
import Verif.Spec.ProbablyPrime
import Verif.Props.RandPrime

/-!
# The test for primes accepts all primes, and what it refuses: C163
-/

namespace Verif

theorem splitTwos_spec : ∀ {fuel k q : Nat}, 0 < q → Nat.size q ≤ fuel →
    2 ^ (splitTwos fuel k q).1 * (splitTwos fuel k q).2 = 2 ^ k * q ∧ (splitTwos fuel k q).2 % 2 = 1
  | 0, k, q, hq, h => by
    have := Nat.size_pos.mpr hq
    omega
  | fuel + 1, k, q, hq, h => by
    rw [splitTwos]
    split
    · rename_i he
      have hs : Nat.size (q / 2) ≤ fuel := by
        rw [Nat.size_le] at h ⊢
        rw [pow_succ] at h
        omega
      obtain ⟨h1, h2⟩ := splitTwos_spec (k := k + 1) (q := q / 2) (by omega) hs
      refine ⟨?_, h2⟩
      rw [h1, pow_succ, mul_assoc]
      congr 1
      omega
    · exact ⟨rfl, by omega⟩

theorem splitTwos_unique {k q k' q' : Nat} (h : 2 ^ k * q = 2 ^ k' * q') (hq : q % 2 = 1) (hq' : q' % 2 = 1) :
    k = k' ∧ q = q' := by
  induction k generalizing k' with
  | zero =>
    cases k' with
    | zero => simpa using h
    | succ k' =>
      exfalso
      rw [pow_zero, one_mul, pow_succ, mul_comm (2 ^ k') 2, mul_assoc] at h
      omega
  | succ k ih =>
    cases k' with
    | zero =>
      exfalso
      rw [pow_zero, one_mul, pow_succ, mul_comm (2 ^ k) 2, mul_assoc] at h
      omega
    | succ k' =>
      rw [pow_succ, pow_succ, mul_comm (2 ^ k) 2, mul_comm (2 ^ k') 2, mul_assoc, mul_assoc] at h
      have := ih (Nat.eq_of_mul_eq_mul_left (by decide) h)
      omega

theorem mrLoop_iff {n : Nat} (hn : 2 < n) : ∀ (m y : Nat),
    mrLoop n m y = true ↔ ∃ j, 1 ≤ j ∧ j ≤ m ∧ y ^ 2 ^ j % n = n - 1
  | 0, y => by
    simp only [mrLoop, Bool.false_eq_true, false_iff, not_exists]
    intro j
    omega
  | m + 1, y => by
    rw [mrLoop]
    have step : ∀ j, (y * y % n) ^ 2 ^ j % n = y ^ 2 ^ (j + 1) % n := by
      intro j
      rw [← Nat.pow_mod, pow_succ', pow_mul, pow_two]
    split
    · rename_i h
      simp only [true_iff]
      exact ⟨1, le_rfl, by omega, by rw [pow_one, pow_two]; exact h⟩
    · rename_i h1
      split
      · rename_i h2
        simp only [Bool.false_eq_true, false_iff, not_exists]
        rintro j ⟨j1, j2, j3⟩
        obtain ⟨i, rfl⟩ : ∃ i, j = i + 1 := ⟨j - 1, by omega⟩
        rw [← step, h2, one_pow, Nat.mod_eq_of_lt (by omega)] at j3
        omega
      · rw [mrLoop_iff hn m]
        constructor
        · rintro ⟨j, j1, j2, j3⟩
          exact ⟨j + 1, by omega, by omega, by rw [← step]; exact j3⟩
        · rintro ⟨j, j1, j2, j3⟩
          obtain ⟨i, rfl⟩ : ∃ i, j = i + 1 := ⟨j - 1, by omega⟩
          rcases Nat.eq_zero_or_pos i with rfl | hi
          · rw [zero_add, pow_one, pow_two] at j3
            exact absurd j3 h1
          · exact ⟨i, hi, by omega, by rw [step]; exact j3⟩

/-- C163: a round of the test for primes accepts, of the odd numbers, exactly the strong probable primes to its base. -/
theorem C163_round_iff {n : Nat} (hn : 2 < n) (ho : n % 2 = 1) (b : Nat) : mrRound n b = true ↔ StrongProbable n b := by
  obtain ⟨h1, h2⟩ := splitTwos_spec (k := 0) (q := n - 1) (by omega) (le_refl (Nat.size (n - 1)))
  have m1 : ∀ x, x ≡ 1 [MOD n] ↔ x % n = 1 := fun x => by
    unfold Nat.ModEq; rw [Nat.mod_eq_of_lt (by omega : 1 < n)]
  have m2 : ∀ x, x ≡ n - 1 [MOD n] ↔ x % n = n - 1 := fun x => by
    unfold Nat.ModEq; rw [Nat.mod_eq_of_lt (by omega : n - 1 < n)]
  have hu : StrongProbable n b ↔
      (b ^ (splitTwos (Nat.size (n - 1)) 0 (n - 1)).2 % n = 1 ∨
        ∃ j < (splitTwos (Nat.size (n - 1)) 0 (n - 1)).1,
          b ^ (2 ^ j * (splitTwos (Nat.size (n - 1)) 0 (n - 1)).2) % n = n - 1) := by
    unfold StrongProbable
    simp only [m1, m2]
    constructor
    · rintro ⟨k, q, e, hq, h⟩
      have h1 := h1.trans (by rw [pow_zero, one_mul, e] : _ = 2 ^ k * q)
      obtain ⟨e1, e2⟩ := splitTwos_unique h1 h2 hq
      rw [e1, e2]
      exact h
    · intro h
      exact ⟨_, _, by rw [h1]; simp, h2, h⟩
  rw [hu]
  unfold mrRound
  generalize splitTwos (Nat.size (n - 1)) 0 (n - 1) = kq at h1 h2 ⊢
  obtain ⟨k, q⟩ := kq
  simp only at h1 h2 ⊢
  have hk : 0 < k := by
    rcases Nat.eq_zero_or_pos k with rfl | h
    · simp only [pow_zero, one_mul] at h1; omega
    · exact h
  have pw : ∀ j, (b ^ q % n) ^ 2 ^ j % n = b ^ (2 ^ j * q) % n := fun j => by
    rw [← Nat.pow_mod, ← pow_mul, mul_comm]
  split
  · rename_i h
    simp only [true_iff]
    rcases h with h | h
    · exact .inl h
    · exact .inr ⟨0, hk, by simpa using h⟩
  · rename_i h
    rw [not_or] at h
    rw [mrLoop_iff hn]
    constructor
    · rintro ⟨j, j1, j2, j3⟩
      exact .inr ⟨j, by omega, by rw [← pw]; exact j3⟩
    · rintro (g | ⟨j, j1, j2⟩)
      · exact absurd g h.1
      · rcases Nat.eq_zero_or_pos j with rfl | hj
        · rw [pow_zero, one_mul] at j2
          exact absurd j2 h.2
        · exact ⟨j, hj, by omega, by rw [pw]; exact j2⟩

theorem one_or_minus_one {p : Nat} [Fact p.Prime] (a : ZMod p) : ∀ {k : Nat}, a ^ 2 ^ k = 1 →
    a = 1 ∨ ∃ j < k, a ^ 2 ^ j = -1
  | 0, h => .inl (by simpa using h)
  | k + 1, h => by
    rw [pow_succ 2 k, pow_mul] at h
    rcases sq_eq_one_iff.mp h with g | g
    · rcases one_or_minus_one a g with r | ⟨j, hj, r⟩
      · exact .inl r
      · exact .inr ⟨j, by omega, r⟩
    · exact .inr ⟨k, by omega, g⟩

/-- C163: every odd prime is a strong probable prime to every base that it does not divide, so no round refuses it. -/
theorem C163_primes_are_strong {n : Nat} (hp : n.Prime) (hn : 2 < n) {b : Nat} (hb : ¬ n ∣ b) :
    StrongProbable n b := by
  have : Fact n.Prime := ⟨hp⟩
  obtain ⟨h1, h2⟩ := splitTwos_spec (k := 0) (q := n - 1) (by omega) (le_refl (Nat.size (n - 1)))
  generalize splitTwos (Nat.size (n - 1)) 0 (n - 1) = kq at h1 h2
  obtain ⟨k, q⟩ := kq
  simp only [pow_zero, one_mul] at h1 h2
  refine ⟨k, q, h1.symm, h2, ?_⟩
  have hb0 : (b : ZMod n) ≠ 0 := by rwa [Ne, ZMod.natCast_eq_zero_iff]
  have hf : ((b : ZMod n) ^ q) ^ 2 ^ k = 1 := by
    rw [← pow_mul, mul_comm, h1, ZMod.pow_card_sub_one_eq_one hb0]
  have hm : ((n - 1 : Nat) : ZMod n) = -1 := by
    rw [Nat.cast_sub (by omega), ZMod.natCast_self]; simp
  rcases one_or_minus_one _ hf with g | ⟨j, hj, g⟩
  · left
    rw [← ZMod.natCast_eq_natCast_iff]
    push_cast
    exact g
  · right
    refine ⟨j, hj, ?_⟩
    rw [← ZMod.natCast_eq_natCast_iff, hm]
    push_cast
    rw [mul_comm, pow_mul]
    exact g

theorem StrongProbable.fermat {n b : Nat} (hn : 1 ≤ n) (h : StrongProbable n b) : b ^ (n - 1) ≡ 1 [MOD n] := by
  obtain ⟨k, q, e, -, h⟩ := h
  rw [e]
  rcases h with h | ⟨j, hj, h⟩
  · rw [mul_comm, pow_mul]
    simpa using h.pow (2 ^ k)
  · have h2 : (b ^ (2 ^ j * q)) ^ 2 ≡ 1 [MOD n] := by
      refine (h.pow 2).trans ?_
      obtain ⟨m, rfl⟩ : ∃ m, n = m + 1 := ⟨n - 1, by omega⟩
      rw [Nat.add_sub_cancel]
      rcases Nat.eq_zero_or_pos m with rfl | hm
      · exact Nat.modEq_one
      · refine ((Nat.modEq_iff_dvd' (Nat.one_le_pow _ _ hm)).mpr ⟨m - 1, ?_⟩).symm
        obtain ⟨i, rfl⟩ : ∃ i, m = i + 1 := ⟨m - 1, by omega⟩
        rw [Nat.add_sub_cancel, Nat.sub_eq_iff_eq_add (Nat.one_le_pow _ _ (by omega))]
        ring
    have ek : 2 ^ k * q = (2 ^ j * q) * 2 * 2 ^ (k - j - 1) := by
      obtain ⟨i, rfl⟩ : ∃ i, k = j + 1 + i := ⟨k - j - 1, by omega⟩
      rw [show j + 1 + i - j - 1 = i by omega, pow_add, pow_succ]
      ring
    rw [ek, pow_mul, pow_mul]
    simpa using h2.pow (2 ^ (k - j - 1))

theorem primeBitMask_iff : ∀ n < 64, (primeBitMask.testBit n = true ↔ n.Prime) := by
  intro n hn
  interval_cases n <;> first
    | exact iff_of_true (by decide +kernel) (by norm_num)
    | exact iff_of_false (by decide +kernel) (by norm_num)

theorem small_prime_mem {p : Nat} (hp : p.Prime) (h : p < 59) : p = 2 ∨ p ∈ smallPrimes := by
  interval_cases p <;> first
    | decide
    | exact absurd hp (by norm_num)

theorem trial_iff (n : Nat) :
    ([3, 5, 7, 11, 13, 17, 19, 23, 37].any (fun p => n % (primesA * primesB) % primesA % p == 0) ||
      [29, 31, 41, 43, 47, 53].any (fun p => n % (primesA * primesB) % primesB % p == 0)) = true ↔
    ∃ p ∈ smallPrimes, p ∣ n := by
  have hA : n % (primesA * primesB) % primesA = n % primesA := Nat.mod_mod_of_dvd _ ⟨primesB, rfl⟩
  have hB : n % (primesA * primesB) % primesB = n % primesB :=
    Nat.mod_mod_of_dvd _ ⟨primesA, Nat.mul_comm _ _⟩
  have a : ∀ p ∈ [3, 5, 7, 11, 13, 17, 19, 23, 37], n % primesA % p = n % p := fun p hp =>
    Nat.mod_mod_of_dvd _ (by
      revert p; decide +kernel)
  have b : ∀ p ∈ [29, 31, 41, 43, 47, 53], n % primesB % p = n % p := fun p hp =>
    Nat.mod_mod_of_dvd _ (by
      revert p; decide +kernel)
  rw [hA, hB, Bool.or_eq_true, List.any_eq_true, List.any_eq_true]
  simp only [beq_iff_eq]
  constructor
  · rintro (⟨p, hp, h⟩ | ⟨p, hp, h⟩)
    · rw [a p hp] at h
      exact ⟨p, (by decide : ∀ p ∈ [3, 5, 7, 11, 13, 17, 19, 23, 37], p ∈ smallPrimes) p hp,
        Nat.dvd_of_mod_eq_zero h⟩
    · rw [b p hp] at h
      exact ⟨p, (by decide : ∀ p ∈ [29, 31, 41, 43, 47, 53], p ∈ smallPrimes) p hp,
        Nat.dvd_of_mod_eq_zero h⟩
  · rintro ⟨p, hp, h⟩
    have : p ∈ [3, 5, 7, 11, 13, 17, 19, 23, 37] ∨ p ∈ [29, 31, 41, 43, 47, 53] :=
      (by decide : ∀ p ∈ smallPrimes, p ∈ [3, 5, 7, 11, 13, 17, 19, 23, 37] ∨ p ∈ [29, 31, 41, 43, 47, 53]) p hp
    rcases this with g | g
    · exact .inl ⟨p, g, by rw [a p g]; exact Nat.mod_eq_zero_of_dvd h⟩
    · exact .inr ⟨p, g, by rw [b p g]; exact Nat.mod_eq_zero_of_dvd h⟩

/-- C163: the test accepts every prime that the Lucas test accepts, whatever the bases between 2 and n - 2. -/
theorem C163_test_accepts_primes {bases : Nat → List Nat} {lucas : Nat → Bool} {n : Nat} (hp : n.Prime)
    (hb : ∀ b ∈ bases n, 2 ≤ b ∧ b ≤ n - 2) (hl : lucas n = true) : goProbablyPrime bases lucas n = true := by
  unfold goProbablyPrime
  rw [if_neg hp.ne_zero]
  split
  · rename_i h
    exact (primeBitMask_iff n h).mpr hp
  · rename_i h
    have ho : n % 2 = 1 := by
      rcases hp.eq_two_or_odd with g | g
      · omega
      · exact g
    rw [if_neg (by omega)]
    simp only
    have ht := (trial_iff n).not.mpr (by
      rintro ⟨p, hp1, hp2⟩
      obtain ⟨g1, -, g3⟩ := smallPrimes_prime hp1
      have := (Nat.prime_dvd_prime_iff_eq g1 hp).mp hp2
      omega)
    rw [if_neg ht, hl, Bool.and_true, List.all_eq_true]
    intro b hbm
    rw [C163_round_iff (by omega) ho]
    refine C163_primes_are_strong hp (by omega) fun hd => ?_
    have : 2 ≤ b ∧ b ≤ n - 2 := by
      rcases List.mem_append.mp hbm with g | g
      · exact hb b g
      · rw [List.mem_singleton.mp g]; omega
    have := Nat.le_of_dvd (by omega) hd
    omega

/-- C163: what the test accepts. Below 59 * 59 that are exactly primes; other numbers that are accepted have no factor
below 59, and are strong probable primes to the base 2 and to all other bases that were taken, so their powers to
n - 1 are one. -/
theorem C163_test_accepts {bases : Nat → List Nat} {lucas : Nat → Bool} {n : Nat}
    (h : goProbablyPrime bases lucas n = true) :
    (n < 59 * 59 → n.Prime) ∧ (∀ p, p.Prime → p < 59 → p ∣ n → n = p) ∧
    (64 ≤ n → lucas n = true ∧ ∀ b, b = 2 ∨ b ∈ bases n → StrongProbable n b ∧ b ^ (n - 1) ≡ 1 [MOD n]) := by
  unfold goProbablyPrime at h
  split at h
  · cases h
  rename_i h0
  split at h
  · rename_i h64
    have hp := (primeBitMask_iff n h64).mp h
    exact ⟨fun _ => hp, fun p g1 _ g3 => ((Nat.prime_dvd_prime_iff_eq g1 hp).mp g3).symm, fun _ => by omega⟩
  · rename_i h64
    split at h
    · cases h
    rename_i ho
    simp only at h
    split at h
    · cases h
    rename_i ht
    rw [trial_iff] at ht
    rw [Bool.and_eq_true, List.all_eq_true] at h
    obtain ⟨h1, h2⟩ := h
    have hnone : ∀ p, p.Prime → p < 59 → ¬ p ∣ n := by
      intro p g1 g2 g3
      rcases small_prime_mem g1 g2 with rfl | g
      · omega
      · exact ht ⟨p, g, g3⟩
    refine ⟨fun hlt => ?_, fun p g1 g2 g3 => absurd g3 (hnone p g1 g2), fun _ => ⟨h2, fun b hb => ?_⟩⟩
    · by_contra hc
      have hm := Nat.minFac_sq_le_self (by omega) hc
      have hm1 : n.minFac < 59 := by
        by_contra hge
        have := Nat.mul_le_mul (Nat.le_of_not_lt hge) (Nat.le_of_not_lt hge)
        rw [pow_two] at hm
        omega
      exact hnone _ (Nat.minFac_prime (by omega)) hm1 (Nat.minFac_dvd n)
    · have hs := (C163_round_iff (by omega) (by omega) b).mp
        (h1 b (by rcases hb with rfl | hb <;> simp [*]))
      exact ⟨hs, hs.fermat (by omega)⟩

section examples

/-- A prime is accepted, 2993 = 41 * 73 is refused for its small factor, and 2047 = 23 * 89 is a strong probable prime
to the base 2, but not to the base 3. -/
example : goProbablyPrime (fun _ => [3, 5]) (fun _ => true) 3467 = true ∧
    goProbablyPrime (fun _ => [3, 5]) (fun _ => true) 2993 = false ∧ mrRound 2047 2 = true ∧
    mrRound 2047 3 = false := by
  decide +kernel

example : Nat.Prime 3467 ∧ ∀ b ∈ [3, 5], 2 ≤ b ∧ b ≤ 3467 - 2 := ⟨by norm_num, by decide⟩

end examples

end Verif
