import Verif.Model.RsaCreate
import Verif.Spec.RsaCreate
import Verif.Props.Rsa

/-!
# Created private keys for encryption: C163
-/

namespace Verif

theorem prime_65537 : Nat.Prime 65537 := by norm_num

theorem TopPrime.size {b p : Nat} (h : TopPrime b p) (hb : 2 ≤ b) : Nat.size p = b := by
  obtain ⟨-, h1, h2⟩ := h
  apply le_antisymm (Nat.size_le.mpr h2)
  have e : 2 ^ b = 2 ^ (b - 1) * 2 := by rw [← pow_succ]; congr 1; omega
  have : b - 1 < Nat.size p := Nat.lt_size.mpr (by omega)
  omega

theorem TopPrime.two_lt {b p : Nat} (h : TopPrime b p) (hb : 2 ≤ b) : 2 < p := by
  obtain ⟨-, h1, -⟩ := h
  have : 2 ^ 2 ≤ 2 ^ b := Nat.pow_le_pow_right (by decide) hb
  omega

/-- The product has all the bits that were asked for. -/
theorem Drawn.size {bits : Nat} {x : Nat × Nat} (h : Drawn bits x) (hb : 12 ≤ bits) :
    Nat.size (x.1 * x.2) = bits := by
  obtain ⟨hp, hq⟩ := h
  rw [hp.size (by omega)] at hq
  obtain ⟨-, p1, p2⟩ := hp
  obtain ⟨-, q1, q2⟩ := hq
  have e : 2 ^ bits = 2 ^ (bits / 2) * 2 ^ (bits - bits / 2) := by rw [← pow_add]; congr 1; omega
  have e1 : 2 ^ bits = 2 ^ (bits - 1) * 2 := by rw [← pow_succ]; congr 1; omega
  apply le_antisymm
  · refine Nat.size_le.mpr ?_
    rw [e]
    exact Nat.mul_lt_mul'' p2 q2
  · have h1 : (3 * 2 ^ (bits / 2)) * (3 * 2 ^ (bits - bits / 2)) ≤ (4 * x.1) * (4 * x.2) :=
      Nat.mul_le_mul p1 q1
    have h2 : 9 * 2 ^ bits ≤ 16 * (x.1 * x.2) := by
      rw [e]
      calc 9 * (2 ^ (bits / 2) * 2 ^ (bits - bits / 2))
          = (3 * 2 ^ (bits / 2)) * (3 * 2 ^ (bits - bits / 2)) := by ring
        _ ≤ _ := h1
        _ = 16 * (x.1 * x.2) := by ring
    have : bits - 1 < Nat.size (x.1 * x.2) := Nat.lt_size.mpr (by omega)
    omega

/-- A round ends the loop exactly with a usable pair, and gives a proper key. -/
theorem attempt_usable {bits : Nat} {x : Nat × Nat} (h : Drawn bits x) (hb : 12 ≤ bits) :
    (¬ UsablePair x → rsaAttempt bits x.1 x.2 = none) ∧
    (UsablePair x → ∃ k, rsaAttempt bits x.1 x.2 = some k ∧ k.Proper ∧ k.pre = true ∧ k.p = x.1 ∧ k.q = x.2 ∧
      k.pub.e = 65537 ∧ Nat.size k.pub.n = bits ∧ k.d < (x.1 - 1) * (x.2 - 1)) := by
  have hs := h.size hb
  obtain ⟨hp, hq⟩ := h
  rw [hp.size (by omega)] at hq
  have p2 := hp.two_lt (by omega)
  have q2 := hq.two_lt (by omega)
  have ht : 0 < (x.1 - 1) * (x.2 - 1) := Nat.mul_pos (by omega) (by omega)
  unfold rsaAttempt
  simp only [hs, ne_eq, not_true_eq_false, if_false]
  by_cases hne : x.2 = x.1
  · rw [if_pos hne]
    exact ⟨fun _ => rfl, fun h => absurd hne.symm h.1⟩
  rw [if_neg hne]
  by_cases hd : 65537 ∣ (x.1 - 1) * (x.2 - 1)
  · have : modInverse 65537 ((x.1 - 1) * (x.2 - 1)) = none :=
      modInverse_eq_none.mpr (fun hc => (prime_65537.coprime_iff_not_dvd.mp hc) hd)
    rw [this]
    exact ⟨fun _ => rfl, fun h => absurd hd h.2⟩
  · obtain ⟨d, h1, h2⟩ := modInverse_coprime ht (prime_65537.coprime_iff_not_dvd.mpr hd)
    rw [h1]
    refine ⟨fun h => absurd ⟨fun e => hne e.symm, hd⟩ h, fun _ => ⟨_, rfl, ?_, rfl, rfl, rfl, rfl, hs, ?_⟩⟩
    · exact { p_prime := hp.1, q_prime := hq.1, p_odd := p2, q_odd := q2, ne := fun e => hne e.symm,
              modulus := rfl, e_low := by norm_num, e_high := by norm_num,
              inv_p := h2.of_mul_right _, inv_q := h2.of_mul_left _ }
    · unfold modInverse at h1
      split at h1
      · simp only [Option.some.injEq] at h1
        rw [← h1]
        have := Int.emod_lt_of_pos (Nat.gcdA 65537 ((x.1 - 1) * (x.2 - 1))) (by exact_mod_cast ht :
          (0 : Int) < (((x.1 - 1) * (x.2 - 1) : Nat) : Int))
        show Int.toNat _ < _
        omega
      · simp at h1

/-- C163: the first usable pair of primes becomes a key of exactly the bits that were asked for. -/
theorem C163_first_usable_pair {bitRate : Int} (hb : 12 ≤ bitRate) {pre post : List (Nat × Nat)} {x : Nat × Nat}
    (hd : ∀ y ∈ pre, Drawn bitRate.toNat y) (hpre : ∀ y ∈ pre, ¬ UsablePair y) (hx : Drawn bitRate.toNat x)
    (hu : UsablePair x) :
    ∃ k, rsaCreate bitRate (pre ++ x :: post) = some (.ok (k, k.pub)) ∧ k.Proper ∧ k.p = x.1 ∧ k.q = x.2 ∧
      k.pub.e = 65537 ∧ (Nat.size k.pub.n : Int) = bitRate := by
  have hb' : 12 ≤ bitRate.toNat := by omega
  obtain ⟨k, hk, h1, -, h2, h3, h4, h5, -⟩ := (attempt_usable hx hb').2 hu
  have hl : rsaPrimes bitRate.toNat (pre ++ x :: post) = some k := by
    induction pre with
    | nil =>
      obtain ⟨p, q⟩ := x
      simp only [List.nil_append, rsaPrimes]
      rw [hk]
    | cons y t ih =>
      obtain ⟨p, q⟩ := y
      have := (attempt_usable (hd _ (List.mem_cons_self ..)) hb').1 (hpre _ (List.mem_cons_self ..))
      simp only [List.cons_append, rsaPrimes]
      rw [this]
      exact ih (fun y hy => hd y (List.mem_cons_of_mem _ hy)) fun y hy => hpre y (List.mem_cons_of_mem _ hy)
  refine ⟨k, ?_, h1, h2, h3, h4, by rw [h5]; omega⟩
  unfold rsaCreate
  rw [if_neg (by omega), hl]
  rfl

/-- C163: as long as there was no usable pair, `Create` does not return. -/
theorem C163_no_usable_pair {bitRate : Int} (hb : 12 ≤ bitRate) {draws : List (Nat × Nat)}
    (hd : ∀ y ∈ draws, Drawn bitRate.toNat y) (hn : ∀ y ∈ draws, ¬ UsablePair y) :
    rsaCreate bitRate draws = none := by
  have hb' : 12 ≤ bitRate.toNat := by omega
  have hl : rsaPrimes bitRate.toNat draws = none := by
    induction draws with
    | nil => rfl
    | cons y t ih =>
      obtain ⟨p, q⟩ := y
      have := (attempt_usable (hd _ (List.mem_cons_self ..)) hb').1 (hn _ (List.mem_cons_self ..))
      simp only [rsaPrimes]
      rw [this]
      exact ih (fun y hy => hd y (List.mem_cons_of_mem _ hy)) fun y hy => hn y (List.mem_cons_of_mem _ hy)
  unfold rsaCreate
  rw [if_neg (by omega), hl]

/-- C163: fewer than 12 bits are refused. -/
theorem C163_few_bits_refused {bitRate : Int} (hb : bitRate < 12) (draws : List (Nat × Nat)) :
    ∃ m, rsaCreate bitRate draws = some (.err m) := by
  unfold rsaCreate
  rw [if_pos hb]
  exact ⟨_, rfl⟩

/-- What was created is what a usable pair gives. -/
theorem created_proper {bitRate : Int} {draws : List (Nat × Nat)} (hd : ∀ y ∈ draws, Drawn bitRate.toNat y)
    {k : RsaKey} {pub : RsaPub} (h : rsaCreate bitRate draws = some (.ok (k, pub))) :
    12 ≤ bitRate ∧ k.Proper ∧ k.pre = true ∧ pub = k.pub ∧ (Nat.size k.pub.n : Int) = bitRate ∧
      k.d < k.pub.n := by
  unfold rsaCreate at h
  split at h
  · simp at h
  rename_i hb
  have hb' : 12 ≤ bitRate.toNat := by omega
  split at h
  · simp at h
  rename_i k' hk
  simp only [rsaKeyNow, rsaPubNow, Outcome.require_some, Outcome.bind_ok, Option.some.injEq] at h
  have h : k' = k ∧ k'.pub = pub := by
    have : (k', k'.pub) = (k, pub) := by injection h
    simpa using this
  obtain ⟨rfl, rfl⟩ := h
  refine ⟨by omega, ?_⟩
  induction draws with
  | nil => simp [rsaPrimes] at hk
  | cons y t ih =>
    obtain ⟨p, q⟩ := y
    have hy := hd _ (List.mem_cons_self ..)
    by_cases hu : UsablePair (p, q)
    · obtain ⟨k, h0, h1, h2, h3, h4, -, h5, h6⟩ := (attempt_usable hy hb').2 hu
      simp only [rsaPrimes] at hk
      simp only at h0 h6
      rw [h0] at hk
      simp only [Option.some.injEq] at hk
      subst hk
      refine ⟨h1, h2, rfl, by rw [h5]; omega, lt_of_lt_of_le h6 ?_⟩
      rw [h1.modulus, h3, h4]
      exact Nat.mul_le_mul (Nat.sub_le _ _) (Nat.sub_le _ _)
    · have h0 := (attempt_usable hy hb').1 hu
      simp only [rsaPrimes] at hk
      simp only at h0
      rw [h0] at hk
      exact ih (fun y hy => hd y (List.mem_cons_of_mem _ hy)) hk

theorem derField_length_of_lt {n m : Nat} (h : n < 256 ^ m) (hm : m < 2 ^ 27) :
    (derField n).length ≤ m + 20 := by
  have h1 : (beBytes n).length ≤ m := beBytes_length_le.mpr h
  have h2 : (derNat n).length ≤ m + 1 := by
    unfold derNat
    split
    · simp
    · split
      · simp; omega
      · omega
  have := beBytes_length_of_lt (by omega : (derNat n).length < 2 ^ 31)
  unfold derField tlv derLen
  split <;> simp <;> omega

section
variable [H : Sha256]

/-- C163: a created key decrypts every message of at most 66 bytes less than its size that was encrypted for it. -/
theorem C163_created_key_decrypts {bitRate : Int} {draws : List (Nat × Nat)}
    (hd : ∀ y ∈ draws, Drawn bitRate.toNat y) {k : RsaKey} {pub : RsaPub}
    (h : rsaCreate bitRate draws = some (.ok (k, pub))) {seed msg : Bytes} (hs : seed.length = 32) :
    if (msg.length : Int) + 66 ≤ (bitRate + 7) / 8 then
      ∃ c, rsaEncrypt pub seed msg = .ok c ∧ (c.length : Int) = (bitRate + 7) / 8 ∧
        ∀ r, Nat.Coprime r pub.n → rsaDecrypt k r c = .ok msg
    else (rsaEncrypt pub seed msg).isErr = true := by
  obtain ⟨hb, hk, -, rfl, hn, -⟩ := created_proper hd h
  have hsz : (k.pub.size : Int) = (bitRate + 7) / 8 := by
    unfold RsaPub.size
    omega
  split
  · rename_i hm
    obtain ⟨c, h1, h2, -⟩ := C101_decrypt_encrypt hk (msg := msg) (r := 1) hs (by omega) (Nat.coprime_one_left _)
    refine ⟨c, h1, by omega, fun r hr => ?_⟩
    obtain ⟨c', h1', -, h3⟩ := C101_decrypt_encrypt hk (msg := msg) hs (by omega) hr
    rw [h1] at h1'
    injection h1' with h1'
    rwa [h1']
  · exact C101_too_long_refused _ (by omega)

/-- C163: `Create` makes keys of 12 to 520 bits without an error, but nothing can be encrypted for them. -/
theorem C163_short_keys_encrypt_nothing {bitRate : Int} {draws : List (Nat × Nat)}
    (hd : ∀ y ∈ draws, Drawn bitRate.toNat y) {k : RsaKey} {pub : RsaPub}
    (h : rsaCreate bitRate draws = some (.ok (k, pub))) (hb : bitRate ≤ 520) (seed msg : Bytes) :
    (rsaEncrypt pub seed msg).isErr = true := by
  obtain ⟨-, hk, -, rfl, hn, -⟩ := created_proper hd h
  refine C101_too_long_refused _ ?_
  unfold RsaPub.size
  omega

end

/-- C163: a created key comes back from its bytes and from its text, and so does its public key. -/
theorem C163_created_key_survives {bitRate : Int} {draws : List (Nat × Nat)}
    (hd : ∀ y ∈ draws, Drawn bitRate.toNat y) {k : RsaKey} {pub : RsaPub}
    (h : rsaCreate bitRate draws = some (.ok (k, pub))) (hb : bitRate ≤ 2 ^ 20) :
    (∃ b s, rsaKeyToBytes k = .ok b ∧ rsaKeyToEncoded k = .ok s ∧ rsaKeyFromBytes b = .ok k ∧
      rsaKeyFromEncoded s = .ok k) ∧
    rsaPubFromBytes (rsaPubToBytes pub) = .ok pub ∧ rsaPubFromEncoded (rsaPubToEncoded pub) = .ok pub := by
  obtain ⟨hb0, hk, hpre, rfl, hn, hdn⟩ := created_proper hd h
  have hnl : k.pub.n < 256 ^ (2 ^ 17) := by
    have h1 : k.pub.n < 2 ^ Nat.size k.pub.n := Nat.lt_size_self _
    refine lt_of_lt_of_le h1 ?_
    rw [show (256 : Nat) = 2 ^ 8 from rfl, ← pow_mul]
    exact Nat.pow_le_pow_right (by decide) (by omega)
  have small : ∀ {m : Nat}, m ≤ k.pub.n → (derField m).length ≤ 2 ^ 17 + 20 := fun hm =>
    derField_length_of_lt (lt_of_le_of_lt hm hnl) (by decide)
  have hp := hk.p_odd
  have hq := hk.q_odd
  have hpn : k.p ≤ k.pub.n := by rw [hk.modulus]; exact Nat.le_mul_of_pos_right _ (by omega)
  have hqn : k.q ≤ k.pub.n := by rw [hk.modulus]; exact Nat.le_mul_of_pos_left _ (by omega)
  have hn1 : 1 ≤ k.pub.n := by omega
  have he : (derField k.pub.e).length ≤ 110 :=
    derField_length (m := 4) (lt_of_lt_of_le hk.e_high (by decide)) (by decide)
  have ln := small le_rfl
  constructor
  · obtain ⟨b, s, h1, h2, h3⟩ := C102_private_round_trip hk
    have hk' : ({ k with pre := true } : RsaKey) = k := by rw [← hpre]
    rw [hk'] at h3
    obtain ⟨i, hi, -⟩ := modInverse_coprime hk.p_prime.pos hk.coprime.symm
    have hi' : i ≤ k.p := by
      unfold modInverse at hi
      split at hi
      · simp only [Option.some.injEq] at hi
        have := Int.emod_lt_of_pos (Nat.gcdA k.q k.p) (by omega : (0 : Int) < (k.p : Int))
        omega
      · simp at hi
    have hb' : b.length < 2 ^ 31 := by
      unfold rsaKeyToBytes at h1
      rw [if_neg (by omega), hi] at h1
      simp only [Outcome.ok.injEq] at h1
      rw [← h1]
      have l0 := small (m := 0) (by omega)
      have l1 := small hdn.le
      have l2 := small hpn
      have l3 := small hqn
      have l4 := small (m := ((k.d : Int) % ((k.p : Int) - 1)).toNat) (by
        have := Int.emod_lt_of_pos (k.d : Int) (by omega : (0 : Int) < (k.p : Int) - 1)
        omega)
      have l5 := small (m := ((k.d : Int) % ((k.q : Int) - 1)).toNat) (by
        have := Int.emod_lt_of_pos (k.d : Int) (by omega : (0 : Int) < (k.q : Int) - 1)
        omega)
      have l6 := small (hi'.trans hpn)
      exact tlv_length_le (by simp only [List.length_append]; omega)
    exact ⟨b, s, h1, h2, h3 hb'⟩
  · refine C102_public_round_trip hn1 (by have := hk.e_low; omega) hk.e_high ?_
    exact tlv_length_le (by simp only [List.length_append]; omega)

section examples

attribute [local instance] toySha256

/-- A prime of 270 bits. -/
def drawnP : Nat := 491 ^ 1 * 2 ^ 261 + 1

/-- Another one. -/
def drawnQ : Nat := 997 ^ 1 * 2 ^ 260 + 1

theorem drawnP_prime : drawnP.Prime :=
  prime_of_powMod (f := 280) (a := 3) (c := 1) (m := 261) (s := 491) rfl
    (by norm_num) (by decide +kernel) (by decide +kernel) (by decide +kernel)
    (by decide +kernel) (by decide +kernel)

theorem drawnQ_prime : drawnQ.Prime :=
  prime_of_powMod (f := 280) (a := 3) (c := 1) (m := 260) (s := 997) rfl
    (by norm_num) (by decide +kernel) (by decide +kernel) (by decide +kernel)
    (by decide +kernel) (by decide +kernel)

theorem drawn_toy : Drawn 540 (drawnP, drawnQ) := by
  have h : TopPrime 270 drawnP := ⟨drawnP_prime, by decide +kernel, by decide +kernel⟩
  refine ⟨h, ?_⟩
  rw [h.size (by decide)]
  exact ⟨drawnQ_prime, by decide +kernel, by decide +kernel⟩

theorem drawn_same : Drawn 540 (drawnP, drawnP) := by
  have h : TopPrime 270 drawnP := ⟨drawnP_prime, by decide +kernel, by decide +kernel⟩
  refine ⟨h, ?_⟩
  rw [h.size (by decide)]
  exact h

/-- C163: first twice the same prime, then a usable pair; the key works. -/
example : ∃ k c, rsaCreate 540 [(drawnP, drawnP), (drawnP, drawnQ)] = some (.ok (k, k.pub)) ∧
    rsaEncrypt k.pub (List.replicate 32 7) [1, 2] = .ok c ∧ rsaDecrypt k 1 c = .ok [1, 2] ∧
    (rsaEncrypt k.pub (List.replicate 32 7) [1, 2, 3]).isErr = true ∧
    ∃ b, rsaKeyToBytes k = .ok b ∧ rsaKeyFromBytes b = .ok k := by
  obtain ⟨k, h, -⟩ := C163_first_usable_pair (bitRate := 540) (by decide) (pre := [(drawnP, drawnP)])
    (post := []) (x := (drawnP, drawnQ)) (by simpa using drawn_same) (by simp [UsablePair]) drawn_toy
    ⟨by decide +kernel, by decide +kernel⟩
  have hd : ∀ y ∈ [(drawnP, drawnP)] ++ (drawnP, drawnQ) :: [], Drawn (540 : Int).toNat y := by
    simp only [List.cons_append, List.nil_append, List.mem_cons, List.not_mem_nil, or_false, forall_eq_or_imp,
      forall_eq]
    exact ⟨drawn_same, drawn_toy⟩
  have h1 := C163_created_key_decrypts hd h (seed := List.replicate 32 7) (msg := [1, 2]) (by simp)
  rw [if_pos (by decide)] at h1
  have h2 := C163_created_key_decrypts hd h (seed := List.replicate 32 7) (msg := [1, 2, 3]) (by simp)
  rw [if_neg (by decide)] at h2
  obtain ⟨c, h3, -, h4⟩ := h1
  obtain ⟨⟨b, -, h5, -, h6, -⟩, -⟩ := C163_created_key_survives hd h (by decide)
  exact ⟨k, c, h, h3, h4 1 (Nat.coprime_one_left _), h2, b, h5, h6⟩

example : rsaCreate 540 [(drawnP, drawnP)] = none :=
  C163_no_usable_pair (by decide) (by simpa using drawn_same) (by simp [UsablePair])

/-- C163: a key of 12 bits. -/
example : ∃ k, rsaCreate 12 [(53, 59)] = some (.ok (k, k.pub)) ∧ (rsaEncrypt k.pub [] []).isErr = true := by
  have hp : TopPrime 6 53 := ⟨by norm_num, by decide, by decide⟩
  have hd : Drawn 12 (53, 59) := by
    refine ⟨hp, ?_⟩
    rw [hp.size (by decide)]
    exact ⟨by norm_num, by decide, by decide⟩
  obtain ⟨k, h, -⟩ := C163_first_usable_pair (bitRate := 12) (by decide) (pre := []) (post := []) (x := (53, 59))
    (by simp) (by simp) hd ⟨by decide, by decide⟩
  exact ⟨k, h, C163_short_keys_encrypt_nothing (by simpa using hd) h (by decide) _ _⟩

end examples

end Verif
