import Verif.Props.RsaMany
import Verif.Props.RsaTexts

/-!
# Encrypted messages and imported keys with more than two primes: C164
-/

namespace Verif

/-- A congruence modulo a product is one modulo each factor. -/
theorem modEq_of_prod {a b : Nat} {l : List Nat} (h : a ≡ b [MOD l.prod]) {s : Nat} (hs : s ∈ l) : a ≡ b [MOD s] :=
  h.of_dvd (List.dvd_prod hs)

/-- C164, exactly which accepted private keys whose factors have no common divisors undo the public operation, for
every random number that the library accepts: those for whose factors the exponents cancel. -/
theorem C164_numbers_exact {b : Bytes} {k : RsaMany} (hb : rsaManyFromBytes b = .ok k)
    (hc : k.primes.Pairwise Nat.Coprime) {r : Nat} (hr : Nat.Coprime r k.pub.n) :
    (∀ x < k.pub.n, rsaManyDecryptNat k r (x ^ k.pub.e % k.pub.n) = .ok x) ↔
      ∀ s ∈ k.primes, Cancels k.pub.e (k.d % (s - 1)) s := by
  obtain ⟨h1, hn, he, he'⟩ := C164_imported_checked hb
  have hn0 : 0 < k.pub.n := by
    rw [hn]
    exact Nat.pos_of_ne_zero (List.prod_ne_zero fun h => by have := (h1 0 h).1; omega)
  obtain ⟨i, hi, hi1⟩ := modInverse_coprime hn0 hr
  have hback : ∀ w, w * i * r ≡ w [MOD k.pub.n] := by
    intro w
    have b := hi1.mul_left w
    rw [mul_one, mul_comm r i, ← mul_assoc] at b
    exact b
  have hforth : ∀ w, w * r * i ≡ w [MOD k.pub.n] := by
    intro w
    have b := hi1.mul_left w
    rw [mul_one, ← mul_assoc] at b
    exact b
  have hj : ∀ s ∈ k.primes, 1 < k.pub.e * (k.d % (s - 1)) := by
    intro s hs
    obtain ⟨h2, h⟩ := h1 s hs
    have h1 : k.pub.e * (k.d % (s - 1)) ≡ 1 [MOD s - 1] := ((Nat.mod_modEq _ _).mul_left _).trans h
    have : k.d % (s - 1) ≠ 0 := by
      intro h0
      rw [h0, Nat.mul_zero] at h1
      have := (Nat.modEq_iff_dvd' (by omega)).mp h1
      have := Nat.le_of_dvd (by decide) this
      omega
    calc 1 < k.pub.e * 1 := by omega
      _ ≤ _ := Nat.mul_le_mul_left _ (by omega)
  have hraw : ∀ y, ∃ z, rsaManyRaw k (y ^ k.pub.e % k.pub.n) = .ok z ∧ z < k.pub.n ∧
      ∀ s ∈ k.primes, z ≡ y ^ (k.pub.e * (k.d % (s - 1))) [MOD s] := by
    intro y
    obtain ⟨z, hz, hlt, hz1⟩ := manyRaw_ok (fun s hs => (h1 s hs).1) hc (y ^ k.pub.e % k.pub.n)
    refine ⟨z, hz, by rwa [hn], fun s hs => (hz1 s hs).trans ?_⟩
    rw [pow_mul]
    exact (modEq_of_prod (hn ▸ Nat.mod_modEq (y ^ k.pub.e) k.pub.n) hs).pow _
  constructor
  · intro h s hs
    unfold Cancels
    rw [← pow_self_iff (by have := (h1 s hs).1; omega) (hj s hs)]
    intro y
    obtain ⟨z, hz, hlt, hz1⟩ := hraw y
    have hx := h (y * i % k.pub.n) (Nat.mod_lt _ hn0)
    have e0 : y * i % k.pub.n * r ≡ y [MOD k.pub.n] := ((Nat.mod_modEq (y * i) k.pub.n).mul_right r).trans (hback y)
    have e1 : (y * i % k.pub.n * r) ^ k.pub.e % k.pub.n = y ^ k.pub.e % k.pub.n := e0.pow _
    rw [manyDecryptNat_eq hn0 hi, e1, hz] at hx
    simp only [Outcome.bind, Outcome.ok.injEq] at hx
    have e2 : z * i ≡ y * i [MOD k.pub.n] := hx
    have e5 : z ≡ y [MOD k.pub.n] := ((hback z).symm.trans (e2.mul_right r)).trans (hback y)
    exact (hz1 s hs).symm.trans (modEq_of_prod (hn ▸ e5) hs)
  · intro h x hx
    obtain ⟨z, hz, hlt, hz1⟩ := hraw (x * r)
    have e1 : z ≡ x * r [MOD k.pub.n] := by
      rw [hn]
      exact modEq_prod hc fun s hs => (hz1 s hs).trans
        ((pow_self_iff (by have := (h1 s hs).1; omega) (hj s hs)).mpr (h s hs) _)
    rw [manyDecryptNat_eq hn0 hi, hz]
    simp only [Outcome.bind, Outcome.ok.injEq]
    have e2 : z * i ≡ x [MOD k.pub.n] := (e1.mul_right i).trans (hforth x)
    unfold Nat.ModEq at e2
    rw [e2, Nat.mod_eq_of_lt hx]

/-- C164: whatever the number of primes, and whatever the random number, a number is decrypted to its power with the
private exponent. -/
theorem C164_one_power {k : RsaMany} (hk : k.Proper) {r c : Nat} (hr : Nat.Coprime r k.pub.n) (hc : c ≤ k.pub.n) :
    rsaManyDecryptNat k r c = .ok (c ^ k.d % k.pub.n) := by
  have hd : k.d ≠ 0 := hk.d_pos.ne'
  have low : ∀ c < k.pub.n, rsaManyDecryptNat k r c = .ok (c ^ k.d % k.pub.n) := by
    intro c hc
    have hroot : (c ^ k.d % k.pub.n) ^ k.pub.e ≡ c [MOD k.pub.n] := by
      refine ((Nat.mod_modEq _ _).pow _).trans ?_
      rw [hk.modulus, ← pow_mul, mul_comm k.d]
      exact modEq_prod hk.coprime fun s hs => pow_inv_modEq (hk.prime s hs).1 (hk.prime s hs).2 (hk.inverse s hs)
    have e : (c ^ k.d % k.pub.n) ^ k.pub.e % k.pub.n = c := by
      have := hroot
      unfold Nat.ModEq at this
      rw [this, Nat.mod_eq_of_lt hc]
    have := hk.decrypt_pow hr (Nat.mod_lt (c ^ k.d) hk.n_pos)
    rwa [e] at this
  rcases hc.lt_or_eq with h | rfl
  · exact low c h
  · have e : rsaManyDecryptNat k r k.pub.n = rsaManyDecryptNat k r 0 := by
      unfold rsaManyDecryptNat
      simp [Nat.mul_mod_right]
    rw [e, low 0 hk.n_pos]
    simp only [zero_pow hd, Nat.zero_mod]
    exact congrArg _ (Nat.mod_eq_zero_of_dvd (dvd_pow_self _ hd)).symm

section
variable [H : Sha256]

/-- C164: the random number of a decryption does not change what is returned. -/
theorem C164_blinding_does_not_matter {k : RsaMany} (hk : k.Proper) {r r' : Nat} (hr : Nat.Coprime r k.pub.n)
    (hr' : Nat.Coprime r' k.pub.n) (c : Bytes) : rsaManyDecrypt k r c = rsaManyDecrypt k r' c := by
  unfold rsaManyDecrypt
  by_cases h : beNat c ≤ k.pub.n
  · rw [C164_one_power hk hr h, C164_one_power hk hr' h]
  · have e : ∀ r, rsaManyDecryptNat k r (beNat c) = .err "crypto/rsa: decryption error" := by
      intro r
      unfold rsaManyDecryptNat Outcome.guardNot
      simp [show k.pub.n < beNat c by omega]
    rw [e, e]

/-- C164: exactly these bytes are decrypted to a message, as with two primes (C165). -/
theorem C164_decrypts_iff {k : RsaMany} (hk : k.Proper) {r : Nat} (hr : Nat.Coprime r k.pub.n) {c msg : Bytes} :
    rsaManyDecrypt k r c = .ok msg ↔ c.length ≤ k.pub.size ∧ beNat c ≤ k.pub.n ∧
      ∃ seed c', seed.length = 32 ∧ rsaEncrypt k.pub seed msg = .ok c' ∧ beNat c' = beNat c % k.pub.n := by
  constructor
  · intro h
    unfold rsaManyDecrypt at h
    obtain ⟨u, hc, h⟩ := Outcome.bind_eq_ok.mp h
    obtain ⟨hg, h⟩ := Outcome.guardNot_bind_eq_ok.mp h
    simp only [Bool.or_eq_false_iff, decide_eq_false_iff_not, not_lt] at hg
    obtain ⟨m, hm, h⟩ := Outcome.bind_eq_ok.mp h
    have hle : beNat c ≤ k.pub.n := by
      unfold rsaManyDecryptNat at hm
      obtain ⟨hg, -⟩ := Outcome.guardNot_bind_eq_ok.mp hm
      simpa using hg
    refine ⟨hg.1, hle, ?_⟩
    rw [C164_one_power hk hr hle] at hm
    have hmv : beNat c ^ k.d % k.pub.n = m := Outcome.ok.inj hm
    have hmn : m < k.pub.n := by rw [← hmv]; exact Nat.mod_lt _ hk.n_pos
    have hme : m ^ k.pub.e % k.pub.n = beNat c % k.pub.n := by
      have : m ^ k.pub.e ≡ beNat c [MOD k.pub.n] := by
        rw [← hmv]
        refine ((Nat.mod_modEq _ _).pow _).trans ?_
        rw [hk.modulus, ← pow_mul, mul_comm k.d]
        exact modEq_prod hk.coprime fun s hs =>
          pow_inv_modEq (hk.prime s hs).1 (hk.prime s hs).2 (hk.inverse s hs)
      exact this
    have hml : (beBytes m).length ≤ k.pub.size := beBytes_length_le.mpr (hmn.trans (n_lt_size _))
    obtain ⟨seed, hs, hlen, hem⟩ := oaepUnpad_eq_ok (leftPad_length hml) hg.2 h
    have hmv : beNat (oaepPad k.pub.size seed msg) = m := by
      rw [← hem, beNat_leftPad, beNat_beBytes]
    refine ⟨seed, leftPad k.pub.size (beBytes (m ^ k.pub.e % k.pub.n)), hs, ?_, ?_⟩
    · unfold rsaEncrypt
      rw [hc, Outcome.bind_ok, if_neg (by omega), hmv]
    · rw [beNat_leftPad, beNat_beBytes, hme]
  · rintro ⟨hl, hn, seed, c', hs, he, hc⟩
    obtain ⟨-, hm, e'⟩ := encrypt_eq_ok.mp he
    obtain ⟨c₁, h1, h2⟩ := C164_decrypts hk hs hm hr
    rw [he] at h1
    cases h1
    have hlt : beNat c' < k.pub.n := by rw [hc]; exact Nat.mod_lt _ hk.n_pos
    have hl1 : c'.length = k.pub.size := by
      rw [e']
      exact leftPad_length (beBytes_length_le.mpr ((Nat.mod_lt _ hk.n_pos).trans (n_lt_size _)))
    have hd : rsaManyDecryptNat k r (beNat c) = rsaManyDecryptNat k r (beNat c') := by
      rw [C164_one_power hk hr hn, C164_one_power hk hr hlt.le, hc, ← Nat.pow_mod]
    rw [← h2]
    unfold rsaManyDecrypt
    rw [hd]
    congr 1
    funext _
    congr 1
    rw [hl1, decide_eq_false (by omega : ¬ k.pub.size < c.length), decide_eq_false (lt_irrefl k.pub.size)]

/-- C164: an accepted key whose factors have no common divisors, and for whose factors the exponents cancel, decrypts
what its public key encrypts, prime or not. -/
theorem C164_imported_decrypts {b : Bytes} {k : RsaMany} (hb : rsaManyFromBytes b = .ok k)
    (hc : k.primes.Pairwise Nat.Coprime) (hu : ∀ s ∈ k.primes, Cancels k.pub.e (k.d % (s - 1)) s)
    {seed msg : Bytes} {r : Nat} (hs : seed.length = 32) (hm : msg.length + 66 ≤ k.pub.size)
    (hr : Nat.Coprime r k.pub.n) :
    ∃ c, rsaEncrypt k.pub seed msg = .ok c ∧ rsaManyDecrypt k r c = .ok msg := by
  obtain ⟨h1, hn, he, he'⟩ := C164_imported_checked hb
  have hn0 : 0 < k.pub.n := by
    rw [hn]
    exact Nat.pos_of_ne_zero (List.prod_ne_zero fun h => by have := (h1 0 h).1; omega)
  obtain ⟨hlt, c, hc1, -⟩ := decrypt_encrypt_eq (H := H) (k := k.two) hn0 he he' hs hm
  change beNat (oaepPad k.pub.size seed msg) < k.pub.n at hlt
  change rsaEncrypt k.pub seed msg = .ok c at hc1
  refine ⟨c, hc1, ?_⟩
  have ec := (encrypt_eq_ok.mp hc1).2.2
  have hl : c.length = k.pub.size := by
    rw [ec]
    exact leftPad_length (beBytes_length_le.mpr ((Nat.mod_lt _ hn0).trans (n_lt_size _)))
  have hv : beNat c = beNat (oaepPad k.pub.size seed msg) ^ k.pub.e % k.pub.n := by
    rw [ec, beNat_leftPad, beNat_beBytes]
  have g : Outcome.guardNot (decide (k.pub.size < c.length) || decide (k.pub.size < 66))
      "crypto/rsa: decryption error" = .ok () := by
    rw [Outcome.guardNot_eq_ok, hl]; simp; omega
  have hcp : checkPub k.pub = .ok () := checkPub_eq_ok.mpr ⟨he, he'⟩
  unfold rsaManyDecrypt
  rw [hcp, Outcome.bind_ok, g, Outcome.bind_ok, hv,
    (C164_numbers_exact hb hc hr).mpr hu _ hlt, Outcome.bind_ok]
  have := leftPad_beBytes_beNat (oaepPad k.pub.size seed msg)
  rw [oaepPad_length hs hm] at this
  rw [this, oaepUnpad_pad hs]

omit H in
/-- C164: different primes suffice. -/
theorem C164_primes_cancel {b : Bytes} {k : RsaMany} (hb : rsaManyFromBytes b = .ok k)
    (hp : ∀ s ∈ k.primes, s.Prime) (hne : k.primes.Nodup) :
    k.primes.Pairwise Nat.Coprime ∧ ∀ s ∈ k.primes, Cancels k.pub.e (k.d % (s - 1)) s := by
  obtain ⟨h1, -⟩ := C164_imported_checked hb
  refine ⟨(List.Pairwise.and_mem.mp hne).imp ?_, fun m hm => ⟨(hp m hm).prime.squarefree, fun s hs hd => ?_⟩⟩
  · rintro a b ⟨ha, hb, hab⟩
    exact (Nat.coprime_primes (hp a ha) (hp b hb)).mpr hab
  · obtain rfl := (Nat.prime_dvd_prime_iff_eq hs (hp m hm)).mp hd
    obtain ⟨h2, h⟩ := h1 s hm
    have h' : k.pub.e * (k.d % (s - 1)) ≡ 1 [MOD s - 1] := ((Nat.mod_modEq k.d (s - 1)).mul_left _).trans h
    have hpos : 1 ≤ k.pub.e * (k.d % (s - 1)) := by
      rcases Nat.eq_zero_or_pos (k.pub.e * (k.d % (s - 1))) with h0 | h0
      · rw [h0] at h'
        have := (Nat.modEq_iff_dvd' (Nat.zero_le 1)).mp h'
        have := Nat.le_of_dvd (by decide) this
        omega
      · exact h0
    exact (Nat.modEq_iff_dvd' hpos).mp h'.symm

/-- C164: a key without further primes behaves as the key with two primes. -/
theorem C164_two_primes_same {k : RsaMany} (h : k.more = []) (hp : 0 < k.p) (hq : 0 < k.q) :
    (∀ r c, rsaManyDecrypt k r c = rsaDecrypt k.two r c) ∧ rsaManyToBytes k = rsaKeyToBytes k.two := by
  constructor
  · intro r c
    unfold rsaManyDecrypt rsaDecrypt rsaManyDecryptNat rsaDecryptNat
    have e : ∀ x, rsaManyRaw k x = rsaRaw k.two x := by
      intro x
      unfold rsaManyRaw
      rw [h]
      cases rsaRaw k.two x <;> rfl
    simp only [e]
    rfl
  · have ed : ∀ m : Nat, 0 < m → ((k.d : Int) % ((m : Int) - 1)).toNat = k.d % (m - 1) := by
      intro m hm
      rw [show ((m : Int) - 1) = ((m - 1 : Nat) : Int) by omega]
      exact_mod_cast Int.toNat_natCast _
    unfold rsaManyToBytes rsaKeyToBytes
    simp only [RsaMany.primes, RsaMany.two, h, ed _ hp, ed _ hq, crtFields, List.any_cons, List.any_nil,
      Bool.or_false, Bool.or_eq_true, beq_iff_eq, if_true, List.append_nil]
    rcases modInverse k.q k.p with _ | qinv <;> rfl

end

section examples

attribute [local instance] toySha256

/-- C164: the key with three primes, with two random numbers. -/
example (c : Bytes) : rsaManyDecrypt toyMany 2 c = rsaManyDecrypt toyMany 4 c :=
  C164_blinding_does_not_matter toyMany_proper (by decide +kernel) (by decide +kernel) c

example : rsaManyDecryptNat toyMany 2 5 = .ok (5 ^ toyMany.d % toyMany.pub.n) :=
  C164_one_power toyMany_proper (by decide +kernel) (by decide +kernel)

/-- A small accepted key with a factor that is not prime. -/
def fifteenMany : RsaMany := ⟨⟨1155, 17⟩, 173, 15, 7, [11]⟩

theorem fifteenMany_imported : ∃ b, rsaManyToBytes fifteenMany = .ok b ∧ rsaManyFromBytes b = .ok fifteenMany := by
  have h : (rsaManyToBytes fifteenMany).bind rsaManyFromBytes = .ok fifteenMany := by decide +kernel
  obtain ⟨b, hb, h⟩ := Outcome.bind_eq_ok.mp h
  exact ⟨b, hb, h⟩

/-- C164: although 15 is not prime, every number below 1155 comes back. -/
example : ∀ x < 1155, rsaManyDecryptNat fifteenMany 2 (x ^ 17 % 1155) = .ok x := by
  obtain ⟨b, -, hb⟩ := fifteenMany_imported
  refine (C164_numbers_exact hb ?_ (by decide)).mpr ?_
  · simp only [RsaMany.primes, fifteenMany]
    decide
  · intro s hs
    simp only [RsaMany.primes, fifteenMany, List.mem_cons, List.not_mem_nil, or_false] at hs
    rcases hs with rfl | rfl | rfl
    · refine ⟨?_, fun s hs hd => ?_⟩
      · rw [Nat.squarefree_iff_minSqFac]
        decide +kernel
      · have h15 : s ∣ 3 * 5 := hd
        rcases (Nat.Prime.dvd_mul hs).mp h15 with h | h
        · obtain rfl := (Nat.prime_dvd_prime_iff_eq hs (by decide)).mp h
          decide
        · obtain rfl := (Nat.prime_dvd_prime_iff_eq hs (by decide)).mp h
          decide
    · refine ⟨Nat.Prime.prime (by decide) |>.squarefree, fun s hs hd => ?_⟩
      obtain rfl := (Nat.prime_dvd_prime_iff_eq hs (by decide)).mp hd
      decide
    · refine ⟨Nat.Prime.prime (by decide) |>.squarefree, fun s hs hd => ?_⟩
      obtain rfl := (Nat.prime_dvd_prime_iff_eq hs (by decide)).mp hd
      decide

end examples

end Verif
