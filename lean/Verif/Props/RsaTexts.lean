import Verif.Props.Rsa
import Verif.Spec.RsaTexts

/-!
# C165: encrypted messages
-/

namespace Verif

section
variable [H : Sha256]

/-- The padding determines seed and message. -/
theorem oaepPad_injective {n : Nat} {s s' m m' : Bytes} (hs : s.length = 32) (hs' : s'.length = 32)
    (h : oaepPad n s m = oaepPad n s' m') : s = s' ∧ m = m' := by
  have hm : m = m' := by
    have h1 := oaepUnpad_pad (k := n) (msg := m) hs
    rw [h, oaepUnpad_pad hs'] at h1
    exact (Outcome.ok.inj h1).symm
  subst hm
  unfold oaepPad at h
  simp only [List.cons.injEq, true_and] at h
  have hl : (mgf1Xor s (mgf1Xor (oaepBlock n m) s)).length = (mgf1Xor s' (mgf1Xor (oaepBlock n m) s')).length := by
    rw [mgf1Xor_length, mgf1Xor_length, hs, hs']
  obtain ⟨h1, h2⟩ := List.append_inj h hl
  rw [← h2] at h1
  refine ⟨?_, rfl⟩
  rw [← mgf1Xor_cancel s (mgf1Xor (oaepBlock n m) s), h1, mgf1Xor_cancel]

omit H in
/-- Decryption of numbers, whatever the blinding. -/
theorem decryptNat_value {k : RsaKey} (hk : k.Proper) {r c : Nat} (hr : Nat.Coprime r k.pub.n) (hc : c ≤ k.pub.n) :
    rsaDecryptNat k r c = .ok (c ^ k.d % k.pub.n) := by
  have hd : k.d ≠ 0 := by
    intro h
    have h1 := hk.inv_p
    have := hk.p_odd
    rw [h, mul_zero] at h1
    have h2 := (Nat.modEq_iff_dvd' (by omega : 0 ≤ 1)).mp h1
    have := Nat.le_of_dvd (by omega) h2
    omega
  have low : ∀ c < k.pub.n, rsaDecryptNat k r c = .ok (c ^ k.d % k.pub.n) := by
    intro c hc
    have hroot : (c ^ k.d % k.pub.n) ^ k.pub.e ≡ c [MOD k.pub.n] := by
      refine ((Nat.mod_modEq _ _).pow _).trans ?_
      rw [hk.modulus, ← pow_mul, mul_comm k.d]
      exact (Nat.modEq_and_modEq_iff_modEq_mul hk.coprime).mp
        ⟨pow_inv_modEq hk.p_prime hk.p_odd hk.inv_p, pow_inv_modEq hk.q_prime hk.q_odd hk.inv_q⟩
    have e : (c ^ k.d % k.pub.n) ^ k.pub.e % k.pub.n = c := by
      have := hroot
      unfold Nat.ModEq at this
      rw [this, Nat.mod_eq_of_lt hc]
    have := hk.decrypt_pow hr (Nat.mod_lt (c ^ k.d) hk.n_pos)
    rwa [e] at this
  rcases hc.lt_or_eq with h | rfl
  · exact low c h
  · have e : rsaDecryptNat k r k.pub.n = rsaDecryptNat k r 0 := by
      unfold rsaDecryptNat
      simp [Nat.mul_mod_right]
    rw [e, low 0 hk.n_pos]
    simp only [zero_pow hd, Nat.zero_mod]
    exact congrArg _ (Nat.mod_eq_zero_of_dvd (dvd_pow_self _ hd)).symm

/-- The encryption is a function of the padded message, with inverse. -/
theorem encrypt_eq_ok {k : RsaPub} {seed msg c : Bytes} : rsaEncrypt k seed msg = .ok c ↔
    (2 ≤ k.e ∧ k.e < 2 ^ 31) ∧ msg.length + 66 ≤ k.size ∧
      c = leftPad k.size (beBytes (beNat (oaepPad k.size seed msg) ^ k.e % k.n)) := by
  unfold rsaEncrypt
  rw [Outcome.bind_eq_ok]
  constructor
  · rintro ⟨u, hu, h⟩
    split at h
    · simp at h
    · exact ⟨checkPub_eq_ok.mp hu, by omega, (Outcome.ok.inj h).symm⟩
  · rintro ⟨h1, h2, rfl⟩
    exact ⟨(), checkPub_eq_ok.mpr h1, by rw [if_neg (by omega)]⟩

/-- **C165.** What a decryption returns does not depend on the random numbers it uses. -/
theorem C165_blinding_does_not_matter {k : RsaKey} (hk : k.Proper) {r r' : Nat} (hr : Nat.Coprime r k.pub.n)
    (hr' : Nat.Coprime r' k.pub.n) (c : Bytes) : rsaDecrypt k r c = rsaDecrypt k r' c := by
  unfold rsaDecrypt
  by_cases h : beNat c ≤ k.pub.n
  · rw [decryptNat_value hk hr h, decryptNat_value hk hr' h]
  · have e : ∀ r, rsaDecryptNat k r (beNat c) = .err "crypto/rsa: decryption error" := by
      intro r
      unfold rsaDecryptNat Outcome.guardNot
      simp [show k.pub.n < beNat c by omega]
    rw [e, e]

/-- **C165.** Exactly these bytes are decrypted to a message: those of at most the length of the key that are, as a
number, its encryption with some seed; a text that is the modulus counts as zero. -/
theorem C165_decrypts_iff {k : RsaKey} (hk : k.Proper) {r : Nat} (hr : Nat.Coprime r k.pub.n) {c msg : Bytes} :
    rsaDecrypt k r c = .ok msg ↔ c.length ≤ k.pub.size ∧ beNat c ≤ k.pub.n ∧
      ∃ seed c', seed.length = 32 ∧ rsaEncrypt k.pub seed msg = .ok c' ∧ beNat c' = beNat c % k.pub.n := by
  constructor
  · intro h
    refine ⟨?_, ?_, C101_only_encryptions hk hr h⟩
    · unfold rsaDecrypt at h
      obtain ⟨u, hc, h⟩ := Outcome.bind_eq_ok.mp h
      obtain ⟨hg, h⟩ := Outcome.guardNot_bind_eq_ok.mp h
      simp only [Bool.or_eq_false_iff, decide_eq_false_iff_not, not_lt] at hg
      exact hg.1
    · unfold rsaDecrypt at h
      obtain ⟨u, hc, h⟩ := Outcome.bind_eq_ok.mp h
      obtain ⟨hg, h⟩ := Outcome.guardNot_bind_eq_ok.mp h
      obtain ⟨m, hm, h⟩ := Outcome.bind_eq_ok.mp h
      unfold rsaDecryptNat at hm
      obtain ⟨hg, -⟩ := Outcome.guardNot_bind_eq_ok.mp hm
      simpa using hg
  · rintro ⟨hl, hn, seed, c', hs, he, hc⟩
    have hm := (encrypt_eq_ok.mp he).2.1
    obtain ⟨c₁, h1, hl1, h2⟩ := C101_decrypt_encrypt hk hs hm hr
    rw [he] at h1
    cases h1
    have hlt : beNat c' < k.pub.n := by rw [hc]; exact Nat.mod_lt _ hk.n_pos
    have hd : rsaDecryptNat k r (beNat c) = rsaDecryptNat k r (beNat c') := by
      rw [decryptNat_value hk hr hn, decryptNat_value hk hr hlt.le, hc, ← Nat.pow_mod]
    rw [← h2]
    unfold rsaDecrypt
    rw [hd]
    congr 1
    funext _
    congr 1
    rw [hl1, decide_eq_false (by omega : ¬ k.pub.size < c.length), decide_eq_false (lt_irrefl k.pub.size)]

/-- **C165.** Two encryptions are equal only if message and seed are: an encrypted message has one content, and
messages with different seeds cannot be told to be equal by comparing their encryptions. -/
theorem C165_encryptions_differ {k : RsaKey} (hk : k.Proper) {s s' m m' c : Bytes} (hs : s.length = 32)
    (hs' : s'.length = 32) (h : rsaEncrypt k.pub s m = .ok c) (h' : rsaEncrypt k.pub s' m' = .ok c) :
    s = s' ∧ m = m' := by
  obtain ⟨-, hm, e⟩ := encrypt_eq_ok.mp h
  obtain ⟨-, hm', e'⟩ := encrypt_eq_ok.mp h'
  have low : ∀ {s m : Bytes}, s.length = 32 → m.length + 66 ≤ k.pub.size →
      beNat (oaepPad k.pub.size s m) < k.pub.n := by
    intro s m hs hm
    have hl := oaepPad_length (H := H) hs hm
    refine lt_of_lt_of_le ?_ (size_pow (by omega : 0 < k.pub.size))
    unfold oaepPad at hl ⊢
    rw [beNat_cons]
    simp only [UInt8.toNat_zero, Nat.zero_mul, Nat.zero_add]
    refine lt_of_lt_of_eq (beNat_lt _) ?_
    congr 1
    simp only [List.length_cons] at hl
    omega
  have hn : beNat (oaepPad k.pub.size s m) = beNat (oaepPad k.pub.size s' m') := by
    have h1 := hk.decrypt_pow (Nat.coprime_one_left k.pub.n) (low hs hm)
    have h2 := hk.decrypt_pow (Nat.coprime_one_left k.pub.n) (low hs' hm')
    have : beNat c = beNat c := rfl
    conv_lhs at this => rw [e]
    conv_rhs at this => rw [e']
    rw [beNat_leftPad, beNat_beBytes, beNat_leftPad, beNat_beBytes] at this
    rw [this, h2] at h1
    exact (Outcome.ok.inj h1).symm
  have h1 := leftPad_beBytes_beNat (oaepPad k.pub.size s m)
  have h2 := leftPad_beBytes_beNat (oaepPad k.pub.size s' m')
  rw [oaepPad_length hs hm] at h1
  rw [oaepPad_length hs' hm', ← hn, h1] at h2
  exact oaepPad_injective hs hs' h2

/-- **C165.** An encryption that begins with a zero can be shortened by everybody: the text without it is decrypted
to the same message. -/
theorem C165_leading_zero_neg {k : RsaKey} (hk : k.Proper) {r : Nat} (hr : Nat.Coprime r k.pub.n)
    {seed msg c : Bytes} (hs : seed.length = 32) (h : rsaEncrypt k.pub seed msg = .ok (0 :: c)) :
    c ≠ 0 :: c ∧ rsaDecrypt k r c = .ok msg ∧ rsaDecrypt k r (0 :: c) = .ok msg := by
  have hm := (encrypt_eq_ok.mp h).2.1
  obtain ⟨c₁, h1, hl1, h2⟩ := C101_decrypt_encrypt hk hs hm hr
  rw [h] at h1
  cases h1
  refine ⟨fun e => by simpa using congrArg List.length e, ?_, h2⟩
  obtain ⟨hl, hn, s, c', hs', he, hc⟩ := (C165_decrypts_iff hk hr).mp h2
  rw [beNat_cons] at hn hc
  simp only [UInt8.toNat_zero, Nat.zero_mul, Nat.zero_add] at hn hc
  exact (C165_decrypts_iff hk hr).mpr ⟨by simp at hl; omega, hn, s, c', hs', he, hc⟩

omit H in
/-- The counter is written with four bytes. -/
theorem counter4_bytes {i : Nat} (h : i < 2 ^ 32) : counter4 i =
    [UInt8.ofNat (i / 2 ^ 24), UInt8.ofNat (i / 2 ^ 16), UInt8.ofNat (i / 2 ^ 8), UInt8.ofNat i] := by
  have e : beNat [UInt8.ofNat (i / 2 ^ 24), UInt8.ofNat (i / 2 ^ 16), UInt8.ofNat (i / 2 ^ 8), UInt8.ofNat i] = i := by
    simp only [beNat_cons, List.length_cons, List.length_nil, UInt8.toNat_ofNat']
    simp only [show beNat [] = 0 from rfl]
    omega
  have := leftPad_beBytes_beNat
    [UInt8.ofNat (i / 2 ^ 24), UInt8.ofNat (i / 2 ^ 16), UInt8.ofNat (i / 2 ^ 8), UInt8.ofNat i]
  rw [e] at this
  unfold counter4
  rw [Nat.mod_eq_of_lt h]
  exact this

omit H in
theorem flatMap_pieces {f : Nat → Bytes} (hf : ∀ i, (f i).length = 32) : ∀ (l : List Nat) (j : Nat),
    (l.flatMap f)[j]? = (l[j / 32]?).bind fun i => (f i)[j % 32]?
  | [], j => by simp
  | x :: l, j => by
    rw [List.flatMap_cons]
    by_cases h : j < 32
    · rw [List.getElem?_append_left (by rw [hf]; exact h), Nat.div_eq_of_lt h, Nat.mod_eq_of_lt h]
      rfl
    · rw [List.getElem?_append_right (by rw [hf]; omega), hf, flatMap_pieces hf l]
      obtain ⟨d, rfl⟩ := Nat.exists_eq_add_of_le (by omega : 32 ≤ j)
      rw [Nat.add_sub_cancel_left, Nat.add_mod_left, Nat.add_div_left _ (by omega), List.getElem?_cons_succ]

theorem mgf1_byte {s : Bytes} {len j : Nat} (hj : j < len) (hl : len ≤ 2 ^ 32) :
    (mgf1 s len)[j]? = some (maskByte s j) := by
  unfold mgf1
  rw [List.getElem?_take_of_lt hj, flatMap_pieces (fun i => H.len _),
    List.getElem?_range (by omega : j / 32 < (len + 31) / 32), Option.bind_some, counter4_bytes (by omega)]
  have hm : j % 32 < 32 := Nat.mod_lt _ (by omega)
  unfold maskByte
  rw [List.getD_eq_getElem?_getD, List.getElem?_eq_getElem (by rw [H.len]; exact hm)]
  rfl

theorem mgf1Xor_byte {out s : Bytes} {j : Nat} (hj : j < out.length) (hl : out.length ≤ 2 ^ 32) :
    (mgf1Xor out s)[j]? = (out[j]?).map (· ^^^ maskByte s j) := by
  unfold mgf1Xor xorBytes
  rw [List.getElem?_zipWith, mgf1_byte hj hl, List.getElem?_eq_getElem hj]
  rfl

/-- **C101.** What is encrypted is the encoding of the standard: a zero, the masked seed and the masked block of the
hash of the empty label, zeros, a one and the message. -/
theorem C101_encrypts_oaep {k : RsaPub} {seed msg c : Bytes} (hs : seed.length = 32) (hk : k.size ≤ 2 ^ 32)
    (h : rsaEncrypt k seed msg = .ok c) : ∃ a b : Bytes, OaepMasks seed
        (H.sum [] ++ (List.replicate (k.size - msg.length - 66) 0 ++ 1 :: msg)) a b ∧ a.length = 32 ∧
      a.length + b.length + 1 = k.size ∧ beNat c = beNat (0 :: (a ++ b)) ^ k.e % k.n := by
  obtain ⟨-, hm, rfl⟩ := encrypt_eq_ok.mp h
  have hb := oaepBlock_length (H := H) hm
  refine ⟨mgf1Xor seed (mgf1Xor (oaepBlock k.size msg) seed), mgf1Xor (oaepBlock k.size msg) seed,
    ⟨?_, ?_, ?_, ?_⟩, by rw [mgf1Xor_length, hs], by rw [mgf1Xor_length, mgf1Xor_length, hs, hb]; omega, ?_⟩
  · rw [mgf1Xor_length]; rfl
  · rw [mgf1Xor_length]
  · intro j hj
    exact mgf1Xor_byte (out := oaepBlock k.size msg) hj (by rw [hb]; omega)
  · intro j hj
    exact mgf1Xor_byte hj (by rw [hs]; norm_num)
  · rw [beNat_leftPad, beNat_beBytes]
    rfl

end

section examples

attribute [local instance] toySha256

example (c : Bytes) : rsaDecrypt toyRsa 2 c = rsaDecrypt toyRsa 4 c :=
  C165_blinding_does_not_matter toyRsa_proper (by decide +kernel) (by decide +kernel) c

/-- C101: the encoding of a message of three bytes. -/
example : ∃ (c a b : Bytes), rsaEncrypt toyRsa.pub (List.replicate 32 7) [1, 2, 3] = .ok c ∧
    OaepMasks (List.replicate 32 7) (Sha256.sum [] ++ [1, 1, 2, 3]) a b ∧
    beNat c = beNat (0 :: (a ++ b)) ^ toyRsa.pub.e % toyRsa.pub.n := by
  obtain ⟨c, h, -, -⟩ := C101_decrypt_encrypt toyRsa_proper (seed := List.replicate 32 7) (msg := [1, 2, 3])
    (r := 2) (by simp) (by rw [toyRsa_size]; simp) (by decide +kernel)
  obtain ⟨a, b, h1, -, -, h2⟩ := C101_encrypts_oaep (by simp) (by rw [toyRsa_size]; norm_num) h
  rw [toyRsa_size] at h1
  exact ⟨c, a, b, h, h1, h2⟩

/-- C165: the same message with two seeds. -/
example : ∃ c c', rsaEncrypt toyRsa.pub (List.replicate 32 7) [1, 2, 3] = .ok c ∧
    rsaEncrypt toyRsa.pub (List.replicate 32 8) [1, 2, 3] = .ok c' ∧ c ≠ c' := by
  obtain ⟨c, h, -, -⟩ := C101_decrypt_encrypt toyRsa_proper (seed := List.replicate 32 7) (msg := [1, 2, 3])
    (r := 2) (by simp) (by rw [toyRsa_size]; simp) (by decide +kernel)
  obtain ⟨c', h', -, -⟩ := C101_decrypt_encrypt toyRsa_proper (seed := List.replicate 32 8) (msg := [1, 2, 3])
    (r := 2) (by simp) (by rw [toyRsa_size]; simp) (by decide +kernel)
  refine ⟨c, c', h, h', ?_⟩
  rintro rfl
  exact absurd (C165_encryptions_differ toyRsa_proper (by simp) (by simp) h h').1 (by decide)

/-- C165: an encryption that begins with a zero, and the same without it. -/
example : ∃ c, c ≠ 0 :: c ∧ rsaDecrypt toyRsa 2 c = .ok [7] ∧ rsaDecrypt toyRsa 2 (0 :: c) = .ok [7] := by
  have hs : (List.replicate 31 0 ++ [39] : Bytes).length = 32 := by simp
  obtain ⟨c, h, -, -⟩ := C101_decrypt_encrypt toyRsa_proper (seed := List.replicate 31 0 ++ [39]) (msg := [7])
    (r := 2) hs (by rw [toyRsa_size]; simp) (by decide +kernel)
  obtain ⟨-, -, e⟩ := encrypt_eq_ok.mp h
  rw [toyRsa_size] at e
  have hl : (beBytes (beNat (oaepPad 69 (List.replicate 31 0 ++ [39]) [7]) ^ toyRsa.pub.e % toyRsa.pub.n)).length ≤ 68 :=
    beBytes_length_le.mpr (by decide +kernel)
  unfold leftPad at e
  obtain ⟨d, hd⟩ := Nat.exists_eq_add_of_le hl
  rw [show 69 - (beBytes (beNat (oaepPad 69 (List.replicate 31 0 ++ [39]) [7]) ^ toyRsa.pub.e %
    toyRsa.pub.n)).length = d + 1 by omega, List.replicate_succ, List.cons_append] at e
  rw [e] at h
  exact ⟨_, C165_leading_zero_neg toyRsa_proper (by decide +kernel) hs h⟩

/-- C165: exactly the texts that are encryptions. -/
example {c : Bytes} (h : rsaDecrypt toyRsa 2 c = .ok [7]) : c.length ≤ 69 := by
  have := ((C165_decrypts_iff toyRsa_proper (by decide +kernel)).mp h).1
  rwa [toyRsa_size] at this

end examples

end Verif
