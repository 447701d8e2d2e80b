import Verif.Props.AesBlock
import Verif.Props.Encryption

/-!
# C166: encrypted texts, with the cipher of the code
-/

namespace Verif

section
variable [K : Cipher]

omit K in
theorem xorBytes_left_inj {a b b' : Bytes} (hb : b.length = a.length) (hb' : b'.length = a.length)
    (h : xorBytes a b = xorBytes a b') : b = b' := by
  rw [← xorBytes_cancel b a hb.le, xorBytes_comm b a, h, xorBytes_comm a b', xorBytes_cancel b' a hb'.le]

/-- A cipher that encrypts different blocks differently. -/
def Distinct (K : Cipher) : Prop :=
  ∀ key s t : Bytes, s.length = 16 → t.length = 16 → K.block key s = K.block key t → s = t

theorem cfbEncrypt_cons {key prev msg : Bytes} (h : msg ≠ []) : cfbEncrypt key prev msg =
    xorBytes (msg.take 16) (K.block key prev) ++
      cfbEncrypt key (xorBytes (msg.take 16) (K.block key prev)) (msg.drop 16) := by
  rw [cfbEncrypt, dif_neg h]
  rfl

theorem cfbDecrypt_cons {key prev text : Bytes} (h : text ≠ []) : cfbDecrypt key prev text =
    xorBytes (text.take 16) (K.block key prev) ++ cfbDecrypt key (text.take 16) (text.drop 16) := by
  rw [cfbDecrypt, dif_neg h]
  rfl

/-- The same text, continued from different blocks, differs in every block. -/
theorem cfbEncrypt_differs (hK : Distinct K) {key : Bytes} : ∀ (j : Nat) {prev prev' msg : Bytes},
    prev.length = 16 → prev'.length = 16 → prev ≠ prev' → 16 * (j + 1) ≤ msg.length →
    ((cfbEncrypt key prev msg).drop (16 * j)).take 16 ≠ ((cfbEncrypt key prev' msg).drop (16 * j)).take 16 := by
  intro j
  induction j with
  | zero =>
    intro prev prev' msg hp hp' hne hm
    have h0 : msg ≠ [] := by rintro rfl; simp at hm
    have ht : (msg.take 16).length = 16 := by simp; omega
    have hl : ∀ p, (xorBytes (msg.take 16) (K.block key p)).length = 16 := by
      intro p; rw [xorBytes_length, ht, K.block_len]; rfl
    rw [cfbEncrypt_cons h0, cfbEncrypt_cons h0]
    simp only [Nat.mul_zero, List.drop_zero]
    rw [List.take_left' (hl _), List.take_left' (hl _)]
    intro h
    exact hne (hK _ _ _ hp hp' (xorBytes_left_inj (by rw [ht, K.block_len]) (by rw [ht, K.block_len]) h))
  | succ j ih =>
    intro prev prev' msg hp hp' hne hm
    have h0 : msg ≠ [] := by rintro rfl; simp at hm
    have ht : (msg.take 16).length = 16 := by simp; omega
    have hl : ∀ p, (xorBytes (msg.take 16) (K.block key p)).length = 16 := by
      intro p; rw [xorBytes_length, ht, K.block_len]; rfl
    rw [cfbEncrypt_cons h0, cfbEncrypt_cons h0, show 16 * (j + 1) = 16 + 16 * j by omega, ← List.drop_drop,
      ← List.drop_drop, List.drop_left' (hl _), List.drop_left' (hl _)]
    refine ih (hl _) (hl _) (fun h => hne ?_) (by simp; omega)
    exact hK _ _ _ hp hp' (xorBytes_left_inj (by rw [ht, K.block_len]) (by rw [ht, K.block_len]) h)

theorem decrypt_encode (password : Bytes) {t : Bytes} (h : 16 ≤ t.length) :
    decrypt password (b64Encode t) = .ok (cfbDecrypt (K.sha256 password) (t.take 16) (t.drop 16)) := by
  have : ¬ t.length < blockSize := by simp [blockSize]; omega
  simp only [decrypt, decryptWith, newEncryption, b64Decode_encode, if_neg this]
  rfl

/-- What follows a block: the next one, and the rest, which does not depend on it. -/
theorem cfbDecrypt_after (hK : Distinct K) (key : Bytes) {c c' : Bytes} (rest : Bytes) (hc : c.length = 16)
    (hc' : c'.length = 16) (hne : c ≠ c') : ∃ d d' e, cfbDecrypt key c rest = d ++ e ∧
      cfbDecrypt key c' rest = d' ++ e ∧ d.length = min 16 rest.length ∧ d'.length = d.length ∧
      (16 ≤ rest.length → d ≠ d') := by
  by_cases h0 : rest = []
  · subst h0
    exact ⟨[], [], [], by simp [cfbDecrypt_nil]⟩
  · refine ⟨_, _, _, cfbDecrypt_cons h0, cfbDecrypt_cons h0, ?_, ?_, ?_⟩
    · rw [xorBytes_length, K.block_len, List.length_take]; omega
    · rw [xorBytes_length, xorBytes_length, K.block_len, K.block_len]
    · intro hl h
      have ht : (rest.take 16).length = 16 := by simp; omega
      exact hne (hK _ _ _ hc hc' (xorBytes_left_inj (by rw [ht, K.block_len]) (by rw [ht, K.block_len]) h))

end

theorem fips_distinct : Distinct Cipher.fips := fun key _ _ hs ht h => Aes.block_injective key hs ht h

section
attribute [local instance] Cipher.fips

/-- **C166.** Two encryptions of the same text with the same password and different initial values differ in every
block of 16 bytes. -/
theorem C166_every_block_differs (password msg : Bytes) {iv iv' : Bytes} (h : iv.length = 16) (h' : iv'.length = 16)
    (hne : iv ≠ iv') : ∃ t t', b64Decode (encrypt password iv msg) = some t ∧
      b64Decode (encrypt password iv' msg) = some t' ∧ t.length = 16 + msg.length ∧ t'.length = t.length ∧
      ∀ j, 16 * (j + 1) ≤ t.length → (t.drop (16 * j)).take 16 ≠ (t'.drop (16 * j)).take 16 := by
  refine ⟨_, _, b64Decode_encode _, b64Decode_encode _, by simp [cfbEncrypt_length, h],
    by simp [cfbEncrypt_length, h, h'], fun j hj => ?_⟩
  cases j with
  | zero => simpa [List.take_left' h, List.take_left' h'] using hne
  | succ j =>
    rw [show 16 * (j + 1) = 16 + 16 * j by omega, ← List.drop_drop, ← List.drop_drop, List.drop_left' h,
      List.drop_left' h']
    refine cfbEncrypt_differs fips_distinct j h h' hne ?_
    simp [cfbEncrypt_length, h] at hj
    omega

/-- **C166.** A changed block of an encrypted text: the text is the same before; there the same bits are changed;
the next 16 bytes are others; and everything after is the same. -/
theorem C166_changed_block (password : Bytes) {x c c' : Bytes} (rest : Bytes) (hx : 16 ≤ x.length)
    (h16 : x.length % 16 = 0) (hc : c.length = 16) (hc' : c'.length = 16) (hne : c ≠ c') :
    ∃ a b d d' e, decrypt password (b64Encode (x ++ (c ++ rest))) = .ok (a ++ (b ++ (d ++ e))) ∧
      decrypt password (b64Encode (x ++ (c' ++ rest))) = .ok (a ++ (xorBytes b (xorBytes c c') ++ (d' ++ e))) ∧
      a.length = x.length - 16 ∧ b.length = 16 ∧ d.length = min 16 rest.length ∧ d'.length = d.length ∧
      (16 ≤ rest.length → d ≠ d') := by
  obtain ⟨d, d', e, h1, h2, h3, h4, h5⟩ :=
    cfbDecrypt_after fips_distinct (Cipher.fips.sha256 password) rest hc hc' hne
  generalize hp : (if x.drop 16 = [] then x.take 16 else (x.drop 16).drop ((x.drop 16).length - 16)) = p
  have split : ∀ c : Bytes, c.length = 16 → decrypt password (b64Encode (x ++ (c ++ rest))) =
      .ok (cfbDecrypt (Cipher.fips.sha256 password) (x.take 16) (x.drop 16) ++
        (xorBytes c (Cipher.fips.block (Cipher.fips.sha256 password) p) ++
          cfbDecrypt (Cipher.fips.sha256 password) c rest)) := by
    intro c hc
    have hn : c ++ rest ≠ [] := by
      intro h
      have := congrArg List.length h
      simp [hc] at this
    rw [decrypt_encode _ (by simp; omega), List.take_append_of_le_length hx, List.drop_append_of_le_length hx,
      cfbDecrypt_append _ _ _ _ (by simp; omega) (by simp; omega), hp, cfbDecrypt_cons hn, List.take_left' hc,
      List.drop_left' hc]
  have hb := Cipher.fips.block_len (Cipher.fips.sha256 password) p
  refine ⟨_, _, d, d', e, (split c hc).trans (by rw [h1]), (split c' hc').trans ?_, ?_, ?_, h3, h4, h5⟩
  · rw [h2]
    congr 3
    generalize Cipher.fips.block (Cipher.fips.sha256 password) p = k at hb
    rw [xorBytes_comm (xorBytes c k), xorBytes_right_comm, xorBytes_comm c k,
      xorBytes_comm c (xorBytes k c), xorBytes_cancel k c (by omega), xorBytes_comm k c']
  · rw [cfbDecrypt_length, List.length_drop]
  · rw [xorBytes_length, hc, hb]; rfl

/-- **C166.** With another initial value the first 16 bytes of the text are others, and everything after is the same. -/
theorem C166_changed_start (password : Bytes) {c c' : Bytes} (rest : Bytes) (hc : c.length = 16)
    (hc' : c'.length = 16) (hne : c ≠ c') :
    ∃ d d' e, decrypt password (b64Encode (c ++ rest)) = .ok (d ++ e) ∧
      decrypt password (b64Encode (c' ++ rest)) = .ok (d' ++ e) ∧ d.length = min 16 rest.length ∧
      d'.length = d.length ∧ (16 ≤ rest.length → d ≠ d') := by
  obtain ⟨d, d', e, h1, h2, h3⟩ :=
    cfbDecrypt_after fips_distinct (Cipher.fips.sha256 password) rest hc hc' hne
  refine ⟨d, d', e, ?_, ?_, h3⟩
  · rw [decrypt_encode _ (by simp; omega), List.take_left' hc, List.drop_left' hc, h1]
  · rw [decrypt_encode _ (by simp; omega), List.take_left' hc', List.drop_left' hc', h2]

/-- C166: a text of two blocks, encrypted twice. -/
example : ∃ t t', b64Decode (encrypt [112] (List.replicate 16 1) (List.replicate 32 7)) = some t ∧
    b64Decode (encrypt [112] (List.replicate 16 2) (List.replicate 32 7)) = some t' ∧
    (t.drop 32).take 16 ≠ (t'.drop 32).take 16 := by
  obtain ⟨t, t', h1, h2, h3, -, h4⟩ := C166_every_block_differs [112] (List.replicate 32 7)
    (iv := List.replicate 16 1) (iv' := List.replicate 16 2) (by simp) (by simp) (by decide)
  exact ⟨t, t', h1, h2, h4 2 (by rw [h3]; simp)⟩

/-- C166: in a text of three blocks the second one is changed. -/
example : ∃ a b d d' e : Bytes, decrypt [112] (b64Encode (List.replicate 32 1 ++ (List.replicate 16 2 ++
      List.replicate 20 3))) = .ok (a ++ (b ++ (d ++ e))) ∧ d ≠ d' ∧ e.length = 4 ∧
    decrypt [112] (b64Encode (List.replicate 32 1 ++ (List.replicate 16 6 ++ List.replicate 20 3))) =
      .ok (a ++ (xorBytes b (List.replicate 16 4) ++ (d' ++ e))) := by
  obtain ⟨a, b, d, d', e, h1, h2, h3, h4, h5, h6, h7⟩ := C166_changed_block [112] (x := List.replicate 32 1)
    (c := List.replicate 16 2) (c' := List.replicate 16 6) (List.replicate 20 3) (by simp) (by simp) (by simp)
    (by simp) (by decide)
  refine ⟨a, b, d, d', e, h1, h7 (by simp), ?_, ?_⟩
  · have h8 := decrypt_encode [112] (t := List.replicate 32 1 ++ (List.replicate 16 2 ++ List.replicate 20 3))
      (by simp)
    rw [h1] at h8
    have := congrArg List.length (Outcome.ok.inj h8)
    simp [cfbDecrypt_length, h3, h4, h5] at this
    omega
  · rw [h2]
    rfl

/-- C166: another initial value. -/
example : ∃ d d' e, decrypt [112] (b64Encode (List.replicate 16 1 ++ List.replicate 20 3)) = .ok (d ++ e) ∧
    decrypt [112] (b64Encode (List.replicate 16 2 ++ List.replicate 20 3)) = .ok (d' ++ e) ∧ d ≠ d' := by
  obtain ⟨d, d', e, h1, h2, -, -, h3⟩ := C166_changed_start [112] (c := List.replicate 16 1)
    (c' := List.replicate 16 2) (List.replicate 20 3) (by simp) (by simp) (by decide)
  exact ⟨d, d', e, h1, h2, h3 (by simp)⟩

end

end Verif
