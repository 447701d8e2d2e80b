import Verif.Model.Encryption

/-!
# Encryption: C52, C53, C54
-/

namespace Verif

/-! ## C54 -/

/-- C54: decoding an encoding returns the bytes. -/
theorem C54_base64_round_trip (x : Bytes) : b64Decode (b64Encode x) = some x := b64Decode_encode x

/-- C54: an encoding consists of letters, digits, `+`, `/`, and at most two `=`, which are at its
end; its length is 4 for every started group of 3 bytes. -/
theorem C54_base64_alphabet (x : Bytes) : (b64Encode x).length = 4 * ((x.length + 2) / 3) ∧
    ∃ body pad, b64Encode x = body ++ pad ∧ pad = List.replicate ((3 - x.length % 3) % 3) 61 ∧
      ∀ c ∈ body, (65 ≤ c ∧ c ≤ 90) ∨ (97 ≤ c ∧ c ≤ 122) ∨ (48 ≤ c ∧ c ≤ 57) ∨ c = 43 ∨ c = 47 := by
  refine ⟨b64Encode_length x, ?_⟩
  have hc : ∀ v, (65 ≤ b64Char v ∧ b64Char v ≤ 90) ∨ (97 ≤ b64Char v ∧ b64Char v ≤ 122) ∨
      (48 ≤ b64Char v ∧ b64Char v ≤ 57) ∨ b64Char v = 43 ∨ b64Char v = 47 := by
    set_option maxRecDepth 20000 in
    intro v; revert v; apply UInt8.forall_of_fin; decide
  induction x using b64Encode.induct with
  | case1 => exact ⟨[], [], rfl, rfl, by simp⟩
  | case2 a => exact ⟨[_, _], [61, 61], rfl, rfl, by simp only [List.forall_mem_cons]; simp [hc]⟩
  | case3 a b => exact ⟨[_, _, _], [61], rfl, rfl, by simp only [List.forall_mem_cons]; simp [hc]⟩
  | case4 a b c rest ih =>
    obtain ⟨body, pad, h1, h2, h3⟩ := ih
    refine ⟨_ :: _ :: _ :: _ :: body, pad, by rw [b64Encode, h1]; rfl, ?_, ?_⟩
    · rw [h2]
      congr 2
      simp only [List.length_cons]
      omega
    · simp only [List.forall_mem_cons]
      exact ⟨hc _, hc _, hc _, hc _, h3⟩

/-- C54: two byte strings with the same encoding are equal. -/
theorem C54_base64_injective (x y : Bytes) (h : b64Encode x = b64Encode y) : x = y :=
  b64Encode_injective h

/-- C54: all lengths modulo 3. -/
example : b64Encode [77] = [84, 81, 61, 61] ∧ b64Encode [77, 97] = [84, 87, 69, 61] ∧
    b64Encode [77, 97, 110] = [84, 87, 70, 117] := by decide

section
variable [K : Cipher]

/-! ## C52 -/

omit K in
theorem xorBytes_length (a b : Bytes) : (xorBytes a b).length = min a.length b.length :=
  List.length_zipWith

omit K in
theorem xorBytes_cancel (a k : Bytes) (h : a.length ≤ k.length) : xorBytes (xorBytes a k) k = a := by
  induction a generalizing k with
  | nil => simp [xorBytes]
  | cons x a ih =>
    cases k with
    | nil => simp at h
    | cons y k =>
      have := ih k (by simpa using h)
      simp only [xorBytes, List.zipWith_cons_cons, List.cons.injEq] at this ⊢
      exact ⟨by rw [UInt8.xor_assoc, UInt8.xor_self, UInt8.xor_zero], this⟩

omit K in
theorem xorBytes_comm (a b : Bytes) : xorBytes a b = xorBytes b a :=
  List.zipWith_comm_of_comm fun _ _ => UInt8.xor_comm _ _

omit K in
theorem xorBytes_right_comm (a b c : Bytes) :
    xorBytes (xorBytes a b) c = xorBytes (xorBytes a c) b := by
  induction a generalizing b c with
  | nil => simp [xorBytes]
  | cons x a ih =>
    cases b with
    | nil => cases c <;> simp [xorBytes]
    | cons y b =>
      cases c with
      | nil => simp [xorBytes]
      | cons z c =>
        have := ih b c
        simp only [xorBytes, List.zipWith_cons_cons, List.cons.injEq] at this ⊢
        exact ⟨by rw [UInt8.xor_assoc, UInt8.xor_comm y, ← UInt8.xor_assoc], this⟩

theorem cfbEncrypt_length (key prev msg : Bytes) :
    (cfbEncrypt key prev msg).length = msg.length := by
  induction hn : msg.length using Nat.strong_induction_on generalizing prev msg with
  | _ n ih =>
    unfold cfbEncrypt
    split
    · rename_i h; subst h; simpa using hn
    · rename_i h
      have h0 := List.length_pos_iff.mpr h
      have := ih (msg.drop blockSize).length (by simp [blockSize]; omega)
        (xorBytes (msg.take blockSize) (K.block key prev)) _ rfl
      simp only [List.length_append, this, xorBytes_length, K.block_len, List.length_take,
        List.length_drop]
      simp only [blockSize]
      omega

theorem cfbDecrypt_nil (key prev : Bytes) : cfbDecrypt key prev [] = [] := by
  rw [cfbDecrypt, dif_pos rfl]

theorem cfbDecrypt_length (key prev text : Bytes) :
    (cfbDecrypt key prev text).length = text.length := by
  induction hn : text.length using Nat.strong_induction_on generalizing prev text with
  | _ n ih =>
    unfold cfbDecrypt
    split
    · rename_i h; subst h; simpa using hn
    · rename_i h
      have h0 := List.length_pos_iff.mpr h
      have := ih (text.drop blockSize).length (by simp [blockSize]; omega)
        (text.take blockSize) _ rfl
      simp only [List.length_append, this, xorBytes_length, K.block_len, List.length_take,
        List.length_drop]
      simp only [blockSize]
      omega

theorem cfbDecrypt_encrypt (key prev msg : Bytes) :
    cfbDecrypt key prev (cfbEncrypt key prev msg) = msg := by
  induction hn : msg.length using Nat.strong_induction_on generalizing prev msg with
  | _ n ih =>
    rw [cfbEncrypt]
    split
    · rename_i h; subst h; simp [cfbDecrypt]
    · rename_i h
      have h0 := List.length_pos_iff.mpr h
      have hc : (xorBytes (msg.take blockSize) (K.block key prev)).length = min 16 msg.length := by
        rw [xorBytes_length, K.block_len, List.length_take, blockSize]
        omega
      generalize hcd : xorBytes (msg.take blockSize) (K.block key prev) = c at hc
      have hrec := ih (msg.drop blockSize).length (by simp [blockSize]; omega) c _ rfl
      have hrest : msg.length < 16 → cfbEncrypt key c (msg.drop blockSize) = [] := by
        intro h
        rw [List.drop_eq_nil_of_le (by simp [blockSize]; omega), cfbEncrypt]
        simp
      have ht : (c ++ cfbEncrypt key c (msg.drop blockSize)).take blockSize = c := by
        by_cases h : msg.length < 16
        · rw [hrest h, List.append_nil, List.take_of_length_le (by simp [blockSize]; omega)]
        · rw [List.take_append_of_le_length (by simp [blockSize]; omega),
            List.take_of_length_le (by simp [blockSize]; omega)]
      have hd : (c ++ cfbEncrypt key c (msg.drop blockSize)).drop blockSize =
          cfbEncrypt key c (msg.drop blockSize) := by
        by_cases h : msg.length < 16
        · rw [hrest h, List.append_nil, List.drop_eq_nil_of_le (by simp [blockSize]; omega)]
        · rw [List.drop_append_of_le_length (by simp [blockSize]; omega),
            List.drop_eq_nil_of_le (by simp [blockSize]; omega), List.nil_append]
      rw [cfbDecrypt, dif_neg, ht, hd, hrec, ← hcd, xorBytes_cancel, List.take_append_drop]
      · rw [K.block_len, List.length_take]; simp [blockSize]
      · intro h
        have := congrArg List.length h
        simp only [List.length_append, List.length_nil] at this
        omega

/-- C52: decrypting an encrypted message with the same password returns the message, for every
block function, random block and message. -/
theorem C52_decrypt_encrypt (password iv msg : Bytes) (hiv : iv.length = 16) :
    decrypt password (encrypt password iv msg) = .ok msg := by
  have h1 : ¬ (iv ++ cfbEncrypt (K.sha256 password) iv msg).length < blockSize := by
    simp [hiv, blockSize]
  simp only [decrypt, encrypt, decryptWith, encryptWith, newEncryption, b64Decode_encode, if_neg h1]
  rw [List.take_append_of_le_length (by simp [hiv, blockSize]),
    List.take_of_length_le (by simp [hiv, blockSize]),
    List.drop_append_of_le_length (by simp [hiv, blockSize]),
    List.drop_eq_nil_of_le (by simp [hiv, blockSize]), List.nil_append, cfbDecrypt_encrypt]

/-- C52: the length of the text reveals the length of the message up to 2 bytes, and nothing is
lost: the text has a character for every 6 bits of random block and message. -/
theorem C52_encrypted_length (password iv msg : Bytes) (hiv : iv.length = 16) :
    (encrypt password iv msg).length = 4 * ((msg.length + 18) / 3) := by
  simp only [encrypt, encryptWith, b64Encode_length, List.length_append, cfbEncrypt_length, hiv]
  omega

/-- C52: the builder refuses exactly the nil password, and gives an encryption that reads and writes like the
one made of the same password without the builder; an empty password is accepted. -/
theorem C52_builder_exact (password : Option Bytes) :
    (∀ c, encryptionNow password ≠ .crash c) ∧
    ((∃ m, encryptionNow password = .err m) ↔ password = none) ∧
    ∀ key, encryptionNow password = .ok key → ∃ p, password = some p ∧
      (∀ iv msg, encryptWith key iv msg = encrypt p iv msg) ∧
      ∀ text, decryptWith key text = decrypt p text := by
  cases password with
  | none => simp [encryptionNow]
  | some p => simp [encryptionNow, encrypt, decrypt, newEncryption]

/-! ## C53 -/

/-- C53: decryption never panics; it fails exactly on texts that are not base64 or that encode less
than 16 bytes, whatever the password. -/
theorem C53_decrypt_total (password text : Bytes) :
    (∀ c, decrypt password text ≠ .crash c) ∧
    ((∃ m, decrypt password text = .err m) ↔
      ∀ b, b64Decode text = some b → b.length < 16) := by
  unfold decrypt decryptWith newEncryption
  cases h : b64Decode text with
  | none => simp
  | some b =>
    by_cases hb : b.length < blockSize
    · simp only [if_pos hb]
      simpa [blockSize] using hb
    · simp only [if_neg hb]
      simpa [blockSize] using hb

/-- C53: whatever decrypts under one password decrypts under every other: no password is ever
rejected. -/
theorem C53_no_password_rejected_neg (password other text m : Bytes)
    (h : decrypt password text = .ok m) : ∃ m', decrypt other text = .ok m' ∧
      m'.length = m.length := by
  unfold decrypt decryptWith newEncryption at h ⊢
  cases hb : b64Decode text with
  | none => simp [hb] at h
  | some b =>
    rw [hb] at h
    simp only at h ⊢
    split at h
    · cases h
    · cases h
      rename_i hl
      refine ⟨_, by rw [if_neg hl], ?_⟩
      rw [cfbDecrypt_length, cfbDecrypt_length]

theorem cfbDecrypt_append (key prev a b : Bytes) (ha : a.length % 16 = 0) (hp : prev.length = 16) :
    cfbDecrypt key prev (a ++ b) = cfbDecrypt key prev a ++
      cfbDecrypt key (if a = [] then prev else a.drop (a.length - 16)) b := by
  induction hn : a.length using Nat.strong_induction_on generalizing prev a with
  | _ n ih =>
    by_cases h : a = []
    · subst h; simp [cfbDecrypt_nil]
    · have h0 := List.length_pos_iff.mpr h
      have h16 : 16 ≤ a.length := by omega
      have hrec := ih (a.drop blockSize).length (by simp [blockSize]; omega) (a.take blockSize)
        (a.drop blockSize) (by simp [blockSize]; omega) (by simp [blockSize]; omega) rfl
      have ht : (a ++ b).take blockSize = a.take blockSize :=
        List.take_append_of_le_length (by simp [blockSize]; omega)
      have hd : (a ++ b).drop blockSize = a.drop blockSize ++ b :=
        List.drop_append_of_le_length (by simp [blockSize]; omega)
      rw [cfbDecrypt, dif_neg (by simp [h]), ht, hd, hrec, if_neg h]
      conv_rhs => rw [cfbDecrypt, dif_neg h]
      rw [List.append_assoc]
      congr 2
      by_cases h' : a.drop blockSize = []
      · rw [if_pos h']
        have : a.length = 16 := by
          have := List.drop_eq_nil_iff.mp h'
          simp [blockSize] at this
          omega
        simp [blockSize, ← hn, this, List.take_of_length_le]
      · rw [if_neg h', List.drop_drop]
        have : a.length - 16 ≥ 16 := by
          have := mt List.drop_eq_nil_iff.mpr h'
          simp [blockSize] at this
          omega
        congr 2
        simp [blockSize, ← hn]
        omega

/-- C53: a stored text can be changed without the password so that the end of the message becomes
any wanted text of the same length: from the stored text, the known end `b` of the message (at most
one block, starting at a block boundary) and the wanted end `b'` alone, a text is computed that
decrypts to the message with the new end. -/
theorem C53_end_of_message_forged_neg (a b b' : Bytes)
    (ha : a.length % 16 = 0) (hb : b.length ≤ 16) (hb' : b'.length = b.length) :
    ∃ forge : Bytes → Bytes, ∀ password iv : Bytes, iv.length = 16 →
      decrypt password (forge (encrypt password iv (a ++ b))) = .ok (a ++ b') := by
  -- the forger decodes the text and masks its last `b.length` bytes
  let mask : Bytes := List.replicate (16 + a.length) 0 ++ xorBytes b b'
  refine ⟨fun text => b64Encode (xorBytes ((b64Decode text).getD []) mask), fun password iv hiv => ?_⟩
  have e0 : ∀ x : Bytes, ∀ n, x.length ≤ n → xorBytes x (List.replicate n 0) = x := by
    intro x
    induction x with
    | nil => intro n _; simp [xorBytes]
    | cons y x ih =>
      intro n hn
      cases n with
      | zero => simp at hn
      | succ n =>
        have := ih n (by simpa using hn)
        simp only [xorBytes, List.replicate_succ, List.zipWith_cons_cons, List.cons.injEq] at this ⊢
        exact ⟨by simp, this⟩
  have eapp : ∀ x y u v : Bytes, x.length = u.length →
      xorBytes (x ++ y) (u ++ v) = xorBytes x u ++ xorBytes y v := by
    intro x y u v h
    exact List.zipWith_append h
  -- the cipher text of the message
  generalize hkey : K.sha256 password = key
  have hsplit : ∃ ca cb, cfbEncrypt key iv (a ++ b) = ca ++ cb ∧ ca.length = a.length ∧
      cb.length = b.length := by
    refine ⟨(cfbEncrypt key iv (a ++ b)).take a.length, (cfbEncrypt key iv (a ++ b)).drop a.length,
      (List.take_append_drop _ _).symm, ?_, ?_⟩
    · rw [List.length_take, cfbEncrypt_length, List.length_append]; omega
    · rw [List.length_drop, cfbEncrypt_length, List.length_append]; omega
  obtain ⟨ca, cb, hc, hca, hcb⟩ := hsplit
  have hdec := cfbDecrypt_encrypt key iv (a ++ b)
  rw [hc, cfbDecrypt_append _ _ _ _ (by omega) hiv] at hdec
  obtain ⟨hA, hB⟩ := List.append_inj hdec (by rw [cfbDecrypt_length, hca])
  generalize hprev : (if ca = [] then iv else ca.drop (ca.length - 16)) = prev at hB
  have one : ∀ t : Bytes, t.length ≤ 16 → cfbDecrypt key prev t = xorBytes t (K.block key prev) := by
    intro t ht
    by_cases h : t = []
    · subst h; simp [cfbDecrypt_nil, xorBytes]
    · rw [cfbDecrypt, dif_neg h, List.take_of_length_le (by simpa [blockSize] using ht),
        List.drop_eq_nil_of_le (by simpa [blockSize] using ht)]
      rw [cfbDecrypt_nil, List.append_nil]
  rw [one cb (by omega)] at hB
  have hcm : xorBytes (iv ++ (ca ++ cb)) mask = iv ++ (ca ++ xorBytes cb (xorBytes b b')) := by
    rw [← List.append_assoc, eapp _ _ _ _ (by simp [hiv, hca]), e0 _ _ (by simp [hiv, hca]),
      List.append_assoc]
  have hfin : xorBytes (xorBytes cb (xorBytes b b')) (K.block key prev) = b' := by
    rw [xorBytes_right_comm, hB, xorBytes_comm b b', xorBytes_comm b, xorBytes_cancel _ _ (by omega)]
  simp only [encrypt, encryptWith, newEncryption, hkey, b64Decode_encode, Option.getD_some, hc, hcm, decrypt,
    decryptWith]
  rw [if_neg (by simp [hiv, blockSize]), List.take_append_of_le_length (by simp [hiv, blockSize]),
    List.take_of_length_le (by simp [hiv, blockSize]),
    List.drop_append_of_le_length (by simp [hiv, blockSize]),
    List.drop_eq_nil_of_le (by simp [hiv, blockSize]), List.nil_append,
    cfbDecrypt_append _ _ _ _ (by omega) hiv, hA, hprev, one _ ?_, hfin]
  rw [xorBytes_length]
  omega

/-- Decrypting the beginning of a text gives the beginning of the message. -/
theorem cfbDecrypt_take (key prev u v : Bytes) :
    (cfbDecrypt key prev (u ++ v)).take u.length = cfbDecrypt key prev u := by
  induction hn : u.length using Nat.strong_induction_on generalizing prev u with
  | _ n ih =>
    by_cases h : u = []
    · subst h; simp only [List.length_nil] at hn; subst hn; simp [cfbDecrypt_nil]
    · have h0 := List.length_pos_iff.mpr h
      rw [cfbDecrypt, dif_neg (by simp [h]), cfbDecrypt.eq_def key prev u, dif_neg h]
      have hb := K.block_len key prev
      by_cases h16 : u.length ≤ 16
      · rw [List.take_of_length_le (l := u) (by simpa [blockSize] using h16),
          List.drop_eq_nil_of_le (as := u) (by simpa [blockSize] using h16), cfbDecrypt_nil, List.append_nil,
          List.take_append_of_le_length (by
            rw [xorBytes_length, hb, List.length_take, List.length_append, blockSize]; omega)]
        unfold xorBytes
        rw [List.take_zipWith, List.take_take, List.take_append_of_le_length (by simp; omega),
          List.take_of_length_le (l := u) (by simp [blockSize]; omega)]
        conv_rhs => rw [← List.take_of_length_le (l := List.zipWith (· ^^^ ·) u (K.block key prev)) (i := n)
          (by simp; omega), List.take_zipWith, List.take_of_length_le (l := u) (by omega)]
      · have e1 : (u ++ v).take blockSize = u.take blockSize :=
          List.take_append_of_le_length (by simp [blockSize]; omega)
        have e2 : (u ++ v).drop blockSize = u.drop blockSize ++ v :=
          List.drop_append_of_le_length (by simp [blockSize]; omega)
        have hl : (xorBytes (u.take blockSize) (K.block key prev)).length = 16 := by
          rw [xorBytes_length, hb, List.length_take, blockSize]; omega
        rw [e1, e2, List.take_append, List.take_of_length_le (by omega), hl]
        rw [ih (n - 16) (by omega) _ (u.drop blockSize) (by simp [blockSize]; omega)]

/-- Changing the last byte of a text changes the last byte of the message in the same bits, and nothing else. -/
theorem cfbDecrypt_last (key prev u x : Bytes) (e c m : UInt8) (hx : x.length = u.length)
    (h : cfbDecrypt key prev (u ++ [e]) = x ++ [c]) :
    cfbDecrypt key prev (u ++ [e ^^^ m]) = x ++ [c ^^^ m] := by
  induction hn : u.length using Nat.strong_induction_on generalizing prev u x with
  | _ n ih =>
    have hb := K.block_len key prev
    rw [cfbDecrypt, dif_neg (by simp)] at h ⊢
    by_cases h16 : u.length < 16
    · have one : ∀ y : UInt8, (u ++ [y]).take blockSize = u ++ [y] ∧ (u ++ [y]).drop blockSize = [] := fun y =>
        ⟨List.take_of_length_le (by simp [blockSize]; omega), List.drop_eq_nil_of_le (by simp [blockSize]; omega)⟩
      rw [(one _).1, (one _).2, cfbDecrypt_nil, List.append_nil] at h ⊢
      have hk : K.block key prev = (K.block key prev).take u.length ++ (K.block key prev).drop u.length :=
        (List.take_append_drop _ _).symm
      have hd : ((K.block key prev).drop u.length).length ≠ 0 := by rw [List.length_drop, hb]; omega
      obtain ⟨k, ks, hks⟩ := List.exists_cons_of_length_pos (Nat.pos_of_ne_zero hd)
      rw [hks] at hk
      have happ : ∀ y : UInt8, xorBytes (u ++ [y]) (K.block key prev) =
          xorBytes u ((K.block key prev).take u.length) ++ [y ^^^ k] := by
        intro y
        conv_lhs => rw [hk]
        unfold xorBytes
        rw [List.zipWith_append (by rw [List.length_take, hb]; omega)]
        simp
      rw [happ] at h ⊢
      obtain ⟨h1, h2⟩ := List.append_inj' h rfl
      rw [h1, ← (List.cons.inj h2).1, UInt8.xor_assoc, UInt8.xor_comm m k, ← UInt8.xor_assoc]
    · have e1 : ∀ y : UInt8, (u ++ [y]).take blockSize = u.take blockSize := fun y =>
        List.take_append_of_le_length (by simp [blockSize]; omega)
      have e2 : ∀ y : UInt8, (u ++ [y]).drop blockSize = u.drop blockSize ++ [y] := fun y =>
        List.drop_append_of_le_length (by simp [blockSize]; omega)
      have hl : (xorBytes (u.take blockSize) (K.block key prev)).length = 16 := by
        rw [xorBytes_length, hb, List.length_take, blockSize]; omega
      rw [e1, e2] at h ⊢
      rw [← List.take_append_drop 16 x, List.append_assoc] at h
      obtain ⟨h1, h2⟩ := List.append_inj h (by rw [hl, List.length_take]; omega)
      rw [h1, ih (u.drop blockSize).length (by simp [blockSize]; omega) _ (u.drop blockSize) (x.drop 16)
        (by simp [blockSize]; omega) h2 rfl, ← List.append_assoc, List.take_append_drop]

/-- C53: a stored text can be changed without the password so that the message is cut off after any byte and
that byte is changed in any wanted bits. Nothing but the position and the bits have to be known. -/
theorem C53_cut_and_changed_neg : ∃ forge : ℕ → UInt8 → Bytes → Bytes,
    ∀ (password iv x rest : Bytes) (c m : UInt8), iv.length = 16 →
      decrypt password (forge x.length m (encrypt password iv (x ++ c :: rest))) = .ok (x ++ [c ^^^ m]) := by
  -- the forger decodes the text, cuts it off and changes its last byte
  refine ⟨fun n m text => b64Encode (((b64Decode text).getD []).take (16 + n) ++
    ((((b64Decode text).getD []).drop (16 + n)).take 1).map (· ^^^ m)), fun password iv x rest c m hiv => ?_⟩
  generalize hkey : K.sha256 password = key
  have hlen := cfbEncrypt_length key iv (x ++ c :: rest)
  have hdec := cfbDecrypt_encrypt key iv (x ++ c :: rest)
  generalize hct : cfbEncrypt key iv (x ++ c :: rest) = ct at hlen hdec
  rw [List.length_append, List.length_cons] at hlen
  obtain ⟨e, es, hes⟩ := List.exists_cons_of_length_pos (l := ct.drop x.length)
    (by rw [List.length_drop]; omega)
  have hu : (ct.take x.length).length = x.length := by rw [List.length_take]; omega
  have hsplit : ct = (ct.take x.length ++ [e]) ++ es := by
    conv_lhs => rw [← List.take_append_drop x.length ct, hes]
    simp
  have hpre := cfbDecrypt_take key iv (ct.take x.length ++ [e]) es
  rw [← hsplit, hdec, List.length_append, hu, List.length_singleton,
    show x ++ c :: rest = (x ++ [c]) ++ rest by simp,
    List.take_append_of_le_length (by simp), List.take_of_length_le (by simp)] at hpre
  have hfin := cfbDecrypt_last key iv _ x e c m hu.symm hpre.symm
  have e1 : (iv ++ ct).take (16 + x.length) = iv ++ ct.take x.length := by
    rw [List.take_append, List.take_of_length_le (by omega), hiv, Nat.add_sub_cancel_left]
  have e2 : (iv ++ ct).drop (16 + x.length) = e :: es := by
    rw [List.drop_append, List.drop_eq_nil_of_le (by omega), hiv, Nat.add_sub_cancel_left, hes, List.nil_append]
  simp only [encrypt, encryptWith, newEncryption, hkey, b64Decode_encode, Option.getD_some, hct, decrypt, decryptWith, e1, e2, List.take_succ_cons,
    List.take_zero, List.map_cons, List.map_nil, List.append_assoc]
  rw [if_neg (by simp [hiv, blockSize]), List.take_append_of_le_length (by simp [hiv, blockSize]),
    List.take_of_length_le (by simp [hiv, blockSize]),
    List.drop_append_of_le_length (by simp [hiv, blockSize]),
    List.drop_eq_nil_of_le (by simp [hiv, blockSize]), List.nil_append, hfin]

end

section examples

/-- A toy cipher. -/
@[reducible] def toyCipher : Cipher where
  sha256 p := p.take 32 ++ List.replicate (32 - p.length) 0
  sha256_len p := by simp; omega
  block k b := List.zipWith (· + ·) (k.take 16 ++ List.replicate (16 - k.length) 1)
    (b.take 16 ++ List.replicate (16 - b.length) 1)
  block_len k b := by simp; omega

attribute [local instance] toyCipher

/-- C52, C53: a random block and a message; another password gives some message as well. -/
example : (List.replicate 16 (7 : UInt8)).length = 16 ∧
    decrypt [1, 2] (encrypt [1, 2] (List.replicate 16 7) [5, 6, 7]) = .ok [5, 6, 7] ∧
    ∃ m', decrypt [1, 3] (encrypt [1, 2] (List.replicate 16 7) [5, 6, 7]) = .ok m' :=
  ⟨rfl, C52_decrypt_encrypt _ _ _ rfl,
    (C53_no_password_rejected_neg [1, 2] [1, 3] _ _ (C52_decrypt_encrypt _ _ _ rfl)).imp
      fun _ h => h.1⟩

/-- C53: a text that is not base64, one that is too short. -/
example : (∃ m, decrypt [1] [33] = .err m) ∧ ∃ m, decrypt [1] [84, 87, 70, 117] = .err m :=
  ⟨⟨_, rfl⟩, ⟨_, rfl⟩⟩

/-- C53: the last two bytes of a message of 18 bytes are replaced without the password. -/
example : ∃ forge : Bytes → Bytes, ∀ password,
    decrypt password (forge (encrypt password (List.replicate 16 7)
      (List.replicate 16 1 ++ [2, 3]))) = .ok (List.replicate 16 1 ++ [9, 9]) :=
  (C53_end_of_message_forged_neg _ _ _ (by simp) (by simp) (by simp)).imp
    fun _ h password => h password _ (by simp)

/-- C53: a message of 4 bytes becomes one of 2 bytes, of which the last was changed, without the password. -/
example : ∃ forge : ℕ → UInt8 → Bytes → Bytes, ∀ password,
    decrypt password (forge 1 7 (encrypt password (List.replicate 16 7) [1, 2, 3, 4])) = .ok [1, 5] :=
  C53_cut_and_changed_neg.imp fun _ h password => h password _ [1] [3, 4] 2 7 (by simp)

end examples

end Verif
