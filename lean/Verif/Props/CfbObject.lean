import Verif.Model.CfbObject
import Verif.Props.Encryption

/-!
# C52: the streams as the library has them
-/

namespace Verif

section
variable [K : Cipher]

omit K in
private theorem copyAt_whole {l s : Bytes} (h : s.length = l.length) : copyAt l 0 s = s := by
  simp [copyAt, ← h]

omit K in
private theorem xorBytes_length16 {a b : Bytes} (hb : b.length = 16) : (xorBytes a b).length = min a.length 16 := by
  simp [xorBytes, hb]

omit K in
private theorem xorBytes_take16 {b : Bytes} (hb : b.length = 16) (a : Bytes) :
    xorBytes (a.take 16) b = xorBytes a b := by
  unfold xorBytes
  conv_rhs => rw [List.zipWith_eq_zipWith_take_min]
  conv_lhs => rw [List.zipWith_eq_zipWith_take_min]
  simp [hb, List.take_take, Nat.min_comm]

private theorem xorTo_eq (key : Bytes) : ∀ (n : Nat) (x : CfbStream) (msg : Bytes), msg.length ≤ n →
    x.used = 16 → x.out.length = 16 → x.next.length = 16 → cfbXorTo key n x msg = cfbEncrypt key x.next msg
  | n, x, [], _, _, _, _ => by
    rw [cfbEncrypt]
    cases n <;> rfl
  | 0, _, _ :: _, h, _, _, _ => by simp at h
  | n + 1, x, b :: msg, h, hu, ho, hn => by
    have hb := K.block_len key x.next
    rw [cfbEncrypt, dif_neg (by simp)]
    unfold cfbXorTo CfbStream.refill blockSize
    rw [if_pos (by rw [hu, ho])]
    simp only [List.drop_zero, Nat.zero_add, xorBytes_take16 hb]
    congr 1
    by_cases hl : 16 ≤ (b :: msg).length
    · have hd : (xorBytes (b :: msg) (K.block key x.next)).length = 16 := by
        rw [xorBytes_length16 hb]; omega
      rw [hd, copyAt_whole (by rw [hd, hn])]
      exact xorTo_eq key n _ _ (by rw [List.length_drop]; omega) rfl hb hd
    · have hd : (xorBytes (b :: msg) (K.block key x.next)).length = (b :: msg).length := by
        rw [xorBytes_length16 hb]; omega
      rw [hd, List.drop_length, List.drop_eq_nil_of_le (by omega), cfbEncrypt]
      cases n <;> rfl

private theorem xorOver_eq (key : Bytes) : ∀ (n : Nat) (x : CfbStream) (done rest : Bytes), rest.length ≤ n →
    x.used = 16 → x.out.length = 16 → x.next.length = 16 →
    cfbXorOver key n x (done ++ rest) done.length = done ++ cfbDecrypt key x.next rest
  | 0, x, done, rest, h, _, _, _ => by
    obtain rfl := List.length_eq_zero_iff.mp (Nat.le_zero.mp h)
    rw [cfbDecrypt]
    rfl
  | n + 1, x, done, rest, h, hu, ho, hn => by
    have hb := K.block_len key x.next
    rw [cfbDecrypt]
    unfold cfbXorOver CfbStream.refill blockSize
    simp only [List.drop_left]
    split
    · rename_i h0
      rw [h0]
    · rename_i h0
      rw [if_pos (by rw [hu, ho])]
      simp only [List.drop_zero, Nat.zero_add, xorBytes_take16 hb]
      set d := xorBytes rest (K.block key x.next) with hd
      have hdl : d.length = min rest.length 16 := xorBytes_length16 hb
      have e : copyAt (done ++ rest) done.length d = (done ++ d) ++ rest.drop d.length := by
        unfold copyAt
        rw [List.take_left, List.length_append, Nat.add_sub_cancel_left, List.take_of_length_le (by omega),
          List.drop_append, List.drop_eq_nil_of_le (by omega), Nat.add_sub_cancel_left, List.nil_append,
          List.append_assoc]
      rw [e, ← List.length_append]
      by_cases hl : 16 ≤ rest.length
      · have hd16 : d.length = 16 := by omega
        have hc : copyAt x.next 0 rest = rest.take 16 := by
          unfold copyAt
          rw [hn, List.take_zero, List.nil_append, Nat.sub_zero, List.drop_eq_nil_of_le (by omega), List.append_nil]
        rw [hd16, hc, xorOver_eq key n _ (done ++ d) (rest.drop 16) (by rw [List.length_drop]; omega) rfl hb
          (by rw [List.length_take]; omega), List.append_assoc]
      · have hr : rest.drop 16 = [] := List.drop_eq_nil_of_le (by omega)
        have hr' : rest.drop d.length = [] := List.drop_eq_nil_of_le (by omega)
        rw [hr, hr', cfbDecrypt, dif_pos rfl, List.append_nil, List.append_nil]
        cases n with
        | zero => rfl
        | succ n => simp [cfbXorOver]

omit K in
private theorem newCfb_next {iv : Bytes} (h : iv.length = 16) : (newCfb iv).next = iv :=
  copyAt_whole (by simp [blockSize, h])

/-- **C52.** `Encrypt` with the buffers of the library is `Encrypt` of the model. -/
theorem C52_encrypt_stream {key iv : Bytes} (h : iv.length = 16) (msg : Bytes) :
    encryptStream key iv msg = encryptWith key iv msg := by
  unfold encryptStream encryptWith
  rw [xorTo_eq key msg.length (newCfb iv) msg le_rfl rfl (by simp [newCfb, blockSize])
    (by rw [newCfb_next h, h]), newCfb_next h]

/-- **C52.** `Decrypt`, which writes over the text it reads, is `Decrypt` of the model. -/
theorem C52_decrypt_stream (key text : Bytes) : decryptStream key text = decryptWith key text := by
  unfold decryptStream decryptWith
  rcases b64Decode text with _ | c
  · rfl
  · by_cases hl : c.length < blockSize
    · simp only [if_pos hl]
    · have h16 : (c.take blockSize).length = 16 := by
        rw [List.length_take]
        unfold blockSize at hl ⊢
        omega
      have := xorOver_eq key (c.drop blockSize).length (newCfb (c.take blockSize)) [] (c.drop blockSize) le_rfl rfl
        (by simp [newCfb, blockSize]) (by rw [newCfb_next h16, h16])
      simp only [List.nil_append, List.length_nil] at this
      simp only [if_neg hl, this, newCfb_next h16]

end

section examples

attribute [local instance] toyCipher

/-- C52: a text of 20 bytes, with a whole block and a part of one. -/
example : encryptStream (List.replicate 32 1) (List.replicate 16 3) (List.replicate 20 5) =
      encryptWith (List.replicate 32 1) (List.replicate 16 3) (List.replicate 20 5) ∧
    decryptStream (List.replicate 32 1) (encryptStream (List.replicate 32 1) (List.replicate 16 3) (List.replicate 20 5)) =
      .ok (List.replicate 20 5) :=
  ⟨C52_encrypt_stream (by simp) _, by decide +kernel⟩

end examples

end Verif
