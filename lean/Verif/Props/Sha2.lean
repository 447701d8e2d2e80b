import Verif.Model.Fips
import Verif.Props.Encryption

/-!
# The hash functions of the standard library: C160
-/

namespace Verif

namespace Sha2

theorem padded_dvd (H : Sha2) (hb : 4 ≤ H.bytes) (n : Nat) : H.chunk ∣ n + (H.padding n).length := by
  have h1 : (leftPad (2 * H.bytes) (beBytes (8 * n % 2 ^ 64))).length = 2 * H.bytes := by
    refine leftPad_length (beBytes_length_le.mpr ?_)
    have h1 : 8 * n % 2 ^ 64 < 2 ^ 64 := Nat.mod_lt _ (by norm_num)
    have h2 : (256 : Nat) ^ 8 ≤ 256 ^ (2 * H.bytes) := Nat.pow_le_pow_right (by norm_num) (by omega)
    have : (256 : Nat) ^ 8 = 2 ^ 64 := by norm_num
    omega
  have hc : 0 < H.chunk := by unfold chunk; omega
  have h2 : n + (H.padding n).length = (n + 1 + 2 * H.bytes) +
      (H.chunk - (n + 1 + 2 * H.bytes) % H.chunk) % H.chunk := by
    simp only [padding, List.length_cons, List.length_append, List.length_replicate, h1]
    omega
  rw [h2]
  generalize n + 1 + 2 * H.bytes = x
  generalize H.chunk = c at *
  apply Nat.dvd_of_mod_eq_zero
  rw [Nat.add_mod, Nat.mod_mod]
  have := Nat.mod_lt x hc
  rcases Nat.eq_zero_or_pos (x % c) with h | h
  · simp [h]
  · rw [Nat.mod_eq_of_lt (show c - x % c < c by omega), show x % c + (c - x % c) = c by omega, Nat.mod_self]

theorem blocks_append (H : Sha2) (hc : 0 < H.chunk) {a : Bytes} (h : H.chunk ∣ a.length) (b : Bytes) :
    H.blocks (a ++ b) = H.blocks a ++ H.blocks b := by
  obtain ⟨n, hn⟩ := h
  have e1 : a.length / H.chunk = n := by rw [hn, Nat.mul_div_cancel_left _ hc]
  have e2 : (a ++ b).length / H.chunk = n + b.length / H.chunk := by
    rw [List.length_append, hn, Nat.mul_add_div hc]
  simp only [blocks, e1, e2, List.range_add, List.map_append, List.map_map]
  congr 1
  · refine List.map_congr_left fun i hi => ?_
    have hi : i < n := List.mem_range.mp hi
    have h1 : (i + 1) * H.chunk ≤ a.length := by
      rw [hn, Nat.mul_comm H.chunk]
      exact Nat.mul_le_mul_right _ hi
    rw [Nat.add_mul, Nat.one_mul] at h1
    rw [List.drop_append_of_le_length (by omega), List.take_append_of_le_length (by rw [List.length_drop]; omega)]
  · refine List.map_congr_left fun i _ => ?_
    have e : (n + i) * H.chunk = a.length + i * H.chunk := by rw [hn]; ring
    simp only [Function.comp_apply, e]
    rw [List.drop_append, List.drop_eq_nil_of_le (by omega), List.nil_append]
    congr 2
    omega

/-- The registers as they can be read from the bytes. -/
private def undigest (H : Sha2) (b : Bytes) : Regs :=
  let d := List.drop H.bytes
  let w := fun b : Bytes => beNat (b.take H.bytes)
  ⟨w b, w (d b), w (d (d b)), w (d (d (d b))), w (d (d (d (d b)))), w (d (d (d (d (d b))))),
    w (d (d (d (d (d (d b)))))), w (d (d (d (d (d (d (d b))))))) ⟩

private def Small (H : Sha2) (r : Regs) : Prop :=
  ∀ x ∈ [r.a, r.b, r.c, r.d, r.e, r.f, r.g, r.h], x < 2 ^ H.bits

private theorem beNat_wordBytes (H : Sha2) {x : Nat} (h : x < 2 ^ H.bits) : beNat (H.wordBytes x) = x := by
  rw [wordBytes, beNat_leftPad, beNat_beBytes, Nat.mod_eq_of_lt h]

private theorem undigest_digest (H : Sha2) (hb : H.bits = 8 * H.bytes) {r : Regs} (h : Small H r) :
    undigest H (H.digest r) = r := by
  have hl := wordBytes_length H hb
  have key : ∀ (x : Nat) (rest : Bytes), (H.wordBytes x ++ rest).drop H.bytes = rest := by
    intro x rest
    conv_lhs => rw [← hl x]
    exact List.drop_left
  have key0 : ∀ (x : Nat) (rest : Bytes), (H.wordBytes x ++ rest).take H.bytes = H.wordBytes x := by
    intro x rest
    conv_lhs => rw [← hl x]
    exact List.take_left
  have key1 : ∀ x : Nat, (H.wordBytes x).take H.bytes = H.wordBytes x := by
    intro x
    have := key0 x []
    rwa [List.append_nil] at this
  unfold undigest digest
  simp only [key, key0, key1]
  rw [beNat_wordBytes H (h _ (by simp)), beNat_wordBytes H (h _ (by simp)), beNat_wordBytes H (h _ (by simp)),
    beNat_wordBytes H (h _ (by simp)), beNat_wordBytes H (h _ (by simp)), beNat_wordBytes H (h _ (by simp)),
    beNat_wordBytes H (h _ (by simp)), beNat_wordBytes H (h _ (by simp))]

private theorem small_compress (H : Sha2) (r : Regs) (b : Bytes) : Small H (H.compress r b) := by
  have h : 0 < 2 ^ H.bits := by positivity
  intro x hx
  simp only [compress, List.mem_cons, List.not_mem_nil, or_false] at hx
  rcases hx with rfl | rfl | rfl | rfl | rfl | rfl | rfl | rfl <;> exact Nat.mod_lt _ h

private theorem small_foldl (H : Sha2) : ∀ (l : List Bytes) (r : Regs), l ≠ [] → Small H (l.foldl H.compress r)
  | [], _, h => absurd rfl h
  | [b], r, _ => small_compress H r b
  | _ :: b :: l, r, _ => small_foldl H (b :: l) _ (by simp)

private theorem extend (H : Sha2) (hb : H.bits = 8 * H.bytes) (h4 : 4 ≤ H.bytes) (m s : Bytes) :
    H.sum (m ++ H.padding m.length ++ s) =
      H.digest ((H.blocks (s ++ H.padding (m.length + (H.padding m.length).length + s.length))).foldl H.compress
        (undigest H (H.sum m))) := by
  have hc : 0 < H.chunk := by unfold chunk; omega
  have hd : H.chunk ∣ (m ++ H.padding m.length).length := by
    rw [List.length_append]
    exact padded_dvd H h4 _
  have hne : H.blocks (m ++ H.padding m.length) ≠ [] := by
    intro h
    have := congrArg List.length h
    simp only [blocks, List.length_map, List.length_range, List.length_nil] at this
    obtain ⟨n, hn⟩ := hd
    rw [hn, Nat.mul_div_cancel_left _ hc] at this
    rw [this, Nat.mul_zero, List.length_append] at hn
    simp [padding] at hn
  unfold sum
  rw [undigest_digest H hb (small_foldl H _ _ hne), List.append_assoc (m ++ _) s, blocks_append H hc hd,
    List.foldl_append]
  simp [List.length_append, Nat.add_assoc]

end Sha2

/-- C160: with the hash function that the code uses, who knows the hash of a text and its length can compute
the hash of longer texts that begin with it, without the text: there is an addition, which depends on the
length alone, such that the hash of the text with it and any end is a function of the hash, the length and the
end. -/
theorem C160_hashes_can_be_extended :
    ∃ (pad : Nat → Bytes) (ext : Hash → Nat → Bytes → Hash), ∀ m s : Bytes,
      @fromBytes Sha512.fips (m ++ pad m.length ++ s) = ext (@fromBytes Sha512.fips m) m.length s := by
  let _ := Sha512.fips
  -- a text of 64 bytes is its own hash
  refine ⟨Sha2.sha512.padding, fun h n s => if n = 64 then fromBytes (h.bytes ++ Sha2.sha512.padding n ++ s) else
    fromBytes (Sha2.sha512.digest ((Sha2.sha512.blocks (s ++ Sha2.sha512.padding (n + (Sha2.sha512.padding n).length + s.length))).foldl Sha2.sha512.compress
        (Sha2.sha512.undigest h.bytes))), fun m s => ?_⟩
  by_cases hm : m.length = 64
  · simp only [if_pos hm, fromBytes, dif_pos hm]
  · have hd := Sha2.padded_dvd Sha2.sha512 (by decide) m.length
    have h64 : (m ++ Sha2.sha512.padding m.length ++ s).length ≠ 64 := by
      rw [List.length_append, List.length_append]
      have h0 : 0 < m.length + (Sha2.sha512.padding m.length).length := by simp [Sha2.padding]
      have := Nat.le_of_dvd h0 hd
      have e : Sha2.sha512.chunk = 128 := rfl
      omega
    have hl := Sha2.digest_length Sha2.sha512 rfl ((Sha2.sha512.blocks (s ++ Sha2.sha512.padding (m.length + (Sha2.sha512.padding m.length).length +
      s.length))).foldl Sha2.sha512.compress (Sha2.sha512.undigest (Sha2.sha512.sum m)))
    have e := Sha2.extend Sha2.sha512 rfl (by decide) m s
    simp only [if_neg hm, fromBytes, dif_neg hm, dif_neg h64]
    have hl' : (Sha2.sha512.digest ((Sha2.sha512.blocks (s ++ Sha2.sha512.padding (m.length + (Sha2.sha512.padding m.length).length +
      s.length))).foldl Sha2.sha512.compress (Sha2.sha512.undigest (Sha2.sha512.sum m)))).length = 64 := hl
    exact (Hash.ext e).trans (dif_pos hl').symm

/-- C160: the hash of `abc` published with the standard, computed by the kernel. -/
example : hexEncode (Sha2.sha512.sum (ascii "abc")) =
    ascii "ddaf35a193617abacc417349ae20413112e6fa4e89a97ea20a9eeee64b55d39a" ++
      ascii "2192992a274fc1a836ba3c23a3feebbd454d4423643ce80e2a9ac94fa54ca49f" := by
  decide +kernel

/-- C160: the same for SHA-256. -/
example : hexEncode (Sha2.sha256.sum (ascii "abc")) =
    ascii "ba7816bf8f01cfea414140de5dae2223b00361a396177a9cb410ff61f20015ad" := by
  decide +kernel

/-- C160: the addition is not empty, and the extended text of the empty one takes a whole block. -/
example : Sha2.sha512.padding 0 = 128 :: List.replicate 127 0 := by
  decide +kernel

/-- C52: a text that was encrypted by another program (OpenSSL, `aes-256-cfb`) with the SHA-256 value of a
password and the bytes from 1 to 16, and what the code writes and reads. -/
example : let _ := Cipher.fips
    encrypt (ascii "secret") ((List.range 16).map fun i => UInt8.ofNat (i + 1)) (ascii "The quick brown fox jumps over a dog") =
      ascii "AQIDBAUGBwgJCgsMDQ4PELDRwNp/VTyyOc2vGr9zGcuZok27SJOB8yp21Lcs8n7MR7qwbg==" ∧
    decrypt (ascii "secret") (ascii "AQIDBAUGBwgJCgsMDQ4PELDRwNp/VTyyOc2vGr9zGcuZok27SJOB8yp21Lcs8n7MR7qwbg==") =
      .ok (ascii "The quick brown fox jumps over a dog") := by
  have h : @encrypt Cipher.fips (ascii "secret") ((List.range 16).map fun i => UInt8.ofNat (i + 1))
      (ascii "The quick brown fox jumps over a dog") =
      ascii "AQIDBAUGBwgJCgsMDQ4PELDRwNp/VTyyOc2vGr9zGcuZok27SJOB8yp21Lcs8n7MR7qwbg==" := by
    decide +kernel
  refine ⟨h, ?_⟩
  rw [← h]
  exact @C52_decrypt_encrypt Cipher.fips _ _ _ (by simp)

end Verif
