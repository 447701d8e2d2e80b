import Verif.Model.Floats
import Verif.Model.HashTreeLemmas

/-!
# Integers computed with floating point numbers: C05, C56
-/

namespace Verif

/-- C05: the padding, which is computed with floating point logarithms, gives the least power of two that is
not below the number of blocks, behind the given blocks; for every logarithm that is right within two units in
the last place. -/
theorem C05_padding_with_floats [Sha512] (L : MathLog) (l : List Hash) (h1 : l ≠ []) (hl : l.length < 2 ^ 44) :
    resizeFloat L l = resize l ∧ ∃ k n, resizeFloat L l = l ++ List.replicate n (fromBytes []) ∧
      (resizeFloat L l).length = 2 ^ k ∧ ∀ j, l.length ≤ 2 ^ j → k ≤ j := by
  have hpos : 0 < l.length := List.length_pos_iff.mpr h1
  have e : resizeFloat L l = resize l := by
    unfold resizeFloat resize
    by_cases h : isLengthPowerForTwo l.length = true
    · rw [if_pos h, if_pos h]
    · rw [if_neg h, if_neg h]
      have hp : ∀ k, l.length ≠ 2 ^ k := fun k hk => h (isLengthPowerForTwo_iff.mpr ⟨k, hk⟩)
      have := hp 0
      rw [nextPowerFloat_eq L (by omega) hl hp]
  refine ⟨e, ?_⟩
  rw [e]
  unfold resize
  by_cases h : isLengthPowerForTwo l.length = true
  · rw [if_pos h]
    obtain ⟨k, hk⟩ := isLengthPowerForTwo_iff.mp h
    refine ⟨k, 0, by simp, hk, fun j hj => ?_⟩
    rw [hk] at hj
    exact (Nat.pow_le_pow_iff_right (by norm_num)).mp hj
  · rw [if_neg h]
    have := Nat.le_pow_clog (b := 2) (by norm_num) l.length
    refine ⟨Nat.clog 2 l.length, _, rfl, ?_, fun j hj => Nat.clog_le_of_le_pow hj⟩
    simp only [List.length_append, List.length_replicate, nextPowerOfTwo]
    omega

/-- C56: the number of chunks, which is computed with a floating point division, is the number of whole chunk
sizes in the file, so that the chunks are those of `C56_chunks_cover`. -/
theorem C56_chunks_with_floats (data : Bytes) {size : Nat} (hs : 0 < size) (hs' : size ≤ 2 ^ 53)
    (hl : data.length < 2 ^ 53) : slicesFloat data size = slices data size ∧
      (slicesFloat data size).length * size ≤ data.length ∧
      data.length < ((slicesFloat data size).length + 1) * size := by
  have e : slicesFloat data size = slices data size := by
    simp only [slicesFloat, slices, chunkLoopsFloat_eq hs hs' hl, Int.toNat_natCast]
  refine ⟨e, ?_⟩
  rw [e]
  simp only [slices, List.length_map, List.length_range, chunkLoops]
  exact ⟨Nat.div_mul_le_self _ _, by
    have := Nat.lt_div_mul_add (a := data.length) hs
    rw [Nat.add_mul, Nat.one_mul]
    exact this⟩

/-- C05: three blocks are padded to four. -/
example [Sha512] (L : MathLog) (a b c : Hash) : resizeFloat L [a, b, c] = [a, b, c, fromBytes []] := by
  rw [(C05_padding_with_floats L [a, b, c] (by simp) (by norm_num)).1]
  have h : isLengthPowerForTwo 3 = false := by decide
  have h2 : nextPowerOfTwo 3 = 4 := by decide +kernel
  simp [resize, h, h2]

/-- C56: seven bytes and the chunk size three. -/
example : slicesFloat [1, 2, 3, 4, 5, 6, 7] 3 = [[1, 2, 3], [4, 5, 6, 7]] := by
  rw [(C56_chunks_with_floats [1, 2, 3, 4, 5, 6, 7] (by norm_num) (by norm_num) (by norm_num)).1]
  decide +kernel

end Verif
