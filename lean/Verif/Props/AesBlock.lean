import Verif.Model.Aes
import Verif.Model.Fips

/-!
# AES-256 is a permutation of the blocks

For every key, different blocks are encrypted differently.
-/

namespace Verif
namespace Aes

/-- All 16 bytes agree. -/
def Same (s t : Bytes) : Prop := ∀ i < 16, byteAt s i = byteAt t i

theorem Same.eq {s t : Bytes} (hs : s.length = 16) (ht : t.length = 16) (h : Same s t) : s = t := by
  refine List.ext_getElem (by omega) fun i h1 h2 => ?_
  have := h i (by omega)
  simpa [byteAt, List.getD_eq_getElem?_getD, h1, h2] using this

theorem byteAt_map {f : Nat → UInt8} {i : Nat} (hi : i < 16) : byteAt ((List.range 16).map f) i = f i := by
  simp [byteAt, List.getD_eq_getElem?_getD, hi]

theorem xor_left_comm (a b c : UInt8) : a ^^^ (b ^^^ c) = b ^^^ (a ^^^ c) := by
  rw [← UInt8.xor_assoc, UInt8.xor_comm a b, UInt8.xor_assoc]

theorem xor_cancel (a b : UInt8) : a ^^^ (a ^^^ b) = b := by
  rw [← UInt8.xor_assoc, UInt8.xor_self, UInt8.zero_xor]

theorem sub_injective {x y : UInt8} (h : sub x = sub y) : x = y := by
  have inv : ∀ n : Fin 256, UInt8.ofNat (sbox.idxOf (sub (UInt8.ofFin n))) = UInt8.ofFin n := by decide +kernel
  have hx := inv x.toFin
  have hy := inv y.toFin
  simp only [UInt8.ofFin_toFin] at hx hy
  rw [← hx, ← hy, h]

theorem addKey_same {keys s t : Bytes} {n : Nat} (h : Same (addKey keys n s) (addKey keys n t)) : Same s t := by
  intro i hi
  have := h i hi
  simp only [addKey, byteAt_map hi] at this
  have h2 := congrArg (· ^^^ byteAt keys (16 * n + i)) this
  simpa [UInt8.xor_assoc] using h2

theorem subShift_same {s t : Bytes} (h : Same (subShift s) (subShift t)) : Same s t := by
  have perm : ∀ j < 16, ∃ i < 16, (i + 4 * (i % 4)) % 16 = j := by decide
  intro j hj
  obtain ⟨i, hi, e⟩ := perm j hj
  have := h i hi
  simp only [subShift, byteAt_map hi, e] at this
  exact sub_injective this

theorem xtime_xor (a b : UInt8) : xtime (a ^^^ b) = xtime a ^^^ xtime b := by
  have lt : ∀ n : Fin 256, decide (UInt8.ofFin n < 128) = !(UInt8.ofFin n).toBitVec.msb := by decide +kernel
  have lt' : ∀ x : UInt8, decide (x < 128) = !x.toBitVec.msb := fun x => by simpa using lt x.toFin
  have e : ∀ x : UInt8, xtime x = (x <<< 1) ^^^ (if x.toBitVec.msb then 0x1b else 0) := by
    intro x
    have h1 := lt' x
    unfold xtime
    cases h : x.toBitVec.msb
    · rw [h] at h1
      rw [if_pos (of_decide_eq_true (h1.trans rfl))]
      simp
    · rw [h] at h1
      rw [if_neg (of_decide_eq_false (h1.trans rfl))]
      simp
  rw [e, e, e, UInt8.toBitVec_xor, BitVec.msb_xor, UInt8.shiftLeft_xor]
  cases a.toBitVec.msb <;> cases b.toBitVec.msb <;>
    simp [UInt8.xor_assoc, UInt8.xor_comm, xor_left_comm]

/-- A byte of a mixed column. -/
def mixByte (a b c d : UInt8) : UInt8 := xtime a ^^^ (xtime b ^^^ b) ^^^ c ^^^ d

/-- Mixing twice: five times a byte and four times the one after the next. -/
def twice (a c : UInt8) : UInt8 := xtime (xtime a) ^^^ a ^^^ xtime (xtime c)

theorem mixByte_mixByte (a b c d : UInt8) :
    mixByte (mixByte a b c d) (mixByte b c d a) (mixByte c d a b) (mixByte d a b c) = twice a c := by
  simp only [mixByte, twice, xtime_xor]
  simp only [UInt8.xor_assoc, UInt8.xor_comm, xor_left_comm, xor_cancel]

theorem twice_twice (a c : UInt8) : twice (twice a c) (twice c a) = a := by
  simp only [twice, xtime_xor]
  simp only [UInt8.xor_assoc, UInt8.xor_comm, xor_left_comm, xor_cancel, UInt8.xor_self, UInt8.xor_zero]

theorem mixByte_injective {a b c d a' b' c' d' : UInt8} (h0 : mixByte a b c d = mixByte a' b' c' d')
    (h1 : mixByte b c d a = mixByte b' c' d' a') (h2 : mixByte c d a b = mixByte c' d' a' b')
    (h3 : mixByte d a b c = mixByte d' a' b' c') : a = a' := by
  rw [← twice_twice a c, ← mixByte_mixByte a b c d, ← mixByte_mixByte c d a b, h0, h1, h2, h3, mixByte_mixByte,
    mixByte_mixByte, twice_twice]

theorem mix_same {s t : Bytes} (h : Same (mix s) (mix t)) : Same s t := by
  have e : ∀ s : Bytes, ∀ i < 16, byteAt (mix s) i = mixByte (byteAt s i) (byteAt s (i - i % 4 + (i + 1) % 4))
      (byteAt s (i - i % 4 + (i + 2) % 4)) (byteAt s (i - i % 4 + (i + 3) % 4)) := by
    intro s i hi
    simp only [mix, byteAt_map hi, mixByte]
  have h' : ∀ i < 16, _ := fun i hi => (e s i hi).symm.trans ((h i hi).trans (e t i hi))
  intro i hi
  have g0 := h' i hi
  have g1 := h' (i - i % 4 + (i + 1) % 4) (by omega)
  have g2 := h' (i - i % 4 + (i + 2) % 4) (by omega)
  have g3 := h' (i - i % 4 + (i + 3) % 4) (by omega)
  simp only [show ∀ x, i - i % 4 + x % 4 - (i - i % 4 + x % 4) % 4 = i - i % 4 by intro x; omega,
    show ∀ x y, (i - i % 4 + (i + x) % 4 + y) % 4 = (i + x + y) % 4 by intro x y; omega,
    show (i + 1 + 1) % 4 = (i + 2) % 4 from rfl, show (i + 1 + 2) % 4 = (i + 3) % 4 from rfl,
    show (i + 1 + 3) % 4 = i % 4 by omega,
 show (i + 2 + 3) % 4 = (i + 1) % 4 by omega, show (i + 3 + 3) % 4 = (i + 2) % 4 by omega,
    show i - i % 4 + i % 4 = i by omega] at g1 g2 g3
  exact mixByte_injective g0 g1 g2 g3

/-- The rounds keep different blocks different. -/
theorem rounds_same {keys : Bytes} : ∀ (l : List Nat) {s t : Bytes},
    Same (l.foldl (fun s i => addKey keys (i + 1) (mix (subShift s))) s)
      (l.foldl (fun s i => addKey keys (i + 1) (mix (subShift s))) t) → Same s t
  | [], _, _, h => h
  | _ :: l, _, _, h => subShift_same (mix_same (addKey_same (rounds_same l h)))

theorem block_injective (key : Bytes) {s t : Bytes} (hs : s.length = 16) (ht : t.length = 16)
    (h : block key s = block key t) : s = t := by
  have h' : Same (block key s) (block key t) := fun i _ => by rw [h]
  exact (addKey_same (rounds_same _ (subShift_same (addKey_same h')))).eq hs ht

end Aes
end Verif
