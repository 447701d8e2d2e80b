import Verif.Ed25519.Scalar
import Verif.Ed25519.Base
import Verif.Model.SigLemmas

/-!
# Scalars as elements of the field of `order25519` elements
-/

namespace Verif.Kyber

instance : Fact (Nat.Prime order25519) := ⟨order25519_prime⟩

theorem primeOrder_eq : primeOrder = order25519 := by unfold order25519; rfl

/-- The field of the scalars. -/
abbrev Fl := ZMod order25519

/-! ## Little endian numbers -/

theorem leNat_reverse (b : Bytes) : leNat b.reverse = beNat b := by
  induction b with
  | nil => rfl
  | cons x b ih =>
    rw [List.reverse_cons, leNat_append, ih, beNat_cons, List.length_reverse]
    simp only [leNat]
    ring

theorem beNat_reverse (b : Bytes) : beNat b.reverse = leNat b := by
  rw [← leNat_reverse, List.reverse_reverse]

theorem leNat_zeros (n : Nat) : leNat (List.replicate n 0) = 0 := by
  induction n with
  | zero => rfl
  | succ n ih => rw [List.replicate_succ, leNat, ih]; rfl

theorem leNat_inj {a b : Bytes} (hl : a.length = b.length) (h : leNat a = leNat b) : a = b := by
  rw [← beNat_reverse, ← beNat_reverse] at h
  exact List.reverse_injective (beNat_inj (by simpa using hl) h)

theorem littleEndian32_length {n : Nat} (h : n < 256 ^ 32) : (littleEndian32 n).length = 32 := by
  have := beBytes_length_le.2 h
  unfold littleEndian32
  rw [List.length_append, List.length_reverse, List.length_replicate]
  omega

theorem leNat_littleEndian32 (n : Nat) : leNat (littleEndian32 n) = n := by
  unfold littleEndian32
  rw [leNat_append, leNat_reverse, beNat_beBytes, leNat_zeros, mul_zero, add_zero]

theorem newIntBytes_eq (b : Bytes) : newIntBytes b = leNat b % order25519 := by
  unfold newIntBytes
  rw [beNat_reverse, primeOrder_eq]

theorem order_lt : order25519 < 2 ^ 253 := by unfold order25519; decide +kernel

theorem order_pos : 0 < order25519 := order25519_prime.pos

theorem val_lt_pow (a : Fl) : a.val < 256 ^ 32 :=
  (ZMod.val_lt a).trans (order_lt.trans (by decide +kernel))

/-! ## Canonical scalars -/

/-- The canonical scalar of a value. -/
noncomputable def canonFl (a : Fl) : Scalar := ⟨littleEndian32 a.val, littleEndian32_length (val_lt_pow a)⟩

theorem leNat_canon (a : Fl) : leNat (canonFl a).raw = a.val := leNat_littleEndian32 _

/-- A scalar of 32 bytes is canonical as soon as it is small and has the value. -/
theorem eq_canon {b : Bytes} {a : Fl} (hl : b.length = 32) (h : leNat b < order25519)
    (hv : ((leNat b : Nat) : Fl) = a) : b = (canonFl a).raw := by
  refine leNat_inj (hl.trans (canonFl a).len.symm) ?_
  rw [leNat_canon, ← hv, ZMod.val_natCast, Nat.mod_eq_of_lt h]

theorem scSetBytes_eq (b : Bytes) : scSetBytes b = (canonFl (leNat b : Fl)).raw := by
  unfold scSetBytes canonFl
  dsimp only
  rw [newIntBytes_eq, ZMod.val_natCast]

theorem scMarshal_eq (v : Bytes) : scMarshal v = (canonFl (leNat v : Fl)).raw := scSetBytes_eq v

theorem scString_eq (v : Bytes) : scString v = hexEncode (canonFl (leNat v : Fl)).raw := by
  unfold scString
  rw [scMarshal_eq, (canonFl _).len]
  simp only [Nat.sub_self, List.replicate_zero, List.append_nil]

theorem scMul_eq {a b : Bytes} (ha : a.length = 32) (hb : b.length = 32) :
    scMul a b = (canonFl ((leNat a : Fl) * (leNat b : Fl))).raw := by
  have h := scMul_spec ha hb
  rw [primeOrder_eq] at h
  refine eq_canon (scMul_length a b) (h ▸ Nat.mod_lt _ order_pos) ?_
  rw [h, ZMod.natCast_mod, Nat.cast_mul]

theorem scSub_eq {a b : Bytes} (ha : a.length = 32) (hb : b.length = 32) :
    scSub a b = (canonFl ((leNat a : Fl) - (leNat b : Fl))).raw := by
  have h := scSub_spec ha hb
  rw [primeOrder_eq] at h
  refine eq_canon (scSub_length a b) ?_ ?_
  · have := Int.emod_lt_of_pos ((leNat a : Int) - leNat b) (Int.natCast_pos.2 order_pos)
    rw [← h] at this
    exact_mod_cast this
  · rw [← Int.cast_natCast, h, ZMod.intCast_mod, Int.cast_sub, Int.cast_natCast, Int.cast_natCast]

theorem scInvLoop_eq {a : Bytes} (ha : a.length = 32) :
    ∀ (n : Nat) (z : Fl), scInvLoop a n (canonFl z).raw =
      (canonFl (z ^ 2 ^ n * (leNat a : Fl) ^ (lMinus2 % 2 ^ n))).raw
  | 0, z => by
    rw [scInvLoop, Nat.pow_zero, Nat.mod_one, pow_zero, pow_one, mul_one]
  | n + 1, z => by
    have hv : (leNat (canonFl z).raw : Fl) = z := by rw [leNat_canon, ZMod.natCast_zmod_val]
    rw [scInvLoop, scMul_eq (canonFl z).len (canonFl z).len, hv, Nat.pow_succ, Nat.mod_mul,
      pow_add, pow_mul (leNat a : Fl)]
    split
    · rename_i hb
      rw [scMul_eq (canonFl _).len ha, leNat_canon, ZMod.natCast_zmod_val, scInvLoop_eq ha n]
      rw [Nat.testBit_eq_decide_div_mod_eq, decide_eq_true_eq] at hb
      rw [hb, pow_one]
      congr 2
      rw [mul_pow, ← sq, ← pow_mul, mul_comm (2 ^ n) 2, pow_mul z]
      ring
    · rename_i hb
      rw [scInvLoop_eq ha n]
      rw [Nat.testBit_eq_decide_div_mod_eq, decide_eq_true_eq] at hb
      have : lMinus2 / 2 ^ n % 2 = 0 := by omega
      rw [this, pow_zero, mul_one]
      congr 2
      rw [← sq, ← pow_mul, mul_comm (2 ^ n) 2]

theorem scOne_eq : scOne = (canonFl 1).raw := by
  refine eq_canon rfl ?_ ?_
  · have := order25519_prime.one_lt
    have e : leNat scOne = 1 := by decide +kernel
    omega
  · have e : leNat scOne = 1 := by decide +kernel
    rw [e, Nat.cast_one]

/-- Inversion; zero is its own inverse. -/
theorem scInv_eq {a : Bytes} (ha : a.length = 32) : scInv a = (canonFl (leNat a : Fl)⁻¹).raw := by
  unfold scInv
  rw [scOne_eq, scInvLoop_eq ha]
  rw [one_pow, one_mul]
  have hm : lMinus2 % 2 ^ 256 = order25519 - 2 := by unfold lMinus2 order25519; decide +kernel
  rw [hm]
  congr 2
  by_cases h0 : (leNat a : Fl) = 0
  · rw [h0, inv_zero]
    exact zero_pow (by unfold order25519; decide +kernel)
  · have h1 := ZMod.pow_card_sub_one_eq_one h0
    have h2 : order25519 - 1 = (order25519 - 2) + 1 := by unfold order25519; decide +kernel
    rw [h2, pow_succ] at h1
    exact eq_inv_of_mul_eq_one_left h1

theorem scInv_length {a : Bytes} (ha : a.length = 32) : (scInv a).length = 32 := by
  rw [scInv_eq ha]
  exact (canonFl _).len

theorem scDiv_eq {a b : Bytes} (ha : a.length = 32) (hb : b.length = 32) :
    scDiv a b = (canonFl ((leNat a : Fl) / (leNat b : Fl))).raw := by
  unfold scDiv
  rw [scMul_eq ha (scInv_length hb), scInv_eq hb, leNat_canon, ZMod.natCast_zmod_val, div_eq_mul_inv]

end Verif.Kyber
