import Verif.Ed25519.FieldBytes
import Mathlib.Tactic.LinearCombination

/-!
# `feToBytes` writes the canonical representative
-/

namespace Verif.Kyber

/-- Limbs in the ranges of a reduced element. -/
def Fe.Red (f : Fe) : Prop :=
  (0 ≤ f.l0 ∧ f.l0 < 67108864) ∧ (0 ≤ f.l1 ∧ f.l1 < 33554432) ∧ (0 ≤ f.l2 ∧ f.l2 < 67108864) ∧ (0 ≤ f.l3 ∧ f.l3 < 33554432) ∧ (0 ≤ f.l4 ∧ f.l4 < 67108864) ∧ (0 ≤ f.l5 ∧ f.l5 < 33554432) ∧ (0 ≤ f.l6 ∧ f.l6 < 67108864) ∧ (0 ≤ f.l7 ∧ f.l7 < 33554432) ∧ (0 ≤ f.l8 ∧ f.l8 < 67108864) ∧ (0 ≤ f.l9 ∧ f.l9 < 33554432)

theorem Fe.Red.bd {f : Fe} (h : f.Red) : f.Bd 2 := by
  unfold Fe.Red at h
  unfold Fe.Bd
  simp only [abs_le]
  omega

theorem feQuotient_spec {h : Fe} (hh : h.Bd 3) :
    |feQuotient h| ≤ 3 ∧ 0 ≤ h.int - (prime25519 : Int) * feQuotient h ∧
      h.int - (prime25519 : Int) * feQuotient h < prime25519 := by
  have b0 := abs_le.1 hh.1
  have b1 := abs_le.1 hh.2.1
  have b2 := abs_le.1 hh.2.2.1
  have b3 := abs_le.1 hh.2.2.2.1
  have b4 := abs_le.1 hh.2.2.2.2.1
  have b5 := abs_le.1 hh.2.2.2.2.2.1
  have b6 := abs_le.1 hh.2.2.2.2.2.2.1
  have b7 := abs_le.1 hh.2.2.2.2.2.2.2.1
  have b8 := abs_le.1 hh.2.2.2.2.2.2.2.2.1
  have b9 := abs_le.1 hh.2.2.2.2.2.2.2.2.2
  unfold feQuotient
  rw [w32_eq (x := 19 * h.l9) (by rw [abs_le]; omega), w32_eq (x := 19 * h.l9 + 2 ^ 24) (by rw [abs_le]; omega)]
  dsimp only
  obtain ⟨q0, e0⟩ : ∃ q, q = (19 * h.l9 + 2 ^ 24) / 2 ^ 25 := ⟨_, rfl⟩
  rw [← e0]
  have c0 : |q0| ≤ 30 := by rw [abs_le]; omega
  rw [abs_le] at c0
  rw [w32_eq (x := h.l0 + q0) (by rw [abs_le]; omega)]
  obtain ⟨q1, e1⟩ : ∃ q, q = (h.l0 + q0) / 2 ^ 26 := ⟨_, rfl⟩
  rw [← e1]
  have c1 : |q1| ≤ 3 := by rw [abs_le]; omega
  rw [abs_le] at c1
  rw [w32_eq (x := h.l1 + q1) (by rw [abs_le]; omega)]
  obtain ⟨q2, e2⟩ : ∃ q, q = (h.l1 + q1) / 2 ^ 25 := ⟨_, rfl⟩
  rw [← e2]
  have c2 : |q2| ≤ 3 := by rw [abs_le]; omega
  rw [abs_le] at c2
  rw [w32_eq (x := h.l2 + q2) (by rw [abs_le]; omega)]
  obtain ⟨q3, e3⟩ : ∃ q, q = (h.l2 + q2) / 2 ^ 26 := ⟨_, rfl⟩
  rw [← e3]
  have c3 : |q3| ≤ 3 := by rw [abs_le]; omega
  rw [abs_le] at c3
  rw [w32_eq (x := h.l3 + q3) (by rw [abs_le]; omega)]
  obtain ⟨q4, e4⟩ : ∃ q, q = (h.l3 + q3) / 2 ^ 25 := ⟨_, rfl⟩
  rw [← e4]
  have c4 : |q4| ≤ 3 := by rw [abs_le]; omega
  rw [abs_le] at c4
  rw [w32_eq (x := h.l4 + q4) (by rw [abs_le]; omega)]
  obtain ⟨q5, e5⟩ : ∃ q, q = (h.l4 + q4) / 2 ^ 26 := ⟨_, rfl⟩
  rw [← e5]
  have c5 : |q5| ≤ 3 := by rw [abs_le]; omega
  rw [abs_le] at c5
  rw [w32_eq (x := h.l5 + q5) (by rw [abs_le]; omega)]
  obtain ⟨q6, e6⟩ : ∃ q, q = (h.l5 + q5) / 2 ^ 25 := ⟨_, rfl⟩
  rw [← e6]
  have c6 : |q6| ≤ 3 := by rw [abs_le]; omega
  rw [abs_le] at c6
  rw [w32_eq (x := h.l6 + q6) (by rw [abs_le]; omega)]
  obtain ⟨q7, e7⟩ : ∃ q, q = (h.l6 + q6) / 2 ^ 26 := ⟨_, rfl⟩
  rw [← e7]
  have c7 : |q7| ≤ 3 := by rw [abs_le]; omega
  rw [abs_le] at c7
  rw [w32_eq (x := h.l7 + q7) (by rw [abs_le]; omega)]
  obtain ⟨q8, e8⟩ : ∃ q, q = (h.l7 + q7) / 2 ^ 25 := ⟨_, rfl⟩
  rw [← e8]
  have c8 : |q8| ≤ 3 := by rw [abs_le]; omega
  rw [abs_le] at c8
  rw [w32_eq (x := h.l8 + q8) (by rw [abs_le]; omega)]
  obtain ⟨q9, e9⟩ : ∃ q, q = (h.l8 + q8) / 2 ^ 26 := ⟨_, rfl⟩
  rw [← e9]
  have c9 : |q9| ≤ 3 := by rw [abs_le]; omega
  rw [abs_le] at c9
  rw [w32_eq (x := h.l9 + q9) (by rw [abs_le]; omega)]
  obtain ⟨q10, e10⟩ : ∃ q, q = (h.l9 + q9) / 2 ^ 25 := ⟨_, rfl⟩
  rw [← e10]
  have c10 : |q10| ≤ 3 := by rw [abs_le]; omega
  rw [abs_le] at c10
  have m : 57896044618658097711785492504343953926634992332820282019728792003956564819968 * q10 ≤ h.int + q0 ∧ h.int + q0 < 57896044618658097711785492504343953926634992332820282019728792003956564819968 * q10 + 57896044618658097711785492504343953926634992332820282019728792003956564819968 := by
    unfold Fe.int
    clear e0 c0
    have u1 : 67108864 * q1 ≤ h.l0 + q0 ∧ h.l0 + q0 ≤ 67108864 * q1 + 67108863 := by omega
    have u2 : 33554432 * q2 ≤ h.l1 + q1 ∧ h.l1 + q1 ≤ 33554432 * q2 + 33554431 := by omega
    have u3 : 67108864 * q3 ≤ h.l2 + q2 ∧ h.l2 + q2 ≤ 67108864 * q3 + 67108863 := by omega
    have u4 : 33554432 * q4 ≤ h.l3 + q3 ∧ h.l3 + q3 ≤ 33554432 * q4 + 33554431 := by omega
    have u5 : 67108864 * q5 ≤ h.l4 + q4 ∧ h.l4 + q4 ≤ 67108864 * q5 + 67108863 := by omega
    have u6 : 33554432 * q6 ≤ h.l5 + q5 ∧ h.l5 + q5 ≤ 33554432 * q6 + 33554431 := by omega
    have u7 : 67108864 * q7 ≤ h.l6 + q6 ∧ h.l6 + q6 ≤ 67108864 * q7 + 67108863 := by omega
    have u8 : 33554432 * q8 ≤ h.l7 + q7 ∧ h.l7 + q7 ≤ 33554432 * q8 + 33554431 := by omega
    have u9 : 67108864 * q9 ≤ h.l8 + q8 ∧ h.l8 + q8 ≤ 67108864 * q9 + 67108863 := by omega
    have u10 : 33554432 * q10 ≤ h.l9 + q9 ∧ h.l9 + q9 ≤ 33554432 * q10 + 33554431 := by omega
    clear e1 e2 e3 e4 e5 e6 e7 e8 e9 e10
    constructor <;> linarith
  have n : 1725436586697640946858688965569256363112777243042596638790631055949824 * h.l9 - 2588154918914276515174033648219030508191664957092634345348549654347776 ≤ h.int ∧ h.int ≤ 1725436586697640946858688965569256363112777243042596638790631055949824 * h.l9 + 2588154918914276515174033648219030508191664957092634345348549654347776 := by
    unfold Fe.int
    constructor <;> linarith
  clear e1 e2 e3 e4 e5 e6 e7 e8 e9 e10
  refine ⟨abs_le.2 c10, ?_⟩
  obtain ⟨v, hv⟩ : ∃ v, v = h.int := ⟨_, rfl⟩
  rw [← hv] at m n ⊢
  unfold prime25519
  push_cast
  have b9 := b9
  clear hv b0 b1 b2 b3 b4 b5 b6 b7 b8 c1 c2 c3 c4 c5 c6 c7 c8 c9
  have r : q10 = -3 ∨ q10 = -2 ∨ q10 = -1 ∨ q10 = 0 ∨ q10 = 1 ∨ q10 = 2 ∨ q10 = 3 := by omega
  rcases r with r | r | r | r | r | r | r <;> subst r <;> omega

theorem floor26_spec {h n : Int} (hh : |h| ≤ 1073741824) (hn : |n| ≤ 1073741824) :
    floor26 h n = (h % 67108864, n + h / 67108864) := by
  rw [abs_le] at *
  unfold floor26
  norm_num only
  rw [w32_eq (x := h / 67108864 * 67108864) (by rw [abs_le]; omega), w32_eq (x := h - _) (by rw [abs_le]; omega),
    w32_eq (x := n + _) (by rw [abs_le]; omega)]
  congr 1
  omega

theorem floor25_spec {h n : Int} (hh : |h| ≤ 1073741824) (hn : |n| ≤ 1073741824) :
    floor25 h n = (h % 33554432, n + h / 33554432) := by
  rw [abs_le] at *
  unfold floor25
  norm_num only
  rw [w32_eq (x := h / 33554432 * 33554432) (by rw [abs_le]; omega), w32_eq (x := h - _) (by rw [abs_le]; omega),
    w32_eq (x := n + _) (by rw [abs_le]; omega)]
  congr 1
  omega

theorem feReduce_spec {h : Fe} (hh : h.Bd 3) :
    (feReduce h).Red ∧ (feReduce h).int = h.int - (prime25519 : Int) * feQuotient h := by
  obtain ⟨cq, q0, q1⟩ := feQuotient_spec hh
  have b0 := abs_le.1 hh.1
  have b1 := abs_le.1 hh.2.1
  have b2 := abs_le.1 hh.2.2.1
  have b3 := abs_le.1 hh.2.2.2.1
  have b4 := abs_le.1 hh.2.2.2.2.1
  have b5 := abs_le.1 hh.2.2.2.2.2.1
  have b6 := abs_le.1 hh.2.2.2.2.2.2.1
  have b7 := abs_le.1 hh.2.2.2.2.2.2.2.1
  have b8 := abs_le.1 hh.2.2.2.2.2.2.2.2.1
  have b9 := abs_le.1 hh.2.2.2.2.2.2.2.2.2
  rw [abs_le] at cq
  unfold feReduce
  obtain ⟨q, e⟩ : ∃ q, q = feQuotient h := ⟨_, rfl⟩
  rw [← e] at cq q0 q1 ⊢
  clear e
  dsimp only
  rw [w32_eq (x := 19 * q) (by rw [abs_le]; omega), w32_eq (x := h.l0 + 19 * q) (by rw [abs_le]; omega)]
  obtain ⟨n0, f0⟩ : ∃ n, n = h.l0 + 19 * q := ⟨_, rfl⟩
  rw [← f0]
  have bn0 : |n0| ≤ 110000000 := by rw [abs_le]; omega
  rw [floor26_spec (h := n0) (n := h.l1) (by rw [abs_le] at *; omega) (by rw [abs_le] at *; omega)]
  dsimp only
  obtain ⟨n1, f1⟩ : ∃ n, n = h.l1 + n0 / 67108864 := ⟨_, rfl⟩
  rw [← f1]
  have bn1 : |n1| ≤ 110000000 := by rw [abs_le] at *; omega
  rw [floor25_spec (h := n1) (n := h.l2) (by rw [abs_le] at *; omega) (by rw [abs_le] at *; omega)]
  dsimp only
  obtain ⟨n2, f2⟩ : ∃ n, n = h.l2 + n1 / 33554432 := ⟨_, rfl⟩
  rw [← f2]
  have bn2 : |n2| ≤ 110000000 := by rw [abs_le] at *; omega
  rw [floor26_spec (h := n2) (n := h.l3) (by rw [abs_le] at *; omega) (by rw [abs_le] at *; omega)]
  dsimp only
  obtain ⟨n3, f3⟩ : ∃ n, n = h.l3 + n2 / 67108864 := ⟨_, rfl⟩
  rw [← f3]
  have bn3 : |n3| ≤ 110000000 := by rw [abs_le] at *; omega
  rw [floor25_spec (h := n3) (n := h.l4) (by rw [abs_le] at *; omega) (by rw [abs_le] at *; omega)]
  dsimp only
  obtain ⟨n4, f4⟩ : ∃ n, n = h.l4 + n3 / 33554432 := ⟨_, rfl⟩
  rw [← f4]
  have bn4 : |n4| ≤ 110000000 := by rw [abs_le] at *; omega
  rw [floor26_spec (h := n4) (n := h.l5) (by rw [abs_le] at *; omega) (by rw [abs_le] at *; omega)]
  dsimp only
  obtain ⟨n5, f5⟩ : ∃ n, n = h.l5 + n4 / 67108864 := ⟨_, rfl⟩
  rw [← f5]
  have bn5 : |n5| ≤ 110000000 := by rw [abs_le] at *; omega
  rw [floor25_spec (h := n5) (n := h.l6) (by rw [abs_le] at *; omega) (by rw [abs_le] at *; omega)]
  dsimp only
  obtain ⟨n6, f6⟩ : ∃ n, n = h.l6 + n5 / 33554432 := ⟨_, rfl⟩
  rw [← f6]
  have bn6 : |n6| ≤ 110000000 := by rw [abs_le] at *; omega
  rw [floor26_spec (h := n6) (n := h.l7) (by rw [abs_le] at *; omega) (by rw [abs_le] at *; omega)]
  dsimp only
  obtain ⟨n7, f7⟩ : ∃ n, n = h.l7 + n6 / 67108864 := ⟨_, rfl⟩
  rw [← f7]
  have bn7 : |n7| ≤ 110000000 := by rw [abs_le] at *; omega
  rw [floor25_spec (h := n7) (n := h.l8) (by rw [abs_le] at *; omega) (by rw [abs_le] at *; omega)]
  dsimp only
  obtain ⟨n8, f8⟩ : ∃ n, n = h.l8 + n7 / 33554432 := ⟨_, rfl⟩
  rw [← f8]
  have bn8 : |n8| ≤ 110000000 := by rw [abs_le] at *; omega
  rw [floor26_spec (h := n8) (n := h.l9) (by rw [abs_le] at *; omega) (by rw [abs_le] at *; omega)]
  dsimp only
  obtain ⟨n9, f9⟩ : ∃ n, n = h.l9 + n8 / 67108864 := ⟨_, rfl⟩
  rw [← f9]
  have bn9 : |n9| ≤ 110000000 := by rw [abs_le] at *; omega
  rw [show (2 : Int) ^ 25 = 33554432 from rfl, w32_eq (x := n9 / 33554432 * 33554432) (by rw [abs_le] at *; omega),
    w32_eq (x := n9 - n9 / 33554432 * 33554432) (by rw [abs_le] at *; omega)]
  constructor
  · unfold Fe.Red
    dsimp only
    clear q0 q1
    omega
  · have key : Fe.int ⟨n0 % 67108864, n1 % 33554432, n2 % 67108864, n3 % 33554432, n4 % 67108864, n5 % 33554432, n6 % 67108864, n7 % 33554432, n8 % 67108864, n9 - n9 / 33554432 * 33554432⟩ =
        h.int + 19 * q - 57896044618658097711785492504343953926634992332820282019728792003956564819968 * (n9 / 33554432) := by
      unfold Fe.int
      dsimp only
      have u0 := Int.emod_add_mul_ediv n0 67108864; have u1 := Int.emod_add_mul_ediv n1 33554432; have u2 := Int.emod_add_mul_ediv n2 67108864; have u3 := Int.emod_add_mul_ediv n3 33554432; have u4 := Int.emod_add_mul_ediv n4 67108864; have u5 := Int.emod_add_mul_ediv n5 33554432; have u6 := Int.emod_add_mul_ediv n6 67108864; have u7 := Int.emod_add_mul_ediv n7 33554432; have u8 := Int.emod_add_mul_ediv n8 67108864
      linear_combination 1 * u0 + 67108864 * u1 + 2251799813685248 * u2 + 151115727451828646838272 * u3 + 5070602400912917605986812821504 * u4 + 340282366920938463463374607431768211456 * u5 + 11417981541647679048466287755595961091061972992 * u6 + 766247770432944429179173513575154591809369561091801088 * u7 + 25711008708143844408671393477458601640355247900524685364822016 * u8 + 1 * f0 + 67108864 * f1 + 2251799813685248 * f2 + 151115727451828646838272 * f3 + 5070602400912917605986812821504 * f4 + 340282366920938463463374607431768211456 * f5 + 11417981541647679048466287755595961091061972992 * f6 + 766247770432944429179173513575154591809369561091801088 * f7 + 25711008708143844408671393477458601640355247900524685364822016 * f8 + 1725436586697640946858688965569256363112777243042596638790631055949824 * f9
    have lo : 0 ≤ Fe.int ⟨n0 % 67108864, n1 % 33554432, n2 % 67108864, n3 % 33554432, n4 % 67108864, n5 % 33554432, n6 % 67108864, n7 % 33554432, n8 % 67108864, n9 - n9 / 33554432 * 33554432⟩ ∧
        Fe.int ⟨n0 % 67108864, n1 % 33554432, n2 % 67108864, n3 % 33554432, n4 % 67108864, n5 % 33554432, n6 % 67108864, n7 % 33554432, n8 % 67108864, n9 - n9 / 33554432 * 33554432⟩ < 57896044618658097711785492504343953926634992332820282019728792003956564819968 := by
      unfold Fe.int
      dsimp only
      have u0 := Int.emod_nonneg n0 (show (67108864 : Int) ≠ 0 by decide); have w0 := Int.emod_lt_of_pos n0 (show (0 : Int) < 67108864 by decide); have u1 := Int.emod_nonneg n1 (show (33554432 : Int) ≠ 0 by decide); have w1 := Int.emod_lt_of_pos n1 (show (0 : Int) < 33554432 by decide); have u2 := Int.emod_nonneg n2 (show (67108864 : Int) ≠ 0 by decide); have w2 := Int.emod_lt_of_pos n2 (show (0 : Int) < 67108864 by decide); have u3 := Int.emod_nonneg n3 (show (33554432 : Int) ≠ 0 by decide); have w3 := Int.emod_lt_of_pos n3 (show (0 : Int) < 33554432 by decide); have u4 := Int.emod_nonneg n4 (show (67108864 : Int) ≠ 0 by decide); have w4 := Int.emod_lt_of_pos n4 (show (0 : Int) < 67108864 by decide); have u5 := Int.emod_nonneg n5 (show (33554432 : Int) ≠ 0 by decide); have w5 := Int.emod_lt_of_pos n5 (show (0 : Int) < 33554432 by decide); have u6 := Int.emod_nonneg n6 (show (67108864 : Int) ≠ 0 by decide); have w6 := Int.emod_lt_of_pos n6 (show (0 : Int) < 67108864 by decide); have u7 := Int.emod_nonneg n7 (show (33554432 : Int) ≠ 0 by decide); have w7 := Int.emod_lt_of_pos n7 (show (0 : Int) < 33554432 by decide); have u8 := Int.emod_nonneg n8 (show (67108864 : Int) ≠ 0 by decide); have w8 := Int.emod_lt_of_pos n8 (show (0 : Int) < 67108864 by decide)
      have u9 : 0 ≤ n9 - n9 / 33554432 * 33554432 := by omega
      have w9 : n9 - n9 / 33554432 * 33554432 < 33554432 := by omega
      constructor <;> linarith
    have top : n9 / 33554432 = q := by
      unfold prime25519 at q0 q1
      push_cast at q0 q1
      clear f0 f1 f2 f3 f4 f5 f6 f7 f8 f9
      omega
    rw [key, top]
    unfold prime25519
    push_cast
    ring

theorem byteOf_toNat (x : Int) : ((byteOf x).toNat : Int) = x % 256 := by
  unfold byteOf
  rw [UInt8.toNat_ofNat']
  have h1 := Int.emod_nonneg x (show (256 : Int) ≠ 0 by decide)
  have h2 := Int.emod_lt_of_pos x (show (0 : Int) < 256 by decide)
  omega

theorem byteOf_lor {a c : Int} (k : Nat) (hk : k ≤ 8) (ha : 0 ≤ a) (hak : a < 2 ^ k) (hc : 0 ≤ c) :
    ((byteOf (lor32 a (w32 (c * 2 ^ k)))).toNat : Int) = (a + c * 2 ^ k) % 256 := by
  rw [byteOf_toNat]
  obtain ⟨a', rfl⟩ := Int.eq_ofNat_of_zero_le ha
  obtain ⟨c', rfl⟩ := Int.eq_ofNat_of_zero_le hc
  have hak' : a' < 2 ^ k := by exact_mod_cast hak
  have kle : 2 ^ k ≤ 2 ^ 8 := Nat.pow_le_pow_right (by decide) hk
  unfold lor32
  have e0 : ∀ x : Int, BitVec.ofInt 32 (w32 x) = BitVec.ofInt 32 x := fun x => by
    unfold w32
    rw [← BitVec.toInt_inj, BitVec.toInt_ofInt, BitVec.toInt_ofInt, Int.bmod_bmod]
  have e1 : BitVec.ofInt 32 (w32 ((c' : Int) * 2 ^ k)) = BitVec.ofNat 32 (c' * 2 ^ k) := by
    rw [e0, ← BitVec.ofInt_natCast]
    push_cast
    rfl
  have e2 : BitVec.ofInt 32 (a' : Int) = BitVec.ofNat 32 a' := BitVec.ofInt_natCast ..
  have e3 : (BitVec.ofNat 32 a' ||| BitVec.ofNat 32 (c' * 2 ^ k)).toNat % 256 = (a' + c' * 2 ^ k) % 256 := by
    rw [BitVec.toNat_or, BitVec.toNat_ofNat, BitVec.toNat_ofNat, Nat.mod_eq_of_lt (a := a') (by omega)]
    have e4 : c' * 2 ^ k % 2 ^ 32 = (c' % 2 ^ (32 - k)) <<< k := by
      rw [Nat.shiftLeft_eq, ← Nat.mul_mod_mul_right, ← pow_add]
      congr 2; omega
    rw [e4, or_shift hak', ← Nat.shiftLeft_eq, ← e4]
    rw [Nat.add_mod, Nat.mod_mod_of_dvd _ (by decide : 256 ∣ 2 ^ 32), ← Nat.add_mod]
  rw [e1, e2]
  have e5 : ∀ b : BitVec 32, b.toInt % 256 = ((b.toNat % 256 : Nat) : Int) := by
    intro b
    rw [BitVec.toInt_eq_toNat_bmod]
    have : ((b.toNat : Int).bmod (2 ^ 32)) % 256 = (b.toNat : Int) % 256 := by
      rw [Int.bmod_def]
      have := b.isLt
      split <;> omega
    rw [this]
    push_cast
    rfl
  rw [e5, e3]
  push_cast
  rfl

theorem fePack_length (h : Fe) : (fePack h).length = 32 := rfl

theorem fePack_spec {h : Fe} (hr : h.Red) : (leNat (fePack h) : Int) = h.int := by
  obtain ⟨r0, s0⟩ := hr.1
  obtain ⟨r1, s1⟩ := hr.2.1
  obtain ⟨r2, s2⟩ := hr.2.2.1
  obtain ⟨r3, s3⟩ := hr.2.2.2.1
  obtain ⟨r4, s4⟩ := hr.2.2.2.2.1
  obtain ⟨r5, s5⟩ := hr.2.2.2.2.2.1
  obtain ⟨r6, s6⟩ := hr.2.2.2.2.2.2.1
  obtain ⟨r7, s7⟩ := hr.2.2.2.2.2.2.2.1
  obtain ⟨r8, s8⟩ := hr.2.2.2.2.2.2.2.2.1
  obtain ⟨r9, s9⟩ := hr.2.2.2.2.2.2.2.2.2
  rw [leNat_at _ (fePack_length h)]
  have B0 : (at' (fePack h) 0 : Int) = h.l0 % 256 := by
    refine (byteOf_toNat (h.l0 / 2 ^ 0)).trans ?_
    omega
  have B1 : (at' (fePack h) 1 : Int) = h.l0 / 256 % 256 := by
    refine (byteOf_toNat (h.l0 / 2 ^ 8)).trans ?_
    omega
  have B2 : (at' (fePack h) 2 : Int) = h.l0 / 65536 % 256 := by
    refine (byteOf_toNat (h.l0 / 2 ^ 16)).trans ?_
    omega
  have B3 : (at' (fePack h) 3 : Int) = h.l0 / 16777216 + 4 * (h.l1 % 64) := by
    refine (byteOf_lor (a := h.l0 / 2 ^ 24) (c := h.l1) 2 (by decide) (by omega) (by omega) r1).trans ?_
    omega
  have B4 : (at' (fePack h) 4 : Int) = h.l1 / 64 % 256 := by
    refine (byteOf_toNat (h.l1 / 2 ^ 6)).trans ?_
    omega
  have B5 : (at' (fePack h) 5 : Int) = h.l1 / 16384 % 256 := by
    refine (byteOf_toNat (h.l1 / 2 ^ 14)).trans ?_
    omega
  have B6 : (at' (fePack h) 6 : Int) = h.l1 / 4194304 + 8 * (h.l2 % 32) := by
    refine (byteOf_lor (a := h.l1 / 2 ^ 22) (c := h.l2) 3 (by decide) (by omega) (by omega) r2).trans ?_
    omega
  have B7 : (at' (fePack h) 7 : Int) = h.l2 / 32 % 256 := by
    refine (byteOf_toNat (h.l2 / 2 ^ 5)).trans ?_
    omega
  have B8 : (at' (fePack h) 8 : Int) = h.l2 / 8192 % 256 := by
    refine (byteOf_toNat (h.l2 / 2 ^ 13)).trans ?_
    omega
  have B9 : (at' (fePack h) 9 : Int) = h.l2 / 2097152 + 32 * (h.l3 % 8) := by
    refine (byteOf_lor (a := h.l2 / 2 ^ 21) (c := h.l3) 5 (by decide) (by omega) (by omega) r3).trans ?_
    omega
  have B10 : (at' (fePack h) 10 : Int) = h.l3 / 8 % 256 := by
    refine (byteOf_toNat (h.l3 / 2 ^ 3)).trans ?_
    omega
  have B11 : (at' (fePack h) 11 : Int) = h.l3 / 2048 % 256 := by
    refine (byteOf_toNat (h.l3 / 2 ^ 11)).trans ?_
    omega
  have B12 : (at' (fePack h) 12 : Int) = h.l3 / 524288 + 64 * (h.l4 % 4) := by
    refine (byteOf_lor (a := h.l3 / 2 ^ 19) (c := h.l4) 6 (by decide) (by omega) (by omega) r4).trans ?_
    omega
  have B13 : (at' (fePack h) 13 : Int) = h.l4 / 4 % 256 := by
    refine (byteOf_toNat (h.l4 / 2 ^ 2)).trans ?_
    omega
  have B14 : (at' (fePack h) 14 : Int) = h.l4 / 1024 % 256 := by
    refine (byteOf_toNat (h.l4 / 2 ^ 10)).trans ?_
    omega
  have B15 : (at' (fePack h) 15 : Int) = h.l4 / 262144 := by
    refine (byteOf_toNat (h.l4 / 2 ^ 18)).trans ?_
    omega
  have B16 : (at' (fePack h) 16 : Int) = h.l5 % 256 := by
    refine (byteOf_toNat (h.l5 / 2 ^ 0)).trans ?_
    omega
  have B17 : (at' (fePack h) 17 : Int) = h.l5 / 256 % 256 := by
    refine (byteOf_toNat (h.l5 / 2 ^ 8)).trans ?_
    omega
  have B18 : (at' (fePack h) 18 : Int) = h.l5 / 65536 % 256 := by
    refine (byteOf_toNat (h.l5 / 2 ^ 16)).trans ?_
    omega
  have B19 : (at' (fePack h) 19 : Int) = h.l5 / 16777216 + 2 * (h.l6 % 128) := by
    refine (byteOf_lor (a := h.l5 / 2 ^ 24) (c := h.l6) 1 (by decide) (by omega) (by omega) r6).trans ?_
    omega
  have B20 : (at' (fePack h) 20 : Int) = h.l6 / 128 % 256 := by
    refine (byteOf_toNat (h.l6 / 2 ^ 7)).trans ?_
    omega
  have B21 : (at' (fePack h) 21 : Int) = h.l6 / 32768 % 256 := by
    refine (byteOf_toNat (h.l6 / 2 ^ 15)).trans ?_
    omega
  have B22 : (at' (fePack h) 22 : Int) = h.l6 / 8388608 + 8 * (h.l7 % 32) := by
    refine (byteOf_lor (a := h.l6 / 2 ^ 23) (c := h.l7) 3 (by decide) (by omega) (by omega) r7).trans ?_
    omega
  have B23 : (at' (fePack h) 23 : Int) = h.l7 / 32 % 256 := by
    refine (byteOf_toNat (h.l7 / 2 ^ 5)).trans ?_
    omega
  have B24 : (at' (fePack h) 24 : Int) = h.l7 / 8192 % 256 := by
    refine (byteOf_toNat (h.l7 / 2 ^ 13)).trans ?_
    omega
  have B25 : (at' (fePack h) 25 : Int) = h.l7 / 2097152 + 16 * (h.l8 % 16) := by
    refine (byteOf_lor (a := h.l7 / 2 ^ 21) (c := h.l8) 4 (by decide) (by omega) (by omega) r8).trans ?_
    omega
  have B26 : (at' (fePack h) 26 : Int) = h.l8 / 16 % 256 := by
    refine (byteOf_toNat (h.l8 / 2 ^ 4)).trans ?_
    omega
  have B27 : (at' (fePack h) 27 : Int) = h.l8 / 4096 % 256 := by
    refine (byteOf_toNat (h.l8 / 2 ^ 12)).trans ?_
    omega
  have B28 : (at' (fePack h) 28 : Int) = h.l8 / 1048576 + 64 * (h.l9 % 4) := by
    refine (byteOf_lor (a := h.l8 / 2 ^ 20) (c := h.l9) 6 (by decide) (by omega) (by omega) r9).trans ?_
    omega
  have B29 : (at' (fePack h) 29 : Int) = h.l9 / 4 % 256 := by
    refine (byteOf_toNat (h.l9 / 2 ^ 2)).trans ?_
    omega
  have B30 : (at' (fePack h) 30 : Int) = h.l9 / 1024 % 256 := by
    refine (byteOf_toNat (h.l9 / 2 ^ 10)).trans ?_
    omega
  have B31 : (at' (fePack h) 31 : Int) = h.l9 / 262144 := by
    refine (byteOf_toNat (h.l9 / 2 ^ 18)).trans ?_
    omega
  have L0 : h.l0 = h.l0 % 256 + 256 * (h.l0 / 256 % 256) + 65536 * (h.l0 / 65536 % 256) + 16777216 * (h.l0 / 16777216) := by omega
  have L1 : h.l1 = h.l1 % 64 + 64 * (h.l1 / 64 % 256) + 16384 * (h.l1 / 16384 % 256) + 4194304 * (h.l1 / 4194304) := by omega
  have L2 : h.l2 = h.l2 % 32 + 32 * (h.l2 / 32 % 256) + 8192 * (h.l2 / 8192 % 256) + 2097152 * (h.l2 / 2097152) := by omega
  have L3 : h.l3 = h.l3 % 8 + 8 * (h.l3 / 8 % 256) + 2048 * (h.l3 / 2048 % 256) + 524288 * (h.l3 / 524288) := by omega
  have L4 : h.l4 = h.l4 % 4 + 4 * (h.l4 / 4 % 256) + 1024 * (h.l4 / 1024 % 256) + 262144 * (h.l4 / 262144) := by omega
  have L5 : h.l5 = h.l5 % 256 + 256 * (h.l5 / 256 % 256) + 65536 * (h.l5 / 65536 % 256) + 16777216 * (h.l5 / 16777216) := by omega
  have L6 : h.l6 = h.l6 % 128 + 128 * (h.l6 / 128 % 256) + 32768 * (h.l6 / 32768 % 256) + 8388608 * (h.l6 / 8388608) := by omega
  have L7 : h.l7 = h.l7 % 32 + 32 * (h.l7 / 32 % 256) + 8192 * (h.l7 / 8192 % 256) + 2097152 * (h.l7 / 2097152) := by omega
  have L8 : h.l8 = h.l8 % 16 + 16 * (h.l8 / 16 % 256) + 4096 * (h.l8 / 4096 % 256) + 1048576 * (h.l8 / 1048576) := by omega
  have L9 : h.l9 = h.l9 % 4 + 4 * (h.l9 / 4 % 256) + 1024 * (h.l9 / 1024 % 256) + 262144 * (h.l9 / 262144) := by omega
  push_cast
  unfold Fe.int
  linear_combination 1 * B0 + 256 * B1 + 65536 * B2 + 16777216 * B3 + 4294967296 * B4 + 1099511627776 * B5 + 281474976710656 * B6 + 72057594037927936 * B7 + 18446744073709551616 * B8 + 4722366482869645213696 * B9 + 1208925819614629174706176 * B10 + 309485009821345068724781056 * B11 + 79228162514264337593543950336 * B12 + 20282409603651670423947251286016 * B13 + 5192296858534827628530496329220096 * B14 + 1329227995784915872903807060280344576 * B15 + 340282366920938463463374607431768211456 * B16 + 87112285931760246646623899502532662132736 * B17 + 22300745198530623141535718272648361505980416 * B18 + 5708990770823839524233143877797980545530986496 * B19 + 1461501637330902918203684832716283019655932542976 * B20 + 374144419156711147060143317175368453031918731001856 * B21 + 95780971304118053647396689196894323976171195136475136 * B22 + 24519928653854221733733552434404946937899825954937634816 * B23 + 6277101735386680763835789423207666416102355444464034512896 * B24 + 1606938044258990275541962092341162602522202993782792835301376 * B25 + 411376139330301510538742295639337626245683966408394965837152256 * B26 + 105312291668557186697918027683670432318895095400549111254310977536 * B27 + 26959946667150639794667015087019630673637144422540572481103610249216 * B28 + 6901746346790563787434755862277025452451108972170386555162524223799296 * B29 + 1766847064778384329583297500742918515827483896875618958121606201292619776 * B30 + 452312848583266388373324160190187140051835877600158453279131187530910662656 * B31 - 1 * L0 - 67108864 * L1 - 2251799813685248 * L2 - 151115727451828646838272 * L3 - 5070602400912917605986812821504 * L4 - 340282366920938463463374607431768211456 * L5 - 11417981541647679048466287755595961091061972992 * L6 - 766247770432944429179173513575154591809369561091801088 * L7 - 25711008708143844408671393477458601640355247900524685364822016 * L8 - 1725436586697640946858688965569256363112777243042596638790631055949824 * L9

theorem feToBytes_length (h : Fe) : (feToBytes h).length = 32 := rfl

/-- The bytes are the little endian representative between 0 and the prime. -/
theorem feToBytes_spec {h : Fe} (hh : h.Bd 3) :
    leNat (feToBytes h) = h.val.val := by
  obtain ⟨_, q0, q1⟩ := feQuotient_spec hh
  obtain ⟨hr, e⟩ := feReduce_spec hh
  have e2 := fePack_spec hr
  rw [e] at e2
  unfold feToBytes Fe.val
  have c : ((leNat (fePack (feReduce h)) : Nat) : Fp) = ((h.int : Int) : Fp) := by
    have t := congrArg (Int.cast : Int → Fp) e2
    rw [Int.cast_natCast, Int.cast_sub, Int.cast_mul, Int.cast_natCast, ZMod.natCast_self, zero_mul,
      sub_zero] at t
    exact t
  rw [← c, ZMod.val_natCast_of_lt]
  omega

theorem feReduce_val {h : Fe} (hh : h.Bd 3) : (feReduce h).Red ∧ (feReduce h).val = h.val := by
  obtain ⟨hr, e⟩ := feReduce_spec hh
  refine ⟨hr, ?_⟩
  unfold Fe.val
  rw [e]
  push_cast
  rw [ZMod.natCast_self]
  ring

theorem feFromBytes_val (s : Bytes) (h : s.length = 32) :
    (feFromBytes s).Bd 1 ∧ (feFromBytes s).val = ((leNat s % 2 ^ 255 : Nat) : Fp) := by
  obtain ⟨hb, k, e⟩ := feFromBytes_spec s h
  refine ⟨hb, ?_⟩
  have := congrArg (Int.cast : Int → Fp) e
  rw [Int.cast_natCast] at this
  rw [← this]
  unfold Fe.val
  push_cast
  rw [ZMod.natCast_self]
  ring

/-! ## Parity and zero -/

theorem leNat_mod_two (s : Bytes) : leNat s % 2 = at' s 0 % 2 := by
  cases s with
  | nil => rfl
  | cons b t =>
    simp only [leNat, at', List.getD_cons_zero]
    omega

theorem feIsNegative_spec {f : Fe} (h : f.Bd 3) : (feIsNegative f).toNat = f.val.val % 2 := by
  rw [← feToBytes_spec h, leNat_mod_two]
  unfold feIsNegative at'
  rw [UInt8.toNat_and]
  exact Nat.and_one_is_mod _

theorem foldl_or_zero (l : Bytes) (x : UInt8) :
    l.foldl (fun x b => x ||| b) x = 0 ↔ x = 0 ∧ ∀ b ∈ l, b = 0 := by
  induction l generalizing x with
  | nil => simp
  | cons b t ih =>
    rw [List.foldl_cons, ih]
    constructor
    · rintro ⟨h, k⟩
      rw [UInt8.or_eq_zero_iff] at h
      exact ⟨h.1, by simpa using ⟨h.2, k⟩⟩
    · rintro ⟨h, k⟩
      have := k b (by simp)
      exact ⟨by simp [h, this], fun c hc => k c (by simp [hc])⟩

theorem leNat_eq_zero (l : Bytes) : leNat l = 0 ↔ ∀ b ∈ l, b = 0 := by
  induction l with
  | nil => simp [leNat]
  | cons b t ih =>
    simp only [leNat, List.mem_cons, forall_eq_or_imp, ← ih]
    rw [← UInt8.toNat_inj]
    simp only [UInt8.toNat_zero]
    omega

theorem smear (x : UInt8) : ((x ||| x >>> 4) ||| (x ||| x >>> 4) >>> 2 |||
    ((x ||| x >>> 4) ||| (x ||| x >>> 4) >>> 2) >>> 1) &&& 1 = if x = 0 then 0 else 1 := by
  revert x
  apply UInt8.forall_of_fin
  decide +kernel

theorem feIsNonZero_spec {f : Fe} (h : f.Bd 3) : feIsNonZero f = if f.val = 0 then 0 else 1 := by
  unfold feIsNonZero
  dsimp only
  rw [smear]
  have e : (feToBytes f).foldl (fun x b => x ||| b) 0 = 0 ↔ f.val = 0 := by
    rw [foldl_or_zero, ← leNat_eq_zero, feToBytes_spec h, ZMod.val_eq_zero]
    simp
  simp only [e]

end Verif.Kyber
