import Verif.Model.Kyber.Field
import Verif.Ed25519.Primes
import Mathlib.Tactic.Ring
import Mathlib.Tactic.Linarith
import Mathlib.Tactic.IntervalCases
import Mathlib.Data.ZMod.Basic

/-!
# The limb arithmetic of `fe.go` computes in the field of `2^255 - 19` elements
-/

namespace Verif.Kyber

/-- The prime `2^255 - 19`. -/
@[irreducible] def prime25519 : Nat := 57896044618658097711785492504343953926634992332820282019728792003956564819949

theorem prime25519_eq : prime25519 = 2 ^ 255 - 19 := by
  unfold prime25519
  decide +kernel

theorem prime25519_prime : Nat.Prime prime25519 := by
  unfold prime25519
  exact prime_field

instance : Fact (Nat.Prime prime25519) := ⟨prime25519_prime⟩

/-- The field of `2^255 - 19` elements. -/
abbrev Fp := ZMod prime25519

theorem w32_eq {x : Int} (h : |x| ≤ 2147483647) : w32 x = x := by
  rw [abs_le] at h
  unfold w32
  apply Int.bmod_eq_of_le <;> omega

theorem w64_eq {x : Int} (h : |x| ≤ 9223372036854775807) : w64 x = x := by
  rw [abs_le] at h
  unfold w64
  apply Int.bmod_eq_of_le <;> omega

theorem w64_of_eq {x y : Int} (e : x = y) (h : |y| ≤ 4611686018427387904) : w64 x = y := by
  subst e
  exact w64_eq (by omega)

theorem w64_idem (a : Int) : w64 (w64 a) = w64 a := by
  unfold w64; exact Int.bmod_bmod

theorem w64_add {a b c d : Int} (h : w64 a = w64 b) (k : w64 c = w64 d) : w64 (a + c) = w64 (b + d) := by
  unfold w64 at *
  rw [← Int.bmod_add_bmod, h, Int.bmod_add_bmod, ← Int.add_bmod_bmod, k, Int.add_bmod_bmod]

theorem mul_bound {a b A B : Int} (ha : |a| ≤ A) (hb : |b| ≤ B) : |a * b| ≤ A * B := by
  rw [abs_mul]
  exact mul_le_mul ha hb (abs_nonneg _) (le_trans (abs_nonneg _) ha)

/-- The integer that ten limbs stand for. -/
def Fe.int (f : Fe) : Int :=
  f.l0 + 67108864 * f.l1 + 2251799813685248 * f.l2 + 151115727451828646838272 * f.l3 + 5070602400912917605986812821504 * f.l4 + 340282366920938463463374607431768211456 * f.l5 + 11417981541647679048466287755595961091061972992 * f.l6 + 766247770432944429179173513575154591809369561091801088 * f.l7 + 25711008708143844408671393477458601640355247900524685364822016 * f.l8 + 1725436586697640946858688965569256363112777243042596638790631055949824 * f.l9

/-- The field element that ten limbs stand for. -/
def Fe.val (f : Fe) : Fp := (f.int : Fp)

/-- Bounds on the limbs, in units of the bounds of a reduced element. -/
def Fe.Bd (n : Int) (f : Fe) : Prop :=
  |f.l0| ≤ n * 33554432 ∧ |f.l1| ≤ n * 16908288 ∧ |f.l2| ≤ n * 33554432 ∧ |f.l3| ≤ n * 16908288 ∧ |f.l4| ≤ n * 33554432 ∧ |f.l5| ≤ n * 16908288 ∧ |f.l6| ≤ n * 33554432 ∧ |f.l7| ≤ n * 16908288 ∧ |f.l8| ≤ n * 33554432 ∧ |f.l9| ≤ n * 16908288

theorem Fe.Bd.mono {f : Fe} {m n : Int} (h : f.Bd m) (hm : m ≤ n) : f.Bd n := by
  unfold Fe.Bd at *
  simp only [abs_le] at *
  omega

/-! ## Carries -/

theorem round26_spec {h n : Int} (hh : |h| ≤ 4611686018427387904 + 2 ^ 38)
    (hn : |n| ≤ 4611686018427387904 + 2 ^ 38) :
    ∃ c, round26 h n = (h - 67108864 * c, n + c) ∧ |h - 67108864 * c| ≤ 33554432 := by
  refine ⟨(h + 33554432) / 67108864, ?_, ?_⟩
  · rw [abs_le] at *
    unfold round26
    rw [w64_eq (x := h + 2 ^ 25) (by rw [abs_le]; omega)]
    norm_num only
    rw [w64_eq (x := (h + 33554432) / 67108864 * 67108864) (by rw [abs_le]; omega),
      w64_eq (x := h - _) (by rw [abs_le]; omega), w64_eq (x := n + _) (by rw [abs_le]; omega),
      Int.mul_comm]
  · rw [abs_le]; omega

theorem round25_spec {h n : Int} (hh : |h| ≤ 4611686018427387904 + 2 ^ 38)
    (hn : |n| ≤ 4611686018427387904 + 2 ^ 38) :
    ∃ c, round25 h n = (h - 33554432 * c, n + c) ∧ |h - 33554432 * c| ≤ 16777216 := by
  refine ⟨(h + 16777216) / 33554432, ?_, ?_⟩
  · rw [abs_le] at *
    unfold round25
    rw [w64_eq (x := h + 2 ^ 24) (by rw [abs_le]; omega)]
    norm_num only
    rw [w64_eq (x := (h + 16777216) / 33554432 * 33554432) (by rw [abs_le]; omega),
      w64_eq (x := h - _) (by rw [abs_le]; omega), w64_eq (x := n + _) (by rw [abs_le]; omega),
      Int.mul_comm]
  · rw [abs_le]; omega

theorem roundTop_spec {h n : Int} (hh : |h| ≤ 4611686018427387904 + 2 ^ 38)
    (hn : |n| ≤ 4611686018427387904 + 2 ^ 38) :
    ∃ c, roundTop h n = (h - 33554432 * c, n + 19 * c) ∧ |h - 33554432 * c| ≤ 16777216 := by
  refine ⟨(h + 16777216) / 33554432, ?_, ?_⟩
  · rw [abs_le] at *
    unfold roundTop
    rw [w64_eq (x := h + 2 ^ 24) (by rw [abs_le]; omega)]
    norm_num only
    rw [w64_eq (x := (h + 16777216) / 33554432 * 33554432) (by rw [abs_le]; omega),
      w64_eq (x := (h + 16777216) / 33554432 * 19) (by rw [abs_le]; omega),
      w64_eq (x := h - _) (by rw [abs_le]; omega), w64_eq (x := n + _) (by rw [abs_le]; omega),
      Int.mul_comm, Int.mul_comm 19]
  · rw [abs_le]; omega

theorem feCarry_spec {h0 h1 h2 h3 h4 h5 h6 h7 h8 h9 : Int}
    (b0 : |h0| ≤ 4611686018427387904) (b1 : |h1| ≤ 4611686018427387904) (b2 : |h2| ≤ 4611686018427387904) (b3 : |h3| ≤ 4611686018427387904) (b4 : |h4| ≤ 4611686018427387904) (b5 : |h5| ≤ 4611686018427387904) (b6 : |h6| ≤ 4611686018427387904) (b7 : |h7| ≤ 4611686018427387904) (b8 : |h8| ≤ 4611686018427387904) (b9 : |h9| ≤ 4611686018427387904) :
    (feCarry h0 h1 h2 h3 h4 h5 h6 h7 h8 h9).Bd 1 ∧
      ((feCarry h0 h1 h2 h3 h4 h5 h6 h7 h8 h9).int : Fp) =
        ((Fe.int ⟨h0, h1, h2, h3, h4, h5, h6, h7, h8, h9⟩ : Int) : Fp) := by
  unfold feCarry
  obtain ⟨c0, e0, a0⟩ := round26_spec (h := h0) (n := h1) (by rw [abs_le] at *; omega) (by rw [abs_le] at *; omega)
  rw [e0]; dsimp only
  obtain ⟨n0a, f0a⟩ : ∃ x, x = h0 - 67108864 * c0 := ⟨_, rfl⟩
  obtain ⟨n0b, f0b⟩ : ∃ x, x = h1 + c0 := ⟨_, rfl⟩
  rw [← f0a] at a0
  rw [← f0a, ← f0b]
  have d0 : |n0b| ≤ 4611686087146864641 := by rw [abs_le] at *; omega
  obtain ⟨c1, e1, a1⟩ := round26_spec (h := h4) (n := h5) (by rw [abs_le] at *; omega) (by rw [abs_le] at *; omega)
  rw [e1]; dsimp only
  obtain ⟨n1a, f1a⟩ : ∃ x, x = h4 - 67108864 * c1 := ⟨_, rfl⟩
  obtain ⟨n1b, f1b⟩ : ∃ x, x = h5 + c1 := ⟨_, rfl⟩
  rw [← f1a] at a1
  rw [← f1a, ← f1b]
  have d1 : |n1b| ≤ 4611686087146864641 := by rw [abs_le] at *; omega
  obtain ⟨c2, e2, a2⟩ := round25_spec (h := n0b) (n := h2) (by rw [abs_le] at *; omega) (by rw [abs_le] at *; omega)
  rw [e2]; dsimp only
  obtain ⟨n2a, f2a⟩ : ∃ x, x = n0b - 33554432 * c2 := ⟨_, rfl⟩
  obtain ⟨n2b, f2b⟩ : ∃ x, x = h2 + c2 := ⟨_, rfl⟩
  rw [← f2a] at a2
  rw [← f2a, ← f2b]
  have d2 : |n2b| ≤ 4611686155866343425 := by rw [abs_le] at *; omega
  obtain ⟨c3, e3, a3⟩ := round25_spec (h := n1b) (n := h6) (by rw [abs_le] at *; omega) (by rw [abs_le] at *; omega)
  rw [e3]; dsimp only
  obtain ⟨n3a, f3a⟩ : ∃ x, x = n1b - 33554432 * c3 := ⟨_, rfl⟩
  obtain ⟨n3b, f3b⟩ : ∃ x, x = h6 + c3 := ⟨_, rfl⟩
  rw [← f3a] at a3
  rw [← f3a, ← f3b]
  have d3 : |n3b| ≤ 4611686155866343425 := by rw [abs_le] at *; omega
  obtain ⟨c4, e4, a4⟩ := round26_spec (h := n2b) (n := h3) (by rw [abs_le] at *; omega) (by rw [abs_le] at *; omega)
  rw [e4]; dsimp only
  obtain ⟨n4a, f4a⟩ : ∃ x, x = n2b - 67108864 * c4 := ⟨_, rfl⟩
  obtain ⟨n4b, f4b⟩ : ∃ x, x = h3 + c4 := ⟨_, rfl⟩
  rw [← f4a] at a4
  rw [← f4a, ← f4b]
  have d4 : |n4b| ≤ 4611686087146866689 := by rw [abs_le] at *; omega
  obtain ⟨c5, e5, a5⟩ := round26_spec (h := n3b) (n := h7) (by rw [abs_le] at *; omega) (by rw [abs_le] at *; omega)
  rw [e5]; dsimp only
  obtain ⟨n5a, f5a⟩ : ∃ x, x = n3b - 67108864 * c5 := ⟨_, rfl⟩
  obtain ⟨n5b, f5b⟩ : ∃ x, x = h7 + c5 := ⟨_, rfl⟩
  rw [← f5a] at a5
  rw [← f5a, ← f5b]
  have d5 : |n5b| ≤ 4611686087146866689 := by rw [abs_le] at *; omega
  obtain ⟨c6, e6, a6⟩ := round25_spec (h := n4b) (n := n1a) (by rw [abs_le] at *; omega) (by rw [abs_le] at *; omega)
  rw [e6]; dsimp only
  obtain ⟨n6a, f6a⟩ : ∃ x, x = n4b - 33554432 * c6 := ⟨_, rfl⟩
  obtain ⟨n6b, f6b⟩ : ∃ x, x = n1a + c6 := ⟨_, rfl⟩
  rw [← f6a] at a6
  rw [← f6a, ← f6b]
  have d6 : |n6b| ≤ 137472509953 := by rw [abs_le] at *; omega
  obtain ⟨c7, e7, a7⟩ := round25_spec (h := n5b) (n := h8) (by rw [abs_le] at *; omega) (by rw [abs_le] at *; omega)
  rw [e7]; dsimp only
  obtain ⟨n7a, f7a⟩ : ∃ x, x = n5b - 33554432 * c7 := ⟨_, rfl⟩
  obtain ⟨n7b, f7b⟩ : ∃ x, x = h8 + c7 := ⟨_, rfl⟩
  rw [← f7a] at a7
  rw [← f7a, ← f7b]
  have d7 : |n7b| ≤ 4611686155866343425 := by rw [abs_le] at *; omega
  obtain ⟨c8, e8, a8⟩ := round26_spec (h := n6b) (n := n3a) (by rw [abs_le] at *; omega) (by rw [abs_le] at *; omega)
  rw [e8]; dsimp only
  obtain ⟨n8a, f8a⟩ : ∃ x, x = n6b - 67108864 * c8 := ⟨_, rfl⟩
  obtain ⟨n8b, f8b⟩ : ∃ x, x = n3a + c8 := ⟨_, rfl⟩
  rw [← f8a] at a8
  rw [← f8a, ← f8b]
  have d8 : |n8b| ≤ 16779266 := by rw [abs_le] at *; omega
  obtain ⟨c9, e9, a9⟩ := round26_spec (h := n7b) (n := h9) (by rw [abs_le] at *; omega) (by rw [abs_le] at *; omega)
  rw [e9]; dsimp only
  obtain ⟨n9a, f9a⟩ : ∃ x, x = n7b - 67108864 * c9 := ⟨_, rfl⟩
  obtain ⟨n9b, f9b⟩ : ∃ x, x = h9 + c9 := ⟨_, rfl⟩
  rw [← f9a] at a9
  rw [← f9a, ← f9b]
  have d9 : |n9b| ≤ 4611686087146866689 := by rw [abs_le] at *; omega
  obtain ⟨c10, e10, a10⟩ := roundTop_spec (h := n9b) (n := n0a) (by rw [abs_le] at *; omega) (by rw [abs_le] at *; omega)
  rw [e10]; dsimp only
  obtain ⟨n10a, f10a⟩ : ∃ x, x = n9b - 33554432 * c10 := ⟨_, rfl⟩
  obtain ⟨n10b, f10b⟩ : ∃ x, x = n0a + 19 * c10 := ⟨_, rfl⟩
  rw [← f10a] at a10
  rw [← f10a, ← f10b]
  have d10 : |n10b| ≤ 2611373709331 := by rw [abs_le] at *; omega
  obtain ⟨c11, e11, a11⟩ := round26_spec (h := n10b) (n := n2a) (by rw [abs_le] at *; omega) (by rw [abs_le] at *; omega)
  rw [e11]; dsimp only
  obtain ⟨n11a, f11a⟩ : ∃ x, x = n10b - 67108864 * c11 := ⟨_, rfl⟩
  obtain ⟨n11b, f11b⟩ : ∃ x, x = n2a + c11 := ⟨_, rfl⟩
  rw [← f11a] at a11
  rw [← f11a, ← f11b]
  have d11 : |n11b| ≤ 16816130 := by rw [abs_le] at *; omega
  rw [w32_eq (x := n11a) (by rw [abs_le] at *; omega), w32_eq (x := n11b) (by rw [abs_le] at *; omega), w32_eq (x := n4a) (by rw [abs_le] at *; omega), w32_eq (x := n6a) (by rw [abs_le] at *; omega), w32_eq (x := n8a) (by rw [abs_le] at *; omega), w32_eq (x := n8b) (by rw [abs_le] at *; omega), w32_eq (x := n5a) (by rw [abs_le] at *; omega), w32_eq (x := n7a) (by rw [abs_le] at *; omega), w32_eq (x := n9a) (by rw [abs_le] at *; omega), w32_eq (x := n10a) (by rw [abs_le] at *; omega)]
  constructor
  · refine ⟨?_, ?_, ?_, ?_, ?_, ?_, ?_, ?_, ?_, ?_⟩ <;> dsimp only <;> rw [abs_le] at * <;> omega
  · have key : Fe.int ⟨n11a, n11b, n4a, n6a, n8a, n8b, n5a, n7a, n9a, n10a⟩ = Fe.int ⟨h0, h1, h2, h3, h4, h5, h6, h7, h8, h9⟩ - (prime25519 : Int) * c10 := by
      unfold Fe.int prime25519
      dsimp only
      push_cast
      subst f11a f11b f10a f10b f9a f9b f8a f8b f7a f7b f6a f6b f5a f5b f4a f4b f3a f3b f2a f2b f1a f1b f0a f0b
      ring
    rw [key]
    push_cast
    rw [ZMod.natCast_self]
    ring

/-! ## Products -/

theorem feMul_eq {f g : Fe} (hf : f.Bd 3) (hg : g.Bd 3) :
    feMul f g = feCarry
      (f.l0 * g.l0 + 38 * (f.l1 * g.l9) + 19 * (f.l2 * g.l8) + 38 * (f.l3 * g.l7) + 19 * (f.l4 * g.l6) + 38 * (f.l5 * g.l5) + 19 * (f.l6 * g.l4) + 38 * (f.l7 * g.l3) + 19 * (f.l8 * g.l2) + 38 * (f.l9 * g.l1))
      (f.l0 * g.l1 + f.l1 * g.l0 + 19 * (f.l2 * g.l9) + 19 * (f.l3 * g.l8) + 19 * (f.l4 * g.l7) + 19 * (f.l5 * g.l6) + 19 * (f.l6 * g.l5) + 19 * (f.l7 * g.l4) + 19 * (f.l8 * g.l3) + 19 * (f.l9 * g.l2))
      (f.l0 * g.l2 + 2 * (f.l1 * g.l1) + f.l2 * g.l0 + 38 * (f.l3 * g.l9) + 19 * (f.l4 * g.l8) + 38 * (f.l5 * g.l7) + 19 * (f.l6 * g.l6) + 38 * (f.l7 * g.l5) + 19 * (f.l8 * g.l4) + 38 * (f.l9 * g.l3))
      (f.l0 * g.l3 + f.l1 * g.l2 + f.l2 * g.l1 + f.l3 * g.l0 + 19 * (f.l4 * g.l9) + 19 * (f.l5 * g.l8) + 19 * (f.l6 * g.l7) + 19 * (f.l7 * g.l6) + 19 * (f.l8 * g.l5) + 19 * (f.l9 * g.l4))
      (f.l0 * g.l4 + 2 * (f.l1 * g.l3) + f.l2 * g.l2 + 2 * (f.l3 * g.l1) + f.l4 * g.l0 + 38 * (f.l5 * g.l9) + 19 * (f.l6 * g.l8) + 38 * (f.l7 * g.l7) + 19 * (f.l8 * g.l6) + 38 * (f.l9 * g.l5))
      (f.l0 * g.l5 + f.l1 * g.l4 + f.l2 * g.l3 + f.l3 * g.l2 + f.l4 * g.l1 + f.l5 * g.l0 + 19 * (f.l6 * g.l9) + 19 * (f.l7 * g.l8) + 19 * (f.l8 * g.l7) + 19 * (f.l9 * g.l6))
      (f.l0 * g.l6 + 2 * (f.l1 * g.l5) + f.l2 * g.l4 + 2 * (f.l3 * g.l3) + f.l4 * g.l2 + 2 * (f.l5 * g.l1) + f.l6 * g.l0 + 38 * (f.l7 * g.l9) + 19 * (f.l8 * g.l8) + 38 * (f.l9 * g.l7))
      (f.l0 * g.l7 + f.l1 * g.l6 + f.l2 * g.l5 + f.l3 * g.l4 + f.l4 * g.l3 + f.l5 * g.l2 + f.l6 * g.l1 + f.l7 * g.l0 + 19 * (f.l8 * g.l9) + 19 * (f.l9 * g.l8))
      (f.l0 * g.l8 + 2 * (f.l1 * g.l7) + f.l2 * g.l6 + 2 * (f.l3 * g.l5) + f.l4 * g.l4 + 2 * (f.l5 * g.l3) + f.l6 * g.l2 + 2 * (f.l7 * g.l1) + f.l8 * g.l0 + 38 * (f.l9 * g.l9))
      (f.l0 * g.l9 + f.l1 * g.l8 + f.l2 * g.l7 + f.l3 * g.l6 + f.l4 * g.l5 + f.l5 * g.l4 + f.l6 * g.l3 + f.l7 * g.l2 + f.l8 * g.l1 + f.l9 * g.l0) ∧
    |f.l0 * g.l0 + 38 * (f.l1 * g.l9) + 19 * (f.l2 * g.l8) + 38 * (f.l3 * g.l7) + 19 * (f.l4 * g.l6) + 38 * (f.l5 * g.l5) + 19 * (f.l6 * g.l4) + 38 * (f.l7 * g.l3) + 19 * (f.l8 * g.l2) + 38 * (f.l9 * g.l1)| ≤ 4611686018427387904 ∧
    |f.l0 * g.l1 + f.l1 * g.l0 + 19 * (f.l2 * g.l9) + 19 * (f.l3 * g.l8) + 19 * (f.l4 * g.l7) + 19 * (f.l5 * g.l6) + 19 * (f.l6 * g.l5) + 19 * (f.l7 * g.l4) + 19 * (f.l8 * g.l3) + 19 * (f.l9 * g.l2)| ≤ 4611686018427387904 ∧
    |f.l0 * g.l2 + 2 * (f.l1 * g.l1) + f.l2 * g.l0 + 38 * (f.l3 * g.l9) + 19 * (f.l4 * g.l8) + 38 * (f.l5 * g.l7) + 19 * (f.l6 * g.l6) + 38 * (f.l7 * g.l5) + 19 * (f.l8 * g.l4) + 38 * (f.l9 * g.l3)| ≤ 4611686018427387904 ∧
    |f.l0 * g.l3 + f.l1 * g.l2 + f.l2 * g.l1 + f.l3 * g.l0 + 19 * (f.l4 * g.l9) + 19 * (f.l5 * g.l8) + 19 * (f.l6 * g.l7) + 19 * (f.l7 * g.l6) + 19 * (f.l8 * g.l5) + 19 * (f.l9 * g.l4)| ≤ 4611686018427387904 ∧
    |f.l0 * g.l4 + 2 * (f.l1 * g.l3) + f.l2 * g.l2 + 2 * (f.l3 * g.l1) + f.l4 * g.l0 + 38 * (f.l5 * g.l9) + 19 * (f.l6 * g.l8) + 38 * (f.l7 * g.l7) + 19 * (f.l8 * g.l6) + 38 * (f.l9 * g.l5)| ≤ 4611686018427387904 ∧
    |f.l0 * g.l5 + f.l1 * g.l4 + f.l2 * g.l3 + f.l3 * g.l2 + f.l4 * g.l1 + f.l5 * g.l0 + 19 * (f.l6 * g.l9) + 19 * (f.l7 * g.l8) + 19 * (f.l8 * g.l7) + 19 * (f.l9 * g.l6)| ≤ 4611686018427387904 ∧
    |f.l0 * g.l6 + 2 * (f.l1 * g.l5) + f.l2 * g.l4 + 2 * (f.l3 * g.l3) + f.l4 * g.l2 + 2 * (f.l5 * g.l1) + f.l6 * g.l0 + 38 * (f.l7 * g.l9) + 19 * (f.l8 * g.l8) + 38 * (f.l9 * g.l7)| ≤ 4611686018427387904 ∧
    |f.l0 * g.l7 + f.l1 * g.l6 + f.l2 * g.l5 + f.l3 * g.l4 + f.l4 * g.l3 + f.l5 * g.l2 + f.l6 * g.l1 + f.l7 * g.l0 + 19 * (f.l8 * g.l9) + 19 * (f.l9 * g.l8)| ≤ 4611686018427387904 ∧
    |f.l0 * g.l8 + 2 * (f.l1 * g.l7) + f.l2 * g.l6 + 2 * (f.l3 * g.l5) + f.l4 * g.l4 + 2 * (f.l5 * g.l3) + f.l6 * g.l2 + 2 * (f.l7 * g.l1) + f.l8 * g.l0 + 38 * (f.l9 * g.l9)| ≤ 4611686018427387904 ∧
    |f.l0 * g.l9 + f.l1 * g.l8 + f.l2 * g.l7 + f.l3 * g.l6 + f.l4 * g.l5 + f.l5 * g.l4 + f.l6 * g.l3 + f.l7 * g.l2 + f.l8 * g.l1 + f.l9 * g.l0| ≤ 4611686018427387904 := by
  have hf0 := hf.1
  have hf1 := hf.2.1
  have hf2 := hf.2.2.1
  have hf3 := hf.2.2.2.1
  have hf4 := hf.2.2.2.2.1
  have hf5 := hf.2.2.2.2.2.1
  have hf6 := hf.2.2.2.2.2.2.1
  have hf7 := hf.2.2.2.2.2.2.2.1
  have hf8 := hf.2.2.2.2.2.2.2.2.1
  have hf9 := hf.2.2.2.2.2.2.2.2.2
  have hg0 := hg.1
  have hg1 := hg.2.1
  have hg2 := hg.2.2.1
  have hg3 := hg.2.2.2.1
  have hg4 := hg.2.2.2.2.1
  have hg5 := hg.2.2.2.2.2.1
  have hg6 := hg.2.2.2.2.2.2.1
  have hg7 := hg.2.2.2.2.2.2.2.1
  have hg8 := hg.2.2.2.2.2.2.2.2.1
  have hg9 := hg.2.2.2.2.2.2.2.2.2
  have m00 := mul_bound hf0 hg0
  have m01 := mul_bound hf0 hg1
  have m02 := mul_bound hf0 hg2
  have m03 := mul_bound hf0 hg3
  have m04 := mul_bound hf0 hg4
  have m05 := mul_bound hf0 hg5
  have m06 := mul_bound hf0 hg6
  have m07 := mul_bound hf0 hg7
  have m08 := mul_bound hf0 hg8
  have m09 := mul_bound hf0 hg9
  have m10 := mul_bound hf1 hg0
  have m11 := mul_bound hf1 hg1
  have m12 := mul_bound hf1 hg2
  have m13 := mul_bound hf1 hg3
  have m14 := mul_bound hf1 hg4
  have m15 := mul_bound hf1 hg5
  have m16 := mul_bound hf1 hg6
  have m17 := mul_bound hf1 hg7
  have m18 := mul_bound hf1 hg8
  have m19 := mul_bound hf1 hg9
  have m20 := mul_bound hf2 hg0
  have m21 := mul_bound hf2 hg1
  have m22 := mul_bound hf2 hg2
  have m23 := mul_bound hf2 hg3
  have m24 := mul_bound hf2 hg4
  have m25 := mul_bound hf2 hg5
  have m26 := mul_bound hf2 hg6
  have m27 := mul_bound hf2 hg7
  have m28 := mul_bound hf2 hg8
  have m29 := mul_bound hf2 hg9
  have m30 := mul_bound hf3 hg0
  have m31 := mul_bound hf3 hg1
  have m32 := mul_bound hf3 hg2
  have m33 := mul_bound hf3 hg3
  have m34 := mul_bound hf3 hg4
  have m35 := mul_bound hf3 hg5
  have m36 := mul_bound hf3 hg6
  have m37 := mul_bound hf3 hg7
  have m38 := mul_bound hf3 hg8
  have m39 := mul_bound hf3 hg9
  have m40 := mul_bound hf4 hg0
  have m41 := mul_bound hf4 hg1
  have m42 := mul_bound hf4 hg2
  have m43 := mul_bound hf4 hg3
  have m44 := mul_bound hf4 hg4
  have m45 := mul_bound hf4 hg5
  have m46 := mul_bound hf4 hg6
  have m47 := mul_bound hf4 hg7
  have m48 := mul_bound hf4 hg8
  have m49 := mul_bound hf4 hg9
  have m50 := mul_bound hf5 hg0
  have m51 := mul_bound hf5 hg1
  have m52 := mul_bound hf5 hg2
  have m53 := mul_bound hf5 hg3
  have m54 := mul_bound hf5 hg4
  have m55 := mul_bound hf5 hg5
  have m56 := mul_bound hf5 hg6
  have m57 := mul_bound hf5 hg7
  have m58 := mul_bound hf5 hg8
  have m59 := mul_bound hf5 hg9
  have m60 := mul_bound hf6 hg0
  have m61 := mul_bound hf6 hg1
  have m62 := mul_bound hf6 hg2
  have m63 := mul_bound hf6 hg3
  have m64 := mul_bound hf6 hg4
  have m65 := mul_bound hf6 hg5
  have m66 := mul_bound hf6 hg6
  have m67 := mul_bound hf6 hg7
  have m68 := mul_bound hf6 hg8
  have m69 := mul_bound hf6 hg9
  have m70 := mul_bound hf7 hg0
  have m71 := mul_bound hf7 hg1
  have m72 := mul_bound hf7 hg2
  have m73 := mul_bound hf7 hg3
  have m74 := mul_bound hf7 hg4
  have m75 := mul_bound hf7 hg5
  have m76 := mul_bound hf7 hg6
  have m77 := mul_bound hf7 hg7
  have m78 := mul_bound hf7 hg8
  have m79 := mul_bound hf7 hg9
  have m80 := mul_bound hf8 hg0
  have m81 := mul_bound hf8 hg1
  have m82 := mul_bound hf8 hg2
  have m83 := mul_bound hf8 hg3
  have m84 := mul_bound hf8 hg4
  have m85 := mul_bound hf8 hg5
  have m86 := mul_bound hf8 hg6
  have m87 := mul_bound hf8 hg7
  have m88 := mul_bound hf8 hg8
  have m89 := mul_bound hf8 hg9
  have m90 := mul_bound hf9 hg0
  have m91 := mul_bound hf9 hg1
  have m92 := mul_bound hf9 hg2
  have m93 := mul_bound hf9 hg3
  have m94 := mul_bound hf9 hg4
  have m95 := mul_bound hf9 hg5
  have m96 := mul_bound hf9 hg6
  have m97 := mul_bound hf9 hg7
  have m98 := mul_bound hf9 hg8
  have m99 := mul_bound hf9 hg9
  have p0 : |f.l0 * g.l0 + 38 * (f.l1 * g.l9) + 19 * (f.l2 * g.l8) + 38 * (f.l3 * g.l7) + 19 * (f.l4 * g.l6) + 38 * (f.l5 * g.l5) + 19 * (f.l6 * g.l4) + 38 * (f.l7 * g.l3) + 19 * (f.l8 * g.l2) + 38 * (f.l9 * g.l1)| ≤ 4611686018427387904 := by
    have t := abs_le.1 m00
    have t1 := abs_le.1 m19
    have t2 := abs_le.1 m28
    have t3 := abs_le.1 m37
    have t4 := abs_le.1 m46
    have t5 := abs_le.1 m55
    have t6 := abs_le.1 m64
    have t7 := abs_le.1 m73
    have t8 := abs_le.1 m82
    have t9 := abs_le.1 m91
    rw [abs_le]
    clear m00 m01 m02 m03 m04 m05 m06 m07 m08 m09 m10 m11 m12 m13 m14 m15 m16 m17 m18 m19 m20 m21 m22 m23 m24 m25 m26 m27 m28 m29 m30 m31 m32 m33 m34 m35 m36 m37 m38 m39 m40 m41 m42 m43 m44 m45 m46 m47 m48 m49 m50 m51 m52 m53 m54 m55 m56 m57 m58 m59 m60 m61 m62 m63 m64 m65 m66 m67 m68 m69 m70 m71 m72 m73 m74 m75 m76 m77 m78 m79 m80 m81 m82 m83 m84 m85 m86 m87 m88 m89 m90 m91 m92 m93 m94 m95 m96 m97 m98 m99
    omega
  have p1 : |f.l0 * g.l1 + f.l1 * g.l0 + 19 * (f.l2 * g.l9) + 19 * (f.l3 * g.l8) + 19 * (f.l4 * g.l7) + 19 * (f.l5 * g.l6) + 19 * (f.l6 * g.l5) + 19 * (f.l7 * g.l4) + 19 * (f.l8 * g.l3) + 19 * (f.l9 * g.l2)| ≤ 4611686018427387904 := by
    have t := abs_le.1 m01
    have t1 := abs_le.1 m10
    have t2 := abs_le.1 m29
    have t3 := abs_le.1 m38
    have t4 := abs_le.1 m47
    have t5 := abs_le.1 m56
    have t6 := abs_le.1 m65
    have t7 := abs_le.1 m74
    have t8 := abs_le.1 m83
    have t9 := abs_le.1 m92
    rw [abs_le]
    clear m00 m01 m02 m03 m04 m05 m06 m07 m08 m09 m10 m11 m12 m13 m14 m15 m16 m17 m18 m19 m20 m21 m22 m23 m24 m25 m26 m27 m28 m29 m30 m31 m32 m33 m34 m35 m36 m37 m38 m39 m40 m41 m42 m43 m44 m45 m46 m47 m48 m49 m50 m51 m52 m53 m54 m55 m56 m57 m58 m59 m60 m61 m62 m63 m64 m65 m66 m67 m68 m69 m70 m71 m72 m73 m74 m75 m76 m77 m78 m79 m80 m81 m82 m83 m84 m85 m86 m87 m88 m89 m90 m91 m92 m93 m94 m95 m96 m97 m98 m99
    omega
  have p2 : |f.l0 * g.l2 + 2 * (f.l1 * g.l1) + f.l2 * g.l0 + 38 * (f.l3 * g.l9) + 19 * (f.l4 * g.l8) + 38 * (f.l5 * g.l7) + 19 * (f.l6 * g.l6) + 38 * (f.l7 * g.l5) + 19 * (f.l8 * g.l4) + 38 * (f.l9 * g.l3)| ≤ 4611686018427387904 := by
    have t := abs_le.1 m02
    have t1 := abs_le.1 m11
    have t2 := abs_le.1 m20
    have t3 := abs_le.1 m39
    have t4 := abs_le.1 m48
    have t5 := abs_le.1 m57
    have t6 := abs_le.1 m66
    have t7 := abs_le.1 m75
    have t8 := abs_le.1 m84
    have t9 := abs_le.1 m93
    rw [abs_le]
    clear m00 m01 m02 m03 m04 m05 m06 m07 m08 m09 m10 m11 m12 m13 m14 m15 m16 m17 m18 m19 m20 m21 m22 m23 m24 m25 m26 m27 m28 m29 m30 m31 m32 m33 m34 m35 m36 m37 m38 m39 m40 m41 m42 m43 m44 m45 m46 m47 m48 m49 m50 m51 m52 m53 m54 m55 m56 m57 m58 m59 m60 m61 m62 m63 m64 m65 m66 m67 m68 m69 m70 m71 m72 m73 m74 m75 m76 m77 m78 m79 m80 m81 m82 m83 m84 m85 m86 m87 m88 m89 m90 m91 m92 m93 m94 m95 m96 m97 m98 m99
    omega
  have p3 : |f.l0 * g.l3 + f.l1 * g.l2 + f.l2 * g.l1 + f.l3 * g.l0 + 19 * (f.l4 * g.l9) + 19 * (f.l5 * g.l8) + 19 * (f.l6 * g.l7) + 19 * (f.l7 * g.l6) + 19 * (f.l8 * g.l5) + 19 * (f.l9 * g.l4)| ≤ 4611686018427387904 := by
    have t := abs_le.1 m03
    have t1 := abs_le.1 m12
    have t2 := abs_le.1 m21
    have t3 := abs_le.1 m30
    have t4 := abs_le.1 m49
    have t5 := abs_le.1 m58
    have t6 := abs_le.1 m67
    have t7 := abs_le.1 m76
    have t8 := abs_le.1 m85
    have t9 := abs_le.1 m94
    rw [abs_le]
    clear m00 m01 m02 m03 m04 m05 m06 m07 m08 m09 m10 m11 m12 m13 m14 m15 m16 m17 m18 m19 m20 m21 m22 m23 m24 m25 m26 m27 m28 m29 m30 m31 m32 m33 m34 m35 m36 m37 m38 m39 m40 m41 m42 m43 m44 m45 m46 m47 m48 m49 m50 m51 m52 m53 m54 m55 m56 m57 m58 m59 m60 m61 m62 m63 m64 m65 m66 m67 m68 m69 m70 m71 m72 m73 m74 m75 m76 m77 m78 m79 m80 m81 m82 m83 m84 m85 m86 m87 m88 m89 m90 m91 m92 m93 m94 m95 m96 m97 m98 m99
    omega
  have p4 : |f.l0 * g.l4 + 2 * (f.l1 * g.l3) + f.l2 * g.l2 + 2 * (f.l3 * g.l1) + f.l4 * g.l0 + 38 * (f.l5 * g.l9) + 19 * (f.l6 * g.l8) + 38 * (f.l7 * g.l7) + 19 * (f.l8 * g.l6) + 38 * (f.l9 * g.l5)| ≤ 4611686018427387904 := by
    have t := abs_le.1 m04
    have t1 := abs_le.1 m13
    have t2 := abs_le.1 m22
    have t3 := abs_le.1 m31
    have t4 := abs_le.1 m40
    have t5 := abs_le.1 m59
    have t6 := abs_le.1 m68
    have t7 := abs_le.1 m77
    have t8 := abs_le.1 m86
    have t9 := abs_le.1 m95
    rw [abs_le]
    clear m00 m01 m02 m03 m04 m05 m06 m07 m08 m09 m10 m11 m12 m13 m14 m15 m16 m17 m18 m19 m20 m21 m22 m23 m24 m25 m26 m27 m28 m29 m30 m31 m32 m33 m34 m35 m36 m37 m38 m39 m40 m41 m42 m43 m44 m45 m46 m47 m48 m49 m50 m51 m52 m53 m54 m55 m56 m57 m58 m59 m60 m61 m62 m63 m64 m65 m66 m67 m68 m69 m70 m71 m72 m73 m74 m75 m76 m77 m78 m79 m80 m81 m82 m83 m84 m85 m86 m87 m88 m89 m90 m91 m92 m93 m94 m95 m96 m97 m98 m99
    omega
  have p5 : |f.l0 * g.l5 + f.l1 * g.l4 + f.l2 * g.l3 + f.l3 * g.l2 + f.l4 * g.l1 + f.l5 * g.l0 + 19 * (f.l6 * g.l9) + 19 * (f.l7 * g.l8) + 19 * (f.l8 * g.l7) + 19 * (f.l9 * g.l6)| ≤ 4611686018427387904 := by
    have t := abs_le.1 m05
    have t1 := abs_le.1 m14
    have t2 := abs_le.1 m23
    have t3 := abs_le.1 m32
    have t4 := abs_le.1 m41
    have t5 := abs_le.1 m50
    have t6 := abs_le.1 m69
    have t7 := abs_le.1 m78
    have t8 := abs_le.1 m87
    have t9 := abs_le.1 m96
    rw [abs_le]
    clear m00 m01 m02 m03 m04 m05 m06 m07 m08 m09 m10 m11 m12 m13 m14 m15 m16 m17 m18 m19 m20 m21 m22 m23 m24 m25 m26 m27 m28 m29 m30 m31 m32 m33 m34 m35 m36 m37 m38 m39 m40 m41 m42 m43 m44 m45 m46 m47 m48 m49 m50 m51 m52 m53 m54 m55 m56 m57 m58 m59 m60 m61 m62 m63 m64 m65 m66 m67 m68 m69 m70 m71 m72 m73 m74 m75 m76 m77 m78 m79 m80 m81 m82 m83 m84 m85 m86 m87 m88 m89 m90 m91 m92 m93 m94 m95 m96 m97 m98 m99
    omega
  have p6 : |f.l0 * g.l6 + 2 * (f.l1 * g.l5) + f.l2 * g.l4 + 2 * (f.l3 * g.l3) + f.l4 * g.l2 + 2 * (f.l5 * g.l1) + f.l6 * g.l0 + 38 * (f.l7 * g.l9) + 19 * (f.l8 * g.l8) + 38 * (f.l9 * g.l7)| ≤ 4611686018427387904 := by
    have t := abs_le.1 m06
    have t1 := abs_le.1 m15
    have t2 := abs_le.1 m24
    have t3 := abs_le.1 m33
    have t4 := abs_le.1 m42
    have t5 := abs_le.1 m51
    have t6 := abs_le.1 m60
    have t7 := abs_le.1 m79
    have t8 := abs_le.1 m88
    have t9 := abs_le.1 m97
    rw [abs_le]
    clear m00 m01 m02 m03 m04 m05 m06 m07 m08 m09 m10 m11 m12 m13 m14 m15 m16 m17 m18 m19 m20 m21 m22 m23 m24 m25 m26 m27 m28 m29 m30 m31 m32 m33 m34 m35 m36 m37 m38 m39 m40 m41 m42 m43 m44 m45 m46 m47 m48 m49 m50 m51 m52 m53 m54 m55 m56 m57 m58 m59 m60 m61 m62 m63 m64 m65 m66 m67 m68 m69 m70 m71 m72 m73 m74 m75 m76 m77 m78 m79 m80 m81 m82 m83 m84 m85 m86 m87 m88 m89 m90 m91 m92 m93 m94 m95 m96 m97 m98 m99
    omega
  have p7 : |f.l0 * g.l7 + f.l1 * g.l6 + f.l2 * g.l5 + f.l3 * g.l4 + f.l4 * g.l3 + f.l5 * g.l2 + f.l6 * g.l1 + f.l7 * g.l0 + 19 * (f.l8 * g.l9) + 19 * (f.l9 * g.l8)| ≤ 4611686018427387904 := by
    have t := abs_le.1 m07
    have t1 := abs_le.1 m16
    have t2 := abs_le.1 m25
    have t3 := abs_le.1 m34
    have t4 := abs_le.1 m43
    have t5 := abs_le.1 m52
    have t6 := abs_le.1 m61
    have t7 := abs_le.1 m70
    have t8 := abs_le.1 m89
    have t9 := abs_le.1 m98
    rw [abs_le]
    clear m00 m01 m02 m03 m04 m05 m06 m07 m08 m09 m10 m11 m12 m13 m14 m15 m16 m17 m18 m19 m20 m21 m22 m23 m24 m25 m26 m27 m28 m29 m30 m31 m32 m33 m34 m35 m36 m37 m38 m39 m40 m41 m42 m43 m44 m45 m46 m47 m48 m49 m50 m51 m52 m53 m54 m55 m56 m57 m58 m59 m60 m61 m62 m63 m64 m65 m66 m67 m68 m69 m70 m71 m72 m73 m74 m75 m76 m77 m78 m79 m80 m81 m82 m83 m84 m85 m86 m87 m88 m89 m90 m91 m92 m93 m94 m95 m96 m97 m98 m99
    omega
  have p8 : |f.l0 * g.l8 + 2 * (f.l1 * g.l7) + f.l2 * g.l6 + 2 * (f.l3 * g.l5) + f.l4 * g.l4 + 2 * (f.l5 * g.l3) + f.l6 * g.l2 + 2 * (f.l7 * g.l1) + f.l8 * g.l0 + 38 * (f.l9 * g.l9)| ≤ 4611686018427387904 := by
    have t := abs_le.1 m08
    have t1 := abs_le.1 m17
    have t2 := abs_le.1 m26
    have t3 := abs_le.1 m35
    have t4 := abs_le.1 m44
    have t5 := abs_le.1 m53
    have t6 := abs_le.1 m62
    have t7 := abs_le.1 m71
    have t8 := abs_le.1 m80
    have t9 := abs_le.1 m99
    rw [abs_le]
    clear m00 m01 m02 m03 m04 m05 m06 m07 m08 m09 m10 m11 m12 m13 m14 m15 m16 m17 m18 m19 m20 m21 m22 m23 m24 m25 m26 m27 m28 m29 m30 m31 m32 m33 m34 m35 m36 m37 m38 m39 m40 m41 m42 m43 m44 m45 m46 m47 m48 m49 m50 m51 m52 m53 m54 m55 m56 m57 m58 m59 m60 m61 m62 m63 m64 m65 m66 m67 m68 m69 m70 m71 m72 m73 m74 m75 m76 m77 m78 m79 m80 m81 m82 m83 m84 m85 m86 m87 m88 m89 m90 m91 m92 m93 m94 m95 m96 m97 m98 m99
    omega
  have p9 : |f.l0 * g.l9 + f.l1 * g.l8 + f.l2 * g.l7 + f.l3 * g.l6 + f.l4 * g.l5 + f.l5 * g.l4 + f.l6 * g.l3 + f.l7 * g.l2 + f.l8 * g.l1 + f.l9 * g.l0| ≤ 4611686018427387904 := by
    have t := abs_le.1 m09
    have t1 := abs_le.1 m18
    have t2 := abs_le.1 m27
    have t3 := abs_le.1 m36
    have t4 := abs_le.1 m45
    have t5 := abs_le.1 m54
    have t6 := abs_le.1 m63
    have t7 := abs_le.1 m72
    have t8 := abs_le.1 m81
    have t9 := abs_le.1 m90
    rw [abs_le]
    clear m00 m01 m02 m03 m04 m05 m06 m07 m08 m09 m10 m11 m12 m13 m14 m15 m16 m17 m18 m19 m20 m21 m22 m23 m24 m25 m26 m27 m28 m29 m30 m31 m32 m33 m34 m35 m36 m37 m38 m39 m40 m41 m42 m43 m44 m45 m46 m47 m48 m49 m50 m51 m52 m53 m54 m55 m56 m57 m58 m59 m60 m61 m62 m63 m64 m65 m66 m67 m68 m69 m70 m71 m72 m73 m74 m75 m76 m77 m78 m79 m80 m81 m82 m83 m84 m85 m86 m87 m88 m89 m90 m91 m92 m93 m94 m95 m96 m97 m98 m99
    omega
  refine ⟨?_, p0, p1, p2, p3, p4, p5, p6, p7, p8, p9⟩
  have w2f1 : w32 (2 * f.l1) = 2 * f.l1 := w32_eq (by have := abs_le.1 hf1; rw [abs_le]; omega)
  have w2f3 : w32 (2 * f.l3) = 2 * f.l3 := w32_eq (by have := abs_le.1 hf3; rw [abs_le]; omega)
  have w2f5 : w32 (2 * f.l5) = 2 * f.l5 := w32_eq (by have := abs_le.1 hf5; rw [abs_le]; omega)
  have w2f7 : w32 (2 * f.l7) = 2 * f.l7 := w32_eq (by have := abs_le.1 hf7; rw [abs_le]; omega)
  have w2f9 : w32 (2 * f.l9) = 2 * f.l9 := w32_eq (by have := abs_le.1 hf9; rw [abs_le]; omega)
  have w19g1 : w32 (19 * g.l1) = 19 * g.l1 := w32_eq (by have := abs_le.1 hg1; rw [abs_le]; omega)
  have w19g2 : w32 (19 * g.l2) = 19 * g.l2 := w32_eq (by have := abs_le.1 hg2; rw [abs_le]; omega)
  have w19g3 : w32 (19 * g.l3) = 19 * g.l3 := w32_eq (by have := abs_le.1 hg3; rw [abs_le]; omega)
  have w19g4 : w32 (19 * g.l4) = 19 * g.l4 := w32_eq (by have := abs_le.1 hg4; rw [abs_le]; omega)
  have w19g5 : w32 (19 * g.l5) = 19 * g.l5 := w32_eq (by have := abs_le.1 hg5; rw [abs_le]; omega)
  have w19g6 : w32 (19 * g.l6) = 19 * g.l6 := w32_eq (by have := abs_le.1 hg6; rw [abs_le]; omega)
  have w19g7 : w32 (19 * g.l7) = 19 * g.l7 := w32_eq (by have := abs_le.1 hg7; rw [abs_le]; omega)
  have w19g8 : w32 (19 * g.l8) = 19 * g.l8 := w32_eq (by have := abs_le.1 hg8; rw [abs_le]; omega)
  have w19g9 : w32 (19 * g.l9) = 19 * g.l9 := w32_eq (by have := abs_le.1 hg9; rw [abs_le]; omega)
  unfold feMul
  simp only [w2f1, w2f3, w2f5, w2f7, w2f9, w19g1, w19g2, w19g3, w19g4, w19g5, w19g6, w19g7, w19g8, w19g9]
  congr 1
  · exact Eq.trans (w64_add (w64_add (w64_add (w64_add (w64_add (w64_add (w64_add (w64_add (w64_add (w64_idem _) (w64_idem _)) (w64_idem _)) (w64_idem _)) (w64_idem _)) (w64_idem _)) (w64_idem _)) (w64_idem _)) (w64_idem _)) (w64_idem _)) (w64_of_eq (by ring) p0)
  · exact Eq.trans (w64_add (w64_add (w64_add (w64_add (w64_add (w64_add (w64_add (w64_add (w64_add (w64_idem _) (w64_idem _)) (w64_idem _)) (w64_idem _)) (w64_idem _)) (w64_idem _)) (w64_idem _)) (w64_idem _)) (w64_idem _)) (w64_idem _)) (w64_of_eq (by ring) p1)
  · exact Eq.trans (w64_add (w64_add (w64_add (w64_add (w64_add (w64_add (w64_add (w64_add (w64_add (w64_idem _) (w64_idem _)) (w64_idem _)) (w64_idem _)) (w64_idem _)) (w64_idem _)) (w64_idem _)) (w64_idem _)) (w64_idem _)) (w64_idem _)) (w64_of_eq (by ring) p2)
  · exact Eq.trans (w64_add (w64_add (w64_add (w64_add (w64_add (w64_add (w64_add (w64_add (w64_add (w64_idem _) (w64_idem _)) (w64_idem _)) (w64_idem _)) (w64_idem _)) (w64_idem _)) (w64_idem _)) (w64_idem _)) (w64_idem _)) (w64_idem _)) (w64_of_eq (by ring) p3)
  · exact Eq.trans (w64_add (w64_add (w64_add (w64_add (w64_add (w64_add (w64_add (w64_add (w64_add (w64_idem _) (w64_idem _)) (w64_idem _)) (w64_idem _)) (w64_idem _)) (w64_idem _)) (w64_idem _)) (w64_idem _)) (w64_idem _)) (w64_idem _)) (w64_of_eq (by ring) p4)
  · exact Eq.trans (w64_add (w64_add (w64_add (w64_add (w64_add (w64_add (w64_add (w64_add (w64_add (w64_idem _) (w64_idem _)) (w64_idem _)) (w64_idem _)) (w64_idem _)) (w64_idem _)) (w64_idem _)) (w64_idem _)) (w64_idem _)) (w64_idem _)) (w64_of_eq (by ring) p5)
  · exact Eq.trans (w64_add (w64_add (w64_add (w64_add (w64_add (w64_add (w64_add (w64_add (w64_add (w64_idem _) (w64_idem _)) (w64_idem _)) (w64_idem _)) (w64_idem _)) (w64_idem _)) (w64_idem _)) (w64_idem _)) (w64_idem _)) (w64_idem _)) (w64_of_eq (by ring) p6)
  · exact Eq.trans (w64_add (w64_add (w64_add (w64_add (w64_add (w64_add (w64_add (w64_add (w64_add (w64_idem _) (w64_idem _)) (w64_idem _)) (w64_idem _)) (w64_idem _)) (w64_idem _)) (w64_idem _)) (w64_idem _)) (w64_idem _)) (w64_idem _)) (w64_of_eq (by ring) p7)
  · exact Eq.trans (w64_add (w64_add (w64_add (w64_add (w64_add (w64_add (w64_add (w64_add (w64_add (w64_idem _) (w64_idem _)) (w64_idem _)) (w64_idem _)) (w64_idem _)) (w64_idem _)) (w64_idem _)) (w64_idem _)) (w64_idem _)) (w64_idem _)) (w64_of_eq (by ring) p8)
  · exact Eq.trans (w64_add (w64_add (w64_add (w64_add (w64_add (w64_add (w64_add (w64_add (w64_add (w64_idem _) (w64_idem _)) (w64_idem _)) (w64_idem _)) (w64_idem _)) (w64_idem _)) (w64_idem _)) (w64_idem _)) (w64_idem _)) (w64_idem _)) (w64_of_eq (by ring) p9)

theorem feMul_spec {f g : Fe} (hf : f.Bd 3) (hg : g.Bd 3) :
    (feMul f g).Bd 1 ∧ (feMul f g).val = f.val * g.val := by
  obtain ⟨e, p0, p1, p2, p3, p4, p5, p6, p7, p8, p9⟩ := feMul_eq hf hg
  have h := feCarry_spec p0 p1 p2 p3 p4 p5 p6 p7 p8 p9
  rw [← e] at h
  refine ⟨h.1, ?_⟩
  have key : f.int * g.int = Fe.int
      ⟨f.l0 * g.l0 + 38 * (f.l1 * g.l9) + 19 * (f.l2 * g.l8) + 38 * (f.l3 * g.l7) + 19 * (f.l4 * g.l6) + 38 * (f.l5 * g.l5) + 19 * (f.l6 * g.l4) + 38 * (f.l7 * g.l3) + 19 * (f.l8 * g.l2) + 38 * (f.l9 * g.l1),
      f.l0 * g.l1 + f.l1 * g.l0 + 19 * (f.l2 * g.l9) + 19 * (f.l3 * g.l8) + 19 * (f.l4 * g.l7) + 19 * (f.l5 * g.l6) + 19 * (f.l6 * g.l5) + 19 * (f.l7 * g.l4) + 19 * (f.l8 * g.l3) + 19 * (f.l9 * g.l2),
      f.l0 * g.l2 + 2 * (f.l1 * g.l1) + f.l2 * g.l0 + 38 * (f.l3 * g.l9) + 19 * (f.l4 * g.l8) + 38 * (f.l5 * g.l7) + 19 * (f.l6 * g.l6) + 38 * (f.l7 * g.l5) + 19 * (f.l8 * g.l4) + 38 * (f.l9 * g.l3),
      f.l0 * g.l3 + f.l1 * g.l2 + f.l2 * g.l1 + f.l3 * g.l0 + 19 * (f.l4 * g.l9) + 19 * (f.l5 * g.l8) + 19 * (f.l6 * g.l7) + 19 * (f.l7 * g.l6) + 19 * (f.l8 * g.l5) + 19 * (f.l9 * g.l4),
      f.l0 * g.l4 + 2 * (f.l1 * g.l3) + f.l2 * g.l2 + 2 * (f.l3 * g.l1) + f.l4 * g.l0 + 38 * (f.l5 * g.l9) + 19 * (f.l6 * g.l8) + 38 * (f.l7 * g.l7) + 19 * (f.l8 * g.l6) + 38 * (f.l9 * g.l5),
      f.l0 * g.l5 + f.l1 * g.l4 + f.l2 * g.l3 + f.l3 * g.l2 + f.l4 * g.l1 + f.l5 * g.l0 + 19 * (f.l6 * g.l9) + 19 * (f.l7 * g.l8) + 19 * (f.l8 * g.l7) + 19 * (f.l9 * g.l6),
      f.l0 * g.l6 + 2 * (f.l1 * g.l5) + f.l2 * g.l4 + 2 * (f.l3 * g.l3) + f.l4 * g.l2 + 2 * (f.l5 * g.l1) + f.l6 * g.l0 + 38 * (f.l7 * g.l9) + 19 * (f.l8 * g.l8) + 38 * (f.l9 * g.l7),
      f.l0 * g.l7 + f.l1 * g.l6 + f.l2 * g.l5 + f.l3 * g.l4 + f.l4 * g.l3 + f.l5 * g.l2 + f.l6 * g.l1 + f.l7 * g.l0 + 19 * (f.l8 * g.l9) + 19 * (f.l9 * g.l8),
      f.l0 * g.l8 + 2 * (f.l1 * g.l7) + f.l2 * g.l6 + 2 * (f.l3 * g.l5) + f.l4 * g.l4 + 2 * (f.l5 * g.l3) + f.l6 * g.l2 + 2 * (f.l7 * g.l1) + f.l8 * g.l0 + 38 * (f.l9 * g.l9),
      f.l0 * g.l9 + f.l1 * g.l8 + f.l2 * g.l7 + f.l3 * g.l6 + f.l4 * g.l5 + f.l5 * g.l4 + f.l6 * g.l3 + f.l7 * g.l2 + f.l8 * g.l1 + f.l9 * g.l0⟩ +
      (prime25519 : Int) *
      (2 * (f.l1 * g.l9) + 1 * (f.l2 * g.l8) + 67108864 * (f.l2 * g.l9)
      + 2 * (f.l3 * g.l7) + 67108864 * (f.l3 * g.l8) + 4503599627370496 * (f.l3 * g.l9)
      + 1 * (f.l4 * g.l6) + 67108864 * (f.l4 * g.l7) + 2251799813685248 * (f.l4 * g.l8)
      + 151115727451828646838272 * (f.l4 * g.l9) + 2 * (f.l5 * g.l5) + 67108864 * (f.l5 * g.l6)
      + 4503599627370496 * (f.l5 * g.l7) + 151115727451828646838272 * (f.l5 * g.l8) + 10141204801825835211973625643008 * (f.l5 * g.l9)
      + 1 * (f.l6 * g.l4) + 67108864 * (f.l6 * g.l5) + 2251799813685248 * (f.l6 * g.l6)
      + 151115727451828646838272 * (f.l6 * g.l7) + 5070602400912917605986812821504 * (f.l6 * g.l8) + 340282366920938463463374607431768211456 * (f.l6 * g.l9)
      + 2 * (f.l7 * g.l3) + 67108864 * (f.l7 * g.l4) + 4503599627370496 * (f.l7 * g.l5)
      + 151115727451828646838272 * (f.l7 * g.l6) + 10141204801825835211973625643008 * (f.l7 * g.l7) + 340282366920938463463374607431768211456 * (f.l7 * g.l8)
      + 22835963083295358096932575511191922182123945984 * (f.l7 * g.l9) + 1 * (f.l8 * g.l2) + 67108864 * (f.l8 * g.l3)
      + 2251799813685248 * (f.l8 * g.l4) + 151115727451828646838272 * (f.l8 * g.l5) + 5070602400912917605986812821504 * (f.l8 * g.l6)
      + 340282366920938463463374607431768211456 * (f.l8 * g.l7) + 11417981541647679048466287755595961091061972992 * (f.l8 * g.l8) + 766247770432944429179173513575154591809369561091801088 * (f.l8 * g.l9)
      + 2 * (f.l9 * g.l1) + 67108864 * (f.l9 * g.l2) + 4503599627370496 * (f.l9 * g.l3)
      + 151115727451828646838272 * (f.l9 * g.l4) + 10141204801825835211973625643008 * (f.l9 * g.l5) + 340282366920938463463374607431768211456 * (f.l9 * g.l6)
      + 22835963083295358096932575511191922182123945984 * (f.l9 * g.l7) + 766247770432944429179173513575154591809369561091801088 * (f.l9 * g.l8) + 51422017416287688817342786954917203280710495801049370729644032 * (f.l9 * g.l9)) := by
    unfold Fe.int prime25519
    push_cast
    ring
  unfold Fe.val
  rw [h.2]
  have k2 := congrArg (Int.cast : Int → Fp) key
  simp only [Int.cast_mul, Int.cast_add, Int.cast_natCast, ZMod.natCast_self, zero_mul, add_zero, Int.cast_ofNat] at k2 ⊢
  exact k2.symm

theorem feSquare_eq {f : Fe} (hf : f.Bd 3) :
    feSquare f = feCarry
      (f.l0 * f.l0 + 76 * (f.l1 * f.l9) + 38 * (f.l2 * f.l8) + 76 * (f.l3 * f.l7) + 38 * (f.l4 * f.l6) + 38 * (f.l5 * f.l5))
      (2 * (f.l0 * f.l1) + 38 * (f.l2 * f.l9) + 38 * (f.l3 * f.l8) + 38 * (f.l4 * f.l7) + 38 * (f.l5 * f.l6))
      (2 * (f.l0 * f.l2) + 2 * (f.l1 * f.l1) + 76 * (f.l3 * f.l9) + 38 * (f.l4 * f.l8) + 76 * (f.l5 * f.l7) + 19 * (f.l6 * f.l6))
      (2 * (f.l0 * f.l3) + 2 * (f.l1 * f.l2) + 38 * (f.l4 * f.l9) + 38 * (f.l5 * f.l8) + 38 * (f.l6 * f.l7))
      (2 * (f.l0 * f.l4) + 4 * (f.l1 * f.l3) + f.l2 * f.l2 + 76 * (f.l5 * f.l9) + 38 * (f.l6 * f.l8) + 38 * (f.l7 * f.l7))
      (2 * (f.l0 * f.l5) + 2 * (f.l1 * f.l4) + 2 * (f.l2 * f.l3) + 38 * (f.l6 * f.l9) + 38 * (f.l7 * f.l8))
      (2 * (f.l0 * f.l6) + 4 * (f.l1 * f.l5) + 2 * (f.l2 * f.l4) + 2 * (f.l3 * f.l3) + 76 * (f.l7 * f.l9) + 19 * (f.l8 * f.l8))
      (2 * (f.l0 * f.l7) + 2 * (f.l1 * f.l6) + 2 * (f.l2 * f.l5) + 2 * (f.l3 * f.l4) + 38 * (f.l8 * f.l9))
      (2 * (f.l0 * f.l8) + 4 * (f.l1 * f.l7) + 2 * (f.l2 * f.l6) + 4 * (f.l3 * f.l5) + f.l4 * f.l4 + 38 * (f.l9 * f.l9))
      (2 * (f.l0 * f.l9) + 2 * (f.l1 * f.l8) + 2 * (f.l2 * f.l7) + 2 * (f.l3 * f.l6) + 2 * (f.l4 * f.l5)) ∧
    |f.l0 * f.l0 + 76 * (f.l1 * f.l9) + 38 * (f.l2 * f.l8) + 76 * (f.l3 * f.l7) + 38 * (f.l4 * f.l6) + 38 * (f.l5 * f.l5)| ≤ 4611686018427387904 ∧
    |2 * (f.l0 * f.l1) + 38 * (f.l2 * f.l9) + 38 * (f.l3 * f.l8) + 38 * (f.l4 * f.l7) + 38 * (f.l5 * f.l6)| ≤ 4611686018427387904 ∧
    |2 * (f.l0 * f.l2) + 2 * (f.l1 * f.l1) + 76 * (f.l3 * f.l9) + 38 * (f.l4 * f.l8) + 76 * (f.l5 * f.l7) + 19 * (f.l6 * f.l6)| ≤ 4611686018427387904 ∧
    |2 * (f.l0 * f.l3) + 2 * (f.l1 * f.l2) + 38 * (f.l4 * f.l9) + 38 * (f.l5 * f.l8) + 38 * (f.l6 * f.l7)| ≤ 4611686018427387904 ∧
    |2 * (f.l0 * f.l4) + 4 * (f.l1 * f.l3) + f.l2 * f.l2 + 76 * (f.l5 * f.l9) + 38 * (f.l6 * f.l8) + 38 * (f.l7 * f.l7)| ≤ 4611686018427387904 ∧
    |2 * (f.l0 * f.l5) + 2 * (f.l1 * f.l4) + 2 * (f.l2 * f.l3) + 38 * (f.l6 * f.l9) + 38 * (f.l7 * f.l8)| ≤ 4611686018427387904 ∧
    |2 * (f.l0 * f.l6) + 4 * (f.l1 * f.l5) + 2 * (f.l2 * f.l4) + 2 * (f.l3 * f.l3) + 76 * (f.l7 * f.l9) + 19 * (f.l8 * f.l8)| ≤ 4611686018427387904 ∧
    |2 * (f.l0 * f.l7) + 2 * (f.l1 * f.l6) + 2 * (f.l2 * f.l5) + 2 * (f.l3 * f.l4) + 38 * (f.l8 * f.l9)| ≤ 4611686018427387904 ∧
    |2 * (f.l0 * f.l8) + 4 * (f.l1 * f.l7) + 2 * (f.l2 * f.l6) + 4 * (f.l3 * f.l5) + f.l4 * f.l4 + 38 * (f.l9 * f.l9)| ≤ 4611686018427387904 ∧
    |2 * (f.l0 * f.l9) + 2 * (f.l1 * f.l8) + 2 * (f.l2 * f.l7) + 2 * (f.l3 * f.l6) + 2 * (f.l4 * f.l5)| ≤ 4611686018427387904 := by
  have hf0 := hf.1
  have hf1 := hf.2.1
  have hf2 := hf.2.2.1
  have hf3 := hf.2.2.2.1
  have hf4 := hf.2.2.2.2.1
  have hf5 := hf.2.2.2.2.2.1
  have hf6 := hf.2.2.2.2.2.2.1
  have hf7 := hf.2.2.2.2.2.2.2.1
  have hf8 := hf.2.2.2.2.2.2.2.2.1
  have hf9 := hf.2.2.2.2.2.2.2.2.2
  have m00 := mul_bound hf0 hf0
  have m01 := mul_bound hf0 hf1
  have m02 := mul_bound hf0 hf2
  have m03 := mul_bound hf0 hf3
  have m04 := mul_bound hf0 hf4
  have m05 := mul_bound hf0 hf5
  have m06 := mul_bound hf0 hf6
  have m07 := mul_bound hf0 hf7
  have m08 := mul_bound hf0 hf8
  have m09 := mul_bound hf0 hf9
  have m11 := mul_bound hf1 hf1
  have m12 := mul_bound hf1 hf2
  have m13 := mul_bound hf1 hf3
  have m14 := mul_bound hf1 hf4
  have m15 := mul_bound hf1 hf5
  have m16 := mul_bound hf1 hf6
  have m17 := mul_bound hf1 hf7
  have m18 := mul_bound hf1 hf8
  have m19 := mul_bound hf1 hf9
  have m22 := mul_bound hf2 hf2
  have m23 := mul_bound hf2 hf3
  have m24 := mul_bound hf2 hf4
  have m25 := mul_bound hf2 hf5
  have m26 := mul_bound hf2 hf6
  have m27 := mul_bound hf2 hf7
  have m28 := mul_bound hf2 hf8
  have m29 := mul_bound hf2 hf9
  have m33 := mul_bound hf3 hf3
  have m34 := mul_bound hf3 hf4
  have m35 := mul_bound hf3 hf5
  have m36 := mul_bound hf3 hf6
  have m37 := mul_bound hf3 hf7
  have m38 := mul_bound hf3 hf8
  have m39 := mul_bound hf3 hf9
  have m44 := mul_bound hf4 hf4
  have m45 := mul_bound hf4 hf5
  have m46 := mul_bound hf4 hf6
  have m47 := mul_bound hf4 hf7
  have m48 := mul_bound hf4 hf8
  have m49 := mul_bound hf4 hf9
  have m55 := mul_bound hf5 hf5
  have m56 := mul_bound hf5 hf6
  have m57 := mul_bound hf5 hf7
  have m58 := mul_bound hf5 hf8
  have m59 := mul_bound hf5 hf9
  have m66 := mul_bound hf6 hf6
  have m67 := mul_bound hf6 hf7
  have m68 := mul_bound hf6 hf8
  have m69 := mul_bound hf6 hf9
  have m77 := mul_bound hf7 hf7
  have m78 := mul_bound hf7 hf8
  have m79 := mul_bound hf7 hf9
  have m88 := mul_bound hf8 hf8
  have m89 := mul_bound hf8 hf9
  have m99 := mul_bound hf9 hf9
  have p0 : |f.l0 * f.l0 + 76 * (f.l1 * f.l9) + 38 * (f.l2 * f.l8) + 76 * (f.l3 * f.l7) + 38 * (f.l4 * f.l6) + 38 * (f.l5 * f.l5)| ≤ 4611686018427387904 := by
    have t := abs_le.1 m00
    have t1 := abs_le.1 m19
    have t2 := abs_le.1 m28
    have t3 := abs_le.1 m37
    have t4 := abs_le.1 m46
    have t5 := abs_le.1 m55
    rw [abs_le]
    clear m00 m01 m02 m03 m04 m05 m06 m07 m08 m09 m11 m12 m13 m14 m15 m16 m17 m18 m19 m22 m23 m24 m25 m26 m27 m28 m29 m33 m34 m35 m36 m37 m38 m39 m44 m45 m46 m47 m48 m49 m55 m56 m57 m58 m59 m66 m67 m68 m69 m77 m78 m79 m88 m89 m99
    omega
  have p1 : |2 * (f.l0 * f.l1) + 38 * (f.l2 * f.l9) + 38 * (f.l3 * f.l8) + 38 * (f.l4 * f.l7) + 38 * (f.l5 * f.l6)| ≤ 4611686018427387904 := by
    have t := abs_le.1 m01
    have t2 := abs_le.1 m29
    have t3 := abs_le.1 m38
    have t4 := abs_le.1 m47
    have t5 := abs_le.1 m56
    rw [abs_le]
    clear m00 m01 m02 m03 m04 m05 m06 m07 m08 m09 m11 m12 m13 m14 m15 m16 m17 m18 m19 m22 m23 m24 m25 m26 m27 m28 m29 m33 m34 m35 m36 m37 m38 m39 m44 m45 m46 m47 m48 m49 m55 m56 m57 m58 m59 m66 m67 m68 m69 m77 m78 m79 m88 m89 m99
    omega
  have p2 : |2 * (f.l0 * f.l2) + 2 * (f.l1 * f.l1) + 76 * (f.l3 * f.l9) + 38 * (f.l4 * f.l8) + 76 * (f.l5 * f.l7) + 19 * (f.l6 * f.l6)| ≤ 4611686018427387904 := by
    have t := abs_le.1 m02
    have t1 := abs_le.1 m11
    have t3 := abs_le.1 m39
    have t4 := abs_le.1 m48
    have t5 := abs_le.1 m57
    have t6 := abs_le.1 m66
    rw [abs_le]
    clear m00 m01 m02 m03 m04 m05 m06 m07 m08 m09 m11 m12 m13 m14 m15 m16 m17 m18 m19 m22 m23 m24 m25 m26 m27 m28 m29 m33 m34 m35 m36 m37 m38 m39 m44 m45 m46 m47 m48 m49 m55 m56 m57 m58 m59 m66 m67 m68 m69 m77 m78 m79 m88 m89 m99
    omega
  have p3 : |2 * (f.l0 * f.l3) + 2 * (f.l1 * f.l2) + 38 * (f.l4 * f.l9) + 38 * (f.l5 * f.l8) + 38 * (f.l6 * f.l7)| ≤ 4611686018427387904 := by
    have t := abs_le.1 m03
    have t1 := abs_le.1 m12
    have t4 := abs_le.1 m49
    have t5 := abs_le.1 m58
    have t6 := abs_le.1 m67
    rw [abs_le]
    clear m00 m01 m02 m03 m04 m05 m06 m07 m08 m09 m11 m12 m13 m14 m15 m16 m17 m18 m19 m22 m23 m24 m25 m26 m27 m28 m29 m33 m34 m35 m36 m37 m38 m39 m44 m45 m46 m47 m48 m49 m55 m56 m57 m58 m59 m66 m67 m68 m69 m77 m78 m79 m88 m89 m99
    omega
  have p4 : |2 * (f.l0 * f.l4) + 4 * (f.l1 * f.l3) + f.l2 * f.l2 + 76 * (f.l5 * f.l9) + 38 * (f.l6 * f.l8) + 38 * (f.l7 * f.l7)| ≤ 4611686018427387904 := by
    have t := abs_le.1 m04
    have t1 := abs_le.1 m13
    have t2 := abs_le.1 m22
    have t5 := abs_le.1 m59
    have t6 := abs_le.1 m68
    have t7 := abs_le.1 m77
    rw [abs_le]
    clear m00 m01 m02 m03 m04 m05 m06 m07 m08 m09 m11 m12 m13 m14 m15 m16 m17 m18 m19 m22 m23 m24 m25 m26 m27 m28 m29 m33 m34 m35 m36 m37 m38 m39 m44 m45 m46 m47 m48 m49 m55 m56 m57 m58 m59 m66 m67 m68 m69 m77 m78 m79 m88 m89 m99
    omega
  have p5 : |2 * (f.l0 * f.l5) + 2 * (f.l1 * f.l4) + 2 * (f.l2 * f.l3) + 38 * (f.l6 * f.l9) + 38 * (f.l7 * f.l8)| ≤ 4611686018427387904 := by
    have t := abs_le.1 m05
    have t1 := abs_le.1 m14
    have t2 := abs_le.1 m23
    have t6 := abs_le.1 m69
    have t7 := abs_le.1 m78
    rw [abs_le]
    clear m00 m01 m02 m03 m04 m05 m06 m07 m08 m09 m11 m12 m13 m14 m15 m16 m17 m18 m19 m22 m23 m24 m25 m26 m27 m28 m29 m33 m34 m35 m36 m37 m38 m39 m44 m45 m46 m47 m48 m49 m55 m56 m57 m58 m59 m66 m67 m68 m69 m77 m78 m79 m88 m89 m99
    omega
  have p6 : |2 * (f.l0 * f.l6) + 4 * (f.l1 * f.l5) + 2 * (f.l2 * f.l4) + 2 * (f.l3 * f.l3) + 76 * (f.l7 * f.l9) + 19 * (f.l8 * f.l8)| ≤ 4611686018427387904 := by
    have t := abs_le.1 m06
    have t1 := abs_le.1 m15
    have t2 := abs_le.1 m24
    have t3 := abs_le.1 m33
    have t7 := abs_le.1 m79
    have t8 := abs_le.1 m88
    rw [abs_le]
    clear m00 m01 m02 m03 m04 m05 m06 m07 m08 m09 m11 m12 m13 m14 m15 m16 m17 m18 m19 m22 m23 m24 m25 m26 m27 m28 m29 m33 m34 m35 m36 m37 m38 m39 m44 m45 m46 m47 m48 m49 m55 m56 m57 m58 m59 m66 m67 m68 m69 m77 m78 m79 m88 m89 m99
    omega
  have p7 : |2 * (f.l0 * f.l7) + 2 * (f.l1 * f.l6) + 2 * (f.l2 * f.l5) + 2 * (f.l3 * f.l4) + 38 * (f.l8 * f.l9)| ≤ 4611686018427387904 := by
    have t := abs_le.1 m07
    have t1 := abs_le.1 m16
    have t2 := abs_le.1 m25
    have t3 := abs_le.1 m34
    have t8 := abs_le.1 m89
    rw [abs_le]
    clear m00 m01 m02 m03 m04 m05 m06 m07 m08 m09 m11 m12 m13 m14 m15 m16 m17 m18 m19 m22 m23 m24 m25 m26 m27 m28 m29 m33 m34 m35 m36 m37 m38 m39 m44 m45 m46 m47 m48 m49 m55 m56 m57 m58 m59 m66 m67 m68 m69 m77 m78 m79 m88 m89 m99
    omega
  have p8 : |2 * (f.l0 * f.l8) + 4 * (f.l1 * f.l7) + 2 * (f.l2 * f.l6) + 4 * (f.l3 * f.l5) + f.l4 * f.l4 + 38 * (f.l9 * f.l9)| ≤ 4611686018427387904 := by
    have t := abs_le.1 m08
    have t1 := abs_le.1 m17
    have t2 := abs_le.1 m26
    have t3 := abs_le.1 m35
    have t4 := abs_le.1 m44
    have t9 := abs_le.1 m99
    rw [abs_le]
    clear m00 m01 m02 m03 m04 m05 m06 m07 m08 m09 m11 m12 m13 m14 m15 m16 m17 m18 m19 m22 m23 m24 m25 m26 m27 m28 m29 m33 m34 m35 m36 m37 m38 m39 m44 m45 m46 m47 m48 m49 m55 m56 m57 m58 m59 m66 m67 m68 m69 m77 m78 m79 m88 m89 m99
    omega
  have p9 : |2 * (f.l0 * f.l9) + 2 * (f.l1 * f.l8) + 2 * (f.l2 * f.l7) + 2 * (f.l3 * f.l6) + 2 * (f.l4 * f.l5)| ≤ 4611686018427387904 := by
    have t := abs_le.1 m09
    have t1 := abs_le.1 m18
    have t2 := abs_le.1 m27
    have t3 := abs_le.1 m36
    have t4 := abs_le.1 m45
    rw [abs_le]
    clear m00 m01 m02 m03 m04 m05 m06 m07 m08 m09 m11 m12 m13 m14 m15 m16 m17 m18 m19 m22 m23 m24 m25 m26 m27 m28 m29 m33 m34 m35 m36 m37 m38 m39 m44 m45 m46 m47 m48 m49 m55 m56 m57 m58 m59 m66 m67 m68 m69 m77 m78 m79 m88 m89 m99
    omega
  refine ⟨?_, p0, p1, p2, p3, p4, p5, p6, p7, p8, p9⟩
  have w2f0 : w32 (2 * f.l0) = 2 * f.l0 := w32_eq (by have := abs_le.1 hf0; rw [abs_le]; omega)
  have w2f1 : w32 (2 * f.l1) = 2 * f.l1 := w32_eq (by have := abs_le.1 hf1; rw [abs_le]; omega)
  have w2f2 : w32 (2 * f.l2) = 2 * f.l2 := w32_eq (by have := abs_le.1 hf2; rw [abs_le]; omega)
  have w2f3 : w32 (2 * f.l3) = 2 * f.l3 := w32_eq (by have := abs_le.1 hf3; rw [abs_le]; omega)
  have w2f4 : w32 (2 * f.l4) = 2 * f.l4 := w32_eq (by have := abs_le.1 hf4; rw [abs_le]; omega)
  have w2f5 : w32 (2 * f.l5) = 2 * f.l5 := w32_eq (by have := abs_le.1 hf5; rw [abs_le]; omega)
  have w2f6 : w32 (2 * f.l6) = 2 * f.l6 := w32_eq (by have := abs_le.1 hf6; rw [abs_le]; omega)
  have w2f7 : w32 (2 * f.l7) = 2 * f.l7 := w32_eq (by have := abs_le.1 hf7; rw [abs_le]; omega)
  have w19f6 : w32 (19 * f.l6) = 19 * f.l6 := w32_eq (by have := abs_le.1 hf6; rw [abs_le]; omega)
  have w19f8 : w32 (19 * f.l8) = 19 * f.l8 := w32_eq (by have := abs_le.1 hf8; rw [abs_le]; omega)
  have w38f5 : w32 (38 * f.l5) = 38 * f.l5 := w32_eq (by have := abs_le.1 hf5; rw [abs_le]; omega)
  have w38f7 : w32 (38 * f.l7) = 38 * f.l7 := w32_eq (by have := abs_le.1 hf7; rw [abs_le]; omega)
  have w38f9 : w32 (38 * f.l9) = 38 * f.l9 := w32_eq (by have := abs_le.1 hf9; rw [abs_le]; omega)
  unfold feSquare
  simp only [w2f0, w2f1, w2f2, w2f3, w2f4, w2f5, w2f6, w2f7, w19f6, w19f8, w38f5, w38f7, w38f9]
  congr 1
  · exact Eq.trans (w64_add (w64_add (w64_add (w64_add (w64_add (w64_idem _) (w64_idem _)) (w64_idem _)) (w64_idem _)) (w64_idem _)) (w64_idem _)) (w64_of_eq (by ring) p0)
  · exact Eq.trans (w64_add (w64_add (w64_add (w64_add (w64_idem _) (w64_idem _)) (w64_idem _)) (w64_idem _)) (w64_idem _)) (w64_of_eq (by ring) p1)
  · exact Eq.trans (w64_add (w64_add (w64_add (w64_add (w64_add (w64_idem _) (w64_idem _)) (w64_idem _)) (w64_idem _)) (w64_idem _)) (w64_idem _)) (w64_of_eq (by ring) p2)
  · exact Eq.trans (w64_add (w64_add (w64_add (w64_add (w64_idem _) (w64_idem _)) (w64_idem _)) (w64_idem _)) (w64_idem _)) (w64_of_eq (by ring) p3)
  · exact Eq.trans (w64_add (w64_add (w64_add (w64_add (w64_add (w64_idem _) (w64_idem _)) (w64_idem _)) (w64_idem _)) (w64_idem _)) (w64_idem _)) (w64_of_eq (by ring) p4)
  · exact Eq.trans (w64_add (w64_add (w64_add (w64_add (w64_idem _) (w64_idem _)) (w64_idem _)) (w64_idem _)) (w64_idem _)) (w64_of_eq (by ring) p5)
  · exact Eq.trans (w64_add (w64_add (w64_add (w64_add (w64_add (w64_idem _) (w64_idem _)) (w64_idem _)) (w64_idem _)) (w64_idem _)) (w64_idem _)) (w64_of_eq (by ring) p6)
  · exact Eq.trans (w64_add (w64_add (w64_add (w64_add (w64_idem _) (w64_idem _)) (w64_idem _)) (w64_idem _)) (w64_idem _)) (w64_of_eq (by ring) p7)
  · exact Eq.trans (w64_add (w64_add (w64_add (w64_add (w64_add (w64_idem _) (w64_idem _)) (w64_idem _)) (w64_idem _)) (w64_idem _)) (w64_idem _)) (w64_of_eq (by ring) p8)
  · exact Eq.trans (w64_add (w64_add (w64_add (w64_add (w64_idem _) (w64_idem _)) (w64_idem _)) (w64_idem _)) (w64_idem _)) (w64_of_eq (by ring) p9)

theorem feSquare_spec {f : Fe} (hf : f.Bd 3) :
    (feSquare f).Bd 1 ∧ (feSquare f).val = f.val * f.val := by
  obtain ⟨e, p0, p1, p2, p3, p4, p5, p6, p7, p8, p9⟩ := feSquare_eq hf
  have h := feCarry_spec p0 p1 p2 p3 p4 p5 p6 p7 p8 p9
  rw [← e] at h
  refine ⟨h.1, ?_⟩
  have key : f.int * f.int = Fe.int
      ⟨f.l0 * f.l0 + 76 * (f.l1 * f.l9) + 38 * (f.l2 * f.l8) + 76 * (f.l3 * f.l7) + 38 * (f.l4 * f.l6) + 38 * (f.l5 * f.l5),
      2 * (f.l0 * f.l1) + 38 * (f.l2 * f.l9) + 38 * (f.l3 * f.l8) + 38 * (f.l4 * f.l7) + 38 * (f.l5 * f.l6),
      2 * (f.l0 * f.l2) + 2 * (f.l1 * f.l1) + 76 * (f.l3 * f.l9) + 38 * (f.l4 * f.l8) + 76 * (f.l5 * f.l7) + 19 * (f.l6 * f.l6),
      2 * (f.l0 * f.l3) + 2 * (f.l1 * f.l2) + 38 * (f.l4 * f.l9) + 38 * (f.l5 * f.l8) + 38 * (f.l6 * f.l7),
      2 * (f.l0 * f.l4) + 4 * (f.l1 * f.l3) + f.l2 * f.l2 + 76 * (f.l5 * f.l9) + 38 * (f.l6 * f.l8) + 38 * (f.l7 * f.l7),
      2 * (f.l0 * f.l5) + 2 * (f.l1 * f.l4) + 2 * (f.l2 * f.l3) + 38 * (f.l6 * f.l9) + 38 * (f.l7 * f.l8),
      2 * (f.l0 * f.l6) + 4 * (f.l1 * f.l5) + 2 * (f.l2 * f.l4) + 2 * (f.l3 * f.l3) + 76 * (f.l7 * f.l9) + 19 * (f.l8 * f.l8),
      2 * (f.l0 * f.l7) + 2 * (f.l1 * f.l6) + 2 * (f.l2 * f.l5) + 2 * (f.l3 * f.l4) + 38 * (f.l8 * f.l9),
      2 * (f.l0 * f.l8) + 4 * (f.l1 * f.l7) + 2 * (f.l2 * f.l6) + 4 * (f.l3 * f.l5) + f.l4 * f.l4 + 38 * (f.l9 * f.l9),
      2 * (f.l0 * f.l9) + 2 * (f.l1 * f.l8) + 2 * (f.l2 * f.l7) + 2 * (f.l3 * f.l6) + 2 * (f.l4 * f.l5)⟩ +
      (prime25519 : Int) *
      (4 * (f.l1 * f.l9) + 2 * (f.l2 * f.l8) + 134217728 * (f.l2 * f.l9)
      + 4 * (f.l3 * f.l7) + 134217728 * (f.l3 * f.l8) + 9007199254740992 * (f.l3 * f.l9)
      + 2 * (f.l4 * f.l6) + 134217728 * (f.l4 * f.l7) + 4503599627370496 * (f.l4 * f.l8)
      + 302231454903657293676544 * (f.l4 * f.l9) + 2 * (f.l5 * f.l5) + 134217728 * (f.l5 * f.l6)
      + 9007199254740992 * (f.l5 * f.l7) + 302231454903657293676544 * (f.l5 * f.l8) + 20282409603651670423947251286016 * (f.l5 * f.l9)
      + 2251799813685248 * (f.l6 * f.l6) + 302231454903657293676544 * (f.l6 * f.l7) + 10141204801825835211973625643008 * (f.l6 * f.l8)
      + 680564733841876926926749214863536422912 * (f.l6 * f.l9) + 10141204801825835211973625643008 * (f.l7 * f.l7) + 680564733841876926926749214863536422912 * (f.l7 * f.l8)
      + 45671926166590716193865151022383844364247891968 * (f.l7 * f.l9) + 11417981541647679048466287755595961091061972992 * (f.l8 * f.l8) + 1532495540865888858358347027150309183618739122183602176 * (f.l8 * f.l9)
      + 51422017416287688817342786954917203280710495801049370729644032 * (f.l9 * f.l9)) := by
    unfold Fe.int prime25519
    push_cast
    ring
  unfold Fe.val
  rw [h.2]
  have k2 := congrArg (Int.cast : Int → Fp) key
  simp only [Int.cast_mul, Int.cast_add, Int.cast_natCast, ZMod.natCast_self, zero_mul, add_zero, Int.cast_ofNat] at k2 ⊢
  exact k2.symm

theorem feSquare2_eq {f : Fe} (hf : f.Bd 3) :
    feSquare2 f = feCarry
      (2 * (f.l0 * f.l0) + 152 * (f.l1 * f.l9) + 76 * (f.l2 * f.l8) + 152 * (f.l3 * f.l7) + 76 * (f.l4 * f.l6) + 76 * (f.l5 * f.l5))
      (4 * (f.l0 * f.l1) + 76 * (f.l2 * f.l9) + 76 * (f.l3 * f.l8) + 76 * (f.l4 * f.l7) + 76 * (f.l5 * f.l6))
      (4 * (f.l0 * f.l2) + 4 * (f.l1 * f.l1) + 152 * (f.l3 * f.l9) + 76 * (f.l4 * f.l8) + 152 * (f.l5 * f.l7) + 38 * (f.l6 * f.l6))
      (4 * (f.l0 * f.l3) + 4 * (f.l1 * f.l2) + 76 * (f.l4 * f.l9) + 76 * (f.l5 * f.l8) + 76 * (f.l6 * f.l7))
      (4 * (f.l0 * f.l4) + 8 * (f.l1 * f.l3) + 2 * (f.l2 * f.l2) + 152 * (f.l5 * f.l9) + 76 * (f.l6 * f.l8) + 76 * (f.l7 * f.l7))
      (4 * (f.l0 * f.l5) + 4 * (f.l1 * f.l4) + 4 * (f.l2 * f.l3) + 76 * (f.l6 * f.l9) + 76 * (f.l7 * f.l8))
      (4 * (f.l0 * f.l6) + 8 * (f.l1 * f.l5) + 4 * (f.l2 * f.l4) + 4 * (f.l3 * f.l3) + 152 * (f.l7 * f.l9) + 38 * (f.l8 * f.l8))
      (4 * (f.l0 * f.l7) + 4 * (f.l1 * f.l6) + 4 * (f.l2 * f.l5) + 4 * (f.l3 * f.l4) + 76 * (f.l8 * f.l9))
      (4 * (f.l0 * f.l8) + 8 * (f.l1 * f.l7) + 4 * (f.l2 * f.l6) + 8 * (f.l3 * f.l5) + 2 * (f.l4 * f.l4) + 76 * (f.l9 * f.l9))
      (4 * (f.l0 * f.l9) + 4 * (f.l1 * f.l8) + 4 * (f.l2 * f.l7) + 4 * (f.l3 * f.l6) + 4 * (f.l4 * f.l5)) ∧
    |2 * (f.l0 * f.l0) + 152 * (f.l1 * f.l9) + 76 * (f.l2 * f.l8) + 152 * (f.l3 * f.l7) + 76 * (f.l4 * f.l6) + 76 * (f.l5 * f.l5)| ≤ 4611686018427387904 ∧
    |4 * (f.l0 * f.l1) + 76 * (f.l2 * f.l9) + 76 * (f.l3 * f.l8) + 76 * (f.l4 * f.l7) + 76 * (f.l5 * f.l6)| ≤ 4611686018427387904 ∧
    |4 * (f.l0 * f.l2) + 4 * (f.l1 * f.l1) + 152 * (f.l3 * f.l9) + 76 * (f.l4 * f.l8) + 152 * (f.l5 * f.l7) + 38 * (f.l6 * f.l6)| ≤ 4611686018427387904 ∧
    |4 * (f.l0 * f.l3) + 4 * (f.l1 * f.l2) + 76 * (f.l4 * f.l9) + 76 * (f.l5 * f.l8) + 76 * (f.l6 * f.l7)| ≤ 4611686018427387904 ∧
    |4 * (f.l0 * f.l4) + 8 * (f.l1 * f.l3) + 2 * (f.l2 * f.l2) + 152 * (f.l5 * f.l9) + 76 * (f.l6 * f.l8) + 76 * (f.l7 * f.l7)| ≤ 4611686018427387904 ∧
    |4 * (f.l0 * f.l5) + 4 * (f.l1 * f.l4) + 4 * (f.l2 * f.l3) + 76 * (f.l6 * f.l9) + 76 * (f.l7 * f.l8)| ≤ 4611686018427387904 ∧
    |4 * (f.l0 * f.l6) + 8 * (f.l1 * f.l5) + 4 * (f.l2 * f.l4) + 4 * (f.l3 * f.l3) + 152 * (f.l7 * f.l9) + 38 * (f.l8 * f.l8)| ≤ 4611686018427387904 ∧
    |4 * (f.l0 * f.l7) + 4 * (f.l1 * f.l6) + 4 * (f.l2 * f.l5) + 4 * (f.l3 * f.l4) + 76 * (f.l8 * f.l9)| ≤ 4611686018427387904 ∧
    |4 * (f.l0 * f.l8) + 8 * (f.l1 * f.l7) + 4 * (f.l2 * f.l6) + 8 * (f.l3 * f.l5) + 2 * (f.l4 * f.l4) + 76 * (f.l9 * f.l9)| ≤ 4611686018427387904 ∧
    |4 * (f.l0 * f.l9) + 4 * (f.l1 * f.l8) + 4 * (f.l2 * f.l7) + 4 * (f.l3 * f.l6) + 4 * (f.l4 * f.l5)| ≤ 4611686018427387904 := by
  have hf0 := hf.1
  have hf1 := hf.2.1
  have hf2 := hf.2.2.1
  have hf3 := hf.2.2.2.1
  have hf4 := hf.2.2.2.2.1
  have hf5 := hf.2.2.2.2.2.1
  have hf6 := hf.2.2.2.2.2.2.1
  have hf7 := hf.2.2.2.2.2.2.2.1
  have hf8 := hf.2.2.2.2.2.2.2.2.1
  have hf9 := hf.2.2.2.2.2.2.2.2.2
  have m00 := mul_bound hf0 hf0
  have m01 := mul_bound hf0 hf1
  have m02 := mul_bound hf0 hf2
  have m03 := mul_bound hf0 hf3
  have m04 := mul_bound hf0 hf4
  have m05 := mul_bound hf0 hf5
  have m06 := mul_bound hf0 hf6
  have m07 := mul_bound hf0 hf7
  have m08 := mul_bound hf0 hf8
  have m09 := mul_bound hf0 hf9
  have m11 := mul_bound hf1 hf1
  have m12 := mul_bound hf1 hf2
  have m13 := mul_bound hf1 hf3
  have m14 := mul_bound hf1 hf4
  have m15 := mul_bound hf1 hf5
  have m16 := mul_bound hf1 hf6
  have m17 := mul_bound hf1 hf7
  have m18 := mul_bound hf1 hf8
  have m19 := mul_bound hf1 hf9
  have m22 := mul_bound hf2 hf2
  have m23 := mul_bound hf2 hf3
  have m24 := mul_bound hf2 hf4
  have m25 := mul_bound hf2 hf5
  have m26 := mul_bound hf2 hf6
  have m27 := mul_bound hf2 hf7
  have m28 := mul_bound hf2 hf8
  have m29 := mul_bound hf2 hf9
  have m33 := mul_bound hf3 hf3
  have m34 := mul_bound hf3 hf4
  have m35 := mul_bound hf3 hf5
  have m36 := mul_bound hf3 hf6
  have m37 := mul_bound hf3 hf7
  have m38 := mul_bound hf3 hf8
  have m39 := mul_bound hf3 hf9
  have m44 := mul_bound hf4 hf4
  have m45 := mul_bound hf4 hf5
  have m46 := mul_bound hf4 hf6
  have m47 := mul_bound hf4 hf7
  have m48 := mul_bound hf4 hf8
  have m49 := mul_bound hf4 hf9
  have m55 := mul_bound hf5 hf5
  have m56 := mul_bound hf5 hf6
  have m57 := mul_bound hf5 hf7
  have m58 := mul_bound hf5 hf8
  have m59 := mul_bound hf5 hf9
  have m66 := mul_bound hf6 hf6
  have m67 := mul_bound hf6 hf7
  have m68 := mul_bound hf6 hf8
  have m69 := mul_bound hf6 hf9
  have m77 := mul_bound hf7 hf7
  have m78 := mul_bound hf7 hf8
  have m79 := mul_bound hf7 hf9
  have m88 := mul_bound hf8 hf8
  have m89 := mul_bound hf8 hf9
  have m99 := mul_bound hf9 hf9
  have p0 : |2 * (f.l0 * f.l0) + 152 * (f.l1 * f.l9) + 76 * (f.l2 * f.l8) + 152 * (f.l3 * f.l7) + 76 * (f.l4 * f.l6) + 76 * (f.l5 * f.l5)| ≤ 4611686018427387904 := by
    have t := abs_le.1 m00
    have t1 := abs_le.1 m19
    have t2 := abs_le.1 m28
    have t3 := abs_le.1 m37
    have t4 := abs_le.1 m46
    have t5 := abs_le.1 m55
    rw [abs_le]
    clear m00 m01 m02 m03 m04 m05 m06 m07 m08 m09 m11 m12 m13 m14 m15 m16 m17 m18 m19 m22 m23 m24 m25 m26 m27 m28 m29 m33 m34 m35 m36 m37 m38 m39 m44 m45 m46 m47 m48 m49 m55 m56 m57 m58 m59 m66 m67 m68 m69 m77 m78 m79 m88 m89 m99
    omega
  have p1 : |4 * (f.l0 * f.l1) + 76 * (f.l2 * f.l9) + 76 * (f.l3 * f.l8) + 76 * (f.l4 * f.l7) + 76 * (f.l5 * f.l6)| ≤ 4611686018427387904 := by
    have t := abs_le.1 m01
    have t2 := abs_le.1 m29
    have t3 := abs_le.1 m38
    have t4 := abs_le.1 m47
    have t5 := abs_le.1 m56
    rw [abs_le]
    clear m00 m01 m02 m03 m04 m05 m06 m07 m08 m09 m11 m12 m13 m14 m15 m16 m17 m18 m19 m22 m23 m24 m25 m26 m27 m28 m29 m33 m34 m35 m36 m37 m38 m39 m44 m45 m46 m47 m48 m49 m55 m56 m57 m58 m59 m66 m67 m68 m69 m77 m78 m79 m88 m89 m99
    omega
  have p2 : |4 * (f.l0 * f.l2) + 4 * (f.l1 * f.l1) + 152 * (f.l3 * f.l9) + 76 * (f.l4 * f.l8) + 152 * (f.l5 * f.l7) + 38 * (f.l6 * f.l6)| ≤ 4611686018427387904 := by
    have t := abs_le.1 m02
    have t1 := abs_le.1 m11
    have t3 := abs_le.1 m39
    have t4 := abs_le.1 m48
    have t5 := abs_le.1 m57
    have t6 := abs_le.1 m66
    rw [abs_le]
    clear m00 m01 m02 m03 m04 m05 m06 m07 m08 m09 m11 m12 m13 m14 m15 m16 m17 m18 m19 m22 m23 m24 m25 m26 m27 m28 m29 m33 m34 m35 m36 m37 m38 m39 m44 m45 m46 m47 m48 m49 m55 m56 m57 m58 m59 m66 m67 m68 m69 m77 m78 m79 m88 m89 m99
    omega
  have p3 : |4 * (f.l0 * f.l3) + 4 * (f.l1 * f.l2) + 76 * (f.l4 * f.l9) + 76 * (f.l5 * f.l8) + 76 * (f.l6 * f.l7)| ≤ 4611686018427387904 := by
    have t := abs_le.1 m03
    have t1 := abs_le.1 m12
    have t4 := abs_le.1 m49
    have t5 := abs_le.1 m58
    have t6 := abs_le.1 m67
    rw [abs_le]
    clear m00 m01 m02 m03 m04 m05 m06 m07 m08 m09 m11 m12 m13 m14 m15 m16 m17 m18 m19 m22 m23 m24 m25 m26 m27 m28 m29 m33 m34 m35 m36 m37 m38 m39 m44 m45 m46 m47 m48 m49 m55 m56 m57 m58 m59 m66 m67 m68 m69 m77 m78 m79 m88 m89 m99
    omega
  have p4 : |4 * (f.l0 * f.l4) + 8 * (f.l1 * f.l3) + 2 * (f.l2 * f.l2) + 152 * (f.l5 * f.l9) + 76 * (f.l6 * f.l8) + 76 * (f.l7 * f.l7)| ≤ 4611686018427387904 := by
    have t := abs_le.1 m04
    have t1 := abs_le.1 m13
    have t2 := abs_le.1 m22
    have t5 := abs_le.1 m59
    have t6 := abs_le.1 m68
    have t7 := abs_le.1 m77
    rw [abs_le]
    clear m00 m01 m02 m03 m04 m05 m06 m07 m08 m09 m11 m12 m13 m14 m15 m16 m17 m18 m19 m22 m23 m24 m25 m26 m27 m28 m29 m33 m34 m35 m36 m37 m38 m39 m44 m45 m46 m47 m48 m49 m55 m56 m57 m58 m59 m66 m67 m68 m69 m77 m78 m79 m88 m89 m99
    omega
  have p5 : |4 * (f.l0 * f.l5) + 4 * (f.l1 * f.l4) + 4 * (f.l2 * f.l3) + 76 * (f.l6 * f.l9) + 76 * (f.l7 * f.l8)| ≤ 4611686018427387904 := by
    have t := abs_le.1 m05
    have t1 := abs_le.1 m14
    have t2 := abs_le.1 m23
    have t6 := abs_le.1 m69
    have t7 := abs_le.1 m78
    rw [abs_le]
    clear m00 m01 m02 m03 m04 m05 m06 m07 m08 m09 m11 m12 m13 m14 m15 m16 m17 m18 m19 m22 m23 m24 m25 m26 m27 m28 m29 m33 m34 m35 m36 m37 m38 m39 m44 m45 m46 m47 m48 m49 m55 m56 m57 m58 m59 m66 m67 m68 m69 m77 m78 m79 m88 m89 m99
    omega
  have p6 : |4 * (f.l0 * f.l6) + 8 * (f.l1 * f.l5) + 4 * (f.l2 * f.l4) + 4 * (f.l3 * f.l3) + 152 * (f.l7 * f.l9) + 38 * (f.l8 * f.l8)| ≤ 4611686018427387904 := by
    have t := abs_le.1 m06
    have t1 := abs_le.1 m15
    have t2 := abs_le.1 m24
    have t3 := abs_le.1 m33
    have t7 := abs_le.1 m79
    have t8 := abs_le.1 m88
    rw [abs_le]
    clear m00 m01 m02 m03 m04 m05 m06 m07 m08 m09 m11 m12 m13 m14 m15 m16 m17 m18 m19 m22 m23 m24 m25 m26 m27 m28 m29 m33 m34 m35 m36 m37 m38 m39 m44 m45 m46 m47 m48 m49 m55 m56 m57 m58 m59 m66 m67 m68 m69 m77 m78 m79 m88 m89 m99
    omega
  have p7 : |4 * (f.l0 * f.l7) + 4 * (f.l1 * f.l6) + 4 * (f.l2 * f.l5) + 4 * (f.l3 * f.l4) + 76 * (f.l8 * f.l9)| ≤ 4611686018427387904 := by
    have t := abs_le.1 m07
    have t1 := abs_le.1 m16
    have t2 := abs_le.1 m25
    have t3 := abs_le.1 m34
    have t8 := abs_le.1 m89
    rw [abs_le]
    clear m00 m01 m02 m03 m04 m05 m06 m07 m08 m09 m11 m12 m13 m14 m15 m16 m17 m18 m19 m22 m23 m24 m25 m26 m27 m28 m29 m33 m34 m35 m36 m37 m38 m39 m44 m45 m46 m47 m48 m49 m55 m56 m57 m58 m59 m66 m67 m68 m69 m77 m78 m79 m88 m89 m99
    omega
  have p8 : |4 * (f.l0 * f.l8) + 8 * (f.l1 * f.l7) + 4 * (f.l2 * f.l6) + 8 * (f.l3 * f.l5) + 2 * (f.l4 * f.l4) + 76 * (f.l9 * f.l9)| ≤ 4611686018427387904 := by
    have t := abs_le.1 m08
    have t1 := abs_le.1 m17
    have t2 := abs_le.1 m26
    have t3 := abs_le.1 m35
    have t4 := abs_le.1 m44
    have t9 := abs_le.1 m99
    rw [abs_le]
    clear m00 m01 m02 m03 m04 m05 m06 m07 m08 m09 m11 m12 m13 m14 m15 m16 m17 m18 m19 m22 m23 m24 m25 m26 m27 m28 m29 m33 m34 m35 m36 m37 m38 m39 m44 m45 m46 m47 m48 m49 m55 m56 m57 m58 m59 m66 m67 m68 m69 m77 m78 m79 m88 m89 m99
    omega
  have p9 : |4 * (f.l0 * f.l9) + 4 * (f.l1 * f.l8) + 4 * (f.l2 * f.l7) + 4 * (f.l3 * f.l6) + 4 * (f.l4 * f.l5)| ≤ 4611686018427387904 := by
    have t := abs_le.1 m09
    have t1 := abs_le.1 m18
    have t2 := abs_le.1 m27
    have t3 := abs_le.1 m36
    have t4 := abs_le.1 m45
    rw [abs_le]
    clear m00 m01 m02 m03 m04 m05 m06 m07 m08 m09 m11 m12 m13 m14 m15 m16 m17 m18 m19 m22 m23 m24 m25 m26 m27 m28 m29 m33 m34 m35 m36 m37 m38 m39 m44 m45 m46 m47 m48 m49 m55 m56 m57 m58 m59 m66 m67 m68 m69 m77 m78 m79 m88 m89 m99
    omega
  refine ⟨?_, p0, p1, p2, p3, p4, p5, p6, p7, p8, p9⟩
  have w2f0 : w32 (2 * f.l0) = 2 * f.l0 := w32_eq (by have := abs_le.1 hf0; rw [abs_le]; omega)
  have w2f1 : w32 (2 * f.l1) = 2 * f.l1 := w32_eq (by have := abs_le.1 hf1; rw [abs_le]; omega)
  have w2f2 : w32 (2 * f.l2) = 2 * f.l2 := w32_eq (by have := abs_le.1 hf2; rw [abs_le]; omega)
  have w2f3 : w32 (2 * f.l3) = 2 * f.l3 := w32_eq (by have := abs_le.1 hf3; rw [abs_le]; omega)
  have w2f4 : w32 (2 * f.l4) = 2 * f.l4 := w32_eq (by have := abs_le.1 hf4; rw [abs_le]; omega)
  have w2f5 : w32 (2 * f.l5) = 2 * f.l5 := w32_eq (by have := abs_le.1 hf5; rw [abs_le]; omega)
  have w2f6 : w32 (2 * f.l6) = 2 * f.l6 := w32_eq (by have := abs_le.1 hf6; rw [abs_le]; omega)
  have w2f7 : w32 (2 * f.l7) = 2 * f.l7 := w32_eq (by have := abs_le.1 hf7; rw [abs_le]; omega)
  have w19f6 : w32 (19 * f.l6) = 19 * f.l6 := w32_eq (by have := abs_le.1 hf6; rw [abs_le]; omega)
  have w19f8 : w32 (19 * f.l8) = 19 * f.l8 := w32_eq (by have := abs_le.1 hf8; rw [abs_le]; omega)
  have w38f5 : w32 (38 * f.l5) = 38 * f.l5 := w32_eq (by have := abs_le.1 hf5; rw [abs_le]; omega)
  have w38f7 : w32 (38 * f.l7) = 38 * f.l7 := w32_eq (by have := abs_le.1 hf7; rw [abs_le]; omega)
  have w38f9 : w32 (38 * f.l9) = 38 * f.l9 := w32_eq (by have := abs_le.1 hf9; rw [abs_le]; omega)
  unfold feSquare2
  simp only [w2f0, w2f1, w2f2, w2f3, w2f4, w2f5, w2f6, w2f7, w19f6, w19f8, w38f5, w38f7, w38f9]
  congr 1
  · exact Eq.trans (w64_add ((w64_idem _).trans (w64_add (w64_add (w64_add (w64_add (w64_add (w64_idem _) (w64_idem _)) (w64_idem _)) (w64_idem _)) (w64_idem _)) (w64_idem _))) ((w64_idem _).trans (w64_add (w64_add (w64_add (w64_add (w64_add (w64_idem _) (w64_idem _)) (w64_idem _)) (w64_idem _)) (w64_idem _)) (w64_idem _)))) (w64_of_eq (by ring) p0)
  · exact Eq.trans (w64_add ((w64_idem _).trans (w64_add (w64_add (w64_add (w64_add (w64_idem _) (w64_idem _)) (w64_idem _)) (w64_idem _)) (w64_idem _))) ((w64_idem _).trans (w64_add (w64_add (w64_add (w64_add (w64_idem _) (w64_idem _)) (w64_idem _)) (w64_idem _)) (w64_idem _)))) (w64_of_eq (by ring) p1)
  · exact Eq.trans (w64_add ((w64_idem _).trans (w64_add (w64_add (w64_add (w64_add (w64_add (w64_idem _) (w64_idem _)) (w64_idem _)) (w64_idem _)) (w64_idem _)) (w64_idem _))) ((w64_idem _).trans (w64_add (w64_add (w64_add (w64_add (w64_add (w64_idem _) (w64_idem _)) (w64_idem _)) (w64_idem _)) (w64_idem _)) (w64_idem _)))) (w64_of_eq (by ring) p2)
  · exact Eq.trans (w64_add ((w64_idem _).trans (w64_add (w64_add (w64_add (w64_add (w64_idem _) (w64_idem _)) (w64_idem _)) (w64_idem _)) (w64_idem _))) ((w64_idem _).trans (w64_add (w64_add (w64_add (w64_add (w64_idem _) (w64_idem _)) (w64_idem _)) (w64_idem _)) (w64_idem _)))) (w64_of_eq (by ring) p3)
  · exact Eq.trans (w64_add ((w64_idem _).trans (w64_add (w64_add (w64_add (w64_add (w64_add (w64_idem _) (w64_idem _)) (w64_idem _)) (w64_idem _)) (w64_idem _)) (w64_idem _))) ((w64_idem _).trans (w64_add (w64_add (w64_add (w64_add (w64_add (w64_idem _) (w64_idem _)) (w64_idem _)) (w64_idem _)) (w64_idem _)) (w64_idem _)))) (w64_of_eq (by ring) p4)
  · exact Eq.trans (w64_add ((w64_idem _).trans (w64_add (w64_add (w64_add (w64_add (w64_idem _) (w64_idem _)) (w64_idem _)) (w64_idem _)) (w64_idem _))) ((w64_idem _).trans (w64_add (w64_add (w64_add (w64_add (w64_idem _) (w64_idem _)) (w64_idem _)) (w64_idem _)) (w64_idem _)))) (w64_of_eq (by ring) p5)
  · exact Eq.trans (w64_add ((w64_idem _).trans (w64_add (w64_add (w64_add (w64_add (w64_add (w64_idem _) (w64_idem _)) (w64_idem _)) (w64_idem _)) (w64_idem _)) (w64_idem _))) ((w64_idem _).trans (w64_add (w64_add (w64_add (w64_add (w64_add (w64_idem _) (w64_idem _)) (w64_idem _)) (w64_idem _)) (w64_idem _)) (w64_idem _)))) (w64_of_eq (by ring) p6)
  · exact Eq.trans (w64_add ((w64_idem _).trans (w64_add (w64_add (w64_add (w64_add (w64_idem _) (w64_idem _)) (w64_idem _)) (w64_idem _)) (w64_idem _))) ((w64_idem _).trans (w64_add (w64_add (w64_add (w64_add (w64_idem _) (w64_idem _)) (w64_idem _)) (w64_idem _)) (w64_idem _)))) (w64_of_eq (by ring) p7)
  · exact Eq.trans (w64_add ((w64_idem _).trans (w64_add (w64_add (w64_add (w64_add (w64_add (w64_idem _) (w64_idem _)) (w64_idem _)) (w64_idem _)) (w64_idem _)) (w64_idem _))) ((w64_idem _).trans (w64_add (w64_add (w64_add (w64_add (w64_add (w64_idem _) (w64_idem _)) (w64_idem _)) (w64_idem _)) (w64_idem _)) (w64_idem _)))) (w64_of_eq (by ring) p8)
  · exact Eq.trans (w64_add ((w64_idem _).trans (w64_add (w64_add (w64_add (w64_add (w64_idem _) (w64_idem _)) (w64_idem _)) (w64_idem _)) (w64_idem _))) ((w64_idem _).trans (w64_add (w64_add (w64_add (w64_add (w64_idem _) (w64_idem _)) (w64_idem _)) (w64_idem _)) (w64_idem _)))) (w64_of_eq (by ring) p9)

theorem feSquare2_spec {f : Fe} (hf : f.Bd 3) :
    (feSquare2 f).Bd 1 ∧ (feSquare2 f).val = 2 * (f.val * f.val) := by
  obtain ⟨e, p0, p1, p2, p3, p4, p5, p6, p7, p8, p9⟩ := feSquare2_eq hf
  have h := feCarry_spec p0 p1 p2 p3 p4 p5 p6 p7 p8 p9
  rw [← e] at h
  refine ⟨h.1, ?_⟩
  have key : 2 * (f.int * f.int) = Fe.int
      ⟨2 * (f.l0 * f.l0) + 152 * (f.l1 * f.l9) + 76 * (f.l2 * f.l8) + 152 * (f.l3 * f.l7) + 76 * (f.l4 * f.l6) + 76 * (f.l5 * f.l5),
      4 * (f.l0 * f.l1) + 76 * (f.l2 * f.l9) + 76 * (f.l3 * f.l8) + 76 * (f.l4 * f.l7) + 76 * (f.l5 * f.l6),
      4 * (f.l0 * f.l2) + 4 * (f.l1 * f.l1) + 152 * (f.l3 * f.l9) + 76 * (f.l4 * f.l8) + 152 * (f.l5 * f.l7) + 38 * (f.l6 * f.l6),
      4 * (f.l0 * f.l3) + 4 * (f.l1 * f.l2) + 76 * (f.l4 * f.l9) + 76 * (f.l5 * f.l8) + 76 * (f.l6 * f.l7),
      4 * (f.l0 * f.l4) + 8 * (f.l1 * f.l3) + 2 * (f.l2 * f.l2) + 152 * (f.l5 * f.l9) + 76 * (f.l6 * f.l8) + 76 * (f.l7 * f.l7),
      4 * (f.l0 * f.l5) + 4 * (f.l1 * f.l4) + 4 * (f.l2 * f.l3) + 76 * (f.l6 * f.l9) + 76 * (f.l7 * f.l8),
      4 * (f.l0 * f.l6) + 8 * (f.l1 * f.l5) + 4 * (f.l2 * f.l4) + 4 * (f.l3 * f.l3) + 152 * (f.l7 * f.l9) + 38 * (f.l8 * f.l8),
      4 * (f.l0 * f.l7) + 4 * (f.l1 * f.l6) + 4 * (f.l2 * f.l5) + 4 * (f.l3 * f.l4) + 76 * (f.l8 * f.l9),
      4 * (f.l0 * f.l8) + 8 * (f.l1 * f.l7) + 4 * (f.l2 * f.l6) + 8 * (f.l3 * f.l5) + 2 * (f.l4 * f.l4) + 76 * (f.l9 * f.l9),
      4 * (f.l0 * f.l9) + 4 * (f.l1 * f.l8) + 4 * (f.l2 * f.l7) + 4 * (f.l3 * f.l6) + 4 * (f.l4 * f.l5)⟩ +
      (prime25519 : Int) *
      (8 * (f.l1 * f.l9) + 4 * (f.l2 * f.l8) + 268435456 * (f.l2 * f.l9)
      + 8 * (f.l3 * f.l7) + 268435456 * (f.l3 * f.l8) + 18014398509481984 * (f.l3 * f.l9)
      + 4 * (f.l4 * f.l6) + 268435456 * (f.l4 * f.l7) + 9007199254740992 * (f.l4 * f.l8)
      + 604462909807314587353088 * (f.l4 * f.l9) + 4 * (f.l5 * f.l5) + 268435456 * (f.l5 * f.l6)
      + 18014398509481984 * (f.l5 * f.l7) + 604462909807314587353088 * (f.l5 * f.l8) + 40564819207303340847894502572032 * (f.l5 * f.l9)
      + 4503599627370496 * (f.l6 * f.l6) + 604462909807314587353088 * (f.l6 * f.l7) + 20282409603651670423947251286016 * (f.l6 * f.l8)
      + 1361129467683753853853498429727072845824 * (f.l6 * f.l9) + 20282409603651670423947251286016 * (f.l7 * f.l7) + 1361129467683753853853498429727072845824 * (f.l7 * f.l8)
      + 91343852333181432387730302044767688728495783936 * (f.l7 * f.l9) + 22835963083295358096932575511191922182123945984 * (f.l8 * f.l8) + 3064991081731777716716694054300618367237478244367204352 * (f.l8 * f.l9)
      + 102844034832575377634685573909834406561420991602098741459288064 * (f.l9 * f.l9)) := by
    unfold Fe.int prime25519
    push_cast
    ring
  unfold Fe.val
  rw [h.2]
  have k2 := congrArg (Int.cast : Int → Fp) key
  simp only [Int.cast_mul, Int.cast_add, Int.cast_natCast, ZMod.natCast_self, zero_mul, add_zero, Int.cast_ofNat] at k2 ⊢
  exact k2.symm

end Verif.Kyber
