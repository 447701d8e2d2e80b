import Mathlib.GroupTheory.OrderOfElement
import Mathlib.GroupTheory.Coset.Card
import Mathlib.GroupTheory.QuotientGroup.Basic
import Mathlib.Data.ZMod.Basic
import Verif.Ed25519.Instance

/-!
# The number of points of the curve

Each ordinate belongs to at most two points, so there are at most `2p` points. The base point has order
`L`, and there is a point of order 8, so `8L` divides the number of points. As `16L > 2p`, there are
exactly `8L` points, and the points that the order `L` annihilates are the multiples of the base point.
-/

namespace Verif.Kyber

/-- A point is determined by its ordinate and the parity of its abscissa. -/
def edCode (P : Ed) : Fp × Fin 2 := (P.y, ⟨P.x.val % 2, Nat.mod_lt _ (by decide)⟩)

theorem edCode_inj : Function.Injective edCode := by
  intro P Q h
  have hy : P.y = Q.y := congrArg Prod.fst h
  have hx : P.x.val % 2 = Q.x.val % 2 := congrArg (fun c => c.2.val) h
  refine EdPoint.ext ?_ hy
  rcases x_sq_unique hy with e | e
  · exact e
  · by_cases hz : Q.x = 0
    · rw [e, hz, neg_zero]
    · rw [e] at hx
      exact absurd hx (val_neg_parity hz)

instance : Finite Ed := Finite.of_injective _ edCode_inj

theorem card_le : Nat.card Ed ≤ prime25519 * 2 := by
  have h := Nat.card_le_card_of_injective _ edCode_inj
  rwa [Nat.card_prod, Nat.card_zmod, Nat.card_fin] at h

/-- Coordinates of a point of order 8. -/
def eightX : Nat := 43496726750457979451437558183816721346016168361625936758514574428539776020131
def eightY : Nat := 2707385501144840649318225287225658788936804267575313519463743609750303402022

theorem eight_on : (eightY : Fp) ^ 2 - (eightX : Fp) ^ 2 =
    1 + feD.val * (eightX : Fp) ^ 2 * (eightY : Fp) ^ 2 := by
  have : (((eightY : Int) ^ 2 - (eightX : Int) ^ 2 : Int) : Fp) =
      ((1 + feD.int * (eightX : Int) ^ 2 * (eightY : Int) ^ 2 : Int) : Fp) :=
    cast_eq_of_dvd (by unfold prime25519; decide +kernel)
  push_cast at this
  exact this

theorem eight_sq : (eightY : Fp) ^ 2 + (eightX : Fp) ^ 2 = 0 := by
  have : (((eightY : Int) ^ 2 + (eightX : Int) ^ 2 : Int) : Fp) = ((0 : Int) : Fp) :=
    cast_eq_of_dvd (by unfold prime25519; decide +kernel)
  push_cast at this
  exact this

def edEight : Ed := ⟨eightX, eightY, eight_on⟩

theorem eight_double_y : (edEight + edEight).y = 0 := by
  rw [EdPoint.add_y]
  have : edEight.y * edEight.y + edEight.x * edEight.x = 0 := by
    have := eight_sq
    change (eightY : Fp) * eightY + (eightX : Fp) * eightX = 0
    linear_combination this
  rw [this, zero_div]

theorem double_of_y_zero {P : Ed} (h : P.y = 0) : (P + P).y = -1 := by
  have := P.on
  rw [EdPoint.add_y]
  have e : EdPoint.eps P P = 0 := by rw [EdPoint.eps, h]; ring
  rw [e, h]
  rw [h] at this
  linear_combination -this

theorem eight_four : (4 : Nat) • edEight ≠ 0 := by
  intro h
  have e : (4 : Nat) • edEight = (edEight + edEight) + (edEight + edEight) := by
    rw [show (4 : Nat) = 2 + 2 from rfl, add_smul, two_smul]
  rw [e] at h
  have hy := double_of_y_zero eight_double_y
  rw [h] at hy
  have h1 : (1 : Fp) = -1 := hy
  exact Edwards.two_ne (K := Fp) (by linear_combination h1)

theorem zero_of_y_neg {P : Ed} (h : P.y = -1) : P + P = 0 := by
  have hx : P.x = 0 := by
    have := P.on
    rw [h] at this
    have h2 : (1 + Edwards.d) * P.x ^ 2 = 0 := by linear_combination -this
    rcases mul_eq_zero.1 h2 with h2 | h2
    · have hv := v_ne_zero 1
      exact absurd (by rw [show feD.val = (Edwards.d : Fp) from rfl]; linear_combination h2) hv
    · exact pow_eq_zero_iff (two_ne_zero) |>.1 h2
  have : -P = P := EdPoint.ext (by simp [hx]) rfl
  nth_rw 1 [← this]
  exact neg_add_cancel _

theorem eight_eight : (8 : Nat) • edEight = 0 := by
  have e : (8 : Nat) • edEight = ((edEight + edEight) + (edEight + edEight)) +
      ((edEight + edEight) + (edEight + edEight)) := by
    rw [show (8 : Nat) = (2 + 2) + (2 + 2) from rfl, add_smul, add_smul, two_smul]
  rw [e]
  exact zero_of_y_neg (double_of_y_zero eight_double_y)

theorem eight_order : addOrderOf edEight = 2 ^ 3 := by
  have : Fact (Nat.Prime 2) := ⟨Nat.prime_two⟩
  exact addOrderOf_eq_prime_pow (n := 2) (by simpa using eight_four) (by simpa using eight_eight)

/-- The curve has `8L` points. -/
theorem card_ed : Nat.card Ed = 8 * order25519 := by
  have h8 : 8 ∣ Nat.card Ed := by
    have := addOrderOf_dvd_natCard edEight
    rwa [eight_order] at this
  have hl : order25519 ∣ Nat.card Ed := by
    have := addOrderOf_dvd_natCard edBase
    rwa [edBase_order] at this
  have hc : Nat.Coprime 8 order25519 := by unfold order25519; decide +kernel
  obtain ⟨k, hk⟩ := hc.mul_dvd_of_dvd_of_dvd h8 hl
  have hle := card_le
  have hpos : 0 < Nat.card Ed := Nat.card_pos
  have hlt : prime25519 * 2 < 8 * order25519 * 2 := by unfold prime25519 order25519; decide +kernel
  have : k = 1 := by
    rcases k with _ | _ | k
    · rw [hk, mul_zero] at hpos; exact absurd hpos (lt_irrefl _)
    · rfl
    · exfalso
      have : 8 * order25519 * 2 ≤ 8 * order25519 * (k + 1 + 1) := Nat.mul_le_mul_left _ (by omega)
      rw [← hk] at this
      exact absurd (this.trans hle) (not_le.2 hlt)
  rw [hk, this, mul_one]

/-- The points that the order annihilates are the multiples of the base point. -/
theorem multiple_iff (P : Ed) : (∃ n : Nat, n < order25519 ∧ n • edBase = P) ↔ order25519 • P = 0 := by
  constructor
  · rintro ⟨n, -, rfl⟩
    rw [smul_comm, order_smul_base, smul_zero]
  · intro h
    have hq : 8 • P ∈ AddSubgroup.zmultiples edBase := by
      have hcard : (AddSubgroup.zmultiples edBase).index = 8 := by
        have := (AddSubgroup.zmultiples edBase).card_mul_index
        rw [Nat.card_zmultiples, edBase_order, card_ed, mul_comm 8] at this
        exact Nat.eq_of_mul_eq_mul_left order25519_prime.pos this
      have := (AddSubgroup.zmultiples edBase).nsmul_index_mem P
      rwa [hcard] at this
    have hP : P ∈ AddSubgroup.zmultiples edBase := by
      have hc : Nat.Coprime 8 order25519 := by unfold order25519; decide +kernel
      have hb := Nat.gcd_eq_gcd_ab 8 order25519
      rw [hc.gcd_eq_one] at hb
      have e : P = (Nat.gcdA 8 order25519) • ((8 : Nat) • P) := by
        have : (1 : Int) • P = ((8 : Nat) * Nat.gcdA 8 order25519 + (order25519 : Int) *
            Nat.gcdB 8 order25519 : Int) • P := by rw [← hb]; rfl
        rw [one_smul, add_smul, mul_comm, mul_smul, mul_comm, mul_smul, natCast_zsmul, natCast_zsmul, h,
          smul_zero, add_zero] at this
        exact this
      rw [e]
      exact AddSubgroup.zsmul_mem _ hq _
    obtain ⟨z, rfl⟩ := AddSubgroup.mem_zmultiples_iff.1 hP
    refine ⟨(z : Fl).val, ZMod.val_lt _, ?_⟩
    rw [← natCast_zsmul]
    refine zsmul_base ?_
    rw [Int.cast_natCast, ZMod.natCast_zmod_val]

end Verif.Kyber
