import Verif.Ed25519.Powers
import Verif.Ed25519.Proj
import Verif.Model.Kyber.Group
import Mathlib.GroupTheory.OrderOfElement

/-!
# The curve over the field of `2^255 - 19` elements, its base point and its order
-/

namespace Verif.Kyber

theorem cast_eq_of_dvd {a b : Int} (h : (prime25519 : Int) ∣ a - b) : (a : Fp) = (b : Fp) :=
  ((ZMod.intCast_eq_intCast_iff_dvd_sub b a prime25519).2 h).symm

theorem sqrtM1_sq : feSqrtM1.val * feSqrtM1.val = -1 := by
  have : ((feSqrtM1.int * feSqrtM1.int : Int) : Fp) = ((-1 : Int) : Fp) :=
    cast_eq_of_dvd (by unfold prime25519; decide +kernel)
  unfold Fe.val
  rw [← Int.cast_mul, this]
  rw [Int.cast_neg, Int.cast_one]

/-- The representative of the parameter `d`. -/
def dNat : Nat := 37095705934669439343138083508754565189542113879843219016388785533085940283555

theorem feD_val : feD.val = ((dNat : Nat) : Fp) := by
  unfold Fe.val
  rw [← Int.cast_natCast]
  exact cast_eq_of_dvd (by unfold prime25519; decide +kernel)

theorem feD2_val : feD2.val = 2 * feD.val := by
  have : ((feD2.int : Int) : Fp) = ((2 * feD.int : Int) : Fp) :=
    cast_eq_of_dvd (by unfold prime25519; decide +kernel)
  unfold Fe.val
  rw [this, Int.cast_mul, Int.cast_ofNat]

/-- The parameter of the curve is `-121665/121666`. -/
theorem feD_ratio : feD.val * 121666 = -121665 := by
  have : ((feD.int * 121666 : Int) : Fp) = ((-121665 : Int) : Fp) :=
    cast_eq_of_dvd (by unfold prime25519; decide +kernel)
  unfold Fe.val
  rw [Int.cast_mul, Int.cast_ofNat, Int.cast_neg, Int.cast_ofNat] at this
  exact this

theorem natCast_ne {a b : Nat} (h : a % prime25519 ≠ b % prime25519) : (a : Fp) ≠ (b : Fp) := fun e =>
  h ((ZMod.natCast_eq_natCast_iff' a b prime25519).1 e)

theorem two_ne_zero_fp : (2 : Fp) ≠ 0 := by
  have := natCast_ne (a := 2) (b := 0) (by unfold prime25519; decide +kernel)
  simpa only [Nat.cast_ofNat, Nat.cast_zero] using this

theorem d_nonsquare (x : Fp) : x * x ≠ feD.val := by
  intro h
  rw [feD_val] at h
  have e1 : certPow prime25519 256 dNat ((prime25519 - 1) / 2) ≠ 1 := by unfold prime25519; decide +kernel
  have e2 : (prime25519 - 1) / 2 < 2 ^ 256 := by unfold prime25519; decide +kernel
  rw [certPow_eq _ _ _ _ e2] at e1
  have hx : x ≠ 0 := by
    rintro rfl
    have := natCast_ne (a := dNat) (b := 0) (by unfold prime25519; decide +kernel)
    rw [← h] at this
    simp only [mul_zero, Nat.cast_zero, ne_eq, not_true] at this
  have e3 : ((dNat ^ ((prime25519 - 1) / 2) : Nat) : Fp) = ((1 : Nat) : Fp) := by
    rw [Nat.cast_pow, ← h, ← sq, ← pow_mul, Nat.cast_one]
    have : 2 * ((prime25519 - 1) / 2) = prime25519 - 1 := by
      have := prime25519_mod
      omega
    rw [this, fp_pow hx]
  rw [ZMod.natCast_eq_natCast_iff'] at e3
  rw [e3] at e1
  exact e1 (Nat.mod_eq_of_lt (by have := prime25519_ge; omega))

instance : Edwards Fp where
  toField := inferInstance
  d := feD.val
  i := feSqrtM1.val
  i_sq := sqrtM1_sq
  d_nonsq := d_nonsquare
  two_ne := two_ne_zero_fp

/-- The points of the curve. -/
abbrev Ed := EdPoint Fp

theorem ed_d : Edwards.d (K := Fp) = feD.val := rfl

/-! ## The base point -/

/-- Abscissa of the base point. -/
def baseX : Nat := 15112221349535400772501151409588531511454012693041857206046113283949847762202

/-- Ordinate of the base point. -/
def baseY : Nat := 46316835694926478169428394003475163141307993866256225615783033603165251855960

theorem base_on : (baseY : Fp) ^ 2 - (baseX : Fp) ^ 2 =
    1 + feD.val * (baseX : Fp) ^ 2 * (baseY : Fp) ^ 2 := by
  have : (((baseY : Int) ^ 2 - (baseX : Int) ^ 2 : Int) : Fp) =
      ((1 + feD.int * (baseX : Int) ^ 2 * (baseY : Int) ^ 2 : Int) : Fp) :=
    cast_eq_of_dvd (by unfold prime25519; decide +kernel)
  unfold Fe.val
  simpa only [Int.cast_sub, Int.cast_add, Int.cast_mul, Int.cast_pow, Int.cast_natCast, Int.cast_one] using this

/-- The base point. -/
def edBase : Ed := ⟨baseX, baseY, base_on⟩

/-- Its ordinate is `4/5`, as in the specification of Ed25519. -/
theorem edBase_y : edBase.y * 5 = 4 := by
  have : (((baseY : Int) * 5 : Int) : Fp) = ((4 : Int) : Fp) :=
    cast_eq_of_dvd (by unfold prime25519; decide +kernel)
  rw [Int.cast_mul, Int.cast_natCast, Int.cast_ofNat, Int.cast_ofNat] at this
  exact this

/-! ## Its order -/

/-- Subtraction modulo the prime. -/
def nSub (a b : Nat) : Nat := a + (prime25519 - b % prime25519)

theorem nSub_cast (a b : Nat) : ((nSub a b : Nat) : Fp) = (a : Fp) - (b : Fp) := by
  unfold nSub
  have := Nat.mod_lt b prime25519_prime.pos
  rw [Nat.cast_add, Nat.cast_sub this.le, ZMod.natCast_self, ZMod.natCast_mod]
  ring

/-- Extended coordinates, as natural numbers. -/
structure NPt where
  X : Nat
  Y : Nat
  Z : Nat
  T : Nat

/-- They stand for a point. -/
def NPt.Rep (a : NPt) (P : Ed) : Prop := ExtRep (a.X : Fp) (a.Y : Fp) (a.Z : Fp) (a.T : Fp) P

/-- Addition. -/
def NPt.add (a b : NPt) : NPt :=
  let A := (nSub a.Y a.X * nSub b.Y b.X) % prime25519
  let B := ((a.Y + a.X) * (b.Y + b.X)) % prime25519
  let C := (a.T * (2 * dNat * b.T)) % prime25519
  let D := (2 * a.Z * b.Z) % prime25519
  let E := nSub B A
  let F := nSub D C
  let G := D + C
  let H := B + A
  ⟨E * F % prime25519, H * G % prime25519, G * F % prime25519, E * H % prime25519⟩

theorem NPt.add_rep {a b : NPt} {P Q : Ed} (ha : a.Rep P) (hb : b.Rep Q) : (a.add b).Rep (P + Q) := by
  unfold NPt.Rep at *
  have h := (ha.add (hb.toCached (d2 := 2 * feD.val) rfl)).toExt
  unfold NPt.add
  simp only [ZMod.natCast_mod, Nat.cast_mul, Nat.cast_add, nSub_cast, Nat.cast_ofNat]
  rw [← feD_val]
  convert h using 1 <;> ring

/-- Adds `e` times `p` to `a` and tells whether the sum is the neutral element. -/
def NPt.isZeroSum : Nat → NPt → NPt → Nat → Bool
  | 0, a, _, e => a.X == 0 && a.Y == a.Z && e == 0
  | fuel + 1, a, p, e =>
    bif Nat.beq (e % 2) 1 then isZeroSum fuel (a.add p) (p.add p) (e / 2)
    else isZeroSum fuel a (p.add p) (e / 2)

theorem NPt.isZeroSum_spec : ∀ (fuel : Nat) {a p : NPt} {e : Nat} {A P : Ed}, a.Rep A → p.Rep P →
    NPt.isZeroSum fuel a p e = true → A + e • P = 0
  | 0, a, p, e, A, P, ha, _, h => by
    simp only [NPt.isZeroSum, Bool.and_eq_true, beq_iff_eq] at h
    obtain ⟨⟨h1, h2⟩, rfl⟩ := h
    obtain ⟨k0, kx, ky, _⟩ := ha
    rw [zero_smul, add_zero]
    apply EdPoint.ext
    · rw [h1, Nat.cast_zero] at kx
      rcases mul_eq_zero.1 kx.symm with k | k
      · exact k
      · exact absurd k k0
    · rw [h2] at ky
      exact (mul_right_cancel₀ k0 (by rw [← ky, EdPoint.zero_y, one_mul]))
  | fuel + 1, a, p, e, A, P, ha, hp, h => by
    rw [NPt.isZeroSum] at h
    rcases Nat.mod_two_eq_zero_or_one e with h0 | h0
    · rw [h0] at h
      have := NPt.isZeroSum_spec fuel ha (NPt.add_rep hp hp) h
      have e2 : e = (e / 2) * 2 := by omega
      rw [e2, mul_smul, two_smul]
      exact this
    · rw [h0] at h
      have := NPt.isZeroSum_spec fuel (NPt.add_rep ha hp) (NPt.add_rep hp hp) h
      have e2 : e = (e / 2) * 2 + 1 := by omega
      rw [e2, add_smul, mul_smul, two_smul, one_smul, add_comm _ P, ← add_assoc]
      exact this

/-- The order of the base point. -/
@[irreducible] def order25519 : Nat := 7237005577332262213973186563042994240857116359379907606001950938285454250989

theorem order25519_eq : order25519 = 2 ^ 252 + 27742317777372353535851937790883648493 := by
  unfold order25519
  decide +kernel

theorem order25519_prime : Nat.Prime order25519 := by
  unfold order25519
  exact prime_order

theorem order_smul_base : order25519 • edBase = 0 := by
  have h : NPt.isZeroSum 253 ⟨0, 1, 1, 0⟩ ⟨baseX, baseY, 1, baseX * baseY⟩ order25519 = true := by
    unfold order25519
    decide +kernel
  have r := NPt.isZeroSum_spec 253 (A := 0) (P := edBase)
    (by unfold NPt.Rep; simpa only [Nat.cast_zero, Nat.cast_one] using ExtRep.zero)
    (by
      unfold NPt.Rep
      refine ⟨?_, ?_, ?_, ?_⟩
      · rw [Nat.cast_one]; exact one_ne_zero
      · rw [Nat.cast_one, mul_one]; rfl
      · rw [Nat.cast_one, mul_one]; rfl
      · rw [Nat.cast_one, mul_one, Nat.cast_mul]; rfl) h
  rwa [zero_add] at r

theorem edBase_ne : edBase ≠ 0 := by
  intro h
  have := congrArg EdPoint.x h
  exact natCast_ne (a := baseX) (b := 0) (by unfold prime25519; decide +kernel)
    (by rw [Nat.cast_zero]; exact this)

theorem edBase_order : addOrderOf edBase = order25519 :=
  have : Fact order25519.Prime := ⟨order25519_prime⟩
  addOrderOf_eq_prime order_smul_base edBase_ne

end Verif.Kyber
