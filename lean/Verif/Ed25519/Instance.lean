import Verif.Ed25519.Codec
import Verif.Ed25519.ScalarField
import Verif.Model.Rsa

/-!
# The curve library, built from the vendored code

`edCurve` satisfies every law that the class `Curve` asks for, and the functions of the vendored code
compute its operations on their representations.
-/

namespace Verif.Kyber

/-! ## Bytes of points -/

/-- The bytes `s` stand for the point `P`: the ordinate modulo `2^255 - 19` in the low 255 bits, the parity
of the abscissa in the top bit. The top bit is free when the abscissa is zero, and ordinates need not be
reduced. -/
def Decodes (s : Bytes) (P : Ed) : Prop :=
  s.length = 32 ∧ P.y = ((leNat s % 2 ^ 255 : Nat) : Fp) ∧ (P.x = 0 ∨ P.x.val % 2 = leNat s / 2 ^ 255)

theorem x_sq_unique {P Q : Ed} (h : P.y = Q.y) : P.x = Q.x ∨ P.x = -Q.x := by
  have hp := on_iff.1 P.on
  have hq := on_iff.1 Q.on
  rw [h] at hp
  have hv := v_ne_zero Q.y
  have e : (P.x - Q.x) * (P.x + Q.x) = 0 := by
    have : (feD.val * Q.y ^ 2 + 1) * ((P.x - Q.x) * (P.x + Q.x)) = 0 := by linear_combination hp - hq
    rcases mul_eq_zero.1 this with h | h
    · exact absurd h hv
    · exact h
  rcases mul_eq_zero.1 e with h | h
  · exact Or.inl (sub_eq_zero.1 h)
  · exact Or.inr (eq_neg_of_add_eq_zero_left h)

theorem Decodes.unique {s : Bytes} {P Q : Ed} (hP : Decodes s P) (hQ : Decodes s Q) : P = Q := by
  obtain ⟨_, y1, x1⟩ := hP
  obtain ⟨_, y2, x2⟩ := hQ
  have hy : P.y = Q.y := y1.trans y2.symm
  refine EdPoint.ext ?_ hy
  rcases x_sq_unique hy with h | h
  · exact h
  · by_cases hq : Q.x = 0
    · rw [h, hq, neg_zero]
    · have hp : P.x ≠ 0 := by rw [h]; exact neg_ne_zero.2 hq
      have e1 := x1.resolve_left hp
      have e2 := x2.resolve_left hq
      rw [h] at e1
      exact absurd (e1.trans e2.symm) (val_neg_parity hq)

/-- The bytes of a point. -/
noncomputable def edEnc (P : Ed) : Bytes := littleEndian32 (P.y.val + 2 ^ 255 * (P.x.val % 2))

theorem edEnc_lt (P : Ed) : P.y.val + 2 ^ 255 * (P.x.val % 2) < 256 ^ 32 := by
  have h1 := fp_val_lt P.y
  have h2 : P.x.val % 2 < 2 := Nat.mod_lt _ (by decide)
  have e : (256 : Nat) ^ 32 = 2 ^ 255 + 2 ^ 255 := by decide +kernel
  rw [e]
  generalize 2 ^ 255 = k at *
  rcases Nat.lt_succ_iff_lt_or_eq.1 h2 with h | h
  · rw [show P.x.val % 2 = 0 by omega]; omega
  · rw [h]; omega

theorem edEnc_length (P : Ed) : (edEnc P).length = 32 := littleEndian32_length (edEnc_lt P)

theorem leNat_edEnc (P : Ed) : leNat (edEnc P) = P.y.val + 2 ^ 255 * (P.x.val % 2) := leNat_littleEndian32 _

theorem edEnc_decodes (P : Ed) : Decodes (edEnc P) P := by
  have h1 := fp_val_lt P.y
  have pos : 0 < (2 : Nat) ^ 255 := Nat.two_pow_pos 255
  refine ⟨edEnc_length P, ?_, Or.inr ?_⟩
  · rw [leNat_edEnc, Nat.add_mul_mod_self_left, Nat.mod_eq_of_lt h1, ZMod.natCast_zmod_val]
  · rw [leNat_edEnc, Nat.add_mul_div_left _ _ pos, Nat.div_eq_of_lt h1, zero_add]

open Classical in
/-- The point that bytes stand for. -/
noncomputable def edDec (s : Bytes) : Option Ed :=
  if h : ∃ P, Decodes s P then some h.choose else none

theorem edDec_eq_some {s : Bytes} {P : Ed} : edDec s = some P ↔ Decodes s P := by
  unfold edDec
  split
  · rename_i h
    constructor
    · intro e
      cases e
      exact h.choose_spec
    · intro hP
      rw [h.choose_spec.unique hP]
  · rename_i h
    constructor
    · intro e; cases e
    · intro hP; exact absurd ⟨P, hP⟩ h

theorem edDec_edEnc (P : Ed) : edDec (edEnc P) = some P := edDec_eq_some.2 (edEnc_decodes P)

theorem edEnc_inj {P Q : Ed} (h : edEnc P = edEnc Q) : P = Q :=
  (edEnc_decodes P).unique (h ▸ edEnc_decodes Q)

/-! ## Multiples -/

theorem zsmul_base {m n : Int} (h : (m : Fl) = (n : Fl)) : m • edBase = n • edBase := by
  have e := (ZMod.intCast_eq_intCast_iff_dvd_sub m n order25519).1 h
  have : (n - m) • edBase = 0 := by
    rw [← addOrderOf_dvd_iff_zsmul_eq_zero, edBase_order]
    exact e
  rw [sub_smul, sub_eq_zero] at this
  exact this.symm

theorem zsmul_base_inj {m n : Int} (h : m • edBase = n • edBase) : (m : Fl) = (n : Fl) := by
  rw [ZMod.intCast_eq_intCast_iff_dvd_sub, ← edBase_order, addOrderOf_dvd_iff_zsmul_eq_zero,
    sub_smul, h, sub_self]

theorem canonFl_fits (a : Fl) : (canonFl a).Fits := by
  refine fits_of_lt ?_
  rw [leNat_canon]
  exact (ZMod.val_lt a).trans (order_lt.trans (by decide +kernel))

theorem multiplier_of_fits {s : Scalar} (h : s.Fits) : multiplier s = leNat s.raw := by
  unfold multiplier
  rw [if_pos (topDigit_le_iff.2 h)]

theorem multiplier_canon (a : Fl) : ((multiplier (canonFl a) : Int) : Fl) = a := by
  rw [multiplier_of_fits (canonFl_fits a), leNat_canon, Int.cast_natCast, ZMod.natCast_zmod_val]

/-! ## The library -/

open Classical in
/-- The curve library: the field of `order25519` elements, the points of edwards25519, and SHA-256. -/
@[reducible] noncomputable def edCurve [Sha256] : Curve where
  F := Fl
  canon := canonFl
  canon_value a := by rw [leNat_canon, ZMod.natCast_zmod_val]
  canon_fits := canonFl_fits
  Pt := Ed
  base := edBase
  add P Q := P + Q
  sub P Q := P - Q
  mul s P := multiplier s • P
  enc := edEnc
  dec := edDec
  enc_len := edEnc_length
  dec_enc := edDec_edEnc
  mul_base s := zsmul_base (by rw [multiplier_canon])
  mul_mul s a := by
    rw [smul_smul]
    exact zsmul_base (by rw [Int.cast_mul, multiplier_canon, multiplier_canon])
  add_mul a b := by
    rw [← add_smul]
    exact zsmul_base (by rw [Int.cast_add, multiplier_canon, multiplier_canon, multiplier_canon])
  sub_mul a b := by
    rw [← sub_smul]
    exact zsmul_base (by rw [Int.cast_sub, multiplier_canon, multiplier_canon, multiplier_canon])
  mul_inj a b h := by
    have := zsmul_base_inj h
    rwa [multiplier_canon, multiplier_canon] at this
  hashF msg := (leNat (Sha256.sum msg) : Fl)

/-! ## The vendored code computes its operations -/

theorem toBytes_eq {g : GeExt} {P : Ed} (h : g.Rep P) : g.toBytes = edEnc P := by
  refine leNat_inj (g.toBytes_length.trans (edEnc_length P).symm) ?_
  rw [h.toBytes, leNat_edEnc]

/-- Equality of points is equality of what they stand for. -/
theorem ptEqual_iff {g h : GeExt} {P Q : Ed} (hg : g.Rep P) (hh : h.Rep Q) : ptEqual g h = true ↔ P = Q := by
  unfold ptEqual
  rw [beq_iff_eq, toBytes_eq hg, toBytes_eq hh]
  exact ⟨edEnc_inj, fun e => by rw [e]⟩

theorem fromBytes_decodes {s : Bytes} {g : GeExt} (h : GeExt.fromBytes s = some g) :
    ∃ P, g.Rep P ∧ Decodes s P := by
  have hl := GeExt.fromBytes_length h
  rcases GeExt.fromBytes_spec s hl with ⟨g', P, e, r, hy, hx⟩ | ⟨e, _⟩
  · rw [h] at e
    cases e
    exact ⟨P, r, hl, hy, hx⟩
  · rw [h] at e; cases e

theorem fromBytes_none {s : Bytes} (h : GeExt.fromBytes s = none) (P : Ed) : ¬ Decodes s P := by
  rintro ⟨hl, hy, hx⟩
  rcases GeExt.fromBytes_spec s hl with ⟨g', P, e, _⟩ | ⟨_, e⟩
  · rw [h] at e; cases e
  · exact e P hy

/-- Reading a point succeeds on exactly the bytes that stand for one, and yields it. -/
theorem fromBytes_eq (s : Bytes) :
    (GeExt.fromBytes s = none ∧ edDec s = none) ∨
      ∃ g P, GeExt.fromBytes s = some g ∧ edDec s = some P ∧ g.Rep P := by
  cases h : GeExt.fromBytes s with
  | none =>
    left
    refine ⟨rfl, ?_⟩
    cases e : edDec s with
    | none => rfl
    | some P => exact absurd (edDec_eq_some.1 e) (fromBytes_none h P)
  | some g =>
    right
    obtain ⟨P, r, d⟩ := fromBytes_decodes h
    exact ⟨g, P, rfl, edDec_eq_some.2 d, r⟩

end Verif.Kyber
