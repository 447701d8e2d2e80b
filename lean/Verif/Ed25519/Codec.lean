import Verif.Ed25519.Mult
import Verif.Model.SigLemmas

/-!
# The bytes of a point

`GeExt.toBytes` writes the ordinate and the parity of the abscissa. `GeExt.fromBytes` reads any 32 bytes
whose low 255 bits are, modulo the prime, the ordinate of a point of the curve.
-/

namespace Verif.Kyber

/-! ## Writing -/

theorem leNat_set_last {s : Bytes} {n : Nat} (h : s.length = n + 1) (b : UInt8) :
    leNat (s.set n b) + 256 ^ n * (s.getD n 0).toNat = leNat s + 256 ^ n * b.toNat := by
  have e : s = s.take n ++ [s.getD n 0] := by
    rw [List.getD_eq_getElem?_getD, List.getElem?_eq_getElem (by omega), Option.getD_some,
      List.take_append_getElem, List.take_of_length_le (by omega)]
  have l : (s.take n).length = n := by simp; omega
  have e2 : s.set n b = s.take n ++ [b] := by
    conv_lhs => rw [e]
    rw [List.set_append_right _ _ (by omega)]
    simp [l]
  have e3 : leNat s = leNat (s.take n) + 256 ^ n * (s.getD n 0).toNat := by
    conv_lhs => rw [e]
    rw [leNat_append, l]
    simp [leNat]
  rw [e3, e2, leNat_append, l]
  simp [leNat]
  ring

theorem leNat_getD_last {s : Bytes} {n : Nat} (h : s.length = n + 1) :
    (s.getD n 0).toNat = leNat s / 256 ^ n := by
  have e : s = s.take n ++ [s.getD n 0] := by
    rw [List.getD_eq_getElem?_getD, List.getElem?_eq_getElem (by omega), Option.getD_some,
      List.take_append_getElem, List.take_of_length_le (by omega)]
  have l : (s.take n).length = n := by simp; omega
  have e3 : leNat s = leNat (s.take n) + 256 ^ n * (s.getD n 0).toNat := by
    conv_lhs => rw [e]
    rw [leNat_append, l]
    simp [leNat]
  have := leNat_lt (s.take n)
  rw [l] at this
  rw [e3, Nat.add_mul_div_left _ _ (by positivity), Nat.div_eq_of_lt this, zero_add]

theorem xor_sign {c n : UInt8} (hc : c.toNat < 128) (hn : n.toNat < 2) :
    (c ^^^ (n <<< 7)).toNat = c.toNat + 128 * n.toNat := by
  have h : n = 0 ∨ n = 1 := by
    rcases n with ⟨⟨n, hn'⟩⟩
    simp only [UInt8.toNat] at hn
    have : n = 0 ∨ n = 1 := by
      have : n < 2 := hn
      omega
    rcases this with rfl | rfl
    · left; rfl
    · right; rfl
  rcases h with rfl | rfl
  · revert hc
    revert c
    apply UInt8.forall_of_fin
    decide +kernel
  · revert hc
    revert c
    apply UInt8.forall_of_fin
    decide +kernel

theorem prime25519_lt : prime25519 < 2 ^ 255 := by
  unfold prime25519
  decide +kernel

theorem fp_val_lt (a : Fp) : a.val < 2 ^ 255 := (ZMod.val_lt a).trans prime25519_lt

theorem GeExt.toBytes_length (g : GeExt) : g.toBytes.length = 32 := by
  unfold GeExt.toBytes
  dsimp only
  rw [List.length_set, feToBytes_length]

/-- The bytes of a point are its ordinate and the parity of its abscissa. -/
theorem GeExt.Rep.toBytes {g : GeExt} {P : Ed} (h : g.Rep P) :
    leNat g.toBytes = P.y.val + 2 ^ 255 * (P.x.val % 2) := by
  obtain ⟨hX, hY, hZ, _, z0, ex, ey, _⟩ := h
  obtain ⟨rb, re⟩ := feInvert_spec hZ z0
  obtain ⟨xb, xe⟩ := feMul_spec (hX.mono (by decide)) (rb.mono (by decide))
  obtain ⟨yb, ye⟩ := feMul_spec (hY.mono (by decide)) (rb.mono (by decide))
  have ex' : (feMul g.X (feInvert g.Z)).val = P.x := by
    rw [xe, re, ex]; field_simp
  have ey' : (feMul g.Y (feInvert g.Z)).val = P.y := by
    rw [ye, re, ey]; field_simp
  have hs := feToBytes_spec (yb.mono (by decide))
  have hn := feIsNegative_spec (xb.mono (by decide))
  rw [ex'] at hn
  rw [ey'] at hs
  unfold GeExt.toBytes
  dsimp only
  have hl := feToBytes_length (feMul g.Y (feInvert g.Z))
  generalize feToBytes (feMul g.Y (feInvert g.Z)) = s at *
  generalize feIsNegative (feMul g.X (feInvert g.Z)) = n at *
  have hlast := leNat_getD_last (n := 31) hl
  have hlt := fp_val_lt P.y
  have hc : (s.getD 31 0).toNat < 128 := by
    rw [hlast, hs]
    rw [Nat.div_lt_iff_lt_mul (by positivity)]
    exact lt_of_lt_of_eq hlt (by norm_num)
  have hset := leNat_set_last (n := 31) hl (s.getD 31 0 ^^^ (n <<< 7))
  rw [xor_sign hc (by omega), hs, hn] at hset
  have : (2 : Nat) ^ 255 = 256 ^ 31 * 128 := by norm_num
  rw [this]
  generalize (256 : Nat) ^ 31 = M at *
  nlinarith

/-! ## Square roots -/

theorem v_ne_zero (y : Fp) : feD.val * y ^ 2 + 1 ≠ 0 := by
  intro h
  have hy : y ≠ 0 := by
    rintro rfl
    simp at h
  apply d_nonsquare (feSqrtM1.val / y)
  have := sqrtM1_sq
  field_simp
  linear_combination this - h

/-- The power computed by `fePow22523` yields a square root of `u/v`, up to a root of `-1`, when there
is one. -/
theorem root_spec {u v x : Fp} (hv : v ≠ 0) (hx : x = (v ^ 7 * u) ^ ((prime25519 - 5) / 8) * v ^ 3 * u) :
    (∃ r, r ^ 2 * v = u) → x ^ 2 * v = u ∨ x ^ 2 * v = -u := by
  rintro ⟨r, hr⟩
  set a := (prime25519 - 5) / 8 with ha
  have hp := prime25519_mod
  rw [← ha] at hp
  by_cases hr0 : r = 0
  · left
    have hu : u = 0 := by rw [← hr, hr0]; ring
    rw [hx, hu]
    ring
  set q := (v ^ 7 * u) ^ (2 * a + 1) with hq
  have e1 : x ^ 2 * v = q * u := by
    rw [hx, hq]
    ring
  have e2 : q ^ 2 = 1 := by
    have hw : v ^ 7 * u = (r * v ^ 4) ^ 2 := by rw [← hr]; ring
    rw [hq, hw, ← pow_mul, ← pow_mul]
    have : 2 * (2 * a + 1) * 2 = prime25519 - 1 := by omega
    rw [mul_assoc, ← mul_assoc] at *
    rw [this]
    exact fp_pow (mul_ne_zero hr0 (pow_ne_zero _ hv))
  have e3 : (q - 1) * (q + 1) = 0 := by linear_combination e2
  rcases mul_eq_zero.1 e3 with h | h
  · left
    rw [e1, sub_eq_zero.1 h, one_mul]
  · right
    rw [e1, eq_neg_of_add_eq_zero_left h]
    ring

/-! ## Reading -/

/-- The abscissas of the points with ordinate `y`. -/
theorem on_iff {x y : Fp} : y ^ 2 - x ^ 2 = 1 + Edwards.d * x ^ 2 * y ^ 2 ↔
    x ^ 2 * (feD.val * y ^ 2 + 1) = y ^ 2 - 1 := by
  rw [ed_d]
  constructor <;> intro h <;> linear_combination -h

theorem val_neg_parity {x : Fp} (h : x ≠ 0) : (-x).val % 2 ≠ x.val % 2 := by
  have : NeZero x := ⟨h⟩
  rw [ZMod.val_neg_of_ne_zero]
  have h1 := ZMod.val_lt x
  have hp := prime25519_mod
  omega

/-- What `fromBytes` has computed when it tests the square root. -/
theorem geCandidate_spec {y : Fp} {Y : Fe} (hY : Y.Bd 1) (ey : Y.val = y) :
    (geU Y).Bd 2 ∧ (geU Y).val = y ^ 2 - 1 ∧ (geV Y).Bd 2 ∧ (geV Y).val = feD.val * y ^ 2 + 1 ∧
      (geCandidate (geU Y) (geV Y)).Bd 1 ∧
      (geCandidate (geU Y) (geV Y)).val =
        ((feD.val * y ^ 2 + 1) ^ 7 * (y ^ 2 - 1)) ^ ((prime25519 - 5) / 8) *
          (feD.val * y ^ 2 + 1) ^ 3 * (y ^ 2 - 1) := by
  have le1 : (1 : Int) ≤ 3 := by decide
  have le2 : (2 : Int) ≤ 3 := by decide
  obtain ⟨sb, se⟩ := feSquare_spec (hY.mono le1)
  have db : feD.Bd 1 := by
    unfold Fe.Bd feD
    simp only [abs_le]
    decide
  obtain ⟨ub, ue⟩ := feSub_spec sb feOne_spec.1 (by decide) (by decide)
  obtain ⟨pb, pe⟩ := feMul_spec (sb.mono le1) (db.mono le1)
  obtain ⟨vb, ve⟩ := feAdd_spec pb feOne_spec.1 (by decide) (by decide)
  have ue' : (geU Y).val = y ^ 2 - 1 := by
    rw [geU, ue, se, ey, feOne_spec.2]; ring
  have ve' : (geV Y).val = feD.val * y ^ 2 + 1 := by
    rw [geV, ve, pe, se, ey, feOne_spec.2]; ring
  have ub' : (geU Y).Bd 2 := by rw [geU]; exact ub
  have vb' : (geV Y).Bd 2 := by rw [geV]; exact vb
  refine ⟨ub', ue', vb', ve', ?_⟩
  generalize geU Y = u at *
  generalize geV Y = v at *
  obtain ⟨b1, e1⟩ := feSquare_spec (vb'.mono le2)
  obtain ⟨b2, e2⟩ := feMul_spec (b1.mono le1) (vb'.mono le2)
  have e2' : (geV3 v).val = v.val ^ 3 := by rw [geV3, e2, e1]; ring
  have b2' : (geV3 v).Bd 1 := by rw [geV3]; exact b2
  rw [geCandidate]
  generalize geV3 v = v3 at *
  obtain ⟨b3, e3⟩ := feSquare_spec (b2'.mono le1)
  obtain ⟨b4, e4⟩ := feMul_spec (b3.mono le1) (vb'.mono le2)
  obtain ⟨b5, e5⟩ := feMul_spec (b4.mono le1) (ub'.mono le2)
  obtain ⟨b6, e6⟩ := fePow22523_pow b5
  obtain ⟨b7, e7⟩ := feMul_spec (b6.mono le1) (b2'.mono le1)
  obtain ⟨b8, e8⟩ := feMul_spec (b7.mono le1) (ub'.mono le2)
  refine ⟨b8, ?_⟩
  rw [e8, e7, e6, e5, e4, e3, e2', ue', ve']
  congr 3
  ring

/-- The test of the root: it finds one or there is none. -/
theorem geRoot_spec {u v x : Fe} (hu : u.Bd 2) (hv : v.Bd 2) (hx : x.Bd 1) (v0 : v.val ≠ 0)
    (e : x.val = (v.val ^ 7 * u.val) ^ ((prime25519 - 5) / 8) * v.val ^ 3 * u.val) :
    (∃ r, geRoot u v x = some r ∧ r.Bd 1 ∧ r.val ^ 2 * v.val = u.val) ∨
    (geRoot u v x = none ∧ ∀ r : Fp, r ^ 2 * v.val ≠ u.val) := by
  have le1 : (1 : Int) ≤ 3 := by decide
  have le2 : (2 : Int) ≤ 3 := by decide
  have hroot := root_spec v0 e
  obtain ⟨b1, e1⟩ := feSquare_spec (hx.mono le1)
  obtain ⟨b2, e2⟩ := feMul_spec (b1.mono le1) (hv.mono le2)
  have wb : (geVxx x v).Bd 1 := by rw [geVxx]; exact b2
  have we : (geVxx x v).val = x.val ^ 2 * v.val := by rw [geVxx, e2, e1]; ring
  obtain ⟨cb, ce⟩ := feSub_spec wb hu (by decide) (by decide)
  obtain ⟨cb', ce'⟩ := feAdd_spec wb hu (by decide) (by decide)
  rw [geRoot, feIsNonZero_spec cb, feIsNonZero_spec cb', ce, ce', we]
  by_cases h1 : x.val ^ 2 * v.val - u.val = 0
  · left
    rw [if_pos h1, if_neg (by decide)]
    exact ⟨x, rfl, hx, sub_eq_zero.1 h1⟩
  · rw [if_neg h1, if_pos rfl]
    by_cases h2 : x.val ^ 2 * v.val + u.val = 0
    · left
      obtain ⟨mb, me⟩ := feMul_spec (hx.mono le1)
        (show feSqrtM1.Bd 3 by unfold Fe.Bd feSqrtM1; simp only [abs_le]; decide)
      rw [if_pos h2, if_neg (by decide)]
      refine ⟨_, rfl, mb, ?_⟩
      have := sqrtM1_sq
      rw [me]
      linear_combination x.val ^ 2 * v.val * this - h2
    · right
      rw [if_neg h2, if_pos rfl]
      refine ⟨rfl, fun r hr => ?_⟩
      rcases hroot ⟨r, hr⟩ with h | h
      · exact h1 (by rw [h]; ring)
      · exact h2 (by rw [h]; ring)

/-- The choice of the sign. -/
theorem geSigned_spec {x : Fe} (hx : x.Bd 1) (top : UInt8) (ht : top.toNat < 2) :
    (geSigned x top).Bd 2 ∧ (geSigned x top).val ^ 2 = x.val ^ 2 ∧
      ((geSigned x top).val = 0 ∨ (geSigned x top).val.val % 2 = top.toNat) := by
  obtain ⟨red, rv⟩ := feReduce_val (hx.mono (show (1 : Int) ≤ 3 by decide))
  obtain ⟨nb, nv⟩ := feNeg_spec red.bd (by decide)
  have hneg := feIsNegative_spec (hx.mono (show (1 : Int) ≤ 3 by decide))
  rw [rv] at nv
  rw [geSigned]
  split
  · rename_i hne
    refine ⟨nb, by rw [nv]; ring, ?_⟩
    rw [nv]
    by_cases h0 : x.val = 0
    · left; rw [h0, neg_zero]
    · right
      have h1 := val_neg_parity h0
      have h2 : x.val.val % 2 ≠ top.toNat := by
        rw [← hneg]
        exact fun h => hne (UInt8.toNat_inj.1 h)
      omega
  · rename_i heq
    refine ⟨red.bd, by rw [rv], ?_⟩
    right
    rw [rv, ← hneg, not_not.1 heq]

/-- The top bit. -/
theorem top_bit {s : Bytes} (hs : s.length = 32) :
    (s.getD 31 0 >>> 7).toNat = leNat s / 2 ^ 255 ∧ leNat s / 2 ^ 255 < 2 := by
  constructor
  · rw [UInt8.toNat_shiftRight, leNat_getD_last (n := 31) hs, Nat.shiftRight_eq_div_pow,
      Nat.div_div_eq_div_mul, show (256 : Nat) ^ 31 * 2 ^ (UInt8.toNat 7 % 8) = 2 ^ 255 by decide +kernel]
  · have := leNat_lt s
    rw [hs] at this
    rw [Nat.div_lt_iff_lt_mul (by positivity)]
    exact lt_of_lt_of_eq this (by norm_num)

/-- Reading 32 bytes: the ordinate is the low 255 bits, the abscissa has the parity of the top bit
unless it is zero, and reading only fails when no point of the curve has this ordinate. -/
theorem GeExt.fromBytes_spec (s : Bytes) (hs : s.length = 32) :
    (∃ g P, GeExt.fromBytes s = some g ∧ g.Rep P ∧ P.y = ((leNat s % 2 ^ 255 : Nat) : Fp) ∧
      (P.x = 0 ∨ P.x.val % 2 = leNat s / 2 ^ 255)) ∨
    (GeExt.fromBytes s = none ∧ ∀ P : Ed, P.y ≠ ((leNat s % 2 ^ 255 : Nat) : Fp)) := by
  obtain ⟨yb, ye⟩ := feFromBytes_val s hs
  obtain ⟨ub, ue, vb, ve, xb, xe⟩ := geCandidate_spec yb ye
  obtain ⟨t1, t2⟩ := top_bit hs
  rw [← t1] at t2 ⊢
  have v0 : (geV (feFromBytes s)).val ≠ 0 := by rw [ve]; exact v_ne_zero _
  have hr := geRoot_spec ub vb xb v0 (by rw [xe, ve, ue])
  generalize ((leNat s % 2 ^ 255 : Nat) : Fp) = y at *
  rcases hr with ⟨r, h1, h2, h3⟩ | ⟨h1, h2⟩
  · left
    obtain ⟨sb, se, sp⟩ := geSigned_spec h2 _ t2
    obtain ⟨tb, te⟩ := feMul_spec (sb.mono (show (2 : Int) ≤ 3 by decide)) (yb.mono (show (1 : Int) ≤ 3 by decide))
    refine ⟨⟨geSigned r (s.getD 31 0 >>> 7), feFromBytes s, feOne,
        feMul (geSigned r (s.getD 31 0 >>> 7)) (feFromBytes s)⟩,
      ⟨(geSigned r (s.getD 31 0 >>> 7)).val, y, on_iff.2 (by rw [se, ← ve, h3, ue])⟩, ?_,
      ⟨sb, yb, feOne_spec.1, tb, ?_⟩, rfl, sp⟩
    · rw [GeExt.fromBytes, if_pos hs, h1]
    · dsimp only
      rw [feOne_spec.2, te, ye]
      exact ⟨one_ne_zero, (mul_one _).symm, (mul_one _).symm, (mul_one _).symm⟩
  · right
    refine ⟨by rw [GeExt.fromBytes, if_pos hs, h1], fun P hP => ?_⟩
    have hon := on_iff.1 P.on
    rw [hP, ← ve, ← ue] at hon
    exact h2 _ hon

theorem GeExt.fromBytes_length {s : Bytes} {g : GeExt} (h : GeExt.fromBytes s = some g) :
    s.length = 32 := by
  rw [GeExt.fromBytes] at h
  split at h
  · assumption
  · cases h

end Verif.Kyber
