import Verif.Ed25519.Base

/-!
# The group operations of `ge.go` compute in the group of the curve
-/

namespace Verif.Kyber

/-- Extended limbs stand for a point. -/
def GeExt.Rep (g : GeExt) (P : Ed) : Prop :=
  g.X.Bd 2 ∧ g.Y.Bd 1 ∧ g.Z.Bd 1 ∧ g.T.Bd 1 ∧ ExtRep g.X.val g.Y.val g.Z.val g.T.val P

/-- Projective limbs stand for a point. -/
def GeProj.Rep (g : GeProj) (P : Ed) : Prop :=
  g.X.Bd 1 ∧ g.Y.Bd 1 ∧ g.Z.Bd 1 ∧ ProjRep g.X.val g.Y.val g.Z.val P

/-- Completed limbs stand for a point. -/
def GeCompl.Rep (g : GeCompl) (P : Ed) : Prop :=
  g.X.Bd 3 ∧ g.Y.Bd 3 ∧ g.Z.Bd 3 ∧ g.T.Bd 3 ∧ ComplRep g.X.val g.Y.val g.Z.val g.T.val P

/-- Cached limbs stand for a point. -/
def GeCached.Rep (g : GeCached) (P : Ed) : Prop :=
  g.yPlusX.Bd 3 ∧ g.yMinusX.Bd 3 ∧ g.Z.Bd 1 ∧ g.T2d.Bd 1 ∧
    CachedRep g.yPlusX.val g.yMinusX.val g.Z.val g.T2d.val P

theorem GeExt.zero_rep : GeExt.zero.Rep 0 := by
  refine ⟨feZero_spec.1.mono (by decide), feOne_spec.1, feOne_spec.1, feZero_spec.1, ?_⟩
  unfold GeExt.zero
  dsimp only
  rw [feZero_spec.2, feOne_spec.2]
  exact ExtRep.zero

theorem GeCached.zero_rep : GeCached.zero.Rep 0 := by
  refine ⟨feOne_spec.1.mono (by decide), feOne_spec.1.mono (by decide), feOne_spec.1, feZero_spec.1, ?_⟩
  unfold GeCached.zero
  dsimp only
  rw [feZero_spec.2, feOne_spec.2]
  exact CachedRep.zero

theorem feD2_bd : feD2.Bd 1 := by unfold Fe.Bd; decide

theorem GeExt.Rep.toCached {g : GeExt} {P : Ed} (h : g.Rep P) : g.toCached.Rep P := by
  obtain ⟨bx, b_y, bz, bt, r⟩ := h
  obtain ⟨a1, a2⟩ := feAdd_spec b_y bx (by decide) (by decide)
  obtain ⟨s1, s2⟩ := feSub_spec b_y bx (by decide) (by decide)
  obtain ⟨m1, m2⟩ := feMul_spec (bt.mono (by decide)) (feD2_bd.mono (n := 3) (by decide))
  refine ⟨a1, s1, bz, m1, ?_⟩
  unfold GeExt.toCached
  dsimp only
  rw [a2, s2, m2]
  exact r.toCached feD2_val

theorem GeCached.Rep.neg {g : GeCached} {P : Ed} (h : g.Rep P) : g.neg.Rep (-P) := by
  obtain ⟨b1, b2, bz, bt, r⟩ := h
  obtain ⟨n1, n2⟩ := feNeg_spec bt (by decide)
  refine ⟨b2, b1, bz, n1, ?_⟩
  unfold GeCached.neg
  dsimp only
  rw [n2]
  exact r.neg

theorem GeCompl.toProj_rep {g : GeCompl} {P : Ed} (h : g.Rep P) : g.toProj.Rep P := by
  obtain ⟨bx, b_y, bz, bt, r⟩ := h
  obtain ⟨x1, x2⟩ := feMul_spec bx bt
  obtain ⟨y1, y2⟩ := feMul_spec b_y bz
  obtain ⟨z1, z2⟩ := feMul_spec bz bt
  refine ⟨x1, y1, z1, ?_⟩
  unfold GeCompl.toProj
  dsimp only
  rw [x2, y2, z2]
  exact r.toProj

theorem GeCompl.toExt_rep' {g : GeCompl} {P : Ed} (h : g.Rep P) : g.toExt.Rep P ∧ g.toExt.X.Bd 1 := by
  obtain ⟨bx, b_y, bz, bt, r⟩ := h
  obtain ⟨x1, x2⟩ := feMul_spec bx bt
  obtain ⟨y1, y2⟩ := feMul_spec b_y bz
  obtain ⟨z1, z2⟩ := feMul_spec bz bt
  obtain ⟨t1, t2⟩ := feMul_spec bx b_y
  refine ⟨⟨x1.mono (by decide), y1, z1, t1, ?_⟩, x1⟩
  unfold GeCompl.toExt
  dsimp only
  rw [x2, y2, z2, t2]
  exact r.toExt

theorem GeCompl.toExt_rep {g : GeCompl} {P : Ed} (h : g.Rep P) : g.toExt.Rep P := (toExt_rep' h).1

theorem GeCompl.add_rep {g : GeExt} {c : GeCached} {P Q : Ed} (h : g.Rep P) (h' : c.Rep Q) :
    (GeCompl.add g c).Rep (P + Q) := by
  obtain ⟨bx, b_y, bz, bt, r⟩ := h
  obtain ⟨c1, c2, cz, ct, r'⟩ := h'
  obtain ⟨x1, x2⟩ := feAdd_spec b_y bx (by decide) (by decide)
  obtain ⟨y1, y2⟩ := feSub_spec b_y bx (by decide) (by decide)
  obtain ⟨z1, z2⟩ := feMul_spec x1 c1
  obtain ⟨w1, w2⟩ := feMul_spec y1 c2
  obtain ⟨t1, t2⟩ := feMul_spec (ct.mono (n := 3) (by decide)) (bt.mono (n := 3) (by decide))
  obtain ⟨u1, u2⟩ := feMul_spec (bz.mono (n := 3) (by decide)) (cz.mono (n := 3) (by decide))
  obtain ⟨d1, d2⟩ := feAdd_spec u1 u1 (by decide) (by decide)
  obtain ⟨e1, e2⟩ := feSub_spec z1 w1 (by decide) (by decide)
  obtain ⟨f1, f2⟩ := feAdd_spec z1 w1 (by decide) (by decide)
  obtain ⟨g1, g2⟩ := feAdd_spec d1 t1 (by decide) (by decide)
  obtain ⟨h1, h2⟩ := feSub_spec d1 t1 (by decide) (by decide)
  refine ⟨e1.mono (by decide), f1.mono (by decide), g1, h1, ?_⟩
  unfold GeCompl.add
  dsimp only
  rw [e2, f2, g2, h2, d2, u2, t2, z2, w2, x2, y2]
  exact r.add r'

theorem GeCompl.sub_rep {g : GeExt} {c : GeCached} {P Q : Ed} (h : g.Rep P) (h' : c.Rep Q) :
    (GeCompl.sub g c).Rep (P - Q) := by
  obtain ⟨bx, b_y, bz, bt, r⟩ := h
  obtain ⟨c1, c2, cz, ct, r'⟩ := h'
  obtain ⟨x1, x2⟩ := feAdd_spec b_y bx (by decide) (by decide)
  obtain ⟨y1, y2⟩ := feSub_spec b_y bx (by decide) (by decide)
  obtain ⟨z1, z2⟩ := feMul_spec x1 c2
  obtain ⟨w1, w2⟩ := feMul_spec y1 c1
  obtain ⟨t1, t2⟩ := feMul_spec (ct.mono (n := 3) (by decide)) (bt.mono (n := 3) (by decide))
  obtain ⟨u1, u2⟩ := feMul_spec (bz.mono (n := 3) (by decide)) (cz.mono (n := 3) (by decide))
  obtain ⟨d1, d2⟩ := feAdd_spec u1 u1 (by decide) (by decide)
  obtain ⟨e1, e2⟩ := feSub_spec z1 w1 (by decide) (by decide)
  obtain ⟨f1, f2⟩ := feAdd_spec z1 w1 (by decide) (by decide)
  obtain ⟨g1, g2⟩ := feAdd_spec d1 t1 (by decide) (by decide)
  obtain ⟨h1, h2⟩ := feSub_spec d1 t1 (by decide) (by decide)
  refine ⟨e1.mono (by decide), f1.mono (by decide), h1, g1, ?_⟩
  unfold GeCompl.sub
  dsimp only
  rw [e2, f2, g2, h2, d2, u2, t2, z2, w2, x2, y2]
  exact r.sub r'

theorem GeProj.Rep.double {g : GeProj} {P : Ed} (h : g.Rep P) : g.double.Rep (P + P) := by
  obtain ⟨bx, b_y, bz, r⟩ := h
  obtain ⟨x1, x2⟩ := feSquare_spec (bx.mono (n := 3) (by decide))
  obtain ⟨z1, z2⟩ := feSquare_spec (b_y.mono (n := 3) (by decide))
  obtain ⟨t1, t2⟩ := feSquare2_spec (bz.mono (n := 3) (by decide))
  obtain ⟨y1, y2⟩ := feAdd_spec bx b_y (by decide) (by decide)
  obtain ⟨s1, s2⟩ := feSquare_spec (y1.mono (n := 3) (by decide))
  obtain ⟨a1, a2⟩ := feAdd_spec z1 x1 (by decide) (by decide)
  obtain ⟨b1, b2⟩ := feSub_spec z1 x1 (by decide) (by decide)
  obtain ⟨c1, c2⟩ := feSub_spec s1 a1 (by decide) (by decide)
  obtain ⟨d1, d2⟩ := feSub_spec t1 b1 (by decide) (by decide)
  refine ⟨c1, a1.mono (by decide), b1.mono (by decide), d1, ?_⟩
  unfold GeProj.double
  dsimp only
  rw [c2, d2, a2, b2, s2, t2, y2, x2, z2]
  exact r.double

theorem double4_rep {g : GeCompl} {P : Ed} (h : g.Rep P) : (double4 g).Rep (16 • P) := by
  have h1 := (GeCompl.toProj_rep h).double
  have h2 := (GeCompl.toProj_rep h1).double
  have h3 := (GeCompl.toProj_rep h2).double
  have h4 := (GeCompl.toProj_rep h3).double
  simp only [← two_nsmul, smul_smul] at h4
  exact h4

theorem ptAdd_rep {g h : GeExt} {P Q : Ed} (hg : g.Rep P) (hh : h.Rep Q) : (ptAdd g h).Rep (P + Q) :=
  GeCompl.toExt_rep (GeCompl.add_rep hg hh.toCached)

theorem ptSub_rep {g h : GeExt} {P Q : Ed} (hg : g.Rep P) (hh : h.Rep Q) : (ptSub g h).Rep (P - Q) :=
  GeCompl.toExt_rep (GeCompl.sub_rep hg hh.toCached)

theorem baseext_rep : baseext.Rep edBase := by
  refine ⟨by unfold Fe.Bd; decide, by unfold Fe.Bd; decide, by unfold Fe.Bd; decide,
    by unfold Fe.Bd; decide, ?_, ?_, ?_, ?_⟩
  · intro h
    have : ((baseext.Z.int : Int) : Fp) = ((0 : Int) : Fp) := by rw [Int.cast_zero]; exact h
    rw [ZMod.intCast_eq_intCast_iff_dvd_sub] at this
    revert this
    unfold prime25519
    decide +kernel
  · have : ((baseext.X.int : Int) : Fp) = (((baseX : Int) * baseext.Z.int : Int) : Fp) :=
      cast_eq_of_dvd (by unfold prime25519; decide +kernel)
    rw [Int.cast_mul, Int.cast_natCast] at this
    exact this
  · have : ((baseext.Y.int : Int) : Fp) = (((baseY : Int) * baseext.Z.int : Int) : Fp) :=
      cast_eq_of_dvd (by unfold prime25519; decide +kernel)
    rw [Int.cast_mul, Int.cast_natCast] at this
    exact this
  · have : ((baseext.T.int : Int) : Fp) = (((baseX : Int) * (baseY : Int) * baseext.Z.int : Int) : Fp) :=
      cast_eq_of_dvd (by unfold prime25519; decide +kernel)
    rw [Int.cast_mul, Int.cast_mul, Int.cast_natCast, Int.cast_natCast] at this
    exact this

/-! ## Selection -/

theorem GeCached.cmove_zero {r u : GeCached} {P : Ed} (h : r.Rep P) : r.cmove u 0 = r := by
  obtain ⟨b1, b2, bz, bt, _⟩ := h
  unfold GeCached.cmove
  rw [feCMove_zero b1 (by decide), feCMove_zero b2 (by decide), feCMove_zero bz (by decide),
    feCMove_zero bt (by decide)]

theorem GeCached.cmove_one {r u : GeCached} {P : Ed} (h : u.Rep P) : r.cmove u 1 = u := by
  obtain ⟨b1, b2, bz, bt, _⟩ := h
  unfold GeCached.cmove
  rw [feCMove_one b1 (by decide), feCMove_one b2 (by decide), feCMove_one bz (by decide),
    feCMove_one bt (by decide)]

/-- The index of the multiple that `selectCached` takes for the digit `b`; 0 is the neutral element. -/
theorem equal_spec (a c : Int) (ha : 0 ≤ a ∧ a ≤ 16) (hc : 1 ≤ c ∧ c ≤ 8) :
    equal a c = if a = c then 1 else 0 := by
  obtain ⟨a1, a2⟩ := ha
  obtain ⟨c1, c2⟩ := hc
  interval_cases a <;> interval_cases c <;> decide +kernel

theorem negative_spec (b : Int) (hb : -8 ≤ b ∧ b ≤ 16) : negative b = if b < 0 then 1 else 0 := by
  obtain ⟨b1, b2⟩ := hb
  interval_cases b <;> decide +kernel

theorem bAbs_spec (b : Int) (hb : -8 ≤ b ∧ b ≤ 16) :
    w32 (b - w32 (land32 (w32 (-(if b < 0 then (1 : Int) else 0))) b * 2)) = |b| := by
  obtain ⟨b1, b2⟩ := hb
  interval_cases b <;> decide +kernel

/-- The multiplier for a digit: digits above 8 select nothing. -/
def digit (b : Int) : Int := if b ≤ 8 then b else 0

theorem select_loop (Ai : List GeCached) (P : Ed)
    (hA : ∀ i < 8, (Ai.getD i GeCached.zero).Rep ((i + 1) • P)) (a : Int) (ha : 0 ≤ a ∧ a ≤ 16) :
    ∀ n ≤ 8, ((List.range n).foldl
      (fun c i => c.cmove (Ai.getD i GeCached.zero) (equal a ((i : Int) + 1))) GeCached.zero).Rep
      ((if a ≤ n then a else 0) • P)
  | 0, _ => by
    have : (if a ≤ (0 : Nat) then a else 0) = 0 := by split <;> omega
    rw [this, zero_smul]
    exact GeCached.zero_rep
  | n + 1, hn => by
    have ih := select_loop Ai P hA a ha n (by omega)
    rw [List.range_succ, List.foldl_append, List.foldl_cons, List.foldl_nil,
      equal_spec a _ ha ⟨by omega, by omega⟩]
    by_cases h : a = (n : Int) + 1
    · rw [if_pos h, GeCached.cmove_one (hA n (by omega)), if_pos (by omega), h]
      have := hA n (by omega)
      convert this using 1
      rw [← natCast_zsmul]
      push_cast
      rfl
    · rw [if_neg h, GeCached.cmove_zero ih]
      convert ih using 2
      have : a ≤ ((n + 1 : Nat) : Int) ↔ a ≤ (n : Int) := by omega
      simp only [this]

theorem selectCached_rep (Ai : List GeCached) (P : Ed)
    (hA : ∀ i < 8, (Ai.getD i GeCached.zero).Rep ((i + 1) • P)) (b : Int) (hb : -8 ≤ b ∧ b ≤ 16) :
    (selectCached Ai b).Rep (digit b • P) := by
  unfold selectCached
  dsimp only
  rw [negative_spec b hb, bAbs_spec b hb]
  have habs : 0 ≤ |b| ∧ |b| ≤ 16 := ⟨abs_nonneg b, by rw [abs_le]; omega⟩
  have h := select_loop Ai P hA |b| habs 8 (by decide)
  unfold digit
  split
  · rename_i hneg
    rw [GeCached.cmove_one h.neg, if_pos (by omega)]
    convert h.neg using 1
    rw [abs_of_neg hneg, if_pos (by push_cast; omega), neg_smul, neg_neg]
  · rename_i hpos
    rw [GeCached.cmove_zero h]
    convert h using 2
    rw [abs_of_nonneg (by omega)]
    norm_num only

theorem multiples_length (A : GeExt) : ∀ n, (multiples A n).length = n + 1
  | 0 => rfl
  | n + 1 => by simp [multiples, multiples_length A n]

theorem multiples_rep {A : GeExt} {P : Ed} (h : A.Rep P) :
    ∀ n, ∀ i ≤ n, ((multiples A n).getD i GeCached.zero).Rep ((i + 1) • P)
  | 0, i, hi => by
    obtain rfl : i = 0 := by omega
    simp only [multiples, List.getD_cons_zero, zero_add, one_smul]
    exact h.toCached
  | n + 1, i, hi => by
    have ih := multiples_rep h n
    have hl := multiples_length A n
    rw [multiples]
    by_cases hin : i ≤ n
    · rw [List.getD_eq_getElem?_getD, List.getElem?_append_left (by omega), ← List.getD_eq_getElem?_getD]
      exact ih i hin
    · obtain rfl : i = n + 1 := by omega
      rw [List.getD_eq_getElem?_getD, List.getElem?_append_right (by omega), ← List.getD_eq_getElem?_getD]
      have : n + 1 - (multiples A n).length = 0 := by omega
      rw [this, List.getD_cons_zero]
      have := (GeCompl.toExt_rep (GeCompl.add_rep h (ih n (le_refl n)))).toCached
      convert this using 1
      rw [add_smul, one_smul, add_comm]

/-! ## Digits -/

/-- The number that signed digits stand for. -/
def sumDigits : List Int → Int
  | [] => 0
  | e :: t => e + 16 * sumDigits t

theorem nibbles_length (a : Bytes) : (nibbles a).length = 2 * a.length := by
  induction a with
  | nil => rfl
  | cons b t ih => simp only [nibbles, List.length_cons, ih]; omega

theorem nibbles_sum (a : Bytes) : sumDigits (nibbles a) = leNat a := by
  induction a with
  | nil => rfl
  | cons b t ih =>
    have hb : ((b &&& 15).toNat : Int) + 16 * ((b >>> 4) &&& 15).toNat = b.toNat := by
      revert b; apply UInt8.forall_of_fin; decide +kernel
    simp only [nibbles, sumDigits, ih, leNat]
    push_cast
    rw [← hb]
    ring

theorem nibbles_bound (a : Bytes) : ∀ e ∈ nibbles a, 0 ≤ e ∧ e ≤ 15 := by
  induction a with
  | nil => simp [nibbles]
  | cons b t ih =>
    have hb : ((b &&& 15).toNat : Int) ≤ 15 ∧ (((b >>> 4) &&& 15).toNat : Int) ≤ 15 := by
      revert b; apply UInt8.forall_of_fin; decide +kernel
    intro e he
    simp only [nibbles, List.mem_cons] at he
    rcases he with rfl | rfl | he
    · exact ⟨Int.natCast_nonneg _, hb.1⟩
    · exact ⟨Int.natCast_nonneg _, hb.2⟩
    · exact ih e he

theorem w8_eq {x : Int} (h : -128 ≤ x ∧ x ≤ 127) : w8 x = x := by
  unfold w8
  apply Int.bmod_eq_of_le <;> omega

/-- The signed digits: all but the last are between -8 and 7, and together they have the value of the
digits and the carry. -/
theorem recode_spec : ∀ (l : List Int) (c : Int), (0 ≤ c ∧ c ≤ 1) → (∀ e ∈ l, 0 ≤ e ∧ e ≤ 15) → l ≠ [] →
    (recode c l).length = l.length ∧ sumDigits (recode c l) = sumDigits l + c ∧
      (∀ i, i + 1 < l.length → -8 ≤ (recode c l).getD i 0 ∧ (recode c l).getD i 0 ≤ 7) ∧
      0 ≤ (recode c l).getD (l.length - 1) 0 ∧ (recode c l).getD (l.length - 1) 0 ≤ 16
  | [], _, _, _, h => absurd rfl h
  | [e], c, hc, he, _ => by
    have := he e (by simp)
    simp only [recode, w8_eq (x := e + c) (by omega), sumDigits, List.length_cons, List.length_nil]
    refine ⟨trivial, by ring, fun i hi => absurd hi (by simp), ?_, ?_⟩ <;> simp <;> omega
  | e :: e' :: t, c, hc, he, _ => by
    have h1 := he e (by simp)
    have hc' : 0 ≤ (e + c + 8) / 2 ^ 4 ∧ (e + c + 8) / 2 ^ 4 ≤ 1 := by omega
    obtain ⟨il, is, ib, it⟩ := recode_spec (e' :: t) ((e + c + 8) / 2 ^ 4) hc'
      (fun x hx => he x (List.mem_cons_of_mem _ hx)) (by simp)
    have e1 : recode c (e :: e' :: t) =
        (e + c - (e + c + 8) / 2 ^ 4 * 2 ^ 4) :: recode ((e + c + 8) / 2 ^ 4) (e' :: t) := by
      rw [recode]
      rw [w8_eq (x := e + c) (by omega), w8_eq (x := e + c + 8) (by omega),
        w8_eq (x := (e + c + 8) / 2 ^ 4 * 2 ^ 4) (by omega), w8_eq (by omega)]
    rw [e1]
    refine ⟨by rw [List.length_cons, il, List.length_cons (a := e)], ?_, ?_, ?_⟩
    · have e2 : sumDigits (e :: e' :: t) = e + 16 * sumDigits (e' :: t) := rfl
      rw [sumDigits, is, e2]
      ring
    · intro i hi
      cases i with
      | zero => simp only [List.getD_cons_zero]; omega
      | succ i =>
        rw [List.getD_cons_succ]
        exact ib i (by simpa using hi)
    · have e2 : (e :: e' :: t).length - 1 = (e' :: t).length - 1 + 1 := by simp
      rw [e2, List.getD_cons_succ]
      exact it

theorem sumDigits_take (l : List Int) : ∀ n, n < l.length → n + 1 = l.length →
    sumDigits l = sumDigits (l.take n) + 16 ^ n * l.getD n 0 := by
  induction l with
  | nil => intro n h; simp at h
  | cons e t ih =>
    intro n h1 h2
    cases n with
    | zero =>
      have : t = [] := by simpa using h2
      subst this
      simp [sumDigits]
    | succ n =>
      have := ih n (by simpa using h1) (by simpa using h2)
      simp only [List.take_succ_cons, sumDigits, List.getD_cons_succ, this]
      ring

end Verif.Kyber
