import Verif.Ed25519.Group

/-!
# Projective coordinates

Which points the coordinates of `edwards25519/ge.go` stand for, and the formulas of that file.
-/

namespace Verif

section
variable {K : Type} [E : Edwards K]

/-- Extended coordinates: `x = X/Z`, `y = Y/Z`, `XY = ZT`. -/
def ExtRep (X Y Z T : K) (P : EdPoint K) : Prop :=
  Z ≠ 0 ∧ X = P.x * Z ∧ Y = P.y * Z ∧ T = P.x * P.y * Z

/-- Projective coordinates: `x = X/Z`, `y = Y/Z`. -/
def ProjRep (X Y Z : K) (P : EdPoint K) : Prop := Z ≠ 0 ∧ X = P.x * Z ∧ Y = P.y * Z

/-- Completed coordinates: `x = X/Z`, `y = Y/T`. -/
def ComplRep (X Y Z T : K) (P : EdPoint K) : Prop := Z ≠ 0 ∧ T ≠ 0 ∧ X = P.x * Z ∧ Y = P.y * T

/-- Cached coordinates: `Y + X`, `Y - X`, `Z`, `2dT`. -/
def CachedRep (a b Z t : K) (P : EdPoint K) : Prop :=
  Z ≠ 0 ∧ a = (P.y + P.x) * Z ∧ b = (P.y - P.x) * Z ∧ t = 2 * E.d * P.x * P.y * Z

theorem ExtRep.zero : ExtRep (0 : K) 1 1 0 0 := by simp [ExtRep]

theorem CachedRep.zero : CachedRep (1 : K) 1 1 0 0 := by simp [CachedRep]

theorem ExtRep.toProj {X Y Z T : K} {P : EdPoint K} (h : ExtRep X Y Z T P) : ProjRep X Y Z P :=
  ⟨h.1, h.2.1, h.2.2.1⟩

theorem ExtRep.toCached {X Y Z T d2 : K} {P : EdPoint K} (h : ExtRep X Y Z T P) (hd : d2 = 2 * E.d) :
    CachedRep (Y + X) (Y - X) Z (T * d2) P := by
  obtain ⟨h0, rfl, rfl, rfl⟩ := h
  refine ⟨h0, by ring, by ring, by rw [hd]; ring⟩

theorem CachedRep.neg {a b Z t : K} {P : EdPoint K} (h : CachedRep a b Z t P) :
    CachedRep b a Z (-t) (-P) := by
  obtain ⟨h0, rfl, rfl, rfl⟩ := h
  refine ⟨h0, ?_, ?_, ?_⟩ <;> simp only [EdPoint.neg_x, EdPoint.neg_y] <;> ring

theorem ComplRep.toProj {X Y Z T : K} {P : EdPoint K} (h : ComplRep X Y Z T P) :
    ProjRep (X * T) (Y * Z) (Z * T) P := by
  obtain ⟨h0, h1, rfl, rfl⟩ := h
  exact ⟨mul_ne_zero h0 h1, by ring, by ring⟩

theorem ComplRep.toExt {X Y Z T : K} {P : EdPoint K} (h : ComplRep X Y Z T P) :
    ExtRep (X * T) (Y * Z) (Z * T) (X * Y) P := by
  obtain ⟨h0, h1, rfl, rfl⟩ := h
  exact ⟨mul_ne_zero h0 h1, by ring, by ring, by ring⟩

/-- The sum, as `ge.go` computes it. -/
theorem ExtRep.add {X Y Z T a b Z' t : K} {P Q : EdPoint K} (h : ExtRep X Y Z T P)
    (h' : CachedRep a b Z' t Q) :
    ComplRep ((Y + X) * a - (Y - X) * b) ((Y + X) * a + (Y - X) * b)
      (Z * Z' + Z * Z' + t * T) (Z * Z' + Z * Z' - t * T) (P + Q) := by
  obtain ⟨h0, rfl, rfl, rfl⟩ := h
  obtain ⟨h1, rfl, rfl, rfl⟩ := h'
  have hp := EdPoint.one_add_ne P Q
  have hm := EdPoint.one_sub_ne P Q
  have h2 := E.two_ne
  have ep : Z * Z' + Z * Z' + 2 * E.d * Q.x * Q.y * Z' * (P.x * P.y * Z) =
      2 * Z * Z' * (1 + EdPoint.eps P Q) := by simp only [EdPoint.eps]; ring
  have em : Z * Z' + Z * Z' - 2 * E.d * Q.x * Q.y * Z' * (P.x * P.y * Z) =
      2 * Z * Z' * (1 - EdPoint.eps P Q) := by simp only [EdPoint.eps]; ring
  rw [ep, em]
  refine ⟨?_, ?_, ?_, ?_⟩
  · exact mul_ne_zero (mul_ne_zero (mul_ne_zero h2 h0) h1) hp
  · exact mul_ne_zero (mul_ne_zero (mul_ne_zero h2 h0) h1) hm
  · rw [EdPoint.add_x]; field_simp; ring
  · rw [EdPoint.add_y]; field_simp; ring

/-- The difference, as `ge.go` computes it. -/
theorem ExtRep.sub {X Y Z T a b Z' t : K} {P Q : EdPoint K} (h : ExtRep X Y Z T P)
    (h' : CachedRep a b Z' t Q) :
    ComplRep ((Y + X) * b - (Y - X) * a) ((Y + X) * b + (Y - X) * a)
      (Z * Z' + Z * Z' - t * T) (Z * Z' + Z * Z' + t * T) (P - Q) := by
  have := h.add h'.neg
  rw [← sub_eq_add_neg] at this
  convert this using 1 <;> ring

/-- The double, as `ge.go` computes it. -/
theorem ProjRep.double {X Y Z : K} {P : EdPoint K} (h : ProjRep X Y Z P) :
    ComplRep ((X + Y) * (X + Y) - (Y * Y + X * X)) (Y * Y + X * X) (Y * Y - X * X)
      (2 * (Z * Z) - (Y * Y - X * X)) (P + P) := by
  obtain ⟨h0, rfl, rfl⟩ := h
  have hp := EdPoint.one_add_ne P P
  have hm := EdPoint.one_sub_ne P P
  have on := P.on
  have ep : P.y * Z * (P.y * Z) - P.x * Z * (P.x * Z) = Z * Z * (1 + EdPoint.eps P P) := by
    simp only [EdPoint.eps]; linear_combination Z * Z * on
  have em : 2 * (Z * Z) - Z * Z * (1 + EdPoint.eps P P) = Z * Z * (1 - EdPoint.eps P P) := by ring
  rw [ep, em]
  refine ⟨?_, ?_, ?_, ?_⟩
  · exact mul_ne_zero (mul_ne_zero h0 h0) hp
  · exact mul_ne_zero (mul_ne_zero h0 h0) hm
  · rw [EdPoint.add_x]; field_simp; ring
  · rw [EdPoint.add_y]; field_simp

end

end Verif
