import Mathlib.Algebra.Field.Basic
import Mathlib.Tactic.FieldSimp
import Mathlib.Tactic.LinearCombination
import Mathlib.Tactic.Module

/-!
# The group of a twisted Edwards curve

The points `(x, y)` with `-x^2 + y^2 = 1 + d x^2 y^2` over a field in which `-1` is a square and `d` is
not. The addition law is complete; the group laws are polynomial identities modulo the curve equations.
-/

namespace Verif

/-- A field with the parameters of the curve. -/
class Edwards (K : Type) extends Field K where
  d : K
  i : K
  i_sq : i * i = -1
  d_nonsq : ∀ x : K, x * x ≠ d
  two_ne : (2 : K) ≠ 0

/-- A point of the curve. -/
@[ext] structure EdPoint (K : Type) [E : Edwards K] where
  x : K
  y : K
  on : y ^ 2 - x ^ 2 = 1 + E.d * x ^ 2 * y ^ 2

namespace EdPoint

section
variable {K : Type} [E : Edwards K]

/-- Completeness: the denominators of the addition law do not vanish. -/
theorem complete_aux {x₁ y₁ x₂ y₂ e : K} (h1 : y₁ ^ 2 - x₁ ^ 2 = 1 + E.d * x₁ ^ 2 * y₁ ^ 2)
    (h2 : y₂ ^ 2 - x₂ ^ 2 = 1 + E.d * x₂ ^ 2 * y₂ ^ 2) (he : e * e = 1) :
    E.d * x₁ * x₂ * y₁ * y₂ ≠ e := by
  intro h
  have hi := E.i_sq
  have he0 : e ≠ 0 := fun h => by rw [h] at he; simp at he
  have hne : x₁ ≠ 0 ∧ x₂ ≠ 0 ∧ y₁ ≠ 0 ∧ y₂ ≠ 0 := by
    refine ⟨?_, ?_, ?_, ?_⟩ <;> (rintro rfl; exact he0 (by rw [← h]; ring))
  obtain ⟨hx1, hx2, hy1, hy2⟩ := hne
  have key : ∀ s : K, s * s = 1 →
      (E.i * x₁ + s * e * y₁) ^ 2 = E.d * (x₁ * y₁) ^ 2 * (E.i * x₂ + s * y₂) ^ 2 := by
    intro s hs
    linear_combination (x₁ ^ 2 - E.d * (x₁ * y₁) ^ 2 * x₂ ^ 2) * hi +
      (e * e * y₁ ^ 2 - E.d * (x₁ * y₁) ^ 2 * y₂ ^ 2) * hs + h1 + y₁ ^ 2 * he
      - E.d * (x₁ * y₁) ^ 2 * h2 - 2 * E.i * s * x₁ * y₁ * h
      - (E.d * x₁ * x₂ * y₁ * y₂ + e) * h - he
  have sq : ∀ s : K, s * s = 1 → E.i * x₂ + s * y₂ = 0 := by
    intro s hs
    by_contra hn
    refine E.d_nonsq ((E.i * x₁ + s * e * y₁) / (x₁ * y₁ * (E.i * x₂ + s * y₂))) ?_
    have hk := key s hs
    field_simp
    linear_combination hk
  have a := sq 1 (by ring)
  have b := sq (-1) (by ring)
  have hx : 2 * (E.i * x₂) = 0 := by linear_combination a + b
  have hi0 : E.i ≠ 0 := fun h => by rw [h] at hi; simp at hi
  rcases mul_eq_zero.mp hx with h | h
  · exact E.two_ne h
  · rcases mul_eq_zero.mp h with h | h
    · exact hi0 h
    · exact hx2 h

/-- The product in the denominators. -/
def eps (P Q : EdPoint K) : K := E.d * P.x * Q.x * P.y * Q.y

theorem one_add_ne (P Q : EdPoint K) : 1 + eps P Q ≠ 0 := fun h =>
  complete_aux P.on Q.on (e := -1) (by ring) (by rw [eps] at h; linear_combination h)

theorem one_sub_ne (P Q : EdPoint K) : 1 - eps P Q ≠ 0 := fun h =>
  complete_aux P.on Q.on (e := 1) (by ring) (by rw [eps] at h; linear_combination -h)

theorem closed_aux {a b dp dm d : K} (hp : dp ≠ 0) (hm : dm ≠ 0)
    (h : b ^ 2 * dp ^ 2 - a ^ 2 * dm ^ 2 = dp ^ 2 * dm ^ 2 + d * a ^ 2 * b ^ 2) :
    (b / dm) ^ 2 - (a / dp) ^ 2 = 1 + d * (a / dp) ^ 2 * (b / dm) ^ 2 := by
  field_simp
  linear_combination h

theorem closed_poly {d x₁ y₁ x₂ y₂ : K} (h1 : y₁ ^ 2 - x₁ ^ 2 = 1 + d * x₁ ^ 2 * y₁ ^ 2)
    (h2 : y₂ ^ 2 - x₂ ^ 2 = 1 + d * x₂ ^ 2 * y₂ ^ 2) :
    (y₁ * y₂ + x₁ * x₂) ^ 2 * (1 + d * x₁ * x₂ * y₁ * y₂) ^ 2 -
        (x₁ * y₂ + x₂ * y₁) ^ 2 * (1 - d * x₁ * x₂ * y₁ * y₂) ^ 2 =
      (1 + d * x₁ * x₂ * y₁ * y₂) ^ 2 * (1 - d * x₁ * x₂ * y₁ * y₂) ^ 2 +
        d * (x₁ * y₂ + x₂ * y₁) ^ 2 * (y₁ * y₂ + x₁ * x₂) ^ 2 := by
    linear_combination (d ^ 3 * x₁ ^ 2 * y₁ ^ 2 * x₂ ^ 4 * y₂ ^ 4 - d ^ 2 * x₁ ^ 2 * x₂ ^ 4 *
    y₂ ^ 4 + d ^ 2 * y₁ ^ 2 * x₂ ^ 4 * y₂ ^ 4 - d ^ 2 * x₂ ^ 4 * y₂ ^ 4 - d * x₁ ^ 2 * x₂ ^ 4
    * y₂ ^ 2 + d * x₁ ^ 2 * x₂ ^ 2 * y₂ ^ 4 + d * y₁ ^ 2 * x₂ ^ 4 * y₂ ^ 2 - d * y₁ ^ 2 * x₂
    ^ 2 * y₂ ^ 4 - 2 * d * x₂ ^ 4 * y₂ ^ 4 - 2 * d * x₂ ^ 2 * y₂ ^ 2 - 2 * x₂ ^ 4 * y₂ ^ 2 +
    x₂ ^ 4 + 2 * x₂ ^ 2 * y₂ ^ 4 - 4 * x₂ ^ 2 * y₂ ^ 2 + y₂ ^ 4) * h1 + (d * x₁ ^ 4 * x₂ ^ 2
    * y₂ ^ 2 + 2 * d * x₁ ^ 2 * x₂ ^ 2 * y₂ ^ 2 + d * y₁ ^ 4 * x₂ ^ 2 * y₂ ^ 2 - 2 * d * y₁ ^
    2 * x₂ ^ 2 * y₂ ^ 2 + d * x₂ ^ 2 * y₂ ^ 2 + 2 * x₁ ^ 2 * x₂ ^ 2 * y₂ ^ 2 - x₁ ^ 2 * x₂ ^
    2 + x₁ ^ 2 * y₂ ^ 2 - 2 * y₁ ^ 2 * x₂ ^ 2 * y₂ ^ 2 + y₁ ^ 2 * x₂ ^ 2 - y₁ ^ 2 * y₂ ^ 2 +
    2 * x₂ ^ 2 * y₂ ^ 2 - x₂ ^ 2 + y₂ ^ 2 + 1) * h2

/-- The addition law. -/
instance : Add (EdPoint K) where
  add P Q := {
    x := (P.x * Q.y + Q.x * P.y) / (1 + eps P Q)
    y := (P.y * Q.y + P.x * Q.x) / (1 - eps P Q)
    on := closed_aux (one_add_ne P Q) (one_sub_ne P Q) (closed_poly P.on Q.on) }

theorem add_x (P Q : EdPoint K) : (P + Q).x = (P.x * Q.y + Q.x * P.y) / (1 + eps P Q) := rfl
theorem add_y (P Q : EdPoint K) : (P + Q).y = (P.y * Q.y + P.x * Q.x) / (1 - eps P Q) := rfl

instance : Zero (EdPoint K) where
  zero := ⟨0, 1, by ring⟩

@[simp] theorem zero_x : (0 : EdPoint K).x = 0 := rfl
@[simp] theorem zero_y : (0 : EdPoint K).y = 1 := rfl

instance : Neg (EdPoint K) where
  neg P := ⟨-P.x, P.y, by have := P.on; linear_combination this⟩

@[simp] theorem neg_x (P : EdPoint K) : (-P).x = -P.x := rfl
@[simp] theorem neg_y (P : EdPoint K) : (-P).y = P.y := rfl

theorem add_comm' (P Q : EdPoint K) : P + Q = Q + P := by
  have h : eps P Q = eps Q P := by simp only [eps]; ring
  ext
  · rw [add_x, add_x, h]; ring
  · rw [add_y, add_y, h]; ring

theorem zero_add' (P : EdPoint K) : 0 + P = P := by
  ext
  · rw [add_x]; simp [eps]
  · rw [add_y]; simp [eps]

theorem neg_add' (P : EdPoint K) : -P + P = 0 := by
  have hp := one_add_ne (-P) P
  have hm := one_sub_ne (-P) P
  have on := P.on
  ext
  · rw [add_x]; simp only [neg_x, neg_y, zero_x]
    rw [div_eq_zero_iff]; left; ring
  · rw [add_y]; simp only [neg_x, neg_y, zero_y]
    rw [div_eq_one_iff_eq hm, eps]; simp only [neg_x, neg_y]; linear_combination on

theorem assoc_x {d x₁ y₁ x₂ y₂ x₃ y₃ : K} (h1 : y₁ ^ 2 - x₁ ^ 2 = 1 + d * x₁ ^ 2 * y₁ ^ 2)
    (h2 : y₂ ^ 2 - x₂ ^ 2 = 1 + d * x₂ ^ 2 * y₂ ^ 2)
    (h3 : y₃ ^ 2 - x₃ ^ 2 = 1 + d * x₃ ^ 2 * y₃ ^ 2) :
    ((x₁ * y₂ + x₂ * y₁) * (1 - d * x₁ * x₂ * y₁ * y₂) * y₃ +
        x₃ * (y₁ * y₂ + x₁ * x₂) * (1 + d * x₁ * x₂ * y₁ * y₂)) *
      ((1 + d * x₂ * x₃ * y₂ * y₃) * (1 - d * x₂ * x₃ * y₂ * y₃) +
        d * (x₂ * y₃ + x₃ * y₂) * (y₂ * y₃ + x₂ * x₃) * x₁ * y₁) =
    (x₁ * (y₂ * y₃ + x₂ * x₃) * (1 + d * x₂ * x₃ * y₂ * y₃) +
        (x₂ * y₃ + x₃ * y₂) * (1 - d * x₂ * x₃ * y₂ * y₃) * y₁) *
      ((1 + d * x₁ * x₂ * y₁ * y₂) * (1 - d * x₁ * x₂ * y₁ * y₂) +
        d * (x₁ * y₂ + x₂ * y₁) * (y₁ * y₂ + x₁ * x₂) * x₃ * y₃) := by
    linear_combination (-d ^ 2 * x₁ * x₂ ^ 4 * y₂ ^ 3 * x₃ ^ 2 * y₃ - d ^ 2 * x₁ * x₂ ^ 3 *
    y₂ ^ 4 * x₃ * y₃ ^ 2 + d ^ 2 * y₁ * x₂ ^ 4 * y₂ ^ 3 * x₃ * y₃ ^ 2 + d ^ 2 * y₁ * x₂ ^ 3 *
    y₂ ^ 4 * x₃ ^ 2 * y₃ - d * x₁ * x₂ ^ 4 * y₂ * x₃ ^ 2 * y₃ - d * x₁ * x₂ ^ 3 * y₂ ^ 2 * x₃
    ^ 3 - d * x₁ * x₂ ^ 3 * y₂ ^ 2 * x₃ + d * x₁ * x₂ ^ 2 * y₂ ^ 3 * y₃ ^ 3 - d * x₁ * x₂ ^ 2
    * y₂ ^ 3 * y₃ + d * x₁ * x₂ * y₂ ^ 4 * x₃ * y₃ ^ 2 + d * y₁ * x₂ ^ 4 * y₂ * x₃ * y₃ ^ 2 +
    d * y₁ * x₂ ^ 3 * y₂ ^ 2 * y₃ ^ 3 - d * y₁ * x₂ ^ 3 * y₂ ^ 2 * y₃ - d * y₁ * x₂ ^ 2 * y₂
    ^ 3 * x₃ ^ 3 - d * y₁ * x₂ ^ 2 * y₂ ^ 3 * x₃ - d * y₁ * x₂ * y₂ ^ 4 * x₃ ^ 2 * y₃) * h1 +
    (d ^ 2 * x₁ ^ 2 * y₁ * x₂ ^ 2 * y₂ * x₃ ^ 3 * y₃ ^ 2 - d ^ 2 * x₁ ^ 2 * y₁ * x₂ * y₂ ^ 2
    * x₃ ^ 2 * y₃ ^ 3 - d ^ 2 * x₁ * y₁ ^ 2 * x₂ ^ 2 * y₂ * x₃ ^ 2 * y₃ ^ 3 + d ^ 2 * x₁ * y₁
    ^ 2 * x₂ * y₂ ^ 2 * x₃ ^ 3 * y₃ ^ 2 + d * x₁ ^ 3 * x₂ ^ 2 * y₂ * x₃ ^ 2 * y₃ + d * x₁ ^ 3
    * x₂ * y₂ ^ 2 * x₃ * y₃ ^ 2 + d * x₁ ^ 3 * x₂ * x₃ ^ 3 * y₃ ^ 2 + d * x₁ ^ 3 * y₂ * x₃ ^
    2 * y₃ ^ 3 - d * x₁ ^ 2 * y₁ * x₂ ^ 2 * y₂ * x₃ * y₃ ^ 2 - d * x₁ ^ 2 * y₁ * x₂ * y₂ ^ 2
    * x₃ ^ 2 * y₃ + d * x₁ ^ 2 * y₁ * x₂ * x₃ ^ 2 * y₃ ^ 3 + d * x₁ ^ 2 * y₁ * y₂ * x₃ ^ 3 *
    y₃ ^ 2 - d * x₁ * y₁ ^ 2 * x₂ ^ 2 * y₂ * x₃ ^ 2 * y₃ - d * x₁ * y₁ ^ 2 * x₂ * y₂ ^ 2 * x₃
    * y₃ ^ 2 - d * x₁ * y₁ ^ 2 * x₂ * x₃ ^ 3 * y₃ ^ 2 - d * x₁ * y₁ ^ 2 * y₂ * x₃ ^ 2 * y₃ ^
    3 + d * x₁ * x₂ ^ 2 * y₂ * x₃ ^ 2 * y₃ + d * x₁ * x₂ * y₂ ^ 2 * x₃ * y₃ ^ 2 + d * x₁ * x₂
    * x₃ ^ 3 * y₃ ^ 2 + d * x₁ * y₂ * x₃ ^ 2 * y₃ ^ 3 + d * y₁ ^ 3 * x₂ ^ 2 * y₂ * x₃ * y₃ ^
    2 + d * y₁ ^ 3 * x₂ * y₂ ^ 2 * x₃ ^ 2 * y₃ - d * y₁ ^ 3 * x₂ * x₃ ^ 2 * y₃ ^ 3 - d * y₁ ^
    3 * y₂ * x₃ ^ 3 * y₃ ^ 2 - d * y₁ * x₂ ^ 2 * y₂ * x₃ * y₃ ^ 2 - d * y₁ * x₂ * y₂ ^ 2 * x₃
    ^ 2 * y₃ + d * y₁ * x₂ * x₃ ^ 2 * y₃ ^ 3 + d * y₁ * y₂ * x₃ ^ 3 * y₃ ^ 2 + x₁ ^ 3 * x₂ *
    x₃ ^ 3 - x₁ ^ 3 * x₂ * x₃ * y₃ ^ 2 + x₁ ^ 3 * x₂ * x₃ + x₁ ^ 3 * y₂ * x₃ ^ 2 * y₃ - x₁ ^
    3 * y₂ * y₃ ^ 3 + x₁ ^ 3 * y₂ * y₃ + x₁ ^ 2 * y₁ * x₂ * x₃ ^ 2 * y₃ - x₁ ^ 2 * y₁ * x₂ *
    y₃ ^ 3 + x₁ ^ 2 * y₁ * x₂ * y₃ + x₁ ^ 2 * y₁ * y₂ * x₃ ^ 3 - x₁ ^ 2 * y₁ * y₂ * x₃ * y₃ ^
    2 + x₁ ^ 2 * y₁ * y₂ * x₃ - x₁ * y₁ ^ 2 * x₂ * x₃ ^ 3 + x₁ * y₁ ^ 2 * x₂ * x₃ * y₃ ^ 2 -
    x₁ * y₁ ^ 2 * x₂ * x₃ - x₁ * y₁ ^ 2 * y₂ * x₃ ^ 2 * y₃ + x₁ * y₁ ^ 2 * y₂ * y₃ ^ 3 - x₁ *
    y₁ ^ 2 * y₂ * y₃ + x₁ * x₂ * x₃ ^ 3 - x₁ * x₂ * x₃ * y₃ ^ 2 + x₁ * x₂ * x₃ + x₁ * y₂ * x₃
    ^ 2 * y₃ - x₁ * y₂ * y₃ ^ 3 + x₁ * y₂ * y₃ - y₁ ^ 3 * x₂ * x₃ ^ 2 * y₃ + y₁ ^ 3 * x₂ * y₃
    ^ 3 - y₁ ^ 3 * x₂ * y₃ - y₁ ^ 3 * y₂ * x₃ ^ 3 + y₁ ^ 3 * y₂ * x₃ * y₃ ^ 2 - y₁ ^ 3 * y₂ *
    x₃ + y₁ * x₂ * x₃ ^ 2 * y₃ - y₁ * x₂ * y₃ ^ 3 + y₁ * x₂ * y₃ + y₁ * y₂ * x₃ ^ 3 - y₁ * y₂
    * x₃ * y₃ ^ 2 + y₁ * y₂ * x₃) * h2 + (-d * x₁ ^ 2 * y₁ * x₂ ^ 2 * y₂ * x₃ + d * x₁ ^ 2 *
    y₁ * x₂ * y₂ ^ 2 * y₃ + d * x₁ * y₁ ^ 2 * x₂ ^ 2 * y₂ * y₃ - d * x₁ * y₁ ^ 2 * x₂ * y₂ ^
    2 * x₃ - x₁ ^ 3 * x₂ ^ 3 * x₃ - x₁ ^ 3 * x₂ ^ 2 * y₂ * y₃ + x₁ ^ 3 * x₂ * y₂ ^ 2 * x₃ -
    x₁ ^ 3 * x₂ * x₃ + x₁ ^ 3 * y₂ ^ 3 * y₃ - x₁ ^ 3 * y₂ * y₃ - x₁ ^ 2 * y₁ * x₂ ^ 3 * y₃ -
    x₁ ^ 2 * y₁ * x₂ ^ 2 * y₂ * x₃ + x₁ ^ 2 * y₁ * x₂ * y₂ ^ 2 * y₃ - x₁ ^ 2 * y₁ * x₂ * y₃ +
    x₁ ^ 2 * y₁ * y₂ ^ 3 * x₃ - x₁ ^ 2 * y₁ * y₂ * x₃ + x₁ * y₁ ^ 2 * x₂ ^ 3 * x₃ + x₁ * y₁ ^
    2 * x₂ ^ 2 * y₂ * y₃ - x₁ * y₁ ^ 2 * x₂ * y₂ ^ 2 * x₃ + x₁ * y₁ ^ 2 * x₂ * x₃ - x₁ * y₁ ^
    2 * y₂ ^ 3 * y₃ + x₁ * y₁ ^ 2 * y₂ * y₃ - x₁ * x₂ ^ 3 * x₃ - x₁ * x₂ ^ 2 * y₂ * y₃ + x₁ *
    x₂ * y₂ ^ 2 * x₃ - x₁ * x₂ * x₃ + x₁ * y₂ ^ 3 * y₃ - x₁ * y₂ * y₃ + y₁ ^ 3 * x₂ ^ 3 * y₃
    + y₁ ^ 3 * x₂ ^ 2 * y₂ * x₃ - y₁ ^ 3 * x₂ * y₂ ^ 2 * y₃ + y₁ ^ 3 * x₂ * y₃ - y₁ ^ 3 * y₂
    ^ 3 * x₃ + y₁ ^ 3 * y₂ * x₃ - y₁ * x₂ ^ 3 * y₃ - y₁ * x₂ ^ 2 * y₂ * x₃ + y₁ * x₂ * y₂ ^ 2
    * y₃ - y₁ * x₂ * y₃ + y₁ * y₂ ^ 3 * x₃ - y₁ * y₂ * x₃) * h3

theorem assoc_y {d x₁ y₁ x₂ y₂ x₃ y₃ : K} (h1 : y₁ ^ 2 - x₁ ^ 2 = 1 + d * x₁ ^ 2 * y₁ ^ 2)
    (h2 : y₂ ^ 2 - x₂ ^ 2 = 1 + d * x₂ ^ 2 * y₂ ^ 2)
    (h3 : y₃ ^ 2 - x₃ ^ 2 = 1 + d * x₃ ^ 2 * y₃ ^ 2) :
    ((y₁ * y₂ + x₁ * x₂) * (1 + d * x₁ * x₂ * y₁ * y₂) * y₃ +
        (x₁ * y₂ + x₂ * y₁) * (1 - d * x₁ * x₂ * y₁ * y₂) * x₃) *
      ((1 + d * x₂ * x₃ * y₂ * y₃) * (1 - d * x₂ * x₃ * y₂ * y₃) -
        d * (x₂ * y₃ + x₃ * y₂) * (y₂ * y₃ + x₂ * x₃) * x₁ * y₁) =
    ((y₂ * y₃ + x₂ * x₃) * (1 + d * x₂ * x₃ * y₂ * y₃) * y₁ +
        (x₂ * y₃ + x₃ * y₂) * (1 - d * x₂ * x₃ * y₂ * y₃) * x₁) *
      ((1 + d * x₁ * x₂ * y₁ * y₂) * (1 - d * x₁ * x₂ * y₁ * y₂) -
        d * (x₁ * y₂ + x₂ * y₁) * (y₁ * y₂ + x₁ * x₂) * x₃ * y₃) := by
    linear_combination (d ^ 2 * x₁ * x₂ ^ 4 * y₂ ^ 3 * x₃ * y₃ ^ 2 + d ^ 2 * x₁ * x₂ ^ 3 * y₂
    ^ 4 * x₃ ^ 2 * y₃ - d ^ 2 * y₁ * x₂ ^ 4 * y₂ ^ 3 * x₃ ^ 2 * y₃ - d ^ 2 * y₁ * x₂ ^ 3 * y₂
    ^ 4 * x₃ * y₃ ^ 2 + d * x₁ * x₂ ^ 4 * y₂ * x₃ * y₃ ^ 2 + d * x₁ * x₂ ^ 3 * y₂ ^ 2 * y₃ ^
    3 - d * x₁ * x₂ ^ 3 * y₂ ^ 2 * y₃ - d * x₁ * x₂ ^ 2 * y₂ ^ 3 * x₃ ^ 3 - d * x₁ * x₂ ^ 2 *
    y₂ ^ 3 * x₃ - d * x₁ * x₂ * y₂ ^ 4 * x₃ ^ 2 * y₃ - d * y₁ * x₂ ^ 4 * y₂ * x₃ ^ 2 * y₃ - d
    * y₁ * x₂ ^ 3 * y₂ ^ 2 * x₃ ^ 3 - d * y₁ * x₂ ^ 3 * y₂ ^ 2 * x₃ + d * y₁ * x₂ ^ 2 * y₂ ^
    3 * y₃ ^ 3 - d * y₁ * x₂ ^ 2 * y₂ ^ 3 * y₃ + d * y₁ * x₂ * y₂ ^ 4 * x₃ * y₃ ^ 2) * h1 +
    (d ^ 2 * x₁ ^ 2 * y₁ * x₂ ^ 2 * y₂ * x₃ ^ 2 * y₃ ^ 3 - d ^ 2 * x₁ ^ 2 * y₁ * x₂ * y₂ ^ 2
    * x₃ ^ 3 * y₃ ^ 2 - d ^ 2 * x₁ * y₁ ^ 2 * x₂ ^ 2 * y₂ * x₃ ^ 3 * y₃ ^ 2 + d ^ 2 * x₁ * y₁
    ^ 2 * x₂ * y₂ ^ 2 * x₃ ^ 2 * y₃ ^ 3 - d * x₁ ^ 3 * x₂ ^ 2 * y₂ * x₃ * y₃ ^ 2 - d * x₁ ^ 3
    * x₂ * y₂ ^ 2 * x₃ ^ 2 * y₃ + d * x₁ ^ 3 * x₂ * x₃ ^ 2 * y₃ ^ 3 + d * x₁ ^ 3 * y₂ * x₃ ^
    3 * y₃ ^ 2 + d * x₁ ^ 2 * y₁ * x₂ ^ 2 * y₂ * x₃ ^ 2 * y₃ + d * x₁ ^ 2 * y₁ * x₂ * y₂ ^ 2
    * x₃ * y₃ ^ 2 + d * x₁ ^ 2 * y₁ * x₂ * x₃ ^ 3 * y₃ ^ 2 + d * x₁ ^ 2 * y₁ * y₂ * x₃ ^ 2 *
    y₃ ^ 3 + d * x₁ * y₁ ^ 2 * x₂ ^ 2 * y₂ * x₃ * y₃ ^ 2 + d * x₁ * y₁ ^ 2 * x₂ * y₂ ^ 2 * x₃
    ^ 2 * y₃ - d * x₁ * y₁ ^ 2 * x₂ * x₃ ^ 2 * y₃ ^ 3 - d * x₁ * y₁ ^ 2 * y₂ * x₃ ^ 3 * y₃ ^
    2 - d * x₁ * x₂ ^ 2 * y₂ * x₃ * y₃ ^ 2 - d * x₁ * x₂ * y₂ ^ 2 * x₃ ^ 2 * y₃ + d * x₁ * x₂
    * x₃ ^ 2 * y₃ ^ 3 + d * x₁ * y₂ * x₃ ^ 3 * y₃ ^ 2 - d * y₁ ^ 3 * x₂ ^ 2 * y₂ * x₃ ^ 2 *
    y₃ - d * y₁ ^ 3 * x₂ * y₂ ^ 2 * x₃ * y₃ ^ 2 - d * y₁ ^ 3 * x₂ * x₃ ^ 3 * y₃ ^ 2 - d * y₁
    ^ 3 * y₂ * x₃ ^ 2 * y₃ ^ 3 + d * y₁ * x₂ ^ 2 * y₂ * x₃ ^ 2 * y₃ + d * y₁ * x₂ * y₂ ^ 2 *
    x₃ * y₃ ^ 2 + d * y₁ * x₂ * x₃ ^ 3 * y₃ ^ 2 + d * y₁ * y₂ * x₃ ^ 2 * y₃ ^ 3 + x₁ ^ 3 * x₂
    * x₃ ^ 2 * y₃ - x₁ ^ 3 * x₂ * y₃ ^ 3 + x₁ ^ 3 * x₂ * y₃ + x₁ ^ 3 * y₂ * x₃ ^ 3 - x₁ ^ 3 *
    y₂ * x₃ * y₃ ^ 2 + x₁ ^ 3 * y₂ * x₃ + x₁ ^ 2 * y₁ * x₂ * x₃ ^ 3 - x₁ ^ 2 * y₁ * x₂ * x₃ *
    y₃ ^ 2 + x₁ ^ 2 * y₁ * x₂ * x₃ + x₁ ^ 2 * y₁ * y₂ * x₃ ^ 2 * y₃ - x₁ ^ 2 * y₁ * y₂ * y₃ ^
    3 + x₁ ^ 2 * y₁ * y₂ * y₃ - x₁ * y₁ ^ 2 * x₂ * x₃ ^ 2 * y₃ + x₁ * y₁ ^ 2 * x₂ * y₃ ^ 3 -
    x₁ * y₁ ^ 2 * x₂ * y₃ - x₁ * y₁ ^ 2 * y₂ * x₃ ^ 3 + x₁ * y₁ ^ 2 * y₂ * x₃ * y₃ ^ 2 - x₁ *
    y₁ ^ 2 * y₂ * x₃ + x₁ * x₂ * x₃ ^ 2 * y₃ - x₁ * x₂ * y₃ ^ 3 + x₁ * x₂ * y₃ + x₁ * y₂ * x₃
    ^ 3 - x₁ * y₂ * x₃ * y₃ ^ 2 + x₁ * y₂ * x₃ - y₁ ^ 3 * x₂ * x₃ ^ 3 + y₁ ^ 3 * x₂ * x₃ * y₃
    ^ 2 - y₁ ^ 3 * x₂ * x₃ - y₁ ^ 3 * y₂ * x₃ ^ 2 * y₃ + y₁ ^ 3 * y₂ * y₃ ^ 3 - y₁ ^ 3 * y₂ *
    y₃ + y₁ * x₂ * x₃ ^ 3 - y₁ * x₂ * x₃ * y₃ ^ 2 + y₁ * x₂ * x₃ + y₁ * y₂ * x₃ ^ 2 * y₃ - y₁
    * y₂ * y₃ ^ 3 + y₁ * y₂ * y₃) * h2 + (-d * x₁ ^ 2 * y₁ * x₂ ^ 2 * y₂ * y₃ + d * x₁ ^ 2 *
    y₁ * x₂ * y₂ ^ 2 * x₃ + d * x₁ * y₁ ^ 2 * x₂ ^ 2 * y₂ * x₃ - d * x₁ * y₁ ^ 2 * x₂ * y₂ ^
    2 * y₃ - x₁ ^ 3 * x₂ ^ 3 * y₃ - x₁ ^ 3 * x₂ ^ 2 * y₂ * x₃ + x₁ ^ 3 * x₂ * y₂ ^ 2 * y₃ -
    x₁ ^ 3 * x₂ * y₃ + x₁ ^ 3 * y₂ ^ 3 * x₃ - x₁ ^ 3 * y₂ * x₃ - x₁ ^ 2 * y₁ * x₂ ^ 3 * x₃ -
    x₁ ^ 2 * y₁ * x₂ ^ 2 * y₂ * y₃ + x₁ ^ 2 * y₁ * x₂ * y₂ ^ 2 * x₃ - x₁ ^ 2 * y₁ * x₂ * x₃ +
    x₁ ^ 2 * y₁ * y₂ ^ 3 * y₃ - x₁ ^ 2 * y₁ * y₂ * y₃ + x₁ * y₁ ^ 2 * x₂ ^ 3 * y₃ + x₁ * y₁ ^
    2 * x₂ ^ 2 * y₂ * x₃ - x₁ * y₁ ^ 2 * x₂ * y₂ ^ 2 * y₃ + x₁ * y₁ ^ 2 * x₂ * y₃ - x₁ * y₁ ^
    2 * y₂ ^ 3 * x₃ + x₁ * y₁ ^ 2 * y₂ * x₃ - x₁ * x₂ ^ 3 * y₃ - x₁ * x₂ ^ 2 * y₂ * x₃ + x₁ *
    x₂ * y₂ ^ 2 * y₃ - x₁ * x₂ * y₃ + x₁ * y₂ ^ 3 * x₃ - x₁ * y₂ * x₃ + y₁ ^ 3 * x₂ ^ 3 * x₃
    + y₁ ^ 3 * x₂ ^ 2 * y₂ * y₃ - y₁ ^ 3 * x₂ * y₂ ^ 2 * x₃ + y₁ ^ 3 * x₂ * x₃ - y₁ ^ 3 * y₂
    ^ 3 * y₃ + y₁ ^ 3 * y₂ * y₃ - y₁ * x₂ ^ 3 * x₃ - y₁ * x₂ ^ 2 * y₂ * y₃ + y₁ * x₂ * y₂ ^ 2
    * x₃ - y₁ * x₂ * x₃ + y₁ * y₂ ^ 3 * y₃ - y₁ * y₂ * y₃) * h3

/-- `x` of a sum of three, over a common denominator. -/
theorem add3_x {a b dp dm x y d n : K} (hp : dp ≠ 0) (hm : dm ≠ 0)
    (hn : 1 + d * (a / dp) * x * (b / dm) * y ≠ 0) (hn' : n = dp * dm + d * a * b * x * y) :
    n ≠ 0 ∧ (a / dp * y + x * (b / dm)) / (1 + d * (a / dp) * x * (b / dm) * y) =
      (a * dm * y + x * b * dp) / n := by
  have e : dp * dm * (1 + d * (a / dp) * x * (b / dm) * y) = n := by rw [hn']; field_simp
  have hn0 : n ≠ 0 := by rw [← e]; exact mul_ne_zero (mul_ne_zero hp hm) hn
  refine ⟨hn0, ?_⟩
  rw [div_eq_div_iff hn hn0, ← e]
  field_simp

/-- `y` of a sum of three, over a common denominator. -/
theorem add3_y {a b dp dm x y d n : K} (hp : dp ≠ 0) (hm : dm ≠ 0)
    (hn : 1 - d * (a / dp) * x * (b / dm) * y ≠ 0) (hn' : n = dp * dm - d * a * b * x * y) :
    n ≠ 0 ∧ (b / dm * y + a / dp * x) / (1 - d * (a / dp) * x * (b / dm) * y) =
      (b * dp * y + a * dm * x) / n := by
  have e : dp * dm * (1 - d * (a / dp) * x * (b / dm) * y) = n := by rw [hn']; field_simp
  have hn0 : n ≠ 0 := by rw [← e]; exact mul_ne_zero (mul_ne_zero hp hm) hn
  refine ⟨hn0, ?_⟩
  rw [div_eq_div_iff hn hn0, ← e]
  field_simp

theorem add_assoc' (P Q R : EdPoint K) : P + Q + R = P + (Q + R) := by
  have p1 := one_add_ne P Q
  have m1 := one_sub_ne P Q
  have p2 := one_add_ne Q R
  have m2 := one_sub_ne Q R
  have p3 := one_add_ne (P + Q) R
  have m3 := one_sub_ne (P + Q) R
  have p4 := one_add_ne (Q + R) P
  have m4 := one_sub_ne (Q + R) P
  rw [add_comm' P (Q + R)]
  ext
  · rw [add_x (P + Q) R, add_x (Q + R) P]
    unfold eps at p3 p4 ⊢
    rw [add_x, add_y] at p3
    rw [add_x, add_y] at p4
    rw [add_x P Q, add_y P Q, add_x Q R, add_y Q R]
    obtain ⟨ha, ea⟩ := add3_x p1 m1 p3 rfl
    obtain ⟨hb, eb⟩ := add3_x p2 m2 p4 rfl
    rw [ea, eb, div_eq_div_iff ha hb]
    have := assoc_x P.on Q.on R.on
    simp only [eps]
    linear_combination this
  · rw [add_y (P + Q) R, add_y (Q + R) P]
    unfold eps at m3 m4 ⊢
    rw [add_x, add_y] at m3
    rw [add_x, add_y] at m4
    rw [add_x P Q, add_y P Q, add_x Q R, add_y Q R]
    obtain ⟨ha, ea⟩ := add3_y p1 m1 m3 rfl
    obtain ⟨hb, eb⟩ := add3_y p2 m2 m4 rfl
    rw [ea, eb, div_eq_div_iff ha hb]
    have := assoc_y P.on Q.on R.on
    simp only [eps]
    linear_combination this

instance : AddCommGroup (EdPoint K) where
  add_assoc := add_assoc'
  zero_add := zero_add'
  add_zero P := by rw [add_comm', zero_add']
  neg_add_cancel := neg_add'
  add_comm := add_comm'
  nsmul := nsmulRec
  zsmul := zsmulRec

end

end EdPoint

end Verif
