import Verif.Model.Kyber.Scalar
import Verif.Ed25519.Base
import Mathlib.Algebra.BigOperators.Intervals

/-!
# The carries of scalar products compute the remainder modulo the group order

Intervals for the limbs are carried through the statements (`absRun`); the check that no `int64`
overflows is a computation on these intervals.
-/

namespace Verif.Kyber

/-- The number that limbs stand for. -/
def sval (s : Nat → Int) : Int := ∑ i ∈ Finset.range 24, s i * 2 ^ (21 * i)

theorem sval_update {s : Nat → Int} {i : Nat} (hi : i < 24) (v : Int) :
    sval (Function.update s i v) = sval s + (v - s i) * 2 ^ (21 * i) := by
  have : sval (Function.update s i v) - sval s = (v - s i) * 2 ^ (21 * i) := by
    unfold sval
    rw [← Finset.sum_sub_distrib, Finset.sum_eq_single i]
    · rw [Function.update_self]; ring
    · intro j _ hj
      rw [Function.update_of_ne hj]; ring
    · intro h
      exact absurd (Finset.mem_range.2 hi) h
  linarith

/-- The limbs are in the intervals. -/
def Within (s : Nat → Int) (B : List (Int × Int)) : Prop :=
  ∀ i, (B.getD i (0, 0)).1 ≤ s i ∧ s i ≤ (B.getD i (0, 0)).2

theorem Within.update {s : Nat → Int} {B : List (Int × Int)} (h : Within s B) {i : Nat}
    (hi : i < B.length) {v l u : Int} (h1 : l ≤ v) (h2 : v ≤ u) :
    Within (Function.update s i v) (B.set i (l, u)) := by
  intro j
  rw [List.getD_eq_getElem?_getD, List.getElem?_set]
  by_cases hj : i = j
  · subst hj
    simp only [if_true, hi, Function.update_self, Option.getD_some]
    exact ⟨h1, h2⟩
  · rw [if_neg hj, Function.update_of_ne (Ne.symm hj), ← List.getD_eq_getElem?_getD]
    exact h j

/-- `addTo` on intervals. -/
def absAdd (B : List (Int × Int)) (i : Nat) (l u : Int) : Option (List (Int × Int)) :=
  if i < 24 ∧ i < B.length ∧ -4611686018427387904 ≤ (B.getD i (0, 0)).1 + l ∧
      (B.getD i (0, 0)).2 + u ≤ 4611686018427387904 then
    some (B.set i ((B.getD i (0, 0)).1 + l, (B.getD i (0, 0)).2 + u))
  else none

theorem addTo_ne {s : Nat → Int} {i j : Nat} {x : Int} (h : j ≠ i) : addTo s i x j = s j :=
  Function.update_of_ne h _ _

theorem addTo_sound {s : Nat → Int} {B B' : List (Int × Int)} {i : Nat} {x l u : Int}
    (hs : Within s B) (hl : l ≤ x) (hu : x ≤ u) (h : absAdd B i l u = some B') :
    Within (addTo s i x) B' ∧ sval (addTo s i x) = sval s + x * 2 ^ (21 * i) := by
  unfold absAdd at h
  split at h
  · rename_i hc
    obtain ⟨c1, c2, c3, c4⟩ := hc
    cases h
    obtain ⟨b1, b2⟩ := hs i
    have e : w64 (s i + x) = s i + x := w64_eq (by rw [abs_le]; omega)
    unfold addTo
    rw [e]
    refine ⟨hs.update c2 (by omega) (by omega), ?_⟩
    rw [sval_update c1]
    ring
  · cases h

/-- A carry on intervals. -/
def absCarry (half : Int) (B : List (Int × Int)) (i : Nat) : Option (List (Int × Int)) :=
  if i < 24 ∧ -4611686018427387904 ≤ (B.getD i (0, 0)).1 ∧
      (B.getD i (0, 0)).2 ≤ 4611686018427387904 then
    match absAdd B (i + 1) (((B.getD i (0, 0)).1 + half) / 2097152)
      (((B.getD i (0, 0)).2 + half) / 2097152) with
    | none => none
    | some B1 => if i < B1.length then some (B1.set i (-half, 2097151 - half)) else none
  else none

theorem moveCarry_sound {s : Nat → Int} {B B' : List (Int × Int)} {i : Nat} {half : Int}
    (h0 : 0 ≤ half) (h1 : half ≤ 1048576) (hs : Within s B) (h : absCarry half B i = some B') :
    Within (moveCarry s i ((s i + half) / 2097152)) B' ∧
      sval (moveCarry s i ((s i + half) / 2097152)) = sval s := by
  unfold absCarry at h
  split at h
  · rename_i hc
    obtain ⟨c1, c2, c3⟩ := hc
    split at h
    · cases h
    rename_i B1 hB
    split at h
    · rename_i hl
      cases h
      obtain ⟨b1, b2⟩ := hs i
      obtain ⟨k1, k2⟩ := addTo_sound hs (x := (s i + half) / 2097152) (by omega) (by omega) hB
      have e1 : w64 ((s i + half) / 2097152 * 2 ^ 21) = (s i + half) / 2097152 * 2097152 := by
        norm_num only
        exact w64_eq (by rw [abs_le]; omega)
      unfold moveCarry
      rw [e1]
      generalize hs1 : addTo s (i + 1) ((s i + half) / 2097152) = s1 at *
      have e2 : s1 i = s i := by rw [← hs1]; exact addTo_ne (by omega)
      have e3 : w64 (s i + -((s i + half) / 2097152 * 2097152)) =
          s i + -((s i + half) / 2097152 * 2097152) := w64_eq (by rw [abs_le]; omega)
      unfold addTo
      rw [e2, e3]
      refine ⟨k1.update hl (by omega) (by omega), ?_⟩
      rw [sval_update c1, k2, e2]
      have : (2 : Int) ^ (21 * (i + 1)) = 2097152 * 2 ^ (21 * i) := by
        rw [mul_add, pow_add]; norm_num; ring
      rw [this]
      ring
    · cases h
  · cases h

/-- The statement `fold` on intervals. -/
def absFold (B : List (Int × Int)) (i : Nat) : Option (List (Int × Int)) :=
  let l := (B.getD i (0, 0)).1
  let u := (B.getD i (0, 0)).2
  if 12 ≤ i ∧ i < 24 ∧ -4398046511104 ≤ l ∧ u ≤ 4398046511104 then do
    let B ← absAdd B (i - 12) (l * 666643) (u * 666643)
    let B ← absAdd B (i - 11) (l * 470296) (u * 470296)
    let B ← absAdd B (i - 10) (l * 654183) (u * 654183)
    let B ← absAdd B (i - 9) (-(u * 997805)) (-(l * 997805))
    let B ← absAdd B (i - 8) (l * 136657) (u * 136657)
    let B ← absAdd B (i - 7) (-(u * 683901)) (-(l * 683901))
    if i < B.length then some (B.set i (0, 0)) else none
  else none

theorem primeOrder_limbs : (primeOrder : Int) = 2 ^ 252 - (666643 + 470296 * 2 ^ 21 + 654183 * 2 ^ 42
    - 997805 * 2 ^ 63 + 136657 * 2 ^ 84 - 683901 * 2 ^ 105) := by
  unfold primeOrder
  norm_num

theorem fold_sound {s : Nat → Int} {B B' : List (Int × Int)} {i : Nat}
    (hs : Within s B) (h : absFold B i = some B') :
    Within (ScOp.run s (.fold i)) B' ∧
      sval (ScOp.run s (.fold i)) = sval s - s i * 2 ^ (21 * (i - 12)) * primeOrder := by
  unfold absFold at h
  dsimp only at h
  split at h
  · rename_i hc
    obtain ⟨c0, c1, c2, c3⟩ := hc
    simp only [Option.bind_eq_bind, Option.bind_eq_some_iff] at h
    obtain ⟨B1, h1, B2, h2, B3, h3, B4, h4, B5, h5, B6, h6, h⟩ := h
    obtain ⟨b1, b2⟩ := hs i
    have e : ∀ k : Int, 0 ≤ k → k ≤ 1048576 → w64 (s i * k) = s i * k := by
      intro k k1 k2
      apply w64_eq
      rw [abs_mul, abs_of_nonneg k1]
      calc |s i| * k ≤ 4398046511104 * 1048576 :=
            mul_le_mul (by rw [abs_le]; omega) k2 k1 (by norm_num)
        _ ≤ _ := by norm_num
    obtain ⟨k1, v1⟩ := addTo_sound hs (x := s i * 666643) (by omega) (by omega) h1
    obtain ⟨k2, v2⟩ := addTo_sound k1 (x := s i * 470296) (by omega) (by omega) h2
    obtain ⟨k3, v3⟩ := addTo_sound k2 (x := s i * 654183) (by omega) (by omega) h3
    obtain ⟨k4, v4⟩ := addTo_sound k3 (x := -(s i * 997805)) (by omega) (by omega) h4
    obtain ⟨k5, v5⟩ := addTo_sound k4 (x := s i * 136657) (by omega) (by omega) h5
    obtain ⟨k6, v6⟩ := addTo_sound k5 (x := -(s i * 683901)) (by omega) (by omega) h6
    unfold ScOp.run
    dsimp only
    rw [e 666643 (by decide) (by decide), e 470296 (by decide) (by decide),
      e 654183 (by decide) (by decide), e 997805 (by decide) (by decide),
      e 136657 (by decide) (by decide), e 683901 (by decide) (by decide)]
    split at h
    · rename_i hl
      cases h
      have same : addTo (addTo (addTo (addTo (addTo (addTo s (i - 12) (s i * 666643)) (i - 11)
          (s i * 470296)) (i - 10) (s i * 654183)) (i - 9) (-(s i * 997805))) (i - 8)
          (s i * 136657)) (i - 7) (-(s i * 683901)) i = s i := by
        rw [addTo_ne (by omega), addTo_ne (by omega), addTo_ne (by omega), addTo_ne (by omega),
          addTo_ne (by omega), addTo_ne (by omega)]
      refine ⟨k6.update hl le_rfl le_rfl, ?_⟩
      rw [sval_update c1, same, v6, v5, v4, v3, v2, v1, primeOrder_limbs]
      obtain ⟨j, rfl⟩ : ∃ j, i = j + 12 := ⟨i - 12, by omega⟩
      simp only [show j + 12 - 12 = j by omega, show j + 12 - 11 = j + 1 by omega,
        show j + 12 - 10 = j + 2 by omega, show j + 12 - 9 = j + 3 by omega,
        show j + 12 - 8 = j + 4 by omega, show j + 12 - 7 = j + 5 by omega, mul_add, pow_add]
      generalize (2 : Int) ^ (21 * j) = M
      generalize s (j + 12) = t
      norm_num
      ring
    · cases h
  · cases h

/-- Statements on intervals. -/
def absRun1 (B : List (Int × Int)) : ScOp → Option (List (Int × Int))
  | .round i => absCarry 1048576 B i
  | .floor i => absCarry 0 B i
  | .fold i => absFold B i

/-- The multiple of the order that a statement subtracts. -/
def folded (s : Nat → Int) : ScOp → Int
  | .fold i => s i * 2 ^ (21 * (i - 12))
  | _ => 0

theorem run_sound {s : Nat → Int} {B B' : List (Int × Int)} (op : ScOp)
    (hs : Within s B) (h : absRun1 B op = some B') :
    Within (ScOp.run s op) B' ∧ sval (ScOp.run s op) = sval s - folded s op * primeOrder := by
  cases op with
  | round i =>
    have e : w64 (s i + 2 ^ 20) / 2 ^ 21 = (s i + 1048576) / 2097152 := by
      rw [show w64 (s i + 2 ^ 20) = s i + 1048576 from w64_eq (x := s i + 1048576) (by
        have hc : absCarry 1048576 B i = some B' := h
        unfold absCarry at hc
        split at hc
        · obtain ⟨b1, b2⟩ := hs i
          rw [abs_le]; omega
        · cases hc)]
      norm_num only
    have := moveCarry_sound (by decide) (by decide) hs h
    unfold ScOp.run folded
    dsimp only
    rw [e]
    exact ⟨this.1, by rw [this.2]; ring⟩
  | floor i =>
    have e : s i / 2 ^ 21 = (s i + 0) / 2097152 := by
      rw [add_zero]
      norm_num only
    have := moveCarry_sound (by decide) (by decide) hs h
    unfold ScOp.run folded
    dsimp only
    rw [e]
    exact ⟨this.1, by rw [this.2]; ring⟩
  | fold i => exact fold_sound hs h

/-- Lists of statements on intervals. -/
def absRun : List ScOp → List (Int × Int) → Option (List (Int × Int))
  | [], B => some B
  | op :: ops, B =>
    match absRun1 B op with
    | none => none
    | some B' => absRun ops B'

theorem foldl_sound : ∀ (ops : List ScOp) {s : Nat → Int} {B B' : List (Int × Int)},
    Within s B → absRun ops B = some B' →
    Within (ops.foldl ScOp.run s) B' ∧ ∃ k, sval (ops.foldl ScOp.run s) = sval s - k * primeOrder
  | [], s, B, B', hs, h => by
    cases h
    exact ⟨hs, 0, by simp⟩
  | op :: ops, s, B, B', hs, h => by
    rw [absRun] at h
    split at h
    · cases h
    · rename_i B1 h1
      obtain ⟨k1, v1⟩ := run_sound op hs h1
      obtain ⟨k2, k, v2⟩ := foldl_sound ops k1 h
      refine ⟨k2, k + folded s op, ?_⟩
      rw [List.foldl_cons, v2, v1]
      ring

theorem foldl_carries : ∀ (ops : List ScOp) {s : Nat → Int} {B B' : List (Int × Int)},
    (∀ op ∈ ops, ∃ i, op = .floor i) → Within s B → absRun ops B = some B' →
    sval (ops.foldl ScOp.run s) = sval s
  | [], s, B, B', _, hs, h => rfl
  | op :: ops, s, B, B', ho, hs, h => by
    rw [absRun] at h
    split at h
    · cases h
    · rename_i B1 h1
      obtain ⟨k1, v1⟩ := run_sound op hs h1
      rw [List.foldl_cons, foldl_carries ops (fun o m => ho o (List.mem_cons_of_mem _ m)) k1 h, v1]
      obtain ⟨i, rfl⟩ := ho op List.mem_cons_self
      simp [folded]

/-! ## The whole reduction -/

/-- Intervals at the beginning. -/
def bounds0 : List (Int × Int) := List.replicate 23 (-18014398509481984, 18014398509481984) ++ [(0, 0)]

/-- Intervals before the last `fold`. -/
def bounds2 : List (Int × Int) := List.replicate 12 (0, 2097151) ++ [(-1, 0)] ++ List.replicate 11 (0, 0)

theorem abs_ops12 : absRun (scOps1 ++ scOps2) bounds0 = some bounds2 := by decide +kernel

/-- Intervals before the last carries. -/
def bounds3 : List (Int × Int) := (absFold bounds2 12).getD []

theorem abs_fold3 : absFold bounds2 12 = some bounds3 := by decide +kernel

/-- Intervals at the end. -/
def bounds4 : List (Int × Int) := List.replicate 11 (0, 2097151) ++ [(-1, 2097152)] ++ List.replicate 12 (0, 0)

theorem abs_ops3 : absRun scOps3.tail bounds3 = some bounds4 := by decide +kernel

/-- The limbs at the end are those of the remainder modulo the order. -/
theorem scReduceLimbs_spec {s : Nat → Int} (h : ∀ i < 23, |s i| ≤ 18014398509481984)
    (h0 : ∀ i, 23 ≤ i → s i = 0) :
    (∀ i < 11, 0 ≤ scReduceLimbs s i ∧ scReduceLimbs s i < 2097152) ∧
      0 ≤ scReduceLimbs s 11 ∧ scReduceLimbs s 11 < 4194304 ∧
      (∀ i, 12 ≤ i → scReduceLimbs s i = 0) ∧
      sval (scReduceLimbs s) = sval s % primeOrder := by
  have w0 : Within s bounds0 := by
    intro i
    by_cases hi : i < 23
    · have := abs_le.1 (h i hi)
      have e : bounds0.getD i (0, 0) = (-18014398509481984, 18014398509481984) := by
        unfold bounds0
        rw [List.getD_eq_getElem?_getD, List.getElem?_append_left (by simpa using hi),
          List.getElem?_replicate, if_pos hi]
        rfl
      rw [e]
      exact this
    · have e : bounds0.getD i (0, 0) = (0, 0) := by
        unfold bounds0
        rw [List.getD_eq_getElem?_getD, List.getElem?_append_right (by simp; omega)]
        simp only [List.length_replicate]
        rcases Nat.eq_or_lt_of_le (Nat.le_of_not_lt hi) with h1 | h1
        · subst h1; rfl
        · rw [List.getElem?_eq_none (by simp; omega)]; rfl
      rw [e, h0 i (by omega)]
      exact ⟨le_rfl, le_rfl⟩
  obtain ⟨w2, k, v2⟩ := foldl_sound _ w0 abs_ops12
  have split : scReduceLimbs s = scOps3.tail.foldl ScOp.run (ScOp.run ((scOps1 ++ scOps2).foldl ScOp.run s)
      (.fold 12)) := by
    unfold scReduceLimbs
    rw [List.foldl_append]
    rfl
  generalize (scOps1 ++ scOps2).foldl ScOp.run s = s2 at *
  obtain ⟨w3, v3⟩ := fold_sound w2 abs_fold3
  obtain ⟨w4, -⟩ := foldl_sound _ w3 abs_ops3
  have v4 := foldl_carries _ (by
    intro op ho
    simp only [scOps3, List.tail_cons, List.mem_cons, List.not_mem_nil, or_false] at ho
    rcases ho with rfl | rfl | rfl | rfl | rfl | rfl | rfl | rfl | rfl | rfl | rfl <;> exact ⟨_, rfl⟩) w3 abs_ops3
  rw [← split] at w4 v4
  have z4 : ∀ i, 12 ≤ i → scReduceLimbs s i = 0 := by
    intro i hi
    have := w4 i
    have e : bounds4.getD i (0, 0) = (0, 0) := by
      unfold bounds4
      rw [List.getD_eq_getElem?_getD, List.getElem?_append_right (by simpa using hi), List.getElem?_replicate]
      split <;> rfl
    rw [e] at this
    exact le_antisymm this.2 this.1
  have z2 : ∀ i, 13 ≤ i → s2 i = 0 := by
    intro i hi
    have := w2 i
    have e : bounds2.getD i (0, 0) = (0, 0) := by
      unfold bounds2
      rw [List.getD_eq_getElem?_getD, List.getElem?_append_right (by simpa using hi), List.getElem?_replicate]
      split <;> rfl
    rw [e] at this
    exact le_antisymm this.2 this.1
  have r2 : ∀ i < 12, 0 ≤ s2 i ∧ s2 i ≤ 2097151 := by
    intro i hi
    have := w2 i
    have e : bounds2.getD i (0, 0) = (0, 2097151) := by
      unfold bounds2
      rw [List.append_assoc, List.getD_eq_getElem?_getD, List.getElem?_append_left (by simpa using hi),
        List.getElem?_replicate, if_pos hi]
      rfl
    rw [e] at this
    exact this
  have r4 : ∀ i < 11, 0 ≤ scReduceLimbs s i ∧ scReduceLimbs s i < 2097152 := by
    intro i hi
    have := w4 i
    have e : bounds4.getD i (0, 0) = (0, 2097151) := by
      unfold bounds4
      rw [List.append_assoc, List.getD_eq_getElem?_getD, List.getElem?_append_left (by simpa using hi),
        List.getElem?_replicate, if_pos hi]
      rfl
    rw [e] at this
    exact ⟨this.1, by have := this.2; dsimp only at this; omega⟩
  have t2 : -1 ≤ s2 12 ∧ s2 12 ≤ 0 := w2 12
  have low : ∀ t : Nat → Int, ∀ n, (∀ i < n, 0 ≤ t i ∧ t i ≤ 2097151) →
      0 ≤ ∑ i ∈ Finset.range n, t i * 2 ^ (21 * i) ∧
      ∑ i ∈ Finset.range n, t i * 2 ^ (21 * i) < 2 ^ (21 * n) := by
    intro t n
    induction n with
    | zero => intro _; simp
    | succ n ih =>
      intro ht
      obtain ⟨i1, i2⟩ := ih fun i hi => ht i (by omega)
      obtain ⟨j1, j2⟩ := ht n (by omega)
      rw [Finset.sum_range_succ]
      have e : (2 : Int) ^ (21 * (n + 1)) = 2097152 * 2 ^ (21 * n) := by
        rw [mul_add, pow_add]; norm_num; ring
      rw [e]
      have pos : (0 : Int) < 2 ^ (21 * n) := by positivity
      generalize (2 : Int) ^ (21 * n) = M at *
      constructor
      · have := mul_nonneg j1 pos.le
        linarith
      · have := mul_le_mul_of_nonneg_right j2 pos.le
        linarith
  have tail : ∀ t : Nat → Int, ∀ n ≤ 24, (∀ i, n ≤ i → t i = 0) →
      sval t = ∑ i ∈ Finset.range n, t i * 2 ^ (21 * i) := by
    intro t n hn ht
    unfold sval
    symm
    apply Finset.sum_subset
    · intro i hi
      rw [Finset.mem_range] at *
      omega
    · intro i _ hi
      rw [Finset.mem_range, not_lt] at hi
      rw [ht i hi, zero_mul]
  have e2 := tail s2 13 (by decide) z2
  rw [Finset.sum_range_succ] at e2
  obtain ⟨l1, l2⟩ := low s2 12 r2
  have e4 := tail (scReduceLimbs s) 12 (by decide) z4
  rw [Finset.sum_range_succ] at e4
  obtain ⟨m1, m2⟩ := low (scReduceLimbs s) 11 fun i hi => ⟨(r4 i hi).1, by have := (r4 i hi).2; omega⟩
  generalize ∑ i ∈ Finset.range 12, s2 i * 2 ^ (21 * i) = S2 at *
  generalize ∑ i ∈ Finset.range 11, scReduceLimbs s i * 2 ^ (21 * i) = S4 at *
  norm_num at e2 l2 e4 m2 v3
  have hp : (primeOrder : Int) =
      7237005577332262213973186563042994240857116359379907606001950938285454250989 := rfl
  have range : 0 ≤ sval (scReduceLimbs s) ∧ sval (scReduceLimbs s) < primeOrder := by
    rw [v4, v3, e2, hp]
    constructor <;> omega
  refine ⟨r4, ?_, ?_, z4, ?_⟩
  · rw [hp] at range
    omega
  · rw [hp] at range
    omega
  · symm
    rw [v4, v3, v2]
    rw [v4, v3, v2] at range
    rw [Int.emod_eq_iff (by rw [hp]; decide)]
    refine ⟨range.1, ?_, ?_⟩
    · rw [Int.natAbs_natCast]
      exact range.2
    · exact ⟨-(k + s2 12), by ring⟩

end Verif.Kyber
