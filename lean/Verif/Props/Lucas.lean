import Mathlib.FieldTheory.IsAlgClosed.AlgebraicClosure
import Mathlib.NumberTheory.LegendreSymbol.JacobiSymbol
import Mathlib.Tactic.LinearCombination
import Mathlib.Tactic.NormNum.LegendreSymbol
import Verif.Model.Lucas
import Verif.Props.ProbablyPrime

/-!
# The Lucas test accepts all primes: C163
-/

namespace Verif

theorem jacobiLoop_eq : ∀ (f a b : Nat) (j : Int), b % 2 = 1 → b ≤ f → jacobiLoop f a b j = j * jacobiSym a b
  | 0, a, b, j, ho, hf => by omega
  | f + 1, a, b, j, ho, hf => by
    rw [jacobiLoop]
    split
    · rename_i h
      rw [h, jacobiSym.one_right, mul_one]
    rename_i h1
    have hb : 1 < b := by omega
    split
    · rename_i h
      rw [h, Nat.cast_zero, jacobiSym.zero_left hb, mul_zero]
    simp only
    have hmod : jacobiSym a b = jacobiSym ((a % b : Nat) : Int) b := by
      rw [jacobiSym.mod_left]; norm_cast
    rw [hmod]
    have hlt : a % b < b := Nat.mod_lt _ (by omega)
    generalize a % b = a' at hlt
    split
    · rename_i h
      rw [h, Nat.cast_zero, jacobiSym.zero_left hb, mul_zero]
    rename_i h0
    obtain ⟨g1, g2⟩ := splitTwos_spec (k := 0) (q := a') (by omega) (le_refl (Nat.size a'))
    generalize splitTwos (Nat.size a') 0 a' = sc at g1 g2 ⊢
    obtain ⟨s, c⟩ := sc
    simp only [pow_zero, one_mul] at g1 g2 ⊢
    have hc : c ≤ a' := by
      rw [← g1]
      exact Nat.le_mul_of_pos_left _ (by positivity)
    rw [jacobiLoop_eq f b c _ g2 (by omega), ← g1, Nat.cast_mul, Nat.cast_pow, jacobiSym.mul_left, jacobiSym.pow_left,
      ← jacobiSym.quadratic_reciprocity_if g2 ho]
    have h2 : jacobiSym ((2 : Nat) : Int) b ^ s = if s % 2 = 1 ∧ (b % 8 = 3 ∨ b % 8 = 5) then -1 else 1 := by
      rw [Nat.cast_ofNat, jacobiSym.at_two (Nat.odd_iff.mpr ho), ZMod.χ₈_nat_eq_if_mod_eight, if_neg (by omega)]
      by_cases h8 : b % 8 = 1 ∨ b % 8 = 7
      · rw [if_pos h8, one_pow, if_neg (by omega)]
      · rw [if_neg h8]
        by_cases hs : s % 2 = 1
        · rw [if_pos (by omega), Odd.neg_one_pow (Nat.odd_iff.mpr hs)]
        · rw [if_neg (by omega), Even.neg_one_pow (Nat.even_iff.mpr (by omega))]
    rw [h2]
    by_cases hA : s % 2 = 1 ∧ (b % 8 = 3 ∨ b % 8 = 5) <;> by_cases hB : b % 4 = 3 ∧ c % 4 = 3
    · rw [if_pos hA, if_pos hB, if_pos hA, if_pos hB.symm]; ring
    · rw [if_pos hA, if_neg hB, if_pos hA, if_neg fun h => hB h.symm]; ring
    · rw [if_neg hA, if_pos hB, if_neg hA, if_pos hB.symm]; ring
    · rw [if_neg hA, if_neg hB, if_neg hA, if_neg fun h => hB h.symm]; ring

/-- C163: `big.Jacobi` computes the Jacobi symbol. -/
theorem C163_jacobi_exact (a : Nat) {b : Nat} (hb : b % 2 = 1) : goJacobi a b = jacobiSym a b := by
  rw [goJacobi, jacobiLoop_eq b a b 1 hb le_rfl, one_mul]

/-- The search for the parameter, for a prime: it finds one with symbol -1, or accepts, or all symbols are 1. -/
theorem lucasChoose_prime {n : Nat} (hp : n.Prime) : ∀ (f p : Nat), 3 ≤ p → p + 2 ≤ n →
    (∃ q, lucasChoose n f p = .found q ∧ 3 ≤ q ∧ q + 2 ≤ n ∧ jacobiSym ((q * q - 4 : Nat) : Int) n = -1) ∨
    lucasChoose n f p = .decided true ∨
    (lucasChoose n f p = .panics ∧ ∀ q, p ≤ q → q < p + f → jacobiSym ((q * q - 4 : Nat) : Int) n = 1)
  | 0, p, _, _ => .inr (.inr ⟨rfl, fun q _ _ => by omega⟩)
  | f + 1, p, h3, hn => by
    have : Fact n.Prime := ⟨hp⟩
    have ho : n % 2 = 1 := by
      rcases hp.eq_two_or_odd with g | g
      · omega
      · exact g
    rw [lucasChoose, C163_jacobi_exact _ ho]
    split
    · rename_i h
      exact .inl ⟨p, rfl, h3, hn, h⟩
    rename_i hm
    have hzero : jacobiSym ((p * p - 4 : Nat) : Int) n = 0 ↔ n = p + 2 := by
      rw [← jacobiSym.legendreSym.to_jacobiSym, legendreSym.eq_zero_iff, Int.cast_natCast, ZMod.natCast_eq_zero_iff]
      obtain ⟨m, rfl⟩ : ∃ m, p = m + 2 := ⟨p - 2, by omega⟩
      have e : (m + 2) * (m + 2) - 4 = m * (m + 2 + 2) := by
        rw [Nat.sub_eq_iff_eq_add (by nlinarith)]; ring
      rw [e, hp.dvd_mul]
      constructor
      · rintro (h | h)
        · have := Nat.le_of_dvd (by omega) h
          omega
        · have := Nat.le_of_dvd (by omega) h
          omega
      · intro h
        exact .inr (by rw [h])
    split
    · rename_i h
      exact .inr (.inl (by rw [hzero.mp h]; simp))
    rename_i h0
    split
    · rename_i h
      exfalso
      have h1 : Nat.sqrt n ≠ 1 := fun e => by
        have := h.2
        rw [e] at this
        omega
      rw [← h.2] at hp
      exact Nat.not_prime_mul h1 h1 hp
    have h1 : jacobiSym ((p * p - 4 : Nat) : Int) n = 1 := by
      rcases jacobiSym.trichotomy ((p * p - 4 : Nat) : Int) n with h | h | h
      · exact absurd h h0
      · exact h
      · exact absurd h hm
    have hne : n ≠ p + 2 := fun h => h0 (hzero.mpr h)
    rcases lucasChoose_prime hp f (p + 1) (by omega) (by omega) with g | g | ⟨g1, g2⟩
    · exact .inl g
    · exact .inr (.inl g)
    · refine .inr (.inr ⟨g1, fun q q1 q2 => ?_⟩)
      by_cases e : q = p
      · rw [e]; exact h1
      · exact g2 q (by omega) (by omega)

section field

variable {K : Type} [Field K] {n : Nat} [CharP K n]

/-- The computation of `V(k)` and `V(k+1)` modulo `n`. -/
theorem lucasBits_spec {α γ : K} {p : Nat} (hp : p ≤ n) (hn : 2 ≤ n) (h1 : α * γ = 1) (h2 : α + γ = p) (s : Nat) :
    ∀ (i : Nat) (v : Nat × Nat), (v.1 : K) = α ^ (s >>> i) + γ ^ (s >>> i) →
      (v.2 : K) = α ^ (s >>> i + 1) + γ ^ (s >>> i + 1) →
      ((lucasBits n p s i v).1 : K) = α ^ s + γ ^ s ∧ ((lucasBits n p s i v).2 : K) = α ^ (s + 1) + γ ^ (s + 1)
  | 0, v, a, b => ⟨by simpa [lucasBits] using a, by simpa [lucasBits] using b⟩
  | i + 1, v, a, b => by
    have md : ∀ x : Nat, ((x % n : Nat) : K) = x := fun x => by
      rw [CharP.cast_eq_mod K n x]
    have n0 : (n : K) = 0 := CharP.cast_eq_zero K n
    generalize hk : s >>> (i + 1) = k at a b
    have e : s >>> i = 2 * k + (s.testBit i).toNat := by
      rw [← hk, Nat.shiftRight_succ, Nat.testBit_eq_decide_div_mod_eq, Nat.shiftRight_eq_div_pow]
      have := Nat.mod_two_eq_zero_or_one (s / 2 ^ i)
      rcases this with h | h <;> simp [h] <;> omega
    have hg : α ^ k * γ ^ k = 1 := by rw [← mul_pow, h1, one_pow]
    have c1 : ((v.1 * v.1 + (n - 2) : Nat) : K) = α ^ (2 * k) + γ ^ (2 * k) := by
      rw [Nat.cast_add, Nat.cast_mul, Nat.cast_sub hn, n0, a]
      push_cast
      linear_combination 2 * hg
    have c2 : ((v.2 * v.2 + (n - 2) : Nat) : K) = α ^ (2 * k + 2) + γ ^ (2 * k + 2) := by
      rw [Nat.cast_add, Nat.cast_mul, Nat.cast_sub hn, n0, b]
      push_cast
      linear_combination 2 * α * γ * hg + 2 * h1
    have c3 : ((v.1 * v.2 + n - p : Nat) : K) = α ^ (2 * k + 1) + γ ^ (2 * k + 1) := by
      rw [Nat.cast_sub (by omega), Nat.cast_add, Nat.cast_mul, n0, a, b, ← h2]
      linear_combination (α + γ) * hg
    rw [lucasBits]
    apply lucasBits_spec hp hn h1 h2 s i
    · rw [e]
      unfold lucasBit
      cases s.testBit i
      · simpa [md] using c1
      · simpa [md] using c3
    · rw [e]
      unfold lucasBit
      cases s.testBit i
      · simpa [md] using c3
      · simpa [md] using c2

theorem lucasBits_lt (hn : 0 < n) (p s : Nat) : ∀ (i : Nat) (v : Nat × Nat), v.1 < n → v.2 < n →
    (lucasBits n p s i v).1 < n ∧ (lucasBits n p s i v).2 < n
  | 0, v, a, b => ⟨a, b⟩
  | i + 1, v, a, b => by
    rw [lucasBits]
    apply lucasBits_lt hn p s i <;> unfold lucasBit <;> split <;> exact Nat.mod_lt _ hn

/-- `V(k)` doubled so often that it is zero. -/
theorem lucasTail_true (hn : 2 < n) (hK : (3 : K) ≠ 0) (h2 : (2 : K) ≠ 0) : ∀ (t m v : Nat), m < t →
    (fun x : K => x ^ 2 - 2)^[m] (v : K) = 0 → v < n → lucasTail n t v = .ok true
  | 0, m, v, hm, _, _ => by omega
  | t + 1, m, v, hm, h, hv => by
    rw [lucasTail]
    split
    · rfl
    rename_i h0
    cases m with
    | zero =>
      exfalso
      have : (v : K) = 0 := h
      rw [CharP.cast_eq_zero_iff K n] at this
      exact h0 (Nat.eq_zero_of_dvd_of_lt this hv)
    | succ m =>
      rw [Function.iterate_succ_apply] at h
      have fix2 : ∀ m, (fun x : K => x ^ 2 - 2)^[m] 2 = 2 := fun m =>
        Function.iterate_fixed (by norm_num) m
      have fix1 : ∀ m, (fun x : K => x ^ 2 - 2)^[m] (-1) = -1 := fun m =>
        Function.iterate_fixed (by norm_num) m
      split
      · rename_i e
        exfalso
        rw [e, show ((2 : Nat) : K) ^ 2 - 2 = 2 by norm_num, fix2] at h
        exact h2 h
      rename_i e2
      split
      · rename_i e
        exfalso
        have ev : v = 1 := by
          rcases Nat.lt_or_ge v 2 with g | g
          · omega
          · nlinarith
        rw [ev, show ((1 : Nat) : K) ^ 2 - 2 = -1 by norm_num, fix1] at h
        exact one_ne_zero (neg_eq_zero.mp h)
      rename_i e1
      refine lucasTail_true hn hK h2 t m _ (by omega) ?_ (Nat.mod_lt _ (by omega))
      have : (((v * v - 2) % n : Nat) : K) = (v : K) ^ 2 - 2 := by
        rw [← CharP.cast_eq_mod K n, Nat.cast_sub (by omega)]
        push_cast
        ring
      rw [this]
      exact h

theorem field_one_or_minus_one (a : K) : ∀ {k : Nat}, a ^ 2 ^ k = 1 → a = 1 ∨ ∃ j < k, a ^ 2 ^ j = -1
  | 0, h => .inl (by simpa using h)
  | k + 1, h => by
    rw [pow_succ 2 k, pow_mul] at h
    rcases sq_eq_one_iff.mp h with g | g
    · rcases field_one_or_minus_one a g with r | ⟨j, hj, r⟩
      · exact .inl r
      · exact .inr ⟨j, by omega, r⟩
    · exact .inr ⟨k, by omega, g⟩

end field

/-- With a root of `p * p - 4` that the power `n` takes to its negative, the test accepts. -/
theorem lucasRun_field {K : Type} [Field K] {n p : Nat} [CharP K n] [Fact n.Prime] (hn : 5 ≤ n) (hp : p + 2 ≤ n)
    (h3 : 3 ≤ p) {δ : K} (hδ : δ ^ 2 = ((p * p - 4 : Nat) : K))
    (hpow : ((p * p - 4 : Nat) : K) ^ (n / 2) = -1) : lucasRun n p = .ok true := by
  have hprime : n.Prime := Fact.out
  have cast0 : ∀ a : Nat, (a : K) = 0 ↔ n ∣ a := CharP.cast_eq_zero_iff K n
  have h2 : (2 : K) ≠ 0 := fun h => by
    have := Nat.le_of_dvd (by decide) ((cast0 2).mp (by exact_mod_cast h))
    omega
  have hK3 : (3 : K) ≠ 0 := fun h => by
    have := Nat.le_of_dvd (by decide) ((cast0 3).mp (by exact_mod_cast h))
    omega
  have n0 : (n : K) = 0 := CharP.cast_eq_zero K n
  have hD : ((p * p - 4 : Nat) : K) = (p : K) ^ 2 - 4 := by
    rw [Nat.cast_sub (by nlinarith)]; push_cast; ring
  set α : K := ((p : K) + δ) / 2 with hα
  set γ : K := ((p : K) - δ) / 2 with hγ
  have h4 : (4 : K) ≠ 0 := by
    rw [show (4 : K) = 2 * 2 by norm_num]; exact mul_ne_zero h2 h2
  have e1 : α * γ = 1 := by
    rw [hα, hγ, div_mul_div_comm, div_eq_one_iff_eq (mul_ne_zero h2 h2)]
    rw [hD] at hδ
    linear_combination -hδ
  have e2 : α + γ = p := by
    rw [hα, hγ, ← add_div, div_eq_iff h2]; ring
  -- the power of delta
  have hodd : n % 2 = 1 := by
    rcases hprime.eq_two_or_odd with g | g
    · omega
    · exact g
  have hδn : δ ^ n = -δ := by
    have e : δ ^ n = δ ^ (2 * (n / 2) + 1) := congrArg (δ ^ ·) (by omega)
    rw [e, pow_succ, pow_mul, hδ, hpow]
    ring
  have hαn : α ^ n = γ := by
    have hf : frobenius K n α = γ := by
      rw [hα, map_div₀, map_add, map_natCast, map_ofNat, frobenius_def, hδn, hγ]
      ring
    rwa [frobenius_def] at hf
  have hα1 : α ^ (n + 1) = 1 := by rw [pow_succ, hαn, mul_comm, e1]
  -- the run
  obtain ⟨g1, g2⟩ := splitTwos_spec (k := 0) (q := n + 1) (by omega) (le_refl (Nat.size (n + 1)))
  unfold lucasRun
  generalize splitTwos (Nat.size (n + 1)) 0 (n + 1) = rs at g1 g2 ⊢
  obtain ⟨r, s⟩ := rs
  simp only [pow_zero, one_mul] at g1 g2 ⊢
  have hz : s >>> (Nat.size s + 1) = 0 := by
    rw [Nat.shiftRight_eq_div_pow, Nat.div_eq_of_lt]
    exact (Nat.lt_size_self s).trans (Nat.pow_lt_pow_right (by decide) (by omega))
  obtain ⟨v1, v2⟩ := lucasBits_spec (K := K) (n := n) (by omega : p ≤ n) (by omega) e1 e2 s (Nat.size s + 1) (2, p)
    (by rw [hz]; norm_num) (by rw [hz]; simp [e2])
  obtain ⟨w1, w2⟩ := lucasBits_lt (n := n) (by omega) p s (Nat.size s + 1) (2, p) (by simp; omega) (by simp; omega)
  generalize lucasBits n p s (Nat.size s + 1) (2, p) = v at v1 v2 w1 w2 ⊢
  have hβ : (α ^ s) ^ 2 ^ r = 1 := by rw [← pow_mul, mul_comm, g1, hα1]
  have hβγ : α ^ s * γ ^ s = 1 := by rw [← mul_pow, e1, one_pow]
  have inj : ∀ a b : Nat, a < n → b < n → (a : K) = b → a = b := fun a b ha hb h => by
    have := (CharP.natCast_eq_natCast K n).mp h
    exact Nat.ModEq.eq_of_lt_of_lt this ha hb
  have hdiff : ∀ a b : Nat, (a : K) = b → ((a - b) + (b - a)) % n = 0 := fun a b h => by
    apply Nat.mod_eq_zero_of_dvd
    rw [← cast0]
    rcases Nat.le_total a b with g | g
    · rw [Nat.sub_eq_zero_of_le g, zero_add, Nat.cast_sub g, h, sub_self]
    · rw [Nat.sub_eq_zero_of_le g, add_zero, Nat.cast_sub g, h, sub_self]
  split
  · rfl
  rename_i hc
  rcases field_one_or_minus_one _ hβ with hb | ⟨j, hj, hb⟩
  · -- V(s) = 2
    exfalso
    rw [hb, one_mul] at hβγ
    apply hc
    refine ⟨.inl (inj _ _ w1 (by omega) ?_), hdiff _ _ ?_⟩
    · rw [v1, hb, hβγ]; norm_num
    · push_cast
      rw [v1, v2, pow_succ, pow_succ, hb, hβγ, ← e2]
      ring
  · cases j with
    | zero =>
      exfalso
      rw [pow_zero, pow_one] at hb
      have hb' : γ ^ s = -1 := by
        rw [hb] at hβγ
        linear_combination -hβγ
      apply hc
      refine ⟨.inr (inj _ _ w1 (by omega) ?_), hdiff _ _ ?_⟩
      · rw [v1, hb, hb', Nat.cast_sub (by omega), n0]; norm_num
      · push_cast
        rw [v1, v2, pow_succ, pow_succ, hb, hb', ← e2]
        ring
    | succ j =>
      refine lucasTail_true (K := K) (by omega) hK3 h2 (r - 1) j v.1 (by omega) ?_ w1
      have it : ∀ m, (fun x : K => x ^ 2 - 2)^[m] (v.1 : K) = (α ^ s) ^ 2 ^ m + (γ ^ s) ^ 2 ^ m := by
        intro m
        induction m with
        | zero => simpa using v1
        | succ m ih =>
          rw [Function.iterate_succ_apply', ih]
          have : (α ^ s) ^ 2 ^ m * (γ ^ s) ^ 2 ^ m = 1 := by rw [← mul_pow, hβγ, one_pow]
          rw [pow_succ 2 m, pow_mul, pow_mul]
          linear_combination 2 * this
      rw [it]
      have hm : (α ^ s) ^ 2 ^ j * (γ ^ s) ^ 2 ^ j = 1 := by rw [← mul_pow, hβγ, one_pow]
      rw [pow_succ 2 j, pow_mul] at hb
      generalize (α ^ s) ^ 2 ^ j = x at hb hm ⊢
      generalize (γ ^ s) ^ 2 ^ j = y at hm ⊢
      -- x * x = -1 and x * y = 1
      linear_combination -x * hm + y * hb

/-- With a parameter whose symbol is -1, the test accepts a prime. -/
theorem lucasRun_prime {n p : Nat} (hprime : n.Prime) (hn : 5 ≤ n) (hp : p + 2 ≤ n)
    (h3 : 3 ≤ p) (hj : jacobiSym ((p * p - 4 : Nat) : Int) n = -1) : lucasRun n p = .ok true := by
  have : Fact n.Prime := ⟨hprime⟩
  have : CharP (AlgebraicClosure (ZMod n)) n :=
    charP_of_injective_algebraMap (algebraMap (ZMod n) (AlgebraicClosure (ZMod n))).injective n
  obtain ⟨δ, hδ⟩ := IsAlgClosed.exists_pow_nat_eq ((p * p - 4 : Nat) : AlgebraicClosure (ZMod n)) (n := 2) (by decide)
  refine lucasRun_field hn hp h3 hδ ?_
  have h := legendreSym.eq_pow n ((p * p - 4 : Nat) : Int)
  rw [jacobiSym.legendreSym.to_jacobiSym, hj] at h
  have := congrArg (algebraMap (ZMod n) (AlgebraicClosure (ZMod n))) h
  rw [map_pow, Int.cast_natCast, map_natCast] at this
  rw [← this]
  simp

/-- C163: the Lucas test accepts every prime, or panics because none of the parameters 3 to 10000 has the symbol -1. -/
theorem C163_lucas_accepts_primes {n : Nat} (hp : n.Prime) (hn : 5 ≤ n) :
    goLucas n = .ok true ∨
    ((∃ c, goLucas n = .crash c) ∧ ∀ q, 3 ≤ q → q ≤ 10000 → jacobiSym ((q * q - 4 : Nat) : Int) n = 1) := by
  have ho : n % 2 = 1 := by
    rcases hp.eq_two_or_odd with g | g
    · omega
    · exact g
  unfold goLucas
  rw [if_neg (by omega), if_neg (by omega)]
  rcases lucasChoose_prime hp 9998 3 le_rfl (by omega) with ⟨q, e, h1, h2, h3⟩ | e | ⟨e, h⟩
  · left
    rw [e]
    exact lucasRun_prime hp hn h2 h1 h3
  · left
    rw [e]
  · right
    rw [e]
    exact ⟨⟨_, rfl⟩, fun q q1 q2 => h q q1 (by omega)⟩

/-- C163: so the whole test accepts a prime if one of the parameters of the Lucas test up to 10000 has the symbol -1. -/
theorem C163_test_complete {bases : Nat → List Nat} {n : Nat} (hp : n.Prime)
    (hb : ∀ b ∈ bases n, 2 ≤ b ∧ b ≤ n - 2) (hn : 5 ≤ n)
    (hq : ∃ q, 3 ≤ q ∧ q ≤ 10000 ∧ jacobiSym ((q * q - 4 : Nat) : Int) n = -1) :
    goProbablyPrime bases (fun n => goLucas n = .ok true) n = true := by
  apply C163_test_accepts_primes hp hb
  rcases C163_lucas_accepts_primes hp hn with h | ⟨-, h⟩
  · simpa using h
  · obtain ⟨q, q1, q2, q3⟩ := hq
    have := h q q1 q2
    rw [q3] at this
    norm_num at this

section examples

example : Nat.Prime 67 ∧ jacobiSym ((3 * 3 - 4 : Nat) : Int) 67 = -1 := ⟨by norm_num, by norm_num⟩

/-- Symbols, and the whole test for a prime, for a square and for a number with a parameter that shares a factor. -/
example : goJacobi 5 67 = -1 ∧ goJacobi 1001 9907 = -1 ∧ goJacobi 19 45 = 1 ∧ goLucas 10007 = .ok true ∧
    goLucas 5041 = .ok false ∧ goLucas 15 = .ok false := by decide +kernel

/-- The run for 67 with parameter 3, and for 323 = 17 * 19 with parameter 3, which is refused. -/
example : lucasRun 67 3 = .ok true ∧ lucasRun 323 3 = .ok false := by decide +kernel

end examples

end Verif
