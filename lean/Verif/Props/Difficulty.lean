import Verif.Model.App.Miner
import Mathlib.Tactic.Linarith
import Mathlib.Tactic.Positivity

/-!
# The difficulty of blocks (C50)
-/

namespace Verif

/-! ## Finite results -/

theorem Flt.ofRat_eq_fin {q r : ℚ} : Flt.ofRat q = .fin r ↔ r = rnd64 q ∧ |r| < 2 ^ 1024 := by
  unfold Flt.ofRat
  simp only
  split
  · rename_i h
    constructor
    · intro e; cases e; exact ⟨rfl, h⟩
    · rintro ⟨rfl, -⟩; rfl
  · rename_i h
    refine ⟨fun e => ?_, ?_⟩
    · split at e <;> cases e
    · rintro ⟨rfl, h2⟩; exact absurd h2 h

theorem Flt.add_eq_fin {x y : Flt} {r : ℚ} (h : x.add y = .fin r) :
    ∃ a b, x = .fin a ∧ y = .fin b ∧ r = rnd64 (a + b) := by
  cases x <;> cases y <;> simp only [Flt.add] at h <;> try cases h
  exact ⟨_, _, rfl, rfl, (Flt.ofRat_eq_fin.mp h).1⟩

theorem Flt.infOf_ne_fin (q r : ℚ) : Flt.infOf q ≠ .fin r := by
  unfold Flt.infOf
  split
  · simp
  · split <;> simp

theorem Flt.mul_eq_fin {x y : Flt} {r : ℚ} (h : x.mul y = .fin r) :
    ∃ a b, x = .fin a ∧ y = .fin b ∧ r = rnd64 (a * b) := by
  cases x <;> cases y <;> simp only [Flt.mul] at h <;> try cases h
  all_goals first
    | exact absurd h (Flt.infOf_ne_fin _ _)
    | exact ⟨_, _, rfl, rfl, (Flt.ofRat_eq_fin.mp h).1⟩

theorem Flt.fma_eq_fin {x y z : Flt} {r : ℚ} (h : x.fma y z = .fin r) :
    ∃ a b c, x = .fin a ∧ y = .fin b ∧ z = .fin c ∧ r = rnd64 (a * b + c) := by
  have key : ∀ {x y z : Flt}, (x.mul y).add z = .fin r → ∃ a b c, x = .fin a ∧ y = .fin b ∧ z = .fin c := by
    intro x y z h
    obtain ⟨_, c, h1, h2, -⟩ := Flt.add_eq_fin h
    obtain ⟨a, b, h3, h4, -⟩ := Flt.mul_eq_fin h1
    exact ⟨a, b, c, h3, h4, h2⟩
  cases x <;> cases y <;> cases z <;> simp only [Flt.fma] at h
  all_goals first
    | exact ⟨_, _, _, rfl, rfl, rfl, (Flt.ofRat_eq_fin.mp h).1⟩
    | (obtain ⟨a, b, c, h1, h2, h3⟩ := key h; simp at h1 h2 h3)
    | cases h

/-- One iteration on finite values. -/
def sumStep (M : Machine) (q : ℚ) (n : Nat) (s : ℚ) : ℚ :=
  if M.fused then rnd64 (rnd64 ((n + 1 : Nat) : ℚ) * q + s)
  else rnd64 (s + rnd64 (rnd64 ((n + 1 : Nat) : ℚ) * q))

theorem difficultySum_fin {M : Machine} {q : ℚ} {n : Nat} {s' : ℚ}
    (h : difficultySum M (.fin q) (n + 1) = .fin s') :
    ∃ s, difficultySum M (.fin q) n = .fin s ∧ s' = sumStep M q n s := by
  unfold difficultySum at h
  simp only at h
  unfold sumStep
  split at h
  · rename_i hf
    obtain ⟨a, b, c, h1, h2, h3, h4⟩ := Flt.fma_eq_fin h
    cases h2
    exact ⟨c, h3, by rw [if_pos hf, h4, (Flt.ofRat_eq_fin.mp h1).1]⟩
  · rename_i hf
    obtain ⟨a, b, h1, h2, h3⟩ := Flt.add_eq_fin h
    obtain ⟨c, d, h4, h5, h6⟩ := Flt.mul_eq_fin h2
    cases h5
    exact ⟨a, h1, by rw [if_neg hf, h3, h6, (Flt.ofRat_eq_fin.mp h4).1]⟩

/-! ## Monotonicity -/

theorem difficultySum_isF64 {M : Machine} {q : ℚ} {n : Nat} {s : ℚ}
    (h : difficultySum M (.fin q) n = .fin s) : IsF64 s := by
  cases n with
  | zero =>
    cases h
    exact ⟨0, 0, by norm_num, by norm_num, by norm_num⟩
  | succ n =>
    obtain ⟨s', -, rfl⟩ := difficultySum_fin h
    unfold sumStep
    split <;> exact rnd64_isF64 _

theorem sumStep_le {M : Machine} {q : ℚ} (hq : 0 ≤ q) {n : Nat} {s : ℚ} (hs : IsF64 s) :
    s ≤ sumStep M q n s := by
  have h1 : 0 ≤ rnd64 ((n + 1 : Nat) : ℚ) * q := mul_nonneg (rnd64_nonneg (Nat.cast_nonneg _)) hq
  have h2 := rnd64_nonneg h1
  unfold sumStep
  conv_lhs => rw [← rnd64_of_isF64 hs]
  split
  · exact rnd64_mono (by linarith)
  · exact rnd64_mono (by linarith)

theorem difficultySum_nonneg {M : Machine} {q : ℚ} (hq : 0 ≤ q) : ∀ {n : Nat} {s : ℚ},
    difficultySum M (.fin q) n = .fin s → 0 ≤ s
  | 0, s, h => by cases h; exact le_refl _
  | n + 1, s, h => by
    obtain ⟨s', h1, rfl⟩ := difficultySum_fin h
    exact (difficultySum_nonneg hq h1).trans (sumStep_le hq (difficultySum_isF64 h1))

theorem difficultySum_mono {M : Machine} {q : ℚ} (hq : 0 ≤ q) {m n : Nat} (h : m ≤ n) {t : ℚ}
    (hn : difficultySum M (.fin q) n = .fin t) :
    ∃ s, difficultySum M (.fin q) m = .fin s ∧ s ≤ t := by
  induction h generalizing t with
  | refl => exact ⟨t, hn, le_refl _⟩
  | step _ ih =>
    obtain ⟨s', h1, rfl⟩ := difficultySum_fin hn
    obtain ⟨s, h2, h3⟩ := ih h1
    exact ⟨s, h2, h3.trans (sumStep_le hq (difficultySum_isF64 h1))⟩

/-- The value before the conversion to an integer. -/
def difficultyValue (M : Machine) (base : UInt64) (incr : Flt) (n : Nat) : Flt :=
  (difficultySum M incr n).add (.ofRat base.toNat)

theorem floatToUint_toNat {M : Machine} {x : ℚ} (h0 : 0 ≤ x) (h1 : x < 2 ^ 64) :
    (floatToUint M (.fin x)).toNat = ⌊x⌋.toNat := by
  unfold floatToUint
  simp only
  rw [if_pos ⟨by linarith, h1⟩, UInt64.toNat_ofNat']
  apply Nat.mod_eq_of_lt
  have h2 : ⌊x⌋ < 2 ^ 64 := by
    rw [Int.floor_lt]
    push_cast
    exact h1
  have h3 : 0 ≤ ⌊x⌋ := Int.floor_nonneg.mpr h0
  omega

theorem lt_huge {x : ℚ} (h0 : 0 ≤ x) (h : x ≤ 2 ^ 64) : |x| < 2 ^ 1024 := by
  rw [abs_of_nonneg h0]
  refine lt_of_le_of_lt h ?_
  exact pow_lt_pow_right₀ (by norm_num) (by norm_num)

theorem rnd64_base (base : UInt64) : 0 ≤ rnd64 (base.toNat : ℚ) ∧ rnd64 (base.toNat : ℚ) ≤ 2 ^ 64 := by
  refine ⟨rnd64_nonneg (Nat.cast_nonneg _), ?_⟩
  have h1 : IsF64 (2 ^ 64) := ⟨1, 64, by norm_num, by norm_num, by norm_num⟩
  rw [← rnd64_of_isF64 h1]
  apply rnd64_mono
  have := UInt64.toNat_lt base
  have h2 : base.toNat ≤ 2 ^ 64 := by omega
  exact_mod_cast h2

theorem ofRat_base (base : UInt64) : Flt.ofRat base.toNat = .fin (rnd64 base.toNat) :=
  Flt.ofRat_eq_fin.mpr ⟨rfl, lt_huge (rnd64_base base).1 (rnd64_base base).2⟩

/-- C50: on every machine and for every increase that is not negative, as long as the value fits in
64 bits, the difficulty never decreases when transactions are added, and it is at least the base
(when the base is at most `2^53`, so that it is a float64). -/
theorem C50_difficulty_monotone (M : Machine) (base : UInt64) (incr : ℚ) (hi : 0 ≤ incr) {m n : Nat}
    (hmn : m ≤ n) {x : ℚ} (hx : difficultyValue M base (.fin incr) n = .fin x) (hfit : x < 2 ^ 64) :
    (blockDifficulty M base (.fin incr) m).toNat ≤ (blockDifficulty M base (.fin incr) n).toNat ∧
    (base.toNat ≤ 2 ^ 53 → base.toNat ≤ (blockDifficulty M base (.fin incr) m).toNat) := by
  have hv := hx
  unfold difficultyValue at hv
  obtain ⟨t, b, h1, h2, h3⟩ := Flt.add_eq_fin hv
  rw [ofRat_base] at h2
  cases h2
  obtain ⟨s, h4, h5⟩ := difficultySum_mono hi hmn h1
  have hb := (rnd64_base base).1
  have hs := difficultySum_nonneg hi h4
  have hy : rnd64 (s + rnd64 base.toNat) ≤ x := by rw [h3]; exact rnd64_mono (by linarith)
  have hy0 : 0 ≤ rnd64 (s + rnd64 base.toNat) := rnd64_nonneg (by linarith)
  have e : (difficultySum M (.fin incr) m).add (.ofRat base.toNat) =
      .fin (rnd64 (s + rnd64 base.toNat)) := by
    rw [h4, ofRat_base]
    exact Flt.ofRat_eq_fin.mpr ⟨rfl, lt_huge hy0 (hy.trans hfit.le)⟩
  unfold blockDifficulty
  rw [e, hv, floatToUint_toNat hy0 (lt_of_le_of_lt hy hfit), floatToUint_toNat (hy0.trans hy) hfit]
  refine ⟨Int.toNat_le_toNat (Int.floor_le_floor hy), fun hbase => ?_⟩
  have hf := rnd64_of_isF64 (isF64_natCast hbase)
  have h6 : (base.toNat : ℚ) ≤ rnd64 (s + rnd64 base.toNat) := by
    conv_lhs => rw [← hf]
    exact rnd64_mono (by rw [hf]; linarith)
  have h7 : (base.toNat : ℤ) ≤ ⌊rnd64 (s + rnd64 (base.toNat : ℚ))⌋ := by
    rw [Int.le_floor]
    simpa using h6
  omega

/-! ## Accuracy -/

/-- The difficulty without rounding. -/
def exactDifficulty (base : UInt64) (incr : ℚ) (n : Nat) : ℚ := base.toNat + incr * (n * (n + 1) / 2)

/-- A sum after one more iteration, between bounds. -/
theorem sumStep_between {M : Machine} {q : ℚ} (hq : 0 ≤ q) (hf : IsF64 q) {n : Nat} (hn : n + 1 ≤ 2 ^ 53)
    {s S : ℚ} (hs : IsF64 s) (hS : 0 ≤ S) {k : Nat}
    (h1 : S * (1 - 1 / 2 ^ 53) ^ (k + 1) ≤ s) (h2 : s ≤ S * (1 + 1 / 2 ^ 53) ^ (k + 1)) :
    (S + (n + 1 : Nat) * q) * (1 - 1 / 2 ^ 53) ^ (k + 2) ≤ sumStep M q n s ∧
    sumStep M q n s ≤ (S + (n + 1 : Nat) * q) * (1 + 1 / 2 ^ 53) ^ (k + 2) := by
  have hidx : rnd64 ((n + 1 : Nat) : ℚ) = ((n + 1 : Nat) : ℚ) := rnd64_of_isF64 (isF64_natCast hn)
  unfold sumStep
  rw [hidx]
  generalize hN : ((n + 1 : Nat) : ℚ) = N
  have hN0 : 0 ≤ N := by rw [← hN]; exact Nat.cast_nonneg _
  have hfine : Fine (N * q) := by rw [← hN]; exact hf.fine.natMul _
  have hp : 0 ≤ N * q := mul_nonneg hN0 hq
  generalize N * q = p at hfine hp ⊢
  set u : ℚ := 1 / 2 ^ 53 with hu
  have hu0 : 0 < u := by rw [hu]; norm_num
  have hu1 : u < 1 := by rw [hu]; norm_num
  have hlow0 : 0 ≤ S * (1 - u) ^ (k + 1) := mul_nonneg hS (pow_nonneg (by linarith) _)
  have hs0 : 0 ≤ s := hlow0.trans h1
  have hpow1 : (1 - u) ^ (k + 1) ≤ 1 := pow_le_one₀ (by linarith) (by linarith)
  have hpow1' : (1 - u) ^ (k + 1) ≤ 1 - u := by
    rw [pow_succ]
    exact mul_le_of_le_one_left (by linarith) (pow_le_one₀ (by linarith) (by linarith))
  have hpow2 : 1 ≤ (1 + u) ^ (k + 1) := one_le_pow₀ (by linarith)
  have hpow2' : 1 + u ≤ (1 + u) ^ (k + 1) := by
    rw [pow_succ]
    exact le_mul_of_one_le_left (by linarith) (one_le_pow₀ (by linarith))
  have finish : ∀ x, Fine x → S * (1 - u) ^ (k + 1) + p * (1 - u) ^ (k + 1) ≤ x →
      x ≤ S * (1 + u) ^ (k + 1) + p * (1 + u) ^ (k + 1) →
      (S + p) * (1 - u) ^ (k + 2) ≤ rnd64 x ∧ rnd64 x ≤ (S + p) * (1 + u) ^ (k + 2) := by
    intro x hx g1 g2
    have hx0 : 0 ≤ x := le_trans (add_nonneg hlow0 (mul_nonneg hp (pow_nonneg (by linarith) _))) g1
    obtain ⟨e1, e2⟩ := rnd64_between hx hx0
    rw [← hu] at e1 e2
    constructor
    · refine le_trans ?_ e1
      calc (S + p) * (1 - u) ^ (k + 2) = (S * (1 - u) ^ (k + 1) + p * (1 - u) ^ (k + 1)) * (1 - u) := by ring
        _ ≤ x * (1 - u) := mul_le_mul_of_nonneg_right g1 (by linarith)
    · refine e2.trans ?_
      calc x * (1 + u) ≤ (S * (1 + u) ^ (k + 1) + p * (1 + u) ^ (k + 1)) * (1 + u) :=
            mul_le_mul_of_nonneg_right g2 (by linarith)
        _ = _ := by ring
  split
  · refine finish _ (hfine.add hs.fine) ?_ ?_
    · have := mul_le_mul_of_nonneg_left hpow1 hp
      linarith
    · have := mul_le_mul_of_nonneg_left hpow2 hp
      linarith
  · obtain ⟨e1, e2⟩ := rnd64_between hfine hp
    rw [← hu] at e1 e2
    refine finish _ (hs.fine.add (rnd64_isF64 p).fine) ?_ ?_
    · have := mul_le_mul_of_nonneg_left hpow1' hp
      linarith
    · have := mul_le_mul_of_nonneg_left hpow2' hp
      linarith

/-- An iteration with a small result is finite. -/
theorem difficultySum_step {M : Machine} {q : ℚ} (hq : 0 ≤ q) {n : Nat} (hn : n + 1 ≤ 2 ^ 53)
    {s : ℚ} (h : difficultySum M (.fin q) n = .fin s) (hs : sumStep M q n s ≤ 2 ^ 64) :
    difficultySum M (.fin q) (n + 1) = .fin (sumStep M q n s) := by
  have hN := rnd64_of_isF64 (isF64_natCast hn)
  have hs0 := difficultySum_nonneg hq h
  have hF := difficultySum_isF64 h
  have hidx : Flt.ofRat ((n + 1 : Nat) : ℚ) = .fin (rnd64 ((n + 1 : Nat) : ℚ)) := by
    refine Flt.ofRat_eq_fin.mpr ⟨rfl, ?_⟩
    rw [hN]
    refine lt_huge (Nat.cast_nonneg _) ?_
    have : n + 1 ≤ 2 ^ 64 := hn.trans (by norm_num)
    exact_mod_cast this
  have hp : 0 ≤ rnd64 ((n + 1 : Nat) : ℚ) * q := mul_nonneg (by rw [hN]; exact Nat.cast_nonneg _) hq
  have hstep0 := hs0.trans (sumStep_le (M := M) (n := n) hq hF)
  unfold difficultySum
  simp only
  rw [hidx, h]
  unfold sumStep at hs hstep0 ⊢
  split
  · rename_i hf
    rw [if_pos hf] at hs hstep0
    exact Flt.ofRat_eq_fin.mpr ⟨rfl, lt_huge hstep0 hs⟩
  · rename_i hf
    rw [if_neg hf] at hs hstep0
    have hm : Flt.ofRat (rnd64 ((n + 1 : Nat) : ℚ) * q) = .fin (rnd64 (rnd64 ((n + 1 : Nat) : ℚ) * q)) := by
      refine Flt.ofRat_eq_fin.mpr ⟨rfl, lt_huge (rnd64_nonneg hp) (le_trans ?_ hs)⟩
      conv_lhs => rw [← rnd64_of_isF64 (rnd64_isF64 _)]
      exact rnd64_mono (by linarith)
    show Flt.add (.fin s) (Flt.ofRat _) = _
    rw [hm]
    exact Flt.ofRat_eq_fin.mpr ⟨rfl, lt_huge hstep0 hs⟩

theorem difficultySum_between {M : Machine} {q : ℚ} (hq : 0 ≤ q) (hf : IsF64 q) : ∀ {n : Nat},
    n ≤ 2 ^ 53 → q * (n * (n + 1) / 2) * (1 + 1 / 2 ^ 53) ^ (n + 1) ≤ 2 ^ 64 →
    ∃ s, difficultySum M (.fin q) n = .fin s ∧
      q * (n * (n + 1) / 2) * (1 - 1 / 2 ^ 53) ^ (n + 1) ≤ s ∧
      s ≤ q * (n * (n + 1) / 2) * (1 + 1 / 2 ^ 53) ^ (n + 1)
  | 0, _, _ => ⟨0, rfl, by simp, by simp⟩
  | n + 1, hn, hb => by
    have hS : 0 ≤ q * (n * (n + 1) / 2 : ℚ) := by positivity
    have eS : q * (((n + 1 : Nat) : ℚ) * (((n + 1 : Nat) : ℚ) + 1) / 2) =
        q * (n * (n + 1) / 2 : ℚ) + ((n + 1 : Nat) : ℚ) * q := by push_cast; ring
    have hp : 0 ≤ ((n + 1 : Nat) : ℚ) * q := mul_nonneg (Nat.cast_nonneg _) hq
    rw [eS] at hb ⊢
    obtain ⟨s, h1, h2, h3⟩ := difficultySum_between (M := M) hq hf (n := n) (by omega) (by
      refine le_trans ?_ hb
      refine mul_le_mul (by linarith) (pow_le_pow_right₀ (by norm_num) (by omega)) (by positivity) (by positivity))
    obtain ⟨g1, g2⟩ := sumStep_between (M := M) hq hf (n := n) hn (difficultySum_isF64 h1) hS h2 h3
    exact ⟨_, difficultySum_step hq hn h1 (g2.trans hb), g1, g2⟩

/-- C50: on every machine, the difficulty is the exact value `base + incr * n(n+1)/2`, up to a
relative error of `2^-53` for each of at most `n + 2` roundings, rounded down. -/
theorem C50_difficulty_accuracy (M : Machine) (base : UInt64) (incr : ℚ) (hi : 0 ≤ incr)
    (hf : IsF64 incr) (n : Nat) (hn : n ≤ 2 ^ 53)
    (hfit : exactDifficulty base incr n * (1 + 1 / 2 ^ 53) ^ (n + 2) < 2 ^ 64) :
    ⌊exactDifficulty base incr n * (1 - 1 / 2 ^ 53) ^ (n + 2)⌋.toNat ≤
      (blockDifficulty M base (.fin incr) n).toNat ∧
    (blockDifficulty M base (.fin incr) n).toNat ≤
      ⌊exactDifficulty base incr n * (1 + 1 / 2 ^ 53) ^ (n + 2)⌋.toNat := by
  unfold exactDifficulty at hfit ⊢
  have hS : 0 ≤ incr * (n * (n + 1) / 2 : ℚ) := by positivity
  generalize hSe : incr * (n * (n + 1) / 2 : ℚ) = S at hS hfit ⊢
  have hB : (0 : ℚ) ≤ base.toNat := Nat.cast_nonneg _
  have hle : S * (1 + 1 / 2 ^ 53) ^ (n + 1) ≤ 2 ^ 64 := by
    refine le_trans ?_ hfit.le
    exact mul_le_mul (by linarith) (pow_le_pow_right₀ (by norm_num) (by omega)) (by positivity) (by positivity)
  obtain ⟨s, h1, h2, h3⟩ := difficultySum_between (M := M) hi hf (n := n) hn (by rw [hSe]; exact hle)
  rw [hSe] at h2 h3
  obtain ⟨b1, b2⟩ := rnd64_between (fine_natCast base.toNat) hB
  have hF := (difficultySum_isF64 h1).fine
  have hb0 := (rnd64_base base).1
  have hs0 := difficultySum_nonneg hi h1
  set u : ℚ := 1 / 2 ^ 53 with hu
  have hu0 : 0 < u := by rw [hu]; norm_num
  have hu1 : u < 1 := by rw [hu]; norm_num
  obtain ⟨e1, e2⟩ := rnd64_between (hF.add (rnd64_isF64 (base.toNat : ℚ)).fine) (add_nonneg hs0 hb0)
  rw [← hu] at e1 e2
  have hpow1' : (1 - u) ^ (n + 1) ≤ 1 - u := by
    rw [pow_succ]
    exact mul_le_of_le_one_left (by linarith) (pow_le_one₀ (by linarith) (by linarith))
  have hpow2' : 1 + u ≤ (1 + u) ^ (n + 1) := by
    rw [pow_succ]
    exact le_mul_of_one_le_left (by linarith) (one_le_pow₀ (by linarith))
  have g1 : (base.toNat + S) * (1 - u) ^ (n + 2) ≤ rnd64 (s + rnd64 base.toNat) := by
    refine le_trans ?_ e1
    have := mul_le_mul_of_nonneg_left hpow1' hB
    calc (base.toNat + S) * (1 - u) ^ (n + 2) =
          (base.toNat * (1 - u) ^ (n + 1) + S * (1 - u) ^ (n + 1)) * (1 - u) := by ring
      _ ≤ (s + rnd64 base.toNat) * (1 - u) :=
        mul_le_mul_of_nonneg_right (by linarith) (by linarith)
  have g2 : rnd64 (s + rnd64 base.toNat) ≤ (base.toNat + S) * (1 + u) ^ (n + 2) := by
    refine e2.trans ?_
    have := mul_le_mul_of_nonneg_left hpow2' hB
    calc (s + rnd64 base.toNat) * (1 + u) ≤
          (base.toNat * (1 + u) ^ (n + 1) + S * (1 + u) ^ (n + 1)) * (1 + u) :=
        mul_le_mul_of_nonneg_right (by linarith) (by linarith)
      _ = _ := by ring
  have hx0 : 0 ≤ rnd64 (s + rnd64 base.toNat) := rnd64_nonneg (add_nonneg hs0 hb0)
  have hx1 := lt_of_le_of_lt g2 hfit
  have e : (difficultySum M (.fin incr) n).add (.ofRat base.toNat) =
      .fin (rnd64 (s + rnd64 base.toNat)) := by
    rw [h1, ofRat_base]
    exact Flt.ofRat_eq_fin.mpr ⟨rfl, lt_huge hx0 hx1.le⟩
  unfold blockDifficulty
  rw [e, floatToUint_toNat hx0 hx1]
  exact ⟨Int.toNat_le_toNat (Int.floor_le_floor g1), Int.toNat_le_toNat (Int.floor_le_floor g2)⟩

/-! ## Exact increases -/

theorem isF64_dyadic {j k : Nat} (hj : j ≤ 2 ^ 53) (hk : k ≤ 1074) : IsF64 ((j : ℚ) / 2 ^ k) := by
  refine ⟨j, -k, by simpa using hj, by omega, ?_⟩
  rw [zpow_neg, zpow_natCast]
  push_cast
  rw [div_eq_mul_inv]

/-- C50: for an increase that is a fraction with a power of two as denominator, and values below
`2^53` times its unit, there is no rounding on any machine: the difficulty is
`base + incr * n(n+1)/2`, rounded down. -/
theorem C50_difficulty_exact (M : Machine) (base : UInt64) (a k n : Nat) (ha : 0 < a) (hk : k ≤ 1074)
    (hfit : a * (n * (n + 1) / 2) + base.toNat * 2 ^ k ≤ 2 ^ 53) :
    (blockDifficulty M base (.fin ((a : ℚ) / 2 ^ k)) n).toNat =
      (a * (n * (n + 1) / 2) + base.toNat * 2 ^ k) / 2 ^ k := by
  have hq : (0 : ℚ) ≤ (a : ℚ) / 2 ^ k := by positivity
  have htri : ∀ i : Nat, (i + 1) * (i + 1 + 1) / 2 = i * (i + 1) / 2 + (i + 1) := by
    intro i
    have : (i + 1) * (i + 1 + 1) = i * (i + 1) + 2 * (i + 1) := by ring
    rw [this, Nat.add_mul_div_left _ _ (by norm_num)]
  have hmono : ∀ i, i ≤ n → i * (i + 1) / 2 ≤ n * (n + 1) / 2 := fun i hi =>
    Nat.div_le_div_right (Nat.mul_le_mul hi (by omega))
  have hself : ∀ i : Nat, i ≤ i * (i + 1) / 2 := by
    intro i
    induction i with
    | zero => simp
    | succ i ih => rw [htri]; omega
  have hle : ∀ i, i ≤ n → a * (i * (i + 1) / 2) ≤ 2 ^ 53 := fun i hi =>
    le_trans (Nat.mul_le_mul_left a (hmono i hi)) (by omega)
  have hidx : ∀ i, i ≤ n → i ≤ 2 ^ 53 := fun i hi =>
    le_trans (hself i) (le_trans (Nat.le_mul_of_pos_left _ ha) (hle i hi))
  have hsum : ∀ i, i ≤ n → difficultySum M (.fin ((a : ℚ) / 2 ^ k)) i =
      .fin (((a * (i * (i + 1) / 2) : Nat) : ℚ) / 2 ^ k) := by
    intro i
    induction i with
    | zero => intro _; simp [difficultySum]
    | succ i ih =>
      intro hi
      have h1 := ih (by omega)
      have hst : sumStep M ((a : ℚ) / 2 ^ k) i (((a * (i * (i + 1) / 2) : Nat) : ℚ) / 2 ^ k) =
          ((a * ((i + 1) * (i + 1 + 1) / 2) : Nat) : ℚ) / 2 ^ k := by
        have hF : IsF64 (((a * ((i + 1) * (i + 1 + 1) / 2) : Nat) : ℚ) / 2 ^ k) :=
          isF64_dyadic (hle _ hi) hk
        have hN : rnd64 ((i + 1 : Nat) : ℚ) = ((i + 1 : Nat) : ℚ) := rnd64_of_isF64 (isF64_natCast (hidx _ hi))
        have hPe : ((i + 1 : Nat) : ℚ) * ((a : ℚ) / 2 ^ k) = ((a * (i + 1) : Nat) : ℚ) / 2 ^ k := by
          push_cast; ring
        have hP : IsF64 (((i + 1 : Nat) : ℚ) * ((a : ℚ) / 2 ^ k)) := by
          rw [hPe]
          refine isF64_dyadic (le_trans (Nat.mul_le_mul_left a ?_) (hle _ hi)) hk
          rw [htri]; omega
        have hadd : ((i + 1 : Nat) : ℚ) * ((a : ℚ) / 2 ^ k) + ((a * (i * (i + 1) / 2) : Nat) : ℚ) / 2 ^ k =
            ((a * ((i + 1) * (i + 1 + 1) / 2) : Nat) : ℚ) / 2 ^ k := by
          rw [hPe, htri i, ← add_div]
          congr 1
          push_cast
          ring
        unfold sumStep
        rw [hN, rnd64_of_isF64 hP, add_comm (((a * (i * (i + 1) / 2) : Nat) : ℚ) / 2 ^ k), hadd,
          rnd64_of_isF64 hF, ite_self]
      rw [difficultySum_step hq (hidx _ hi) h1 ?_, hst]
      rw [hst]
      have h3 : ((a * ((i + 1) * (i + 1 + 1) / 2) : Nat) : ℚ) ≤ 2 ^ 64 := by
        have := (hle _ hi).trans (show 2 ^ 53 ≤ 2 ^ 64 by norm_num)
        exact_mod_cast this
      exact le_trans (div_le_self (Nat.cast_nonneg _) (one_le_pow₀ (by norm_num))) h3
  have hpk : 1 ≤ 2 ^ k := Nat.one_le_two_pow
  have hbase : base.toNat ≤ 2 ^ 53 :=
    le_trans (Nat.le_mul_of_pos_right _ (by omega)) (le_trans (Nat.le_add_left _ _) hfit)
  have hval : (((a * (n * (n + 1) / 2) : Nat) : ℚ) / 2 ^ k + (base.toNat : ℚ)) =
      ((a * (n * (n + 1) / 2) + base.toNat * 2 ^ k : Nat) : ℚ) / 2 ^ k := by
    have : (2 : ℚ) ^ k ≠ 0 := by positivity
    rw [Nat.cast_add, add_div, Nat.cast_mul base.toNat, Nat.cast_pow]
    push_cast
    rw [mul_div_cancel_right₀ _ this]
  have hx64 : ((a * (n * (n + 1) / 2) + base.toNat * 2 ^ k : Nat) : ℚ) / 2 ^ k < 2 ^ 64 := by
    refine lt_of_le_of_lt (div_le_self (Nat.cast_nonneg _) (one_le_pow₀ (by norm_num))) ?_
    have := lt_of_le_of_lt hfit (show 2 ^ 53 < 2 ^ 64 by norm_num)
    exact_mod_cast this
  have hx0 : (0 : ℚ) ≤ ((a * (n * (n + 1) / 2) + base.toNat * 2 ^ k : Nat) : ℚ) / 2 ^ k := by positivity
  unfold blockDifficulty
  rw [hsum n le_rfl, ofRat_base, rnd64_of_isF64 (isF64_natCast hbase)]
  have : Flt.add (.fin (((a * (n * (n + 1) / 2) : Nat) : ℚ) / 2 ^ k)) (.fin (base.toNat : ℚ)) =
      .fin (((a * (n * (n + 1) / 2) + base.toNat * 2 ^ k : Nat) : ℚ) / 2 ^ k) := by
    show Flt.ofRat _ = _
    rw [hval]
    refine Flt.ofRat_eq_fin.mpr ⟨(rnd64_of_isF64 (isF64_dyadic hfit hk)).symm, lt_huge hx0 hx64.le⟩
  rw [this, floatToUint_toNat hx0 hx64]
  have : ((2 : ℚ) ^ k) = ((2 ^ k : Nat) : ℚ) := by push_cast; rfl
  rw [this, Rat.floor_natCast_div_natCast]
  rfl

/-! ## What the language leaves open -/

theorem difficultySum_lower {M : Machine} {q : ℚ} (hq : 0 ≤ q) (hf : IsF64 q) : ∀ {n : Nat} {s : ℚ},
    n ≤ 2 ^ 53 → difficultySum M (.fin q) n = .fin s →
    q * (n * (n + 1) / 2) * (1 - 1 / 2 ^ 53) ^ (n + 1) ≤ s ∧
      s ≤ q * (n * (n + 1) / 2) * (1 + 1 / 2 ^ 53) ^ (n + 1)
  | 0, s, _, h => by cases h; simp
  | n + 1, s, hn, h => by
    obtain ⟨s', h1, rfl⟩ := difficultySum_fin h
    obtain ⟨h2, h3⟩ := difficultySum_lower hq hf (by omega) h1
    have eS : q * (((n + 1 : Nat) : ℚ) * (((n + 1 : Nat) : ℚ) + 1) / 2) =
        q * (n * (n + 1) / 2 : ℚ) + ((n + 1 : Nat) : ℚ) * q := by push_cast; ring
    rw [eS]
    exact sumStep_between hq hf hn (difficultySum_isF64 h1) (by positivity) h2 h3

/-- C50 refuted: when the exact value is out of the range of 64 bits by more than the rounding
errors, the difficulty may be anything, depending on the machine. -/
theorem C50_out_of_range_neg (fused : Bool) (base : UInt64) (incr : ℚ) (hi : 0 ≤ incr)
    (hf : IsF64 incr) (n : Nat) (hn : n ≤ 2 ^ 53)
    (hbig : 2 ^ 64 ≤ exactDifficulty base incr n * (1 - 1 / 2 ^ 53) ^ (n + 2)) (d : UInt64) :
    ∃ M : Machine, M.fused = fused ∧ blockDifficulty M base (.fin incr) n = d := by
  refine ⟨⟨fused, fun _ => d⟩, rfl, ?_⟩
  generalize hM : (⟨fused, fun _ => d⟩ : Machine) = M
  unfold blockDifficulty floatToUint
  have hMd : ∀ x, M.big x = d := by rw [← hM]; exact fun _ => rfl
  split
  · rename_i x hx
    rw [if_neg, hMd]
    rintro ⟨-, h64⟩
    obtain ⟨s, b, h1, h2, h3⟩ := Flt.add_eq_fin hx
    rw [ofRat_base] at h2
    cases h2
    obtain ⟨g1, -⟩ := difficultySum_lower hi hf hn h1
    obtain ⟨b1, -⟩ := rnd64_between (fine_natCast base.toNat) (Nat.cast_nonneg _)
    have hb0 := (rnd64_base base).1
    have hs0 := difficultySum_nonneg hi h1
    obtain ⟨e1, -⟩ := rnd64_between ((difficultySum_isF64 h1).fine.add (rnd64_isF64 (base.toNat : ℚ)).fine)
      (add_nonneg hs0 hb0)
    rw [← h3] at e1
    unfold exactDifficulty at hbig
    have hB : (0 : ℚ) ≤ base.toNat := Nat.cast_nonneg _
    generalize incr * (n * (n + 1) / 2 : ℚ) = S at hbig g1
    set u : ℚ := 1 / 2 ^ 53 with hu
    have hu0 : 0 < u := by rw [hu]; norm_num
    have hu1 : u < 1 := by rw [hu]; norm_num
    have hpow1' : (1 - u) ^ (n + 1) ≤ 1 - u := by
      rw [pow_succ]
      exact mul_le_of_le_one_left (by linarith) (pow_le_one₀ (by linarith) (by linarith))
    have : (base.toNat + S) * (1 - u) ^ (n + 2) ≤ x := by
      refine le_trans ?_ e1
      have := mul_le_mul_of_nonneg_left hpow1' hB
      calc (base.toNat + S) * (1 - u) ^ (n + 2) =
            (base.toNat * (1 - u) ^ (n + 1) + S * (1 - u) ^ (n + 1)) * (1 - u) := by ring
        _ ≤ (s + rnd64 base.toNat) * (1 - u) :=
          mul_le_mul_of_nonneg_right (by linarith) (by linarith)
    linarith
  · exact hMd _

/-- C50 refuted: machines do not agree. With base 1 and the increase 1.4, five transactions have
difficulty 22, which is the exact value, on machines that do not fuse, and 21 on those that do. -/
theorem C50_machines_disagree_neg (M : Machine) :
    rnd64 (14 / 10) = 6305039478318694 / 2 ^ 52 ∧
    blockDifficulty M 1 (.fin (6305039478318694 / 2 ^ 52)) 5 = if M.fused then 21 else 22 := by
  refine ⟨by decide +kernel, ?_⟩
  obtain ⟨fused, big⟩ := M
  have h1 : difficultySum ⟨fused, big⟩ (.fin (6305039478318694 / 2 ^ 52)) 5 =
      difficultySum ⟨fused, fun _ => 0⟩ (.fin (6305039478318694 / 2 ^ 52)) 5 := by
    simp only [difficultySum]
  unfold blockDifficulty
  rw [h1]
  cases fused
  · have h2 : (difficultySum ⟨false, fun _ => 0⟩ (.fin (6305039478318694 / 2 ^ 52)) 5).add
        (.ofRat (1 : UInt64).toNat) = .fin 22 := by decide +kernel
    rw [h2]
    have h3 : ⌊(22 : ℚ)⌋ = 22 := by decide +kernel
    simp only [floatToUint]
    rw [if_pos (by norm_num), h3]
    rfl
  · have h2 : (difficultySum ⟨true, fun _ => 0⟩ (.fin (6305039478318694 / 2 ^ 52)) 5).add
        (.ofRat (1 : UInt64).toNat) = .fin (22 - 1 / 2 ^ 48) := by decide +kernel
    rw [h2]
    have h3 : ⌊(22 - 1 / 2 ^ 48 : ℚ)⌋ = 21 := by decide +kernel
    simp only [floatToUint]
    rw [if_pos (by norm_num), h3]
    rfl

/-- C50 refuted: a base above `2^53` is rounded, possibly down. -/
theorem C50_base_rounded_neg (M : Machine) (incr : Flt) :
    (blockDifficulty M (2 ^ 53 + 1) incr 0).toNat = 2 ^ 53 := by
  have e : (difficultySum M incr 0).add (.ofRat ((2 ^ 53 + 1 : UInt64).toNat : ℚ)) = .fin (2 ^ 53) := by
    show Flt.add (.fin 0) _ = _
    decide +kernel
  unfold blockDifficulty
  rw [e, floatToUint_toNat (by norm_num) (by norm_num)]
  have : ⌊(2 ^ 53 : ℚ)⌋ = 2 ^ 53 := by decide +kernel
  rw [this]
  rfl

section examples

/-- C50: base 1 with increase one half and 3 transactions: `1 + 3`. -/
example (M : Machine) : (blockDifficulty M 1 (.fin (1 / 2)) 3).toNat = 4 := by
  have := C50_difficulty_exact M 1 1 1 3 (by norm_num) (by norm_num) (by decide)
  simpa using this

/-- C50: what it takes for the monotonicity, and the accuracy with the increase 1.4. -/
example (M : Machine) : (∃ x, difficultyValue M 1 (.fin (1 / 2)) 3 = .fin x ∧ x < 2 ^ 64) ∧
    IsF64 (6305039478318694 / 2 ^ 52) ∧
    exactDifficulty 1 (6305039478318694 / 2 ^ 52) 5 * (1 + 1 / 2 ^ 53) ^ (5 + 2) < 2 ^ 64 := by
  refine ⟨?_, ⟨6305039478318694, -52, by norm_num, by norm_num, by norm_num⟩, ?_⟩
  · obtain ⟨fused, big⟩ := M
    refine ⟨4, ?_, by norm_num⟩
    have h1 : difficultySum ⟨fused, big⟩ (.fin (1 / 2)) 3 = difficultySum ⟨fused, fun _ => 0⟩ (.fin (1 / 2)) 3 := by
      simp only [difficultySum]
    unfold difficultyValue
    rw [h1]
    cases fused <;> decide +kernel
  · unfold exactDifficulty
    have : (1 : UInt64).toNat = 1 := rfl
    rw [this]
    norm_num

/-- C50: an increase of `2^60` and six transactions are out of range. -/
example : 2 ^ 64 ≤ exactDifficulty 1 (2 ^ 60) 6 * (1 - 1 / 2 ^ 53) ^ (6 + 2) := by
  unfold exactDifficulty
  have : (1 : UInt64).toNat = 1 := rfl
  rw [this]
  norm_num

end examples

end Verif
