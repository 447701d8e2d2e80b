import Verif.Ed25519.Refine

/-!
# `geScalarMult` multiplies by `multiplier`
-/

namespace Verif.Kyber

theorem sumDigits_drop (l : List Int) (i : Nat) (h : i < l.length) :
    sumDigits (l.drop i) = l.getD i 0 + 16 * sumDigits (l.drop (i + 1)) := by
  rw [List.drop_eq_getElem_cons h, sumDigits, List.getD_eq_getElem?_getD, List.getElem?_eq_getElem h]
  rfl

/-- Bounds on the value of digits between -8 and 7. -/
theorem sumDigits_bound (l : List Int) (h : ∀ e ∈ l, -8 ≤ e ∧ e ≤ 7) :
    -8 * ((16 ^ l.length - 1) / 15) ≤ sumDigits l ∧ sumDigits l ≤ 7 * ((16 ^ l.length - 1) / 15) := by
  have key : ∀ n : Nat, ((16 : Int) ^ n - 1) % 15 = 0 := by
    intro n
    induction n with
    | zero => rfl
    | succ n ih => rw [pow_succ]; omega
  induction l with
  | nil => simp [sumDigits]
  | cons e t ih =>
    have h1 := h e (by simp)
    have h2 := ih fun x hx => h x (by simp [hx])
    have k := key t.length
    rw [sumDigits, List.length_cons, pow_succ]
    omega

/-- The value after `k` rounds of the loop of `geScalarMult`. -/
theorem loop_rep {A : GeExt} {P : Ed} (hA : A.Rep P) (e : List Int) (hl : e.length = 64)
    (hd : ∀ i < 63, -8 ≤ e.getD i 0 ∧ e.getD i 0 ≤ 7) (h63 : 0 ≤ e.getD 63 0 ∧ e.getD 63 0 ≤ 16) :
    ∀ k ≤ 63, ((List.range k).foldl
      (fun t k => GeCompl.add (double4 t).toExt (selectCached (multiples A 7) (e.getD (62 - k) 0)))
      (GeCompl.add GeExt.zero (selectCached (multiples A 7) (e.getD 63 0)))).Rep
      ((digit (e.getD 63 0) * 16 ^ k + sumDigits ((e.take 63).drop (63 - k))) • P)
  | 0, _ => by
    have hs := selectCached_rep (multiples A 7) P (fun i hi => multiples_rep hA 7 i (by omega))
      (e.getD 63 0) (by omega)
    have := GeCompl.add_rep GeExt.zero_rep hs
    rw [zero_add] at this
    rw [List.range_zero, List.foldl_nil]
    convert this using 2
    rw [List.drop_of_length_le (by simp)]
    simp [sumDigits]
  | k + 1, hk => by
    have ih := loop_rep hA e hl hd h63 k (by omega)
    have hb := hd (62 - k) (by omega)
    have hs := selectCached_rep (multiples A 7) P (fun i hi => multiples_rep hA 7 i (by omega))
      (e.getD (62 - k) 0) (by omega)
    have := GeCompl.add_rep (GeCompl.toExt_rep (double4_rep ih)) hs
    rw [List.range_succ, List.foldl_append, List.foldl_cons, List.foldl_nil]
    convert this using 1
    have e1 : 63 - (k + 1) = 62 - k := by omega
    have e2 : 62 - k + 1 = 63 - k := by omega
    have e3 : digit (e.getD (62 - k) 0) = e.getD (62 - k) 0 := if_pos (by omega)
    have e4 : (e.take 63).getD (62 - k) 0 = e.getD (62 - k) 0 := by
      rw [List.getD_eq_getElem?_getD, List.getElem?_take_of_lt (by omega), ← List.getD_eq_getElem?_getD]
    rw [e1, sumDigits_drop _ _ (by simp; omega), e2, e3, e4, ← natCast_zsmul _ 16, smul_smul, ← add_smul]
    congr 1
    push_cast
    ring

theorem geScalarMult_rep {A : GeExt} {P : Ed} (hA : A.Rep P) (s : Scalar) :
    (geScalarMult s.raw A).Rep (multiplier s • P) := by
  have hn : (nibbles s.raw).length = 64 := by rw [nibbles_length, s.len]
  obtain ⟨rl, rs, rb, rt⟩ := recode_spec (nibbles s.raw) 0 ⟨le_refl 0, by decide⟩ (nibbles_bound s.raw)
    (by intro h; rw [h] at hn; simp at hn)
  rw [hn] at rl rb rt
  have h := loop_rep hA (recode 0 (nibbles s.raw)) rl (fun i hi => rb i (by omega)) rt 63 (le_refl _)
  have hr := GeCompl.toExt_rep h
  have key : multiplier s = digit ((recode 0 (nibbles s.raw)).getD 63 0) * 16 ^ 63 +
      sumDigits (((recode 0 (nibbles s.raw)).take 63).drop (63 - 63)) := by
    have st := sumDigits_take (recode 0 (nibbles s.raw)) 63 (by omega) (by omega)
    rw [rs, nibbles_sum, add_zero] at st
    rw [Nat.sub_self, List.drop_zero]
    have lb := sumDigits_bound ((recode 0 (nibbles s.raw)).take 63) (by
      intro x hx
      obtain ⟨i, hi, rfl⟩ := List.getElem_of_mem hx
      have hi' : i < 63 := by simp at hi; omega
      have := rb i (by omega)
      rw [List.getElem_take]
      rwa [List.getD_eq_getElem?_getD, List.getElem?_eq_getElem (by omega), Option.getD_some] at this)
    have ll : ((recode 0 (nibbles s.raw)).take 63).length = 63 := by rw [List.length_take]; omega
    rw [ll] at lb
    obtain ⟨top, ht⟩ : ∃ x, x = (recode 0 (nibbles s.raw)).getD 63 0 := ⟨_, rfl⟩
    obtain ⟨low, hlow⟩ : ∃ x, x = sumDigits ((recode 0 (nibbles s.raw)).take 63) := ⟨_, rfl⟩
    rw [← ht] at st rt ⊢
    rw [← hlow] at st lb ⊢
    have et : (topDigit (leNat s.raw) : Int) = top := by
      unfold topDigit
      push_cast
      rw [st]
      norm_num only at lb ⊢
      omega
    unfold multiplier digit
    by_cases h8 : topDigit (leNat s.raw) ≤ 8
    · rw [if_pos h8, if_pos (by omega), st]
      ring
    · rw [if_neg h8, if_neg (by omega), st, et]
      ring
  rw [key]
  exact hr

end Verif.Kyber
