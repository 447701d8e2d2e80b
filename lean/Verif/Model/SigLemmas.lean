import Verif.Model.Sig
import Verif.Model.HashLemmas
import Mathlib.Tactic.Ring
import Mathlib.Tactic.LinearCombination
import Mathlib.Tactic.FieldSimp

/-!
# Helper lemmas about signatures
-/

namespace Verif

set_option linter.unusedSectionVars false

theorem leNat_lt : ∀ b : Bytes, leNat b < 256 ^ b.length
  | [] => by simp [leNat]
  | b :: bs => by
    have := leNat_lt bs
    have hb := b.toNat_lt
    simp only [leNat, List.length_cons, pow_succ]
    omega

theorem leNat_append : ∀ a b : Bytes, leNat (a ++ b) = leNat a + 256 ^ a.length * leNat b
  | [], b => by simp [leNat]
  | x :: a, b => by
    rw [List.cons_append, leNat, leNat, leNat_append a b, List.length_cons, pow_succ]
    ring

/-- Adding `9 * 16 ^ 63` to a small scalar does not change the factor. -/
theorem exists_inflated (s : Scalar) (h : leNat s.raw < 7 * 16 ^ 62) :
    ∃ s' : Scalar, leNat s'.raw = leNat s.raw + 9 * 16 ^ 63 ∧ multiplier s' = multiplier s := by
  obtain ⟨raw, len⟩ := s
  obtain ⟨a, b, rfl⟩ : ∃ a b, raw = a ++ [b] := by
    have : raw ≠ [] := by rintro rfl; simp at len
    exact ⟨_, _, (List.dropLast_append_getLast this).symm⟩
  have ha : a.length = 31 := by simpa using len
  have hv : leNat (a ++ [b]) = leNat a + 16 ^ 62 * b.toNat := by
    rw [leNat_append, ha]
    simp only [leNat]
    norm_num
  have hb : b.toNat < 7 := by
    simp only [hv] at h
    by_contra hb
    have : 16 ^ 62 * 7 ≤ 16 ^ 62 * b.toNat := Nat.mul_le_mul_left _ (by omega)
    omega
  have hb' : (b + 144).toNat = b.toNat + 144 := by
    rw [UInt8.toNat_add]
    simp
    omega
  have hv' : leNat (a ++ [b + 144]) = leNat (a ++ [b]) + 9 * 16 ^ 63 := by
    rw [leNat_append, hv, ha]
    simp only [leNat, hb']
    norm_num
    omega
  refine ⟨⟨a ++ [b + 144], by simp [ha]⟩, hv', ?_⟩
  have e0 : topDigit (leNat (a ++ [b])) = 0 := by
    unfold topDigit
    rw [Nat.div_eq_zero_iff]
    right
    simp only at h
    norm_num at h ⊢
    omega
  have e9 : topDigit (leNat (a ++ [b]) + 9 * 16 ^ 63) = 9 := by
    have : topDigit (leNat (a ++ [b]) + 9 * 16 ^ 63) = topDigit (leNat (a ++ [b])) + 9 := by
      unfold topDigit
      rw [show leNat (a ++ [b]) + 9 * 16 ^ 63 + 8 * ((16 ^ 63 - 1) / 15) =
        (leNat (a ++ [b]) + 8 * ((16 ^ 63 - 1) / 15)) + 9 * 16 ^ 63 by ring,
        Nat.add_mul_div_right _ _ (by positivity)]
    omega
  simp only [multiplier, hv', e0, e9]
  push_cast
  simp

variable [C : Curve]

/-- The multiple `a * G` of the base point. -/
def pt (a : C.F) : C.Pt := C.mul (C.canon a) C.base

/-- The factor of a multiplication, modulo the group order. -/
def eff (s : Scalar) : C.F := (multiplier s : C.F)

theorem _root_.Verif.Curve.val_canon (C : Curve) (a : C.F) : C.val (C.canon a) = a := C.canon_value a

theorem mul_base_eff (s : Scalar) : C.mul s C.base = pt (eff s) := C.mul_base s
theorem mul_pt_eff (s : Scalar) (a : C.F) : C.mul s (pt a) = pt (eff s * a) := C.mul_mul s a
theorem add_pt (a b : C.F) : C.add (pt a) (pt b) = pt (a + b) := C.add_mul a b
theorem sub_pt (a b : C.F) : C.sub (pt a) (pt b) = pt (a - b) := C.sub_mul a b

omit C in
theorem topDigit_le_iff {n : Nat} : topDigit n ≤ 8 ↔ n ≤ largestFactor := by
  unfold topDigit largestFactor
  rw [← Nat.lt_succ_iff, Nat.div_lt_iff_lt_mul (by positivity)]
  have e : 15 * ((16 ^ 63 - 1) / 15) + 1 = (16 : Nat) ^ 63 := by norm_num
  omega

omit C in
theorem fits_of_lt {s : Scalar} (h : leNat s.raw < 2 ^ 255) : s.Fits := by
  have e : (2 : Nat) ^ 255 = 8 * 16 ^ 63 := by norm_num
  unfold Scalar.Fits largestFactor
  omega

omit C in
theorem not_fits_of_le {s : Scalar} (h : 9 * 16 ^ 63 ≤ leNat s.raw) : ¬ s.Fits := by
  have e : 15 * ((16 ^ 63 - 1) / 15) + 1 = (16 : Nat) ^ 63 := by norm_num
  unfold Scalar.Fits largestFactor
  omega

/-- Up to `largestFactor` the factor is the value. -/
theorem eff_of_fits {s : Scalar} (h : s.Fits) : eff s = C.val s := by
  simp [eff, multiplier, topDigit_le_iff.2 h, Curve.val]

@[simp] theorem eff_canon (a : C.F) : eff (C.canon a) = a := by
  rw [eff_of_fits (C.canon_fits a), C.val_canon]

/-- Above `largestFactor` the most significant digit is lost. -/
theorem eff_large {s : Scalar} (h : ¬ s.Fits) :
    ∃ t : Nat, 0 < t ∧ t ≤ 16 ∧ eff s = C.val s - (t : C.F) * 16 ^ 63 := by
  have hl : leNat s.raw < 256 ^ 32 := by
    have := leNat_lt s.raw
    rwa [s.len] at this
  have h9 : ¬ topDigit (leNat s.raw) ≤ 8 := fun h' => h (topDigit_le_iff.1 h')
  have h16 : topDigit (leNat s.raw) ≤ 16 := by
    unfold topDigit
    have : (leNat s.raw + 8 * ((16 ^ 63 - 1) / 15)) / 16 ^ 63 < 17 := by
      rw [Nat.div_lt_iff_lt_mul (by positivity)]
      have e : 8 * ((16 ^ 63 - 1) / 15) < (16 : Nat) ^ 63 := by norm_num
      have e2 : (256 : Nat) ^ 32 = 16 * 16 ^ 63 := by norm_num
      omega
    omega
  refine ⟨_, by omega, h16, ?_⟩
  rw [eff, multiplier, if_neg (by omega), Curve.val, Int.cast_sub, Int.cast_mul, Int.cast_pow,
    Int.cast_natCast, Int.cast_natCast, Int.cast_ofNat]

/-- The factor of a large key is not its value. -/
theorem eff_ne_val {s : Scalar} (h : ¬ s.Fits)
    (hF : ∀ t : Nat, 0 < t → t ≤ 16 → (t : C.F) ≠ 0) : eff s ≠ C.val s := by
  obtain ⟨t, h0, h1, e⟩ := eff_large h
  rw [e]
  intro h'
  have h16 : (16 : C.F) ≠ 0 := by simpa using hF 16 (by omega) (by omega)
  have : (t : C.F) * 16 ^ 63 = 0 := by linear_combination -h'
  rcases mul_eq_zero.mp this with h2 | h2
  · exact hF t h0 h1 h2
  · exact h16 (pow_eq_zero_iff (by decide) |>.mp h2)

theorem mul_base {s : Scalar} (h : s.Fits) : C.mul s C.base = pt (C.val s) := by
  rw [mul_base_eff, eff_of_fits h]
theorem mul_pt {s : Scalar} (h : s.Fits) (a : C.F) : C.mul s (pt a) = pt (C.val s * a) := by
  rw [mul_pt_eff, eff_of_fits h]

theorem pt_injective : Function.Injective (pt (C := C)) := fun a b h => C.mul_inj a b h

theorem enc_injective : Function.Injective C.enc := by
  intro p q h
  have := congrArg C.dec h
  simpa [C.dec_enc] using this

@[simp] theorem pkEquals_iff {p q : C.Pt} : pkEquals p q = true ↔ p = q := by
  simp only [pkEquals, beq_iff_eq]
  exact ⟨fun h => enc_injective h, fun h => by rw [h]⟩

theorem canon_injective : Function.Injective C.canon := by
  intro a b h
  have := congrArg C.val h
  simpa [C.val_canon] using this

theorem ptStr_length (p : C.Pt) : (ptStr p).length = 64 := by
  simp [ptStr, hexEncode_length, C.enc_len]

theorem scStr_length (s : Scalar) : (scStr s).length = 64 := by
  simp [scStr, hexEncode_length, Scalar.len]

theorem ptStr_injective : Function.Injective (ptStr (C := C)) :=
  fun _ _ h => enc_injective (hexEncode_injective h)

theorem fromStringToPoint_ptStr (p : C.Pt) : fromStringToPoint (ptStr p) = .ok p := by
  simp [fromStringToPoint, ptStr, hexDecode_hexEncode, C.dec_enc]

/-- Parsing the text of a scalar gives its canonical form. -/
theorem fromStringToScalar_scStr (s : Scalar) :
    fromStringToScalar (scStr s) = .ok (C.canon (C.val s)) := by
  have h := (C.canon (C.val s)).len
  have ht : (C.canon (C.val s)).raw.take 32 = (C.canon (C.val s)).raw :=
    List.take_of_length_le (by omega)
  simp [fromStringToScalar, scStr, hexDecode_hexEncode, h, ht]

/-! ## the ring -/

theorem signerIndex_none {pub : C.Pt} : ∀ {ring : List C.Pt},
    signerIndex pub ring = none ↔ pub ∉ ring
  | [] => by simp [signerIndex]
  | p :: ps => by
    have ih := @signerIndex_none pub ps
    unfold signerIndex
    by_cases h : p = pub
    · subst h; simp
    · have : pkEquals p pub = false := by
        rw [← Bool.not_eq_true, pkEquals_iff]; exact h
      simp [this, ih, Ne.symm h]

theorem signerIndex_some {pub : C.Pt} : ∀ {ring : List C.Pt} {n : Nat},
    signerIndex pub ring = some n → ring[n]? = some pub
  | [], n, h => by simp [signerIndex] at h
  | p :: ps, n, h => by
    unfold signerIndex at h
    split at h
    · rename_i hp
      rw [pkEquals_iff] at hp
      simp at h
      subst h; subst hp
      rfl
    · simp only [Option.map_eq_some_iff] at h
      obtain ⟨m, hm, rfl⟩ := h
      simpa using signerIndex_some hm

section ring
variable (x : Scalar) (msg : Bytes) (ring : List C.Pt) (signer : Nat)

/-- Offset of index `i` from the index following the signer. -/
def ringDist (r begin i : Nat) : Nat := (i + r - begin) % r

theorem ringDist_begin {r b : Nat} (hb : b < r) : ringDist r b b = 0 := by
  have : b + r - b = r := by omega
  simp [ringDist, this]

theorem ringDist_next {r b i : Nat} (hb : b < r) (hi : i < r) (h : ringDist r b i + 1 < r) :
    ringDist r b ((i + 1) % r) = ringDist r b i + 1 := by
  unfold ringDist at *
  by_cases hir : i + 1 = r
  · rw [hir, Nat.mod_self]
    rw [Nat.zero_add]
    by_cases hb0 : b = 0
    · subst hb0
      have : (i + r - 0) % r = i := by
        rw [Nat.sub_zero, Nat.add_mod_right, Nat.mod_eq_of_lt hi]
      omega
    · have e1 : (r - b) % r = r - b := Nat.mod_eq_of_lt (by omega)
      have e2 : (i + r - b) % r = i - b := by
        have : i + r - b = (i - b) + r := by omega
        rw [this, Nat.add_mod_right, Nat.mod_eq_of_lt (by omega)]
      omega
  · rw [Nat.mod_eq_of_lt (by omega : i + 1 < r)]
    by_cases hib : i < b
    · have e1 : (i + r - b) % r = i + r - b := Nat.mod_eq_of_lt (by omega)
      by_cases e : i + 1 = b
      · omega
      · have e2 : (i + 1 + r - b) % r = i + 1 + r - b := Nat.mod_eq_of_lt (by omega)
        omega
    · have e1 : (i + r - b) % r = i - b := by
        have : i + r - b = (i - b) + r := by omega
        rw [this, Nat.add_mod_right, Nat.mod_eq_of_lt (by omega)]
      have e2 : (i + 1 + r - b) % r = i + 1 - b := by
        have : i + 1 + r - b = (i + 1 - b) + r := by omega
        rw [this, Nat.add_mod_right, Nat.mod_eq_of_lt (by omega)]
      omega

theorem ringDist_lt {r b i : Nat} (hr : 0 < r) : ringDist r b i < r := Nat.mod_lt _ hr

theorem ringDist_inj {r b i j : Nat} (hb : b < r) (hi : i < r) (hj : j < r)
    (h : ringDist r b i = ringDist r b j) : i = j := by
  have form : ∀ k, k < r → ringDist r b k = if k < b then k + r - b else k - b := by
    intro k hk
    unfold ringDist
    split
    · exact Nat.mod_eq_of_lt (by omega)
    · have : k + r - b = (k - b) + r := by omega
      rw [this, Nat.add_mod_right, Nat.mod_eq_of_lt (by omega)]
  rw [form i hi, form j hj] at h
  split at h <;> split at h <;> omega

/-- Distance of the signer: the last one. -/
theorem ringDist_signer {r s : Nat} (hs : s < r) : ringDist r ((s + 1) % r) s = r - 1 := by
  unfold ringDist
  by_cases h : s + 1 = r
  · rw [h, Nat.mod_self, Nat.sub_zero, Nat.add_mod_right, Nat.mod_eq_of_lt hs]; omega
  · rw [Nat.mod_eq_of_lt (by omega : s + 1 < r)]
    have : s + r - (s + 1) = r - 1 := by omega
    rw [this]
    exact Nat.mod_eq_of_lt (by omega)

/-- The state of the loop arrays: everything up to distance `t` is set, and consecutive challenges
follow from each other. -/
structure RingInv (begin t : Nat) (es ss : Nat → Option Scalar) (e0 : Scalar) : Prop where
  es_begin : es begin = some e0
  es_hash : ∀ i e, es i = some e → ∃ u, e = createHash (msg ++ u)
  es_set : ∀ i, i < ring.length → ringDist ring.length begin i ≤ t → ∃ e, es i = some e
  ss_set : ∀ i, i < ring.length → ringDist ring.length begin i < t →
    ss i = some (genK x (msg ++ natDec i))
  chain : ∀ i, i < ring.length → ringDist ring.length begin i < t →
    ∃ s e p, ss i = some s ∧ es i = some e ∧ ring[i]? = some p ∧
      es ((i + 1) % ring.length) = some (ringStep msg s e p)

theorem ringLoop_spec (e0 : Scalar) (hs : signer < ring.length) :
    ∀ (n fuel i : Nat) (es ss : Nat → Option Scalar),
      n < fuel → i < ring.length →
      ringDist ring.length ((signer + 1) % ring.length) i + n = ring.length - 1 →
      RingInv x msg ring ((signer + 1) % ring.length)
        (ringDist ring.length ((signer + 1) % ring.length) i) es ss e0 →
      ∃ es' ss', ringLoop x msg ring signer fuel i es ss = .ok (es', ss') ∧
        RingInv x msg ring ((signer + 1) % ring.length) (ring.length - 1) es' ss' e0 := by
  intro n
  induction n with
  | zero =>
    intro fuel i es ss hf hi hd inv
    have hr : 0 < ring.length := by omega
    have hb : (signer + 1) % ring.length < ring.length := Nat.mod_lt _ hr
    obtain ⟨f, rfl⟩ : ∃ f, fuel = f + 1 := ⟨fuel - 1, by omega⟩
    have : i = signer := by
      apply ringDist_inj hb hi hs
      rw [ringDist_signer hs]; omega
    refine ⟨es, ss, by simp [ringLoop, this], ?_⟩
    rw [show ring.length - 1 = ringDist ring.length ((signer + 1) % ring.length) i by omega]
    exact inv
  | succ n ih =>
    intro fuel i es ss hf hi hd inv
    have hr : 0 < ring.length := by omega
    have hb : (signer + 1) % ring.length < ring.length := Nat.mod_lt _ hr
    obtain ⟨f, rfl⟩ : ∃ f, fuel = f + 1 := ⟨fuel - 1, by omega⟩
    have hne : i ≠ signer := by
      rintro rfl
      rw [ringDist_signer hs] at hd; omega
    obtain ⟨ei, hei⟩ := inv.es_set i hi le_rfl
    have hp : ring[i]? = some ring[i] := List.getElem?_eq_getElem hi
    have hnext := ringDist_next hb hi (by omega)
    have hnlt : (i + 1) % ring.length < ring.length := Nat.mod_lt _ hr
    rw [ringLoop, if_neg hne, hei, hp]
    simp only
    apply ih
    · omega
    · exact hnlt
    · omega
    · have hd_ne : ∀ j, j < ring.length →
          ringDist ring.length ((signer + 1) % ring.length) j ≤
            ringDist ring.length ((signer + 1) % ring.length) i → j ≠ (i + 1) % ring.length := by
        rintro j hj hle rfl
        omega
      constructor
      · rw [if_neg]
        · exact inv.es_begin
        · apply hd_ne _ hb
          rw [ringDist_begin hb]; omega
      · intro j e h
        by_cases hjn : j = (i + 1) % ring.length
        · rw [if_pos hjn] at h
          simp only [Option.some.injEq] at h
          exact ⟨_, h.symm⟩
        · rw [if_neg hjn] at h
          exact inv.es_hash j e h
      · intro j hj hle
        by_cases hjn : j = (i + 1) % ring.length
        · exact ⟨_, by rw [if_pos hjn]⟩
        · have : ringDist ring.length ((signer + 1) % ring.length) j ≤
              ringDist ring.length ((signer + 1) % ring.length) i := by
            rcases Nat.lt_or_ge (ringDist ring.length ((signer + 1) % ring.length) i)
              (ringDist ring.length ((signer + 1) % ring.length) j) with h | h
            · exfalso
              apply hjn
              apply ringDist_inj hb hj hnlt
              omega
            · exact h
          rw [if_neg hjn]
          exact inv.es_set j hj this
      · intro j hj hlt
        by_cases hji : j = i
        · rw [if_pos hji, hji]
        · have : ringDist ring.length ((signer + 1) % ring.length) j <
              ringDist ring.length ((signer + 1) % ring.length) i := by
            rcases Nat.lt_or_ge (ringDist ring.length ((signer + 1) % ring.length) j)
              (ringDist ring.length ((signer + 1) % ring.length) i) with h | h
            · exact h
            · exfalso
              apply hji
              apply ringDist_inj hb hj hi
              omega
          rw [if_neg hji]
          exact inv.ss_set j hj this
      · intro j hj hlt
        by_cases hji : j = i
        · subst hji
          refine ⟨_, ei, ring[j], by rw [if_pos rfl], ?_, hp, by rw [if_pos rfl]⟩
          rw [if_neg (hd_ne j hj le_rfl)]
          exact hei
        · have hlt' : ringDist ring.length ((signer + 1) % ring.length) j <
              ringDist ring.length ((signer + 1) % ring.length) i := by
            rcases Nat.lt_or_ge (ringDist ring.length ((signer + 1) % ring.length) j)
              (ringDist ring.length ((signer + 1) % ring.length) i) with h | h
            · exact h
            · exfalso
              apply hji
              apply ringDist_inj hb hj hi
              omega
          obtain ⟨s, e, p, h1, h2, h3, h4⟩ := inv.chain j hj hlt'
          refine ⟨s, e, p, by rw [if_neg hji]; exact h1, ?_, h3, ?_⟩
          · rw [if_neg (hd_ne j hj (by omega))]; exact h2
          · rw [if_neg]
            · exact h4
            · have hjn : (j + 1) % ring.length < ring.length := Nat.mod_lt _ hr
              apply hd_ne _ hjn
              rw [ringDist_next hb hj (by omega)]
              omega

end ring

/-- The loop of `Verify` follows a cyclic chain of challenges. -/
theorem ringVerifyLoop_chain (msg : Bytes) (E : Nat → Scalar) :
    ∀ (ring : List C.Pt) (s : List Scalar) (n : Nat), ring.length ≤ s.length →
      (∀ i (hr : i < ring.length) (hs : i < s.length),
        E (n + i + 1) = ringStep msg s[i] (E (n + i)) ring[i]) →
      ringVerifyLoop msg ring s (E n) = .ok (E (n + ring.length))
  | [], s, n, _, _ => by simp [ringVerifyLoop]
  | p :: ps, [], n, h, _ => by simp at h
  | p :: ps, t :: ts, n, h, hE => by
    have h0 := hE 0 (by simp) (by simp)
    simp only [Nat.add_zero, List.getElem_cons_zero] at h0
    rw [ringVerifyLoop, ← h0]
    have := ringVerifyLoop_chain msg E ps ts (n + 1) (by simpa using h) (by
      intro i hr hs
      have := hE (i + 1) (by simpa using hr) (by simpa using hs)
      simp only [List.getElem_cons_succ] at this
      rw [show n + 1 + i + 1 = n + (i + 1) + 1 by omega, show n + 1 + i = n + (i + 1) by omega]
      exact this)
    rw [this, List.length_cons]
    congr 2; omega

theorem mapO_deref_range {f : Nat → Option Scalar} : ∀ {r : Nat}, (∀ i < r, ∃ s, f i = some s) →
    ∃ l : List Scalar, mapO (fun j => Outcome.deref (f j)) (List.range r) = .ok l ∧
      l.length = r ∧ ∀ i (h : i < l.length), f i = some l[i] := by
  intro r h
  have hg : ∃ g : Nat → Scalar, ∀ i < r, f i = some (g i) := by
    classical
    by_cases h0 : 0 < r
    · obtain ⟨d, -⟩ := h 0 h0
      refine ⟨fun i => (f i).getD d, fun i hi => ?_⟩
      obtain ⟨s, hs⟩ := h i hi
      simp [hs]
    · exact ⟨fun _ => ⟨List.replicate 32 0, by simp⟩, fun i hi => absurd hi (by omega)⟩
  obtain ⟨g, hg⟩ := hg
  refine ⟨(List.range r).map g, ?_, by simp, ?_⟩
  · apply mapO_ok_of
    intro i hi
    simp [hg i (by simpa using hi)]
  · intro i hi
    simp at hi
    simp [hg i hi]

/-- Everything about a successful ring signature that is needed for verification. -/
theorem ringSign_verifies (x : Scalar) (msg : Bytes) (ring : List C.Pt) (h : publicKey x ∈ ring) :
    ∃ sig, ringSign x msg ring = .ok sig ∧ sig.ring = ring ∧ sig.s.length = ring.length ∧
      (∃ u, sig.e = createHash (msg ++ u)) ∧ (x.Fits → sig.verify msg = .ok true) := by
  obtain ⟨signer, hsig⟩ : ∃ n, signerIndex (publicKey x) ring = some n := by
    cases hs : signerIndex (publicKey x) ring with
    | none => exact absurd h (signerIndex_none.mp hs)
    | some n => exact ⟨n, rfl⟩
  have hget := signerIndex_some hsig
  have hs : signer < ring.length := by
    rw [List.getElem?_eq_some_iff] at hget
    exact hget.1
  have hr : 0 < ring.length := by omega
  have hb : (signer + 1) % ring.length < ring.length := Nat.mod_lt _ hr
  set k := genK x msg with hk
  set e0 := createHash (msg ++ ptStr (C.mul k C.base)) with he0
  obtain ⟨es, ss, hloop, inv⟩ := ringLoop_spec x msg ring signer e0 hs (ring.length - 1)
    ring.length ((signer + 1) % ring.length)
    (fun j => if j = (signer + 1) % ring.length then some e0 else none) (fun _ => none)
    (by omega) hb (by rw [ringDist_begin hb]; omega) (by
      rw [ringDist_begin hb]
      constructor
      · simp
      · intro i e h
        split at h
        · simp only [Option.some.injEq] at h
          exact ⟨_, h.symm⟩
        · cases h
      · intro i hi hle
        have : i = (signer + 1) % ring.length := by
          apply ringDist_inj hb hi hb
          rw [ringDist_begin hb]; omega
        exact ⟨e0, by simp [this]⟩
      · intro i _ hlt; omega
      · intro i _ hlt; omega)
  obtain ⟨esig, hesig⟩ := inv.es_set signer hs (by rw [ringDist_signer hs])
  obtain ⟨e, he⟩ := inv.es_set 0 hr (by have := ringDist_lt (b := (signer + 1) % ring.length)
                                          (i := 0) hr; omega)
  set sc := C.canon (C.val k - C.val (C.canon (C.val esig * C.val x))) with hsc
  obtain ⟨l, hl1, hl2, hl3⟩ := mapO_deref_range (r := ring.length)
    (f := fun j => if j = signer then some sc else ss j) (by
      intro i hi
      by_cases hi' : i = signer
      · exact ⟨sc, by simp [hi']⟩
      · have hs' := inv.ss_set i hi (by
          have h1 := ringDist_lt (b := (signer + 1) % ring.length) (i := i) hr
          have h2 : ringDist ring.length ((signer + 1) % ring.length) i ≠ ring.length - 1 := by
            intro e
            apply hi'
            apply ringDist_inj hb hi hs
            rw [ringDist_signer hs, e]
          omega)
        exact ⟨genK x (msg ++ natDec i), by simp [hi', hs']⟩)
  refine ⟨⟨ring, l, e⟩, ?_, rfl, hl2, inv.es_hash _ _ he, ?_⟩
  · unfold ringSign
    rw [hsig]
    simp only
    rw [hloop]
    simp only [hesig, he]
    rw [hl1]
  · -- the chain of challenges
    intro hx
    have chain : ∀ i (hi : i < ring.length) (hil : i < l.length), ∃ ei, es i = some ei ∧
        es ((i + 1) % ring.length) = some (ringStep msg l[i] ei ring[i]) := by
      intro i hi hil
      by_cases his : i = signer
      · subst his
        refine ⟨esig, hesig, ?_⟩
        have h1 := hl3 i hil
        simp only [↓reduceIte, Option.some.injEq] at h1
        rw [← h1, inv.es_begin]
        have hpk : ring[i] = pt (C.val x) := by
          rw [List.getElem?_eq_getElem hi] at hget
          simp only [Option.some.injEq] at hget
          rw [hget, publicKey, mul_base hx]
        congr 1
        have hef : esig.Fits := by
          obtain ⟨u, rfl⟩ := inv.es_hash _ _ hesig
          exact C.canon_fits _
        rw [ringStep, hpk, mul_base (s := sc) (C.canon_fits _), mul_pt hef, add_pt, he0,
          mul_base (s := k) (C.canon_fits _), hsc, C.val_canon, C.val_canon]
        congr 3
        ring_nf
      · have hlt : ringDist ring.length ((signer + 1) % ring.length) i < ring.length - 1 := by
          have h1 := ringDist_lt (b := (signer + 1) % ring.length) (i := i) hr
          have h2 : ringDist ring.length ((signer + 1) % ring.length) i ≠ ring.length - 1 := by
            intro e
            apply his
            apply ringDist_inj hb hi hs
            rw [ringDist_signer hs, e]
          omega
        obtain ⟨s, ei, p, c1, c2, c3, c4⟩ := inv.chain i hi hlt
        refine ⟨ei, c2, ?_⟩
        have h1 := hl3 i hil
        simp only [his, ↓reduceIte] at h1
        rw [c1] at h1
        rw [List.getElem?_eq_getElem hi] at c3
        simp only [Option.some.injEq] at h1 c3
        rw [c4, h1, c3]
    -- choose the challenges as a function of the step number
    have hE : ∃ E : Nat → Scalar, ∀ n, es (n % ring.length) = some (E n) := by
      have : ∀ n, ∃ s, es (n % ring.length) = some s := by
        intro n
        apply inv.es_set _ (Nat.mod_lt _ hr)
        have := ringDist_lt (b := (signer + 1) % ring.length) (i := n % ring.length) hr
        omega
      exact ⟨fun n => (this n).choose, fun n => (this n).choose_spec⟩
    obtain ⟨E, hE⟩ := hE
    have hv := ringVerifyLoop_chain msg E ring l 0 (by omega) (by
      intro i hi hil
      obtain ⟨ei, c1, c2⟩ := chain i hi hil
      have e1 := hE i
      rw [Nat.mod_eq_of_lt hi, c1] at e1
      have e2 := hE (i + 1)
      rw [c2] at e2
      simp only [Option.some.injEq] at e1 e2
      rw [Nat.zero_add, ← e2, e1])
    have hE0 : E 0 = e := by
      have := hE 0
      rw [Nat.zero_mod, he] at this
      simpa using this.symm
    have hEr : E (0 + ring.length) = e := by
      have := hE ring.length
      rw [Nat.mod_self, he] at this
      simpa using this.symm
    simp only [RingSignature.verify]
    rw [← hE0, hv, hEr, hE0]
    simp

/-- What a ring signature consists of: the challenges `E` of the positions, scalars that depend on the key,
the message and the position only, and the closing scalar of the signer. -/
theorem ringSign_structure (x : Scalar) (msg : Bytes) (ring : List C.Pt) (sig : RingSignature)
    (h : ringSign x msg ring = .ok sig) :
    ∃ (signer : Nat) (E : Nat → Scalar), signerIndex (publicKey x) ring = some signer ∧
      signer < ring.length ∧ sig.ring = ring ∧ sig.s.length = ring.length ∧ sig.e = E 0 ∧
      E ((signer + 1) % ring.length) = createHash (msg ++ ptStr (C.mul (genK x msg) C.base)) ∧
      (∀ i (hi : i < ring.length), i ≠ signer → sig.s[i]? = some (genK x (msg ++ natDec i)) ∧
        E ((i + 1) % ring.length) = ringStep msg (genK x (msg ++ natDec i)) (E i) ring[i]) ∧
      sig.s[signer]? =
        some (C.canon (C.val (genK x msg) - C.val (C.canon (C.val (E signer) * C.val x)))) ∧
      ∀ i < ring.length, ∃ u, E i = createHash (msg ++ u) := by
  have hmem : publicKey x ∈ ring := by
    by_contra hn
    rw [ringSign, signerIndex_none.mpr hn] at h
    cases h
  obtain ⟨signer, hsig⟩ : ∃ n, signerIndex (publicKey x) ring = some n := by
    cases hs : signerIndex (publicKey x) ring with
    | none => exact absurd hmem (signerIndex_none.mp hs)
    | some n => exact ⟨n, rfl⟩
  have hget := signerIndex_some hsig
  have hs : signer < ring.length := by
    rw [List.getElem?_eq_some_iff] at hget
    exact hget.1
  have hr : 0 < ring.length := by omega
  have hb : (signer + 1) % ring.length < ring.length := Nat.mod_lt _ hr
  set k := genK x msg with hk
  set e0 := createHash (msg ++ ptStr (C.mul k C.base)) with he0
  obtain ⟨es, ss, hloop, inv⟩ := ringLoop_spec x msg ring signer e0 hs (ring.length - 1)
    ring.length ((signer + 1) % ring.length)
    (fun j => if j = (signer + 1) % ring.length then some e0 else none) (fun _ => none)
    (by omega) hb (by rw [ringDist_begin hb]; omega) (by
      rw [ringDist_begin hb]
      constructor
      · simp
      · intro i e h
        split at h
        · simp only [Option.some.injEq] at h
          exact ⟨_, h.symm⟩
        · cases h
      · intro i hi hle
        have : i = (signer + 1) % ring.length := by
          apply ringDist_inj hb hi hb
          rw [ringDist_begin hb]; omega
        exact ⟨e0, by simp [this]⟩
      · intro i _ hlt; omega
      · intro i _ hlt; omega)
  have dist : ∀ i, i < ring.length → i ≠ signer →
      ringDist ring.length ((signer + 1) % ring.length) i < ring.length - 1 := by
    intro i hi hi'
    have h1 := ringDist_lt (b := (signer + 1) % ring.length) (i := i) hr
    have h2 : ringDist ring.length ((signer + 1) % ring.length) i ≠ ring.length - 1 := by
      intro e
      apply hi'
      apply ringDist_inj hb hi hs
      rw [ringDist_signer hs, e]
    omega
  have hE : ∃ E : Nat → Scalar, ∀ i < ring.length, es i = some (E i) := by
    have all : ∀ i < ring.length, ∃ e, es i = some e := by
      intro i hi
      apply inv.es_set i hi
      have := ringDist_lt (b := (signer + 1) % ring.length) (i := i) hr
      omega
    exact ⟨fun i => (es i).getD e0, fun i hi => by obtain ⟨e, he⟩ := all i hi; simp [he]⟩
  obtain ⟨E, hE⟩ := hE
  have hesig := hE signer hs
  have he := hE 0 hr
  set sc := C.canon (C.val k - C.val (C.canon (C.val (E signer) * C.val x))) with hsc
  obtain ⟨l, hl1, hl2, hl3⟩ := mapO_deref_range (r := ring.length)
    (f := fun j => if j = signer then some sc else ss j) (by
      intro i hi
      by_cases hi' : i = signer
      · exact ⟨sc, by simp [hi']⟩
      · exact ⟨genK x (msg ++ natDec i), by simp [hi', inv.ss_set i hi (dist i hi hi')]⟩)
  have made : ringSign x msg ring = .ok ⟨ring, l, E 0⟩ := by
    unfold ringSign
    rw [hsig]
    simp only
    rw [hloop]
    simp only [hesig, he]
    rw [hl1]
  rw [made] at h
  obtain rfl := Outcome.ok.inj h
  refine ⟨signer, E, hsig, hs, rfl, hl2, rfl, ?_, ?_, ?_, ?_⟩
  · have h1 := hE _ hb
    rw [inv.es_begin] at h1
    exact (Option.some.inj h1).symm
  · intro i hi hne
    have h1 := hl3 i (by omega)
    simp only [hne, ↓reduceIte] at h1
    rw [inv.ss_set i hi (dist i hi hne)] at h1
    refine ⟨by rw [List.getElem?_eq_getElem (show i < l.length by omega), h1], ?_⟩
    obtain ⟨s, e, p, c1, c2, c3, c4⟩ := inv.chain i hi (dist i hi hne)
    rw [inv.ss_set i hi (dist i hi hne)] at c1
    rw [hE i hi] at c2
    rw [hE _ (Nat.mod_lt _ hr)] at c4
    rw [List.getElem?_eq_getElem hi] at c3
    rw [Option.some.inj c4, Option.some.inj c1, Option.some.inj c2, Option.some.inj c3]
  · have h1 := hl3 signer (by omega)
    simp only [↓reduceIte] at h1
    rw [List.getElem?_eq_getElem (show signer < l.length by omega), h1]
  · intro i hi
    exact inv.es_hash i _ (hE i hi)

theorem ringVerifyLoop_short (msg : Bytes) : ∀ (ring : List C.Pt) (s : List Scalar) (e : Scalar),
    (s.length < ring.length → ringVerifyLoop msg ring s e = .crash .indexOutOfRange) ∧
    (ring.length ≤ s.length → ∃ e', ringVerifyLoop msg ring s e = .ok e')
  | [], s, e => by simp [ringVerifyLoop]
  | p :: ps, [], e => by simp [ringVerifyLoop]
  | p :: ps, t :: ts, e => by
    have := ringVerifyLoop_short msg ps ts (ringStep msg t e p)
    simpa [ringVerifyLoop] using this

/-! ## text forms -/

theorem not_mem_hexEncode {c : UInt8} (h : isLowerHex c = false) (b : Bytes) : c ∉ hexEncode b := by
  intro hc
  rw [hexEncode_alphabet b c hc] at h
  cases h

theorem splitOn_elements : ∀ (l : List Bytes), (∀ x ∈ l, x ≠ [] ∧ (124 : UInt8) ∉ x) →
    (splitOn 124 (elements l)).filter (· ≠ []) = l
  | [], _ => by simp [elements, splitOn]
  | x :: xs, h => by
    have hx := h x (by simp)
    have ih := splitOn_elements xs fun y hy => h y (by simp [hy])
    have : elements (x :: xs) = x ++ 124 :: elements xs := by simp [elements]
    rw [this, splitOn_append _ hx.2]
    simp only [List.filter_cons, ne_eq, hx.1, not_false_eq_true, decide_true, ↓reduceIte]
    rw [ih]

theorem not_mem_elements {c : UInt8} (hc : c ≠ 124) {l : List Bytes} (h : ∀ x ∈ l, c ∉ x) :
    c ∉ elements l := by
  simp only [elements, List.mem_flatten, List.mem_map, not_exists, not_and]
  rintro _ ⟨x, hx, rfl⟩ hm
  simp only [List.mem_append, List.mem_singleton] at hm
  rcases hm with hm | hm
  · exact h x hx hm
  · exact hc hm

/-- The canonical form of a scalar. -/
def normSc (s : Scalar) : Scalar := C.canon (C.val s)

theorem toRingSignature_str (sig : RingSignature) :
    toRingSignature sig.str = .ok ⟨sig.ring, sig.s.map normSc, normSc sig.e⟩ := by
  have hne : ∀ l : Bytes, l.length = 64 → l ≠ [] := by rintro _ h rfl; simp at h
  have h35p : ∀ p : C.Pt, (35 : UInt8) ∉ ptStr p := fun p => not_mem_hexEncode (by decide) _
  have h124p : ∀ p : C.Pt, (124 : UInt8) ∉ ptStr p := fun p => not_mem_hexEncode (by decide) _
  have h35s : ∀ p : Scalar, (35 : UInt8) ∉ scStr p := fun p => not_mem_hexEncode (by decide) _
  have h124s : ∀ p : Scalar, (124 : UInt8) ∉ scStr p := fun p => not_mem_hexEncode (by decide) _
  have hsplit : splitOn 35 (elements (sig.ring.map ptStr) ++
      35 :: (elements (sig.s.map scStr) ++ 35 :: scStr sig.e)) =
      [elements (sig.ring.map ptStr), elements (sig.s.map scStr), scStr sig.e] := by
    rw [splitOn_append, splitOn_append, splitOn_of_not_mem (h35s _)]
    · apply not_mem_elements (by decide)
      simp only [List.mem_map, forall_exists_index, and_imp, forall_apply_eq_imp_iff₂]
      exact fun s _ => h35s s
    · apply not_mem_elements (by decide)
      simp only [List.mem_map, forall_exists_index, and_imp, forall_apply_eq_imp_iff₂]
      exact fun s _ => h35p s
  have hring : mapO fromStringToPoint (sig.ring.map ptStr) = .ok sig.ring := by
    rw [mapO_eq_ok]
    generalize sig.ring = l
    induction l with
    | nil => simp
    | cons a l ih => simp [fromStringToPoint_ptStr]
  have hs : mapO fromStringToScalar (sig.s.map scStr) = .ok (sig.s.map normSc) := by
    rw [mapO_eq_ok]
    generalize sig.s = l
    induction l with
    | nil => simp
    | cons a l ih => simp [fromStringToScalar_scStr, normSc]
  unfold toRingSignature RingSignature.str
  rw [b64Decode_encode]
  simp only [hsplit]
  rw [splitOn_elements, splitOn_elements, hring, hs, fromStringToScalar_scStr]
  · rfl
  · simp only [List.mem_map, forall_exists_index, and_imp, forall_apply_eq_imp_iff₂]
    exact fun s _ => ⟨hne _ (scStr_length s), h124s s⟩
  · simp only [List.mem_map, forall_exists_index, and_imp, forall_apply_eq_imp_iff₂]
    exact fun s _ => ⟨hne _ (ptStr_length s), h124p s⟩

end Verif
