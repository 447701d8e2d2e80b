import Verif.Model.App.Miner
import Verif.Model.Piastres.EntityLemmas
import Verif.Props.Json
import Mathlib.Tactic.Linarith

/-!
# Mining (C46–C48)
-/

namespace Verif

/-- The candidates of the search: `k` zeroes followed by a decimal number. -/
def nonce (k i : Nat) : Bytes := List.replicate k 48 ++ natDec i

theorem hasPrefix_zeros {data : Bytes} {n : Nat} :
    hasPrefix data (List.replicate n 0) = true ↔ ∃ rest, data = List.replicate n 0 ++ rest := by
  unfold hasPrefix
  rw [List.isPrefixOf_iff_prefix]
  constructor
  · rintro ⟨r, hr⟩; exact ⟨r, hr.symm⟩
  · rintro ⟨r, hr⟩; exact ⟨r, hr.symm⟩

section
variable [Sha512]

/-- The hash of the block (or link) hash `h` mined with `m` starts with `n` zero bytes. -/
def Works (n : Nat) (h : Hash) (m : Bytes) : Prop :=
  ∃ rest, (fromBytes (h.bytes ++ m)).bytes = List.replicate n 0 ++ rest

theorem mineTest_iff {n : Nat} {h : Hash} {tries : Bytes} {i : Nat} :
    mineTest (List.replicate n 0) h.bytes tries i = true ↔ Works n h (tries ++ natDec i) := by
  have hi : itoa (i : Int) = natDec i := by simp [itoa]
  unfold mineTest
  rw [hasPrefix_zeros, hi]
  by_cases ht : tries = []
  · simp [ht, fromMultiBytes, Works]
  · simp [ht, fromMultiBytes, Works]

omit [Sha512] in
theorem mineLoop_some {test : Nat → Bool} : ∀ {n i j : Nat}, mineLoop test n i = some j ↔
    i ≤ j ∧ j < i + n ∧ test j = true ∧ ∀ k, i ≤ k → k < j → test k = false
  | 0, i, j => by
    simp only [mineLoop, reduceCtorEq, false_iff]
    omega
  | n + 1, i, j => by
    simp only [mineLoop]
    by_cases h : test i = true
    · rw [if_pos h]
      simp only [Option.some.injEq]
      constructor
      · rintro rfl
        exact ⟨le_refl _, by omega, h, fun k h1 h2 => by omega⟩
      · rintro ⟨h1, h2, h3, h4⟩
        by_contra hne
        have := h4 i (le_refl _) (by omega)
        rw [h] at this
        cases this
    · rw [if_neg h, mineLoop_some]
      constructor
      · rintro ⟨h1, h2, h3, h4⟩
        refine ⟨by omega, by omega, h3, fun k hk1 hk2 => ?_⟩
        by_cases e : k = i
        · rw [e]; simpa using h
        · exact h4 k (by omega) hk2
      · rintro ⟨h1, h2, h3, h4⟩
        have hne : i ≠ j := by rintro rfl; exact h h3
        exact ⟨by omega, by omega, h3, fun k hk1 hk2 => h4 k (by omega) hk2⟩

omit [Sha512] in
theorem mineLoop_none {test : Nat → Bool} : ∀ {n i : Nat}, mineLoop test n i = none ↔
    ∀ k, i ≤ k → k < i + n → test k = false
  | 0, i => by simp [mineLoop]; omega
  | n + 1, i => by
    simp only [mineLoop]
    by_cases h : test i = true
    · rw [if_pos h]
      simp only [reduceCtorEq, false_iff]
      intro h'
      have := h' i (le_refl _) (by omega)
      rw [h] at this
      cases this
    · rw [if_neg h, mineLoop_none]
      constructor
      · intro h' k hk1 hk2
        by_cases e : k = i
        · rw [e]; simpa using h
        · exact h' k (by omega) (by omega)
      · intro h' k hk1 hk2
        exact h' k (by omega) (by omega)

/-- First step of the second loop: the recursive call never answers with an empty text or an error,
so only the first iteration is executed. -/
theorem mineRec_next {n : Nat} {h : Hash} : ∀ (stack : Nat) (tries : Bytes),
    (∀ i ≤ maxMiningValue, ¬ Works n h (tries ++ natDec i)) →
    mineRec (List.replicate n 0) h.bytes (stack + 1) tries =
      mineRec (List.replicate n 0) h.bytes stack (tries ++ [48]) ∧
    ∀ s t, (∃ r, mineRec (List.replicate n 0) h.bytes s t = .ok r ∧ r ≠ []) ∨
      mineRec (List.replicate n 0) h.bytes s t = .crash .stackOverflow := by
  have hnd : natDec 0 = [48] := by simp [natDec]
  have hstep : ∀ (rec : Bytes → Outcome Bytes) (t : Bytes), tryLoop rec t maxMiningTries 0 =
      match rec (t ++ natDec 0) with
      | .err m => .err m
      | .crash c => .crash c
      | .ok r => if r ≠ [] then .ok r else tryLoop rec t 2147483646 (0 + 1) := fun rec t =>
    tryLoop.eq_2 rec t 0 2147483646
  have key : ∀ s t, (∃ r, mineRec (List.replicate n 0) h.bytes s t = .ok r ∧ r ≠ []) ∨
      mineRec (List.replicate n 0) h.bytes s t = .crash .stackOverflow := by
    intro s
    induction s with
    | zero => intro t; right; rfl
    | succ s ih =>
      intro t
      simp only [mineRec]
      cases mineLoop (mineTest (List.replicate n 0) h.bytes t) (maxMiningValue + 1) 0 with
      | some i =>
        left
        exact ⟨_, rfl, by simp [natDec_ne_nil]⟩
      | none =>
        simp only [hstep]
        rcases ih (t ++ natDec 0) with ⟨r, h1, h2⟩ | h1
        · left; exact ⟨r, by simp [h1, h2], h2⟩
        · right; simp [h1]
  intro stack tries hno
  refine ⟨?_, key⟩
  have hl : mineLoop (mineTest (List.replicate n 0) h.bytes tries) (maxMiningValue + 1) 0 = none := by
    rw [mineLoop_none]
    intro k _ hk
    rw [Bool.eq_false_iff, ne_eq, mineTest_iff]
    exact hno k (by omega)
  conv_lhs => rw [mineRec]
  simp only [hl, hstep, hnd]
  rcases key stack (tries ++ [48]) with ⟨r, h1, h2⟩ | h1
  · simp [h1, h2]
  · simp [h1]

theorem mineRec_spec {n : Nat} {h : Hash} : ∀ (stack a : Nat),
    (∀ r, mineRec (List.replicate n 0) h.bytes stack (List.replicate a 48) = .ok r ↔
      ∃ k i, a ≤ k ∧ k < a + stack ∧ i ≤ maxMiningValue ∧ r = nonce k i ∧ Works n h (nonce k i) ∧
        (∀ k' i', a ≤ k' → k' < k → i' ≤ maxMiningValue → ¬ Works n h (nonce k' i')) ∧
        ∀ i' < i, ¬ Works n h (nonce k i')) ∧
    ((∀ r, mineRec (List.replicate n 0) h.bytes stack (List.replicate a 48) ≠ .ok r) →
      mineRec (List.replicate n 0) h.bytes stack (List.replicate a 48) = .crash .stackOverflow)
  | 0, a => by
    constructor
    · intro r
      simp only [mineRec, reduceCtorEq, false_iff]
      rintro ⟨k, i, h1, h2, -⟩
      omega
    · intro _; rfl
  | stack + 1, a => by
    by_cases hno : ∀ i ≤ maxMiningValue, ¬ Works n h (List.replicate a 48 ++ natDec i)
    · have hr := (mineRec_next stack _ hno).1
      have ha : List.replicate a (48 : UInt8) ++ [48] = List.replicate (a + 1) 48 :=
        List.replicate_succ'.symm
      rw [hr, ha]
      obtain ⟨ih1, ih2⟩ := mineRec_spec (n := n) (h := h) stack (a + 1)
      refine ⟨fun r => ?_, ih2⟩
      rw [ih1]
      constructor
      · rintro ⟨k, i, h1, h2, h3, h4, h5, h6, h7⟩
        refine ⟨k, i, by omega, by omega, h3, h4, h5, ?_, h7⟩
        intro k' i' hk1 hk2 hi
        by_cases e : k' = a
        · rw [e]; exact hno i' hi
        · exact h6 k' i' (by omega) hk2 hi
      · rintro ⟨k, i, h1, h2, h3, h4, h5, h6, h7⟩
        have hne : k ≠ a := by
          rintro rfl
          exact hno i h3 h5
        exact ⟨k, i, by omega, by omega, h3, h4, h5, fun k' i' hk1 hk2 hi =>
          h6 k' i' (by omega) hk2 hi, h7⟩
    · push Not at hno
      obtain ⟨j, hj, hw⟩ := hno
      have hl : ∃ i, mineLoop (mineTest (List.replicate n 0) h.bytes (List.replicate a 48))
          (maxMiningValue + 1) 0 = some i := by
        rw [← Option.ne_none_iff_exists']
        intro hn
        have := mineLoop_none.mp hn j (by omega) (by omega)
        rw [Bool.eq_false_iff, ne_eq, mineTest_iff] at this
        exact this hw
      obtain ⟨i, hi⟩ := hl
      have hs := mineLoop_some.mp hi
      have hfail : ∀ i' < i, ¬ Works n h (nonce a i') := by
        intro i' hi'
        have := hs.2.2.2 i' (by omega) hi'
        rw [Bool.eq_false_iff, ne_eq, mineTest_iff] at this
        exact this
      have hok := mineTest_iff.mp hs.2.2.1
      have hr : mineRec (List.replicate n 0) h.bytes (stack + 1) (List.replicate a 48) =
          .ok (nonce a i) := by
        simp only [mineRec, hi]
        rfl
      rw [hr]
      refine ⟨fun r => ?_, fun hne => absurd rfl (hne _)⟩
      simp only [Outcome.ok.injEq]
      constructor
      · rintro rfl
        exact ⟨a, i, le_refl _, by omega, by omega, rfl, hok, fun k' i' h1 h2 => by omega, hfail⟩
      · rintro ⟨k, i2, h1, h2, h3, rfl, h5, h6, h7⟩
        have hk : k = a := by
          by_contra hne
          exact h6 a j (le_refl _) (by omega) hj hw
        subst hk
        have : i2 = i := by
          rcases Nat.lt_trichotomy i2 i with hlt | he | hlt
          · exact absurd h5 (hfail i2 hlt)
          · exact he
          · exact absurd hok (h7 i hlt)
        rw [this]

/-! ## C47 -/

/-- The number of zero bytes that `prefix` asks for. -/
def wanted (d : UInt64) : Nat := (toInt d).toNat

omit [Sha512] in
/-- C47: below `2^63` the difficulty is the number of zero bytes asked for; from there on none are. -/
theorem C47_wanted (d : UInt64) :
    wanted d = if d.toNat < 2 ^ 63 then d.toNat else 0 := by
  unfold wanted
  split
  · rename_i h; rw [toInt_of_lt h]; simp
  · rename_i h
    have := toInt_of_ge (d := d) (by omega)
    omega

/-- C47: exactly what mining returns, with `stack` frames: the first candidate in the order
`0, 1, …, 2147483647, 00, 01, …, 02147483647, 000, …` that works, if it has fewer than `stack`
leading zeroes; otherwise the stack overflows. -/
theorem C47_mine_first_candidate (stack : Nat) (d : UInt64) (h : Hash) (r : Bytes) :
    mine stack d h = .ok r ↔
      ∃ k i, k < stack ∧ i ≤ 2147483647 ∧ r = nonce k i ∧ Works (wanted d) h (nonce k i) ∧
        (∀ k' i', k' < k → i' ≤ 2147483647 → ¬ Works (wanted d) h (nonce k' i')) ∧
        ∀ i' < i, ¬ Works (wanted d) h (nonce k i') := by
  have := (mineRec_spec (n := wanted d) (h := h) stack 0).1 r
  simpa [mine, miningPrefix, wanted, maxMiningValue] using this

/-- C47: the mining text consists of decimal digits, so it is a valid text. -/
theorem C47_mined_text_is_digits (stack : Nat) (d : UInt64) (h : Hash) (r : Bytes)
    (hr : mine stack d h = .ok r) : (∀ c ∈ r, isDigit c = true) ∧ Utf8 r := by
  have hd : ∀ c ∈ r, isDigit c = true := by
    obtain ⟨k, i, -, -, rfl, -⟩ := (C47_mine_first_candidate stack d h r).mp hr
    intro c hc
    rcases List.mem_append.mp hc with hc | hc
    · rw [(List.mem_replicate.mp hc).2]; decide
    · exact natDec_digits _ _ hc
  refine ⟨hd, utf8_of_ascii fun c hc => ?_⟩
  have := hd c hc
  simp only [isDigit, Bool.and_eq_true, decide_eq_true_eq, UInt8.le_iff_toNat_le] at this
  have h57 : (57 : UInt8).toNat = 57 := rfl
  omega

/-- C47: the search never reports failure: it returns a text or the stack overflows. -/
theorem C47_mine_never_fails (stack : Nat) (d : UInt64) (h : Hash) :
    (∃ r, mine stack d h = .ok r ∧ r ≠ []) ∨ mine stack d h = .crash .stackOverflow := by
  by_cases hr : ∃ r, mine stack d h = .ok r
  · obtain ⟨r, hr⟩ := hr
    obtain ⟨k, i, -, -, rfl, -⟩ := (C47_mine_first_candidate stack d h r).mp hr
    exact .inl ⟨_, hr, by simp [nonce, natDec_ne_nil]⟩
  · right
    exact (mineRec_spec (n := wanted d) (h := h) stack 0).2 (fun r hr' => hr ⟨r, hr'⟩)

/-- C47: with enough stack, mining finds a solution whenever one exists among the candidates. -/
theorem C47_mine_complete (d : UInt64) (h : Hash) (k i : Nat) (hi : i ≤ 2147483647)
    (hw : Works (wanted d) h (nonce k i)) (stack : Nat) (hs : k < stack) :
    ∃ r, mine stack d h = .ok r := by
  classical
  have hex : ∃ k, ∃ i, i ≤ 2147483647 ∧ Works (wanted d) h (nonce k i) := ⟨k, i, hi, hw⟩
  have hk := Nat.find_spec hex
  have hkle : Nat.find hex ≤ k := Nat.find_min' hex ⟨i, hi, hw⟩
  have hi' := Nat.find_spec hk
  refine ⟨_, (C47_mine_first_candidate stack d h _).mpr ⟨Nat.find hex, Nat.find hk, by omega, hi'.1,
    rfl, hi'.2, ?_, ?_⟩⟩
  · intro k' i' h1 h2 h3
    exact Nat.find_min hex h1 ⟨i', h2, h3⟩
  · intro i' h1 h2
    exact Nat.find_min hk h1 ⟨by omega, h2⟩

/-! ## C46 -/

variable [C : Curve]

/-- C46: whatever mining returns, with any stack, the mined block and the mined link built from it
have hashes that start with `d` zero bytes, for all difficulties below `2^63`. -/
theorem C46_mined_hash_has_prefix (stack : Nat) (d : UInt64) (hd : d.toNat < 2 ^ 63) (r : Bytes)
    (t : Time) :
    (∀ (b : Block) (m : MinedBlock), mine stack d b.hash = .ok r →
      minedBlockNow (some b) r t = .ok m →
      ∀ j < d.toNat, m.hash.bytes[j]? = some 0) ∧
    (∀ (l : Link) (m : MinedLink), mine stack d l.hash = .ok r →
      minedLinkNow (some l) r t = .ok m →
      ∀ j < d.toNat, m.hash.bytes[j]? = some 0) := by
  have key : ∀ h : Hash, mine stack d h = .ok r →
      ∀ j < d.toNat, (fromBytes (h.bytes ++ r)).bytes[j]? = some 0 := by
    intro h hm j hj
    obtain ⟨k, i, -, -, rfl, ⟨rest, hw⟩, -⟩ := (C47_mine_first_candidate stack d h r).mp hm
    have : wanted d = d.toNat := by rw [C47_wanted, if_pos hd]
    rw [hw, this, List.getElem?_append_left (by simpa using hj)]
    simp [hj]
  constructor
  · intro b m h1 h2
    obtain ⟨_, e, rfl⟩ := minedBlockNow_eq_ok.mp h2
    cases e
    exact key _ h1
  · intro b m h1 h2
    obtain ⟨_, e, rfl⟩ := minedLinkNow_eq_ok.mp h2
    cases e
    exact key _ h1

omit C in
/-- C46 (negation for huge difficulties): from `2^63` on the difficulty is converted to a negative
number and nothing is asked for: mining answers `"0"` at once. -/
theorem C46_huge_difficulty_is_free_neg (stack : Nat) (d : UInt64) (hd : 2 ^ 63 ≤ d.toNat)
    (h : Hash) : mine (stack + 1) d h = .ok (ascii "0") := by
  have hw : wanted d = 0 := by rw [C47_wanted, if_neg (by omega)]
  refine (C47_mine_first_candidate _ d h _).mpr ⟨0, 0, by omega, by omega, ?_, ?_, ?_, ?_⟩
  · simp [nonce, natDec]; decide
  · rw [hw]; exact ⟨_, rfl⟩
  · intro k' _ h; omega
  · intro k' h; omega

/-! ## C48 -/

omit C in
/-- C48: for difficulties above 64 (and below `2^63`) no text at all works and mining never returns:
every stack overflows. -/
theorem C48_impossible_difficulty_diverges (d : UInt64) (h64 : 64 < d.toNat) (hd : d.toNat < 2 ^ 63)
    (h : Hash) :
    (∀ m, ¬ Works d.toNat h m) ∧ ∀ stack, mine stack d h = .crash .stackOverflow := by
  have hno : ∀ m, ¬ Works d.toNat h m := by
    rintro m ⟨rest, hr⟩
    have := congrArg List.length hr
    rw [(fromBytes _).len] at this
    simp at this
    omega
  refine ⟨hno, fun stack => ?_⟩
  rcases C47_mine_never_fails stack d h with ⟨r, hr, -⟩ | hr
  · obtain ⟨k, i, -, -, rfl, hw, -⟩ := (C47_mine_first_candidate stack d h r).mp hr
    rw [C47_wanted, if_pos hd] at hw
    exact absurd hw (hno _)
  · exact hr

end

section examples

/-- A hash function whose values all start with a zero byte, and one where they never do. -/
@[reducible] def zeroSha : Sha512 where
  sum _ := ⟨List.replicate 64 0, by simp⟩

@[reducible] def onesSha : Sha512 where
  sum _ := ⟨List.replicate 64 1, by simp⟩

/-- C46, C47: mining that succeeds. -/
example : @mine zeroSha 1 3 (toyHash 1) = .ok (ascii "0") := by
  refine (@C47_mine_first_candidate zeroSha 1 3 (toyHash 1) _).mpr ⟨0, 0, by omega, by omega,
    by simp [nonce, natDec]; decide, ?_, by intro k' _ h; omega, by intro k' h; omega⟩
  have hl : ((toyHash 1).bytes ++ nonce 0 0).length ≠ 64 := by
    simp [toyHash, nonce, natDec]
  have hw : wanted 3 = 3 := by rw [C47_wanted]; rfl
  refine ⟨List.replicate 61 0, ?_⟩
  rw [@fromBytes_of_ne zeroSha _ hl, hw]
  rfl

/-- C47: a possible difficulty for which mining still overflows every stack, because the hash
function offers no solution. -/
example (stack : Nat) : @mine onesSha stack 1 (toyHash 1) = .crash .stackOverflow := by
  rcases @C47_mine_never_fails onesSha stack 1 (toyHash 1) with ⟨r, hr, -⟩ | hr
  · obtain ⟨k, i, -, -, rfl, ⟨rest, hw⟩, -⟩ :=
      (@C47_mine_first_candidate onesSha stack 1 (toyHash 1) r).mp hr
    exfalso
    have hl : ((toyHash 1).bytes ++ nonce k i).length ≠ 64 := by
      simp [toyHash, nonce, natDec_ne_nil]
    rw [@fromBytes_of_ne onesSha _ hl, C47_wanted] at hw
    have h1 : (List.replicate 64 1 : Bytes) = List.replicate 1 0 ++ rest := hw
    simp [List.replicate] at h1
  · exact hr

/-- C48: a difficulty meeting the hypotheses. -/
example : 64 < (65 : UInt64).toNat ∧ (65 : UInt64).toNat < 2 ^ 63 := by decide

end examples

end Verif
