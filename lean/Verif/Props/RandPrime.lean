import Mathlib.Tactic.IntervalCases
import Verif.Model.RandPrime
import Verif.Props.RsaCreate

/-!
# The primes of created keys are drawn from the random source: C163
-/

namespace Verif

theorem topByte (b : Nat) (h2 : 2 ≤ b) (h8 : b ≤ 8) (x : UInt8) :
    3 * 2 ^ b ≤ 4 * ((x &&& UInt8.ofNat (2 ^ b - 1)) ||| UInt8.ofNat (3 * 2 ^ (b - 2))).toNat ∧
    ((x &&& UInt8.ofNat (2 ^ b - 1)) ||| UInt8.ofNat (3 * 2 ^ (b - 2))).toNat < 2 ^ b ∧
    (3 * 2 ^ b ≤ 4 * x.toNat → x.toNat < 2 ^ b →
      (x &&& UInt8.ofNat (2 ^ b - 1)) ||| UInt8.ofNat (3 * 2 ^ (b - 2)) = x) := by
  have key : ∀ b < 9, 2 ≤ b → ∀ n < 256,
      3 * 2 ^ b ≤ 4 * ((UInt8.ofNat n &&& UInt8.ofNat (2 ^ b - 1)) ||| UInt8.ofNat (3 * 2 ^ (b - 2))).toNat ∧
      ((UInt8.ofNat n &&& UInt8.ofNat (2 ^ b - 1)) ||| UInt8.ofNat (3 * 2 ^ (b - 2))).toNat < 2 ^ b ∧
      (3 * 2 ^ b ≤ 4 * n → n < 2 ^ b →
        (UInt8.ofNat n &&& UInt8.ofNat (2 ^ b - 1)) ||| UInt8.ofNat (3 * 2 ^ (b - 2)) = UInt8.ofNat n) := by
    decide +kernel
  have := key b (by omega) h2 x.toNat (UInt8.toNat_lt x)
  rwa [UInt8.ofNat_toNat] at this

theorem byteFacts (x : UInt8) :
    (x &&& UInt8.ofNat (2 ^ 1 - 1)) ||| 1 = 1 ∧ 128 ≤ (x ||| 0x80).toNat ∧
    (128 ≤ x.toNat → x ||| 0x80 = x) ∧ (x ||| 1).toNat = x.toNat / 2 * 2 + 1 := by
  have key : ∀ n < 256, (UInt8.ofNat n &&& UInt8.ofNat (2 ^ 1 - 1)) ||| 1 = 1 ∧
      128 ≤ (UInt8.ofNat n ||| 0x80).toNat ∧ (128 ≤ n → UInt8.ofNat n ||| 0x80 = UInt8.ofNat n) ∧
      (UInt8.ofNat n ||| 1).toNat = n / 2 * 2 + 1 := by
    decide +kernel
  have := key x.toNat (UInt8.toNat_lt x)
  rwa [UInt8.ofNat_toNat] at this

theorem beNat_odd {l : Bytes} (h : l ≠ []) :
    beNat (l.modify (l.length - 1) (· ||| 1)) = beNat l / 2 * 2 + 1 := by
  obtain ⟨i, x, rfl⟩ : ∃ i x, l = i ++ [x] := ⟨_, _, (List.dropLast_append_getLast h).symm⟩
  have e : (i ++ [x]).modify ((i ++ [x]).length - 1) (· ||| 1) = i ++ [x ||| 1] := by
    induction i with
    | nil => rfl
    | cons a i ih =>
      have := ih (by simp)
      rw [show (i ++ [x]).length - 1 = i.length by simp] at this
      rw [show (a :: i ++ [x]).length - 1 = i.length + 1 by simp, List.cons_append, List.modify_succ_cons, this]
      rfl
  rw [e, beNat_append, beNat_append]
  have e1 : ∀ y : UInt8, beNat [y] = y.toNat := fun y => by simp [beNat]
  simp only [e1, List.length_singleton, pow_one, (byteFacts x).2.2.2]
  omega

/-- The number that is made of the bytes that were read: it has the bits that were asked for, the two highest and
the lowest are set, and it is the number that was read if that had these bits set already. -/
theorem primeBytes_number {bits : Nat} (hb : 2 ≤ bits) {l : Bytes} (hl : l.length = (bits + 7) / 8) :
    3 * 2 ^ bits ≤ 4 * beNat (primeBytes bits l) ∧ beNat (primeBytes bits l) < 2 ^ bits ∧
    beNat (primeBytes bits l) % 2 = 1 ∧
    (3 * 2 ^ bits ≤ 4 * beNat l → beNat l < 2 ^ bits → beNat l % 2 = 1 →
      beNat (primeBytes bits l) = beNat l) := by
  cases l with
  | nil => simp at hl; omega
  | cons x t =>
    simp only [List.length_cons] at hl
    have ht := beNat_lt t
    have hpow : (256 : Nat) ^ t.length = 2 ^ (8 * t.length) := by rw [pow_mul]; norm_num
    -- before the lowest bit is set
    have core : ∃ l' : Bytes, l' ≠ [] ∧ primeBytes bits (x :: t) = l'.modify (l'.length - 1) (· ||| 1) ∧
        3 * 2 ^ bits ≤ 4 * beNat l' ∧ beNat l' < 2 ^ bits ∧
        (3 * 2 ^ bits ≤ 4 * beNat (x :: t) → beNat (x :: t) < 2 ^ bits → l' = x :: t) := by
      by_cases h2 : 2 ≤ topBits bits
      · have h8 : topBits bits ≤ 8 := by unfold topBits; split <;> omega
        have ebits : bits = topBits bits + 8 * t.length := by
          unfold topBits at h2 ⊢
          split <;> rename_i h <;> simp only [h, if_true, if_false] at h2 <;> omega
        obtain ⟨g1, g2, g3⟩ := topByte _ h2 h8 x
        have epow : 2 ^ bits = 2 ^ topBits bits * 256 ^ t.length := by
          rw [hpow, ← pow_add, ← ebits]
        refine ⟨((x &&& UInt8.ofNat (2 ^ topBits bits - 1)) ||| UInt8.ofNat (3 * 2 ^ (topBits bits - 2))) :: t,
          by simp, ?_, ?_, ?_, ?_⟩
        · unfold primeBytes
          simp only [if_pos h2, List.modify_zero_cons]
        · rw [beNat_cons, epow]
          nlinarith [Nat.mul_le_mul_right (256 ^ t.length) g1]
        · rw [beNat_cons, epow]
          have := Nat.mul_le_mul_right (256 ^ t.length) (Nat.succ_le_of_lt g2)
          rw [Nat.succ_mul] at this
          omega
        · intro a1 a2
          rw [beNat_cons, epow] at a1 a2
          have q : 0 < 256 ^ t.length := by positivity
          have c2 : x.toNat < 2 ^ topBits bits := by
            by_contra hc
            have := Nat.mul_le_mul_right (256 ^ t.length) (Nat.le_of_not_lt hc)
            omega
          have c1 : 3 * 2 ^ topBits bits ≤ 4 * x.toNat := by
            by_contra hc
            have e4 : 2 ^ topBits bits = 4 * 2 ^ (topBits bits - 2) := by
              rw [show topBits bits = 2 + (topBits bits - 2) by omega, pow_add]
              norm_num
            rw [e4] at hc a1
            have hc' : x.toNat + 1 ≤ 3 * 2 ^ (topBits bits - 2) := by omega
            have := Nat.mul_le_mul_right (256 ^ t.length) hc'
            rw [Nat.succ_mul] at this
            have e5 : 3 * (4 * 2 ^ (topBits bits - 2) * 256 ^ t.length) =
              4 * (3 * 2 ^ (topBits bits - 2) * 256 ^ t.length) := by ring
            omega
          rw [g3 c1 c2]
      · have h1 : topBits bits = 1 := by
          unfold topBits at h2 ⊢
          split at h2 <;> rename_i h
          · omega
          · rw [if_neg h]; omega
        cases t with
        | nil =>
          simp only [List.length_nil] at hl
          unfold topBits at h1
          split at h1 <;> omega
        | cons y t =>
          simp only [List.length_cons] at hl hpow ht
          have ebits : bits = 1 + 8 * (t.length + 1) := by
            unfold topBits at h1
            split at h1 <;> omega
          have ht' := beNat_lt t
          have epow : 2 ^ bits = 512 * 256 ^ t.length := by
            rw [ebits, pow_add, ← hpow, pow_succ 256]; ring
          have q : 0 < 256 ^ t.length := by positivity
          have p1 : (256 : Nat) ^ (t.length + 1) = 256 * 256 ^ t.length := by rw [pow_succ]; ring
          refine ⟨1 :: (y ||| 0x80) :: t, by simp, ?_, ?_, ?_, ?_⟩
          · unfold primeBytes
            simp only [h1, if_neg (show ¬ 2 ≤ 1 by decide), List.modify_zero_cons, (byteFacts x).1,
              List.modify_succ_cons]
          · rw [beNat_cons, beNat_cons, epow, List.length_cons, p1]
            have := Nat.mul_le_mul_right (256 ^ t.length) (byteFacts y).2.1
            have e1 : (1 : UInt8).toNat = 1 := rfl
            rw [e1]
            omega
          · rw [beNat_cons, beNat_cons, epow, List.length_cons, p1]
            have := Nat.mul_le_mul_right (256 ^ t.length)
              (Nat.succ_le_of_lt (UInt8.toNat_lt (y ||| 0x80)))
            rw [Nat.succ_mul] at this
            have e1 : (1 : UInt8).toNat = 1 := rfl
            rw [e1]
            omega
          · intro a1 a2
            rw [beNat_cons, beNat_cons, List.length_cons, p1, epow] at a1 a2
            have cy := Nat.mul_le_mul_right (256 ^ t.length) (Nat.succ_le_of_lt (UInt8.toNat_lt y))
            rw [Nat.succ_mul] at cy
            have cx2 : x.toNat < 2 := by
              by_contra hc
              have := Nat.mul_le_mul_right (256 * 256 ^ t.length) (Nat.le_of_not_lt hc)
              omega
            have cx1 : 0 < x.toNat := by
              by_contra hc
              have : x.toNat = 0 := by omega
              rw [this] at a1
              omega
            have ex : x = 1 := UInt8.toNat_inj.mp (by show x.toNat = 1; omega)
            have cy1 : 128 ≤ y.toNat := by
              by_contra hc
              have := Nat.mul_le_mul_right (256 ^ t.length) (Nat.succ_le_of_lt (Nat.lt_of_not_le hc))
              rw [Nat.succ_mul] at this
              rw [ex, show (1 : UInt8).toNat = 1 from rfl] at a1
              omega
            rw [ex, (byteFacts y).2.2.1 cy1]
    obtain ⟨l', hne, e, h1, h2, h3⟩ := core
    rw [e, beNat_odd hne]
    have ev : 2 ^ bits = 2 * 2 ^ (bits - 1) := by
      rw [← pow_succ']; congr 1; omega
    refine ⟨by omega, by omega, by omega, fun a1 a2 a3 => ?_⟩
    rw [h3 a1 a2]
    omega

theorem smallPrimes_prime {r : Nat} (h : r ∈ smallPrimes) : r.Prime ∧ r ∣ smallPrimesProduct ∧ r ≤ 53 := by
  unfold smallPrimes at h
  simp only [List.mem_cons, List.not_mem_nil, or_false] at h
  rcases h with h | h | h | h | h | h | h | h | h | h | h | h | h | h | h <;> subst h <;>
    exact ⟨by norm_num, by decide +kernel, by decide⟩

/-- A number that is passed over is no prime. -/
theorem sievedOut_not_prime {bits c d : Nat} (hb : 2 ≤ bits) (h1 : 3 * 2 ^ bits ≤ 4 * c) (h2 : c < 2 ^ bits)
    (h : sievedOut bits (c % smallPrimesProduct + d) = true) : ¬ (c + d).Prime := by
  intro hp
  unfold sievedOut at h
  rw [List.any_eq_true] at h
  obtain ⟨r, hr, h⟩ := h
  obtain ⟨hr1, hr2, hr3⟩ := smallPrimes_prime hr
  simp only [Bool.and_eq_true, beq_iff_eq, Bool.or_eq_true, decide_eq_true_eq, bne_iff_ne] at h
  obtain ⟨g1, g2⟩ := h
  have hd : r ∣ c + d := by
    rw [Nat.dvd_iff_mod_eq_zero, Nat.add_mod, ← Nat.mod_mod_of_dvd c hr2, ← Nat.add_mod]
    exact g1
  have e : r = c + d := (Nat.prime_dvd_prime_iff_eq hr1 hp).mp hd
  rcases g2 with g2 | g2
  · have : 2 ^ 7 ≤ 2 ^ bits := Nat.pow_le_pow_right (by decide) g2
    omega
  · by_cases h6 : 6 < bits
    · have : 2 ^ 7 ≤ 2 ^ bits := Nat.pow_le_pow_right (by decide) h6
      omega
    · have : 2 ^ bits ≤ 2 ^ 6 := Nat.pow_le_pow_right (by decide) (by omega)
      rw [Nat.mod_eq_of_lt (by unfold smallPrimesProduct; omega)] at g2
      exact g2 e.symm

theorem nextDelta_spec (bits mod : Nat) : ∀ n delta, delta % 2 = 0 →
    (nextDelta bits mod n delta % 2 = 0) ∧
    ((nextDelta bits mod n delta = 0 ∧ ∀ d, d % 2 = 0 → delta ≤ d → d < delta + 2 * n → sievedOut bits (mod + d)) ∨
     (delta ≤ nextDelta bits mod n delta ∧ nextDelta bits mod n delta < delta + 2 * n ∧
      sievedOut bits (mod + nextDelta bits mod n delta) = false ∧
      ∀ d, d % 2 = 0 → delta ≤ d → d < nextDelta bits mod n delta → sievedOut bits (mod + d)))
  | 0, delta, h => ⟨rfl, .inl ⟨rfl, fun d _ _ _ => by omega⟩⟩
  | n + 1, delta, h => by
    rw [nextDelta]
    split
    · rename_i hs
      obtain ⟨g1, g2⟩ := nextDelta_spec bits mod n (delta + 2) (by omega)
      refine ⟨g1, ?_⟩
      rcases g2 with ⟨g2, g3⟩ | ⟨g2, g3, g4, g5⟩
      · refine .inl ⟨g2, fun d d1 d2 d3 => ?_⟩
        by_cases e : d = delta
        · rw [e]; exact hs
        · exact g3 d d1 (by omega) (by omega)
      · refine .inr ⟨by omega, by omega, g4, fun d d1 d2 d3 => ?_⟩
        by_cases e : d = delta
        · rw [e]; exact hs
        · exact g5 d d1 (by omega) d3
    · rename_i hs
      exact ⟨h, .inr ⟨le_rfl, by omega, by simpa using hs, fun d _ d2 d3 => by omega⟩⟩

theorem readBytes_length (src : Nat → UInt8) (pos k : Nat) : (readBytes src pos k).length = k := by
  simp [readBytes]

/-- What a successful `Prime` has gone through. -/
theorem randPrime_eq_ok {pp : Nat → Bool} {bits : Nat} {src : Nat → UInt8} :
    ∀ {rounds pos p pos'}, randPrime pp bits src rounds pos = some (.ok p, pos') →
    2 ≤ bits ∧ pp p = true ∧ Nat.size p = bits ∧
      ∃ at', p = primeRound bits (readBytes src at' ((bits + 7) / 8)) ∧ pos ≤ at' ∧ pos' = at' + (bits + 7) / 8
  | 0, pos, p, pos', h => by simp [randPrime] at h
  | rounds + 1, pos, p, pos', h => by
    rw [randPrime] at h
    split at h
    · simp at h
    · rename_i hb
      simp only at h
      split at h
      · rename_i hc
        simp only [Bool.and_eq_true, beq_iff_eq] at hc
        simp only [Option.some.injEq, Prod.mk.injEq, Outcome.ok.injEq] at h
        obtain ⟨rfl, rfl⟩ := h
        exact ⟨by omega, hc.1, hc.2, pos, rfl, le_rfl, rfl⟩
      · obtain ⟨g1, g2, g3, at', g4, g5, g6⟩ := randPrime_eq_ok h
        exact ⟨g1, g2, g3, at', g4, by omega, g6⟩

theorem primeRound_ge {bits : Nat} (hb : 2 ≤ bits) {l : Bytes} (hl : l.length = (bits + 7) / 8) :
    3 * 2 ^ bits ≤ 4 * primeRound bits l ∧ primeRound bits l % 2 = 1 := by
  obtain ⟨h1, -, h3, -⟩ := primeBytes_number hb hl
  have := (nextDelta_spec bits (beNat (primeBytes bits l) % smallPrimesProduct) (2 ^ 19) 0 rfl).1
  unfold primeRound
  simp only
  constructor <;> omega

/-- C163: what `rand.Prime` returns, whatever the random source gives, is a number of the bits that were asked for
whose two highest bits and lowest bit are set, and that passed the test for primes; so it is such a prime if that
test is right about it. -/
theorem C163_prime_drawn {pp : Nat → Bool} {bits : Nat} {src : Nat → UInt8} {rounds pos p pos' : Nat}
    (h : randPrime pp bits src rounds pos = some (.ok p, pos')) :
    pp p = true ∧ 3 * 2 ^ bits ≤ 4 * p ∧ p < 2 ^ bits ∧ p % 2 = 1 ∧ ((pp p = true → p.Prime) → TopPrime bits p) := by
  obtain ⟨hb, h1, h2, at', e, -, -⟩ := randPrime_eq_ok h
  have hg := primeRound_ge hb (readBytes_length src at' ((bits + 7) / 8))
  rw [← e] at hg
  have hlt : p < 2 ^ bits := Nat.size_le.mp h2.le
  exact ⟨h1, hg.1, hlt, hg.2, fun hp => ⟨hp h1, hg.1, hlt⟩⟩

/-- C163: no prime is passed over. Of the bytes of a round a number with the right bits is made, and the number that
is tested for being prime is at least that, with no prime in between; without a prime among the next 2^20 numbers it
may be that number itself. -/
theorem C163_no_prime_passed_over {bits : Nat} (hb : 2 ≤ bits) {l : Bytes} (hl : l.length = (bits + 7) / 8) :
    ∃ c, 3 * 2 ^ bits ≤ 4 * c ∧ c < 2 ^ bits ∧ c ≤ primeRound bits l ∧ primeRound bits l < c + 2 ^ 20 ∧
      (∀ x, c ≤ x → x < primeRound bits l → ¬ x.Prime) ∧
      (∀ x, c ≤ x → x < c + 2 ^ 20 → x.Prime → primeRound bits l ≤ x) := by
  obtain ⟨h1, h2, h3, -⟩ := primeBytes_number hb hl
  set c := beNat (primeBytes bits l) with hc
  have e : primeRound bits l = c + nextDelta bits (c % smallPrimesProduct) (2 ^ 19) 0 := rfl
  obtain ⟨g1, g2⟩ := nextDelta_spec bits (c % smallPrimesProduct) (2 ^ 19) 0 rfl
  have four : 2 ^ 2 ≤ 2 ^ bits := Nat.pow_le_pow_right (by decide) hb
  have odd : ∀ x, c ≤ x → x.Prime → x % 2 = 1 := fun x hx hp => by
    rcases hp.eq_two_or_odd with h | h <;> omega
  refine ⟨c, h1, h2, by omega, ?_, ?_, ?_⟩
  · rw [e]
    rcases g2 with ⟨g2, -⟩ | ⟨-, g3, -⟩
    · rw [g2]; norm_num
    · norm_num at g3 ⊢; omega
  · intro x hx1 hx2 hp
    have ho := odd x hx1 hp
    rcases g2 with ⟨g2, -⟩ | ⟨-, -, -, g5⟩
    · omega
    · have := sievedOut_not_prime hb h1 h2 (g5 (x - c) (by omega) (by omega) (by omega))
      rw [show c + (x - c) = x by omega] at this
      exact this hp
  · intro x hx1 hx2 hp
    have ho := odd x hx1 hp
    rcases g2 with ⟨g2, g3⟩ | ⟨-, -, -, g5⟩
    · omega
    · by_contra hlt
      have := sievedOut_not_prime hb h1 h2 (g5 (x - c) (by omega) (by omega) (by omega))
      rw [show c + (x - c) = x by omega] at this
      exact this hp

/-- A prime whose bytes come first from the source is the result of the first round, if the test accepts it. -/
theorem randPrime_first {bits : Nat} (hb : 2 ≤ bits) {p : Nat} (hp : TopPrime bits p) {pp : Nat → Bool}
    (h : pp p = true) {src : Nat → UInt8} {pos : Nat}
    (hread : readBytes src pos ((bits + 7) / 8) = leftPad ((bits + 7) / 8) (beBytes p)) :
    randPrime pp bits src 1 pos = some (.ok p, pos + (bits + 7) / 8) := by
  obtain ⟨hp0, hp1, hp2⟩ := hp
  have ll := readBytes_length src pos ((bits + 7) / 8)
  have lp : beNat (readBytes src pos ((bits + 7) / 8)) = p := by rw [hread, beNat_leftPad, beNat_beBytes]
  generalize hgen : readBytes src pos ((bits + 7) / 8) = l at hread ll lp
  have four : 2 ^ 2 ≤ 2 ^ bits := Nat.pow_le_pow_right (by decide) hb
  have hodd : p % 2 = 1 := by
    rcases hp0.eq_two_or_odd with h | h
    · omega
    · exact h
  obtain ⟨h1, h2, -, h4⟩ := primeBytes_number hb ll
  have hc : beNat (primeBytes bits l) = p := by
    rw [h4 (by rw [lp]; exact hp1) (by rw [lp]; exact hp2) (by rw [lp]; exact hodd), lp]
  have hround : primeRound bits l = p := by
    unfold primeRound
    simp only [hc]
    have hs : sievedOut bits (p % smallPrimesProduct + 0) = false := by
      by_contra hs
      exact sievedOut_not_prime (d := 0) hb hp1 hp2 (by simpa using hs) (by simpa using hp0)
    rw [show (2 : Nat) ^ 19 = (2 ^ 19 - 1) + 1 by norm_num, nextDelta, hs]
    simp
  have hsize : Nat.size p = bits := TopPrime.size ⟨hp0, hp1, hp2⟩ hb
  rw [randPrime, if_neg (by omega)]
  simp only [hgen, hround, h, hsize, beq_self_eq_true, Bool.and_self, if_true]

theorem topPrime_bytes {bits p : Nat} (hp : TopPrime bits p) : (beBytes p).length ≤ (bits + 7) / 8 := by
  rw [beBytes_length_le]
  refine lt_of_lt_of_le hp.2.2 ?_
  rw [show (256 : Nat) = 2 ^ 8 by norm_num, ← pow_mul]
  exact Nat.pow_le_pow_right (by decide) (by omega)

theorem readBytes_of_list (l a b : Bytes) (c : Bytes) (h : l = a ++ b ++ c) :
    readBytes (fun i => l.getD i 0) a.length b.length = b := by
  apply List.ext_getElem (readBytes_length _ _ _)
  intro i h1 h2
  simp [readBytes, h, List.getElem?_append, h2]

/-- C163: every prime with the two highest bits set can be drawn: there is a source of random bytes for which it is
the result of the first round, if the test accepts it. -/
theorem C163_every_prime_possible {bits : Nat} (hb : 2 ≤ bits) {p : Nat} (hp : TopPrime bits p) {pp : Nat → Bool}
    (h : pp p = true) :
    ∃ src, randPrime pp bits src 1 0 = some (.ok p, (bits + 7) / 8) := by
  have hl := leftPad_length (topPrime_bytes hp)
  refine ⟨fun i => (leftPad ((bits + 7) / 8) (beBytes p)).getD i 0, ?_⟩
  have := readBytes_of_list (leftPad ((bits + 7) / 8) (beBytes p)) [] (leftPad ((bits + 7) / 8) (beBytes p)) [] (by simp)
  rw [hl] at this
  simpa using randPrime_first hb hp h this

/-- C163: so every usable pair of such primes can become a key: there is a source of random bytes from which `Create`
makes the key with these primes. -/
theorem C163_every_key_possible {bitRate : Int} (hb : 12 ≤ bitRate) {x : Nat × Nat} (hx : Drawn bitRate.toNat x)
    (hu : UsablePair x) {pp : Nat → Bool} (h1 : pp x.1 = true) (h2 : pp x.2 = true) :
    ∃ src k, rsaCreate bitRate (rsaDraws pp bitRate.toNat src 1 1 0) = some (.ok (k, k.pub)) ∧ k.p = x.1 ∧ k.q = x.2 := by
  obtain ⟨hp, hq⟩ := id hx
  have l1 := leftPad_length (topPrime_bytes hp)
  have l2 := leftPad_length (topPrime_bytes hq)
  have hs := hp.size (by omega)
  set a := leftPad ((bitRate.toNat / 2 + 7) / 8) (beBytes x.1) with ha
  set b := leftPad ((bitRate.toNat - Nat.size x.1 + 7) / 8) (beBytes x.2) with hb'
  have r1 := readBytes_of_list (a ++ b) [] a b (by simp)
  have r2 := readBytes_of_list (a ++ b) a b [] (by simp)
  rw [l1] at r1
  rw [l1, l2] at r2
  have d1 := randPrime_first (by omega) hp h1 r1
  have d2 := randPrime_first (by omega) hq h2 r2
  have hd : rsaDraws pp bitRate.toNat (fun i => (a ++ b).getD i 0) 1 1 0 = [x] := by
    rw [rsaDraws, rsaDraw]
    simp only [List.length_nil] at d1
    rw [d1]
    simp only [Nat.zero_add]
    rw [d2]
    rfl
  obtain ⟨k, hk, -, g1, g2, -⟩ := C163_first_usable_pair hb (pre := []) (post := []) (x := x) (by simp) (by simp) hx hu
  exact ⟨fun i => (a ++ b).getD i 0, k, by rw [hd]; exact hk, g1, g2⟩

/-- C163: the pairs of primes that `GenerateKey` draws from a random source are as the other theorems of C163 ask,
if the test for primes is right about them. -/
theorem C163_pairs_drawn {pp : Nat → Bool} (hpp : ∀ x, pp x = true → x.Prime) {bits : Nat} {src : Nat → UInt8}
    {rounds : Nat} : ∀ (n pos : Nat), ∀ y ∈ rsaDraws pp bits src rounds n pos, Drawn bits y
  | 0, pos, y, h => by simp [rsaDraws] at h
  | n + 1, pos, y, h => by
    rw [rsaDraws] at h
    split at h
    · rename_i x pos' hx
      rcases List.mem_cons.mp h with rfl | h
      · unfold rsaDraw at hx
        split at hx
        · rename_i p pos1 hp
          split at hx
          · rename_i q pos2 hq
            simp only [Option.some.injEq, Prod.mk.injEq] at hx
            obtain ⟨rfl, -⟩ := hx
            exact ⟨(C163_prime_drawn hp).2.2.2.2 (hpp p), (C163_prime_drawn hq).2.2.2.2 (hpp q)⟩
          · cases hx
        · cases hx
      · exact C163_pairs_drawn hpp n pos' y h
    · simp at h

/-- C163: `Create` from the bytes of the random source: if the numbers that passed the test for primes are primes, the
created key decrypts everything that was encrypted for it and is not too long. -/
theorem C163_created_from_source [Sha256] {pp : Nat → Bool} {bitRate : Int} {src : Nat → UInt8} {rounds n pos : Nat}
    (hpp : ∀ y ∈ rsaDraws pp bitRate.toNat src rounds n pos, y.1.Prime ∧ y.2.Prime) {k : RsaKey} {pub : RsaPub}
    (h : rsaCreate bitRate (rsaDraws pp bitRate.toNat src rounds n pos) = some (.ok (k, pub)))
    {seed msg : Bytes} (hs : seed.length = 32) (hm : (msg.length : Int) + 66 ≤ (bitRate + 7) / 8) :
    ∃ c, rsaEncrypt pub seed msg = .ok c ∧ ∀ r, Nat.Coprime r pub.n → rsaDecrypt k r c = .ok msg := by
  have hd : ∀ y ∈ rsaDraws pp bitRate.toNat src rounds n pos, Drawn bitRate.toNat y := by
    clear h
    induction n generalizing pos with
    | zero => simp [rsaDraws]
    | succ n ih =>
      intro y hy
      have hy' := hpp y hy
      rw [rsaDraws] at hy hpp
      split at hy
      · rename_i x pos' hx
        rw [hx] at hpp
        rcases List.mem_cons.mp hy with rfl | hy
        · unfold rsaDraw at hx
          split at hx
          · rename_i p pos1 hp
            split at hx
            · rename_i q pos2 hq
              simp only [Option.some.injEq, Prod.mk.injEq] at hx
              obtain ⟨rfl, -⟩ := hx
              exact ⟨(C163_prime_drawn hp).2.2.2.2 fun _ => hy'.1, (C163_prime_drawn hq).2.2.2.2 fun _ => hy'.2⟩
            · cases hx
          · cases hx
        · exact ih (fun y hy => hpp y (List.mem_cons_of_mem _ hy)) y hy
      · simp at hy
  have := C163_created_key_decrypts hd h (msg := msg) hs
  rw [if_pos hm] at this
  obtain ⟨c, h1, -, h3⟩ := this
  exact ⟨c, h1, h3⟩

section examples

/-- Two primes drawn for a key of 16 bits, the second in its second round, since the first bytes lead to a number
of nine bits: 255 is divisible by 3, and 257 is the first number that is not passed over. -/
example : rsaDraw (fun x => decide (x ∈ [193, 227, 257])) 16 (fun i => [193, 255, 227].getD i 0) 5 0 =
    some ((193, 227), 3) := by
  decide +kernel

example : rsaDraws (fun x => decide (x ∈ [193, 227, 257])) 16 (fun i => [193, 255, 227].getD i 0) 5 1 0 =
    [(193, 227)] := by
  decide +kernel

/-- Bytes of a round. -/
example : primeRound 9 [170, 1] = 389 ∧ [170, 1].length = (9 + 7) / 8 := by decide +kernel

example : TopPrime 8 227 := ⟨by norm_num, by decide, by decide⟩

example : Drawn (540 : Int).toNat (drawnP, drawnQ) ∧ UsablePair (drawnP, drawnQ) :=
  ⟨drawn_toy, by decide +kernel, by decide +kernel⟩

/-- A source of random bytes from which a key of 540 bits is created. -/
example : ∃ src, rsaDraws (fun x => x = drawnP ∨ x = drawnQ) 540 src 1 1 0 = [(drawnP, drawnQ)] :=
  ⟨fun i => (leftPad 34 (beBytes drawnP) ++ leftPad 34 (beBytes drawnQ)).getD i 0, by decide +kernel⟩

end examples

end Verif
