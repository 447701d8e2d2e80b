import Mathlib.NumberTheory.LucasPrimality
import Mathlib.Tactic.NormNum.Prime

/-!
# The primes of the curve

`2^255 - 19` and the order of the base point are prime: every line below is a step of Pratt's
certificate, whose powers are evaluated by the kernel.
-/

namespace Verif

/-- `a ^ e % n` for `e < 2 ^ fuel`. -/
def certPow (n : Nat) : Nat → Nat → Nat → Nat
  | 0, _, _ => 1 % n
  | fuel + 1, a, e =>
    bif Nat.beq (e % 2) 1 then a * certPow n fuel (a * a % n) (e / 2) % n
    else certPow n fuel (a * a % n) (e / 2)

theorem certPow_eq (n : Nat) : ∀ fuel a e, e < 2 ^ fuel → certPow n fuel a e = a ^ e % n
  | 0, a, e, h => by
    obtain rfl : e = 0 := by simpa using h
    simp [certPow]
  | fuel + 1, a, e, h => by
    have ih := certPow_eq n fuel (a * a % n) (e / 2) (by rw [pow_succ] at h; omega)
    have h2 : (a * a % n) ^ (e / 2) % n = a ^ (2 * (e / 2)) % n := by
      rw [← Nat.pow_mod, ← sq, ← pow_mul]
    rw [certPow, ih, h2]
    rcases Nat.mod_two_eq_zero_or_one e with h0 | h0
    · have : 2 * (e / 2) = e := by omega
      rw [h0, this]; rfl
    · have : e = 2 * (e / 2) + 1 := by omega
      rw [h0]
      simp only [cond_true, Nat.beq_refl]
      conv_rhs => rw [this, pow_succ']
      rw [Nat.mul_mod, Nat.mod_mod, ← Nat.mul_mod]

/-- A step of the certificate: `a` generates the units modulo `n`. -/
theorem prime_of_certificate (n a : Nat) (fs : List Nat) (hn : n < 2 ^ 256)
    (hp : ∀ q ∈ fs, q.Prime) (hf : fs.prod = n - 1) (h1 : certPow n 256 a (n - 1) = 1)
    (h2 : ∀ q ∈ fs, certPow n 256 a ((n - 1) / q) ≠ 1) : n.Prime := by
  have hn1 : 1 < n := by
    rcases Nat.lt_or_ge 1 n with h | h
    · exact h
    · exfalso
      rw [certPow_eq _ _ _ _ (by omega)] at h1
      interval_cases n
      · rw [Nat.zero_sub, List.prod_eq_zero_iff] at hf
        exact Nat.not_prime_zero (hp 0 hf)
      · omega
  have key : ∀ e, e < 2 ^ 256 → (((a : ZMod n) ^ e = 1) ↔ certPow n 256 a e = 1) := by
    intro e he
    rw [certPow_eq _ _ _ _ he]
    rw [show ((a : ZMod n) ^ e = 1) ↔ (((a ^ e : ℕ) : ZMod n) = ((1 : ℕ) : ZMod n)) by push_cast; rfl,
      ZMod.natCast_eq_natCast_iff', Nat.mod_eq_of_lt hn1]
  refine lucas_primality n (a : ZMod n) ((key _ (by omega)).mpr h1) fun q hq hd => ?_
  have hm : q ∈ fs := by
    rw [← hf] at hd
    obtain ⟨x, hx, hqx⟩ := (Prime.dvd_prod_iff hq.prime).mp hd
    rwa [(Nat.prime_dvd_prime_iff_eq hq (hp x hx)).mp hqx]
  exact fun h => h2 q hm ((key _ (lt_of_le_of_lt (Nat.div_le_self _ _) (by omega))).mp h)

theorem prime_32573 : Nat.Prime 32573 := by norm_num

theorem prime_65147 : Nat.Prime 65147 := by norm_num

theorem prime_57467 : Nat.Prime 57467 := by norm_num

theorem prime_132049 : Nat.Prime 132049 := by norm_num

theorem prime_3727 : Nat.Prime 3727 := by norm_num

theorem prime_1923133 : Nat.Prime 1923133 := by
  refine prime_of_certificate _ 2 [2, 2, 3, 43, 3727] (by norm_num) ?_ (by norm_num) (by decide +kernel) (by decide +kernel)
  simp only [List.forall_mem_cons, List.not_mem_nil, false_implies, implies_true, and_true]
  exact ⟨by norm_num, by norm_num, by norm_num, by norm_num, prime_3727⟩

theorem prime_4153 : Nat.Prime 4153 := by norm_num

theorem prime_1723 : Nat.Prime 1723 := by norm_num

theorem prime_430751 : Nat.Prime 430751 := by norm_num

theorem prime_31757755568855353 : Nat.Prime 31757755568855353 := by
  refine prime_of_certificate _ 10 [2, 2, 2, 3, 31, 107, 223, 4153, 430751] (by norm_num) ?_ (by norm_num) (by decide +kernel) (by decide +kernel)
  simp only [List.forall_mem_cons, List.not_mem_nil, false_implies, implies_true, and_true]
  exact ⟨by norm_num, by norm_num, by norm_num, by norm_num, by norm_num, by norm_num, by norm_num, prime_4153, prime_430751⟩

theorem prime_9463 : Nat.Prime 9463 := by norm_num

theorem prime_37853 : Nat.Prime 37853 := by norm_num

theorem prime_75707 : Nat.Prime 75707 := by norm_num

theorem prime_2437 : Nat.Prime 2437 := by norm_num

theorem prime_569003 : Nat.Prime 569003 := by norm_num

theorem prime_2773320623 : Nat.Prime 2773320623 := by
  refine prime_of_certificate _ 5 [2, 2437, 569003] (by norm_num) ?_ (by norm_num) (by decide +kernel) (by decide +kernel)
  simp only [List.forall_mem_cons, List.not_mem_nil, false_implies, implies_true, and_true]
  exact ⟨by norm_num, prime_2437, prime_569003⟩

theorem prime_72106336199 : Nat.Prime 72106336199 := by
  refine prime_of_certificate _ 7 [2, 13, 2773320623] (by norm_num) ?_ (by norm_num) (by decide +kernel) (by decide +kernel)
  simp only [List.forall_mem_cons, List.not_mem_nil, false_implies, implies_true, and_true]
  exact ⟨by norm_num, by norm_num, prime_2773320623⟩

theorem prime_8574133 : Nat.Prime 8574133 := by
  refine prime_of_certificate _ 2 [2, 2, 3, 7, 103, 991] (by norm_num) ?_ (by norm_num) (by decide +kernel) (by decide +kernel)
  simp only [List.forall_mem_cons, List.not_mem_nil, false_implies, implies_true, and_true]
  exact ⟨by norm_num, by norm_num, by norm_num, by norm_num, by norm_num, by norm_num⟩

theorem prime_1919519569386763 : Nat.Prime 1919519569386763 := by
  refine prime_of_certificate _ 2 [2, 3, 7, 19, 47, 47, 127, 8574133] (by norm_num) ?_ (by norm_num) (by decide +kernel) (by decide +kernel)
  simp only [List.forall_mem_cons, List.not_mem_nil, false_implies, implies_true, and_true]
  exact ⟨by norm_num, by norm_num, by norm_num, by norm_num, by norm_num, by norm_num, by norm_num, prime_8574133⟩

theorem prime_75445702479781427272750846543864801 : Nat.Prime 75445702479781427272750846543864801 := by
  refine prime_of_certificate _ 7 [2, 2, 2, 2, 2, 3, 3, 5, 5, 75707, 72106336199, 1919519569386763] (by norm_num) ?_ (by norm_num) (by decide +kernel) (by decide +kernel)
  simp only [List.forall_mem_cons, List.not_mem_nil, false_implies, implies_true, and_true]
  exact ⟨by norm_num, by norm_num, by norm_num, by norm_num, by norm_num, by norm_num, by norm_num, by norm_num, by norm_num, prime_75707, prime_72106336199, prime_1919519569386763⟩

theorem prime_74058212732561358302231226437062788676166966415465897661863160754340907 : Nat.Prime 74058212732561358302231226437062788676166966415465897661863160754340907 := by
  refine prime_of_certificate _ 2 [2, 3, 353, 57467, 132049, 1923133, 31757755568855353, 75445702479781427272750846543864801] (by norm_num) ?_ (by norm_num) (by decide +kernel) (by decide +kernel)
  simp only [List.forall_mem_cons, List.not_mem_nil, false_implies, implies_true, and_true]
  exact ⟨by norm_num, by norm_num, by norm_num, prime_57467, prime_132049, prime_1923133, prime_31757755568855353, prime_75445702479781427272750846543864801⟩

theorem prime_field : Nat.Prime 57896044618658097711785492504343953926634992332820282019728792003956564819949 := by
  refine prime_of_certificate _ 2 [2, 2, 3, 65147, 74058212732561358302231226437062788676166966415465897661863160754340907] (by norm_num) ?_ (by norm_num) (by decide +kernel) (by decide +kernel)
  simp only [List.forall_mem_cons, List.not_mem_nil, false_implies, implies_true, and_true]
  exact ⟨by norm_num, by norm_num, by norm_num, prime_65147, prime_74058212732561358302231226437062788676166966415465897661863160754340907⟩

theorem prime_34123 : Nat.Prime 34123 := by norm_num

theorem prime_409477 : Nat.Prime 409477 := by norm_num

theorem prime_14741173 : Nat.Prime 14741173 := by
  refine prime_of_certificate _ 2 [2, 2, 3, 3, 409477] (by norm_num) ?_ (by norm_num) (by decide +kernel) (by decide +kernel)
  simp only [List.forall_mem_cons, List.not_mem_nil, false_implies, implies_true, and_true]
  exact ⟨by norm_num, by norm_num, by norm_num, by norm_num, prime_409477⟩

theorem prime_58964693 : Nat.Prime 58964693 := by
  refine prime_of_certificate _ 2 [2, 2, 14741173] (by norm_num) ?_ (by norm_num) (by decide +kernel) (by decide +kernel)
  simp only [List.forall_mem_cons, List.not_mem_nil, false_implies, implies_true, and_true]
  exact ⟨by norm_num, by norm_num, prime_14741173⟩

theorem prime_30703 : Nat.Prime 30703 := by norm_num

theorem prime_41081 : Nat.Prime 41081 := by norm_num

theorem prime_82163 : Nat.Prime 82163 := by norm_num

theorem prime_22111 : Nat.Prime 22111 := by norm_num

theorem prime_132667 : Nat.Prime 132667 := by norm_num

theorem prime_17231 : Nat.Prime 17231 := by norm_num

theorem prime_137849 : Nat.Prime 137849 := by norm_num

theorem prime_3044861653679985063343 : Nat.Prime 3044861653679985063343 := by
  refine prime_of_certificate _ 5 [2, 3, 11, 30703, 82163, 132667, 137849] (by norm_num) ?_ (by norm_num) (by decide +kernel) (by decide +kernel)
  simp only [List.forall_mem_cons, List.not_mem_nil, false_implies, implies_true, and_true]
  exact ⟨by norm_num, by norm_num, by norm_num, prime_30703, prime_82163, prime_132667, prime_137849⟩

theorem prime_198211423230930754013084525763697 : Nat.Prime 198211423230930754013084525763697 := by
  refine prime_of_certificate _ 5 [2, 2, 2, 2, 3, 23, 58964693, 3044861653679985063343] (by norm_num) ?_ (by norm_num) (by decide +kernel) (by decide +kernel)
  simp only [List.forall_mem_cons, List.not_mem_nil, false_implies, implies_true, and_true]
  exact ⟨by norm_num, by norm_num, by norm_num, by norm_num, by norm_num, by norm_num, prime_58964693, prime_3044861653679985063343⟩

theorem prime_2939 : Nat.Prime 2939 := by norm_num

theorem prime_5879 : Nat.Prime 5879 := by norm_num

theorem prime_292386187 : Nat.Prime 292386187 := by
  refine prime_of_certificate _ 2 [2, 3, 3, 3, 3, 307, 5879] (by norm_num) ?_ (by norm_num) (by decide +kernel) (by decide +kernel)
  simp only [List.forall_mem_cons, List.not_mem_nil, false_implies, implies_true, and_true]
  exact ⟨by norm_num, by norm_num, by norm_num, by norm_num, by norm_num, by norm_num, prime_5879⟩

theorem prime_213441916511 : Nat.Prime 213441916511 := by
  refine prime_of_certificate _ 13 [2, 5, 73, 292386187] (by norm_num) ?_ (by norm_num) (by decide +kernel) (by decide +kernel)
  simp only [List.forall_mem_cons, List.not_mem_nil, false_implies, implies_true, and_true]
  exact ⟨by norm_num, by norm_num, by norm_num, prime_292386187⟩

theorem prime_1361 : Nat.Prime 1361 := by norm_num

theorem prime_2851 : Nat.Prime 2851 := by norm_num

theorem prime_3797 : Nat.Prime 3797 := by norm_num

theorem prime_531581 : Nat.Prime 531581 := by norm_num

theorem prime_2551 : Nat.Prime 2551 := by norm_num

theorem prime_1224481 : Nat.Prime 1224481 := by
  refine prime_of_certificate _ 13 [2, 2, 2, 2, 2, 3, 5, 2551] (by norm_num) ?_ (by norm_num) (by decide +kernel) (by decide +kernel)
  simp only [List.forall_mem_cons, List.not_mem_nil, false_implies, implies_true, and_true]
  exact ⟨by norm_num, by norm_num, by norm_num, by norm_num, by norm_num, by norm_num, by norm_num, prime_2551⟩

theorem prime_1257559732178653 : Nat.Prime 1257559732178653 := by
  refine prime_of_certificate _ 2 [2, 2, 3, 7, 23, 531581, 1224481] (by norm_num) ?_ (by norm_num) (by decide +kernel) (by decide +kernel)
  simp only [List.forall_mem_cons, List.not_mem_nil, false_implies, implies_true, and_true]
  exact ⟨by norm_num, by norm_num, by norm_num, by norm_num, by norm_num, prime_531581, prime_1224481⟩

theorem prime_4434155615661930479 : Nat.Prime 4434155615661930479 := by
  refine prime_of_certificate _ 17 [2, 41, 43, 1257559732178653] (by norm_num) ?_ (by norm_num) (by decide +kernel) (by decide +kernel)
  simp only [List.forall_mem_cons, List.not_mem_nil, false_implies, implies_true, and_true]
  exact ⟨by norm_num, by norm_num, by norm_num, prime_1257559732178653⟩

theorem prime_172054593956031949258510691 : Nat.Prime 172054593956031949258510691 := by
  refine prime_of_certificate _ 2 [2, 5, 1361, 2851, 4434155615661930479] (by norm_num) ?_ (by norm_num) (by decide +kernel) (by decide +kernel)
  simp only [List.forall_mem_cons, List.not_mem_nil, false_implies, implies_true, and_true]
  exact ⟨by norm_num, by norm_num, prime_1361, prime_2851, prime_4434155615661930479⟩

theorem prime_19757330305831588566944191468367130476339 : Nat.Prime 19757330305831588566944191468367130476339 := by
  refine prime_of_certificate _ 2 [2, 269, 213441916511, 172054593956031949258510691] (by norm_num) ?_ (by norm_num) (by decide +kernel) (by decide +kernel)
  simp only [List.forall_mem_cons, List.not_mem_nil, false_implies, implies_true, and_true]
  exact ⟨by norm_num, by norm_num, prime_213441916511, prime_172054593956031949258510691⟩

theorem prime_276602624281642239937218680557139826668747 : Nat.Prime 276602624281642239937218680557139826668747 := by
  refine prime_of_certificate _ 2 [2, 7, 19757330305831588566944191468367130476339] (by norm_num) ?_ (by norm_num) (by decide +kernel) (by decide +kernel)
  simp only [List.forall_mem_cons, List.not_mem_nil, false_implies, implies_true, and_true]
  exact ⟨by norm_num, by norm_num, prime_19757330305831588566944191468367130476339⟩

theorem prime_order : Nat.Prime 7237005577332262213973186563042994240857116359379907606001950938285454250989 := by
  refine prime_of_certificate _ 2 [2, 2, 3, 11, 198211423230930754013084525763697, 276602624281642239937218680557139826668747] (by norm_num) ?_ (by norm_num) (by decide +kernel) (by decide +kernel)
  simp only [List.forall_mem_cons, List.not_mem_nil, false_implies, implies_true, and_true]
  exact ⟨by norm_num, by norm_num, by norm_num, by norm_num, prime_198211423230930754013084525763697, prime_276602624281642239937218680557139826668747⟩

end Verif
