import Verif.Ed25519.ScalarReduce
import Verif.Ed25519.FieldEnc

/-!
# Products, differences and quotients of scalars
-/

namespace Verif.Kyber

/-! ## Reading limbs -/

theorem mask21_eq {x : Int} (h : 0 ≤ x) : mask21 x = x % 2097152 := by
  obtain ⟨n, rfl⟩ := Int.eq_ofNat_of_zero_le h
  unfold mask21
  rw [Int.toNat_natCast, Nat.and_comm, show 2097151 = 2 ^ 21 - 1 by rfl, Nat.and_two_pow_sub_one_eq_mod]
  norm_num

theorem scLoad_limbs (a : Bytes) :
    scLoad a 0 = (at' a 0 : Int) + 256 * (at' a 1 : Int) + 65536 * ((at' a 2 : Int) % 32) ∧
    scLoad a 1 = ((at' a 2 : Int) / 32) + 8 * (at' a 3 : Int) + 2048 * (at' a 4 : Int) + 524288 * ((at' a 5 : Int) % 4) ∧
    scLoad a 2 = ((at' a 5 : Int) / 4) + 64 * (at' a 6 : Int) + 16384 * ((at' a 7 : Int) % 128) ∧
    scLoad a 3 = ((at' a 7 : Int) / 128) + 2 * (at' a 8 : Int) + 512 * (at' a 9 : Int) + 131072 * ((at' a 10 : Int) % 16) ∧
    scLoad a 4 = ((at' a 10 : Int) / 16) + 16 * (at' a 11 : Int) + 4096 * (at' a 12 : Int) + 1048576 * ((at' a 13 : Int) % 2) ∧
    scLoad a 5 = ((at' a 13 : Int) / 2) + 128 * (at' a 14 : Int) + 32768 * ((at' a 15 : Int) % 64) ∧
    scLoad a 6 = ((at' a 15 : Int) / 64) + 4 * (at' a 16 : Int) + 1024 * (at' a 17 : Int) + 262144 * ((at' a 18 : Int) % 8) ∧
    scLoad a 7 = ((at' a 18 : Int) / 8) + 32 * (at' a 19 : Int) + 8192 * (at' a 20 : Int) ∧
    scLoad a 8 = (at' a 21 : Int) + 256 * (at' a 22 : Int) + 65536 * ((at' a 23 : Int) % 32) ∧
    scLoad a 9 = ((at' a 23 : Int) / 32) + 8 * (at' a 24 : Int) + 2048 * (at' a 25 : Int) + 524288 * ((at' a 26 : Int) % 4) ∧
    scLoad a 10 = ((at' a 26 : Int) / 4) + 64 * (at' a 27 : Int) + 16384 * ((at' a 28 : Int) % 128) ∧
    scLoad a 11 = ((at' a 28 : Int) / 128) + 2 * (at' a 29 : Int) + 512 * (at' a 30 : Int) + 131072 * (at' a 31 : Int) := by
  have lt : ∀ i, (at' a i : Int) < 256 := fun i => by exact_mod_cast at_lt a i
  have nn : ∀ i, (0 : Int) ≤ at' a i := fun i => Int.natCast_nonneg _
  refine ⟨?_, ?_, ?_, ?_, ?_, ?_, ?_, ?_, ?_, ?_, ?_, ?_⟩
  · show mask21 (load3 a 0) = _
    rw [load3_eq, mask21_eq (by have := lt 0; have := nn 0; have := lt 1; have := nn 1; have := lt 2; have := nn 2; omega)]
    simp only [Nat.reduceAdd]
    have := lt 0; have := nn 0; have := lt 1; have := nn 1; have := lt 2; have := nn 2
    omega
  · show mask21 (load4 a 2 / 2 ^ 5) = _
    rw [load4_eq, mask21_eq (by have := lt 2; have := nn 2; have := lt 3; have := nn 3; have := lt 4; have := nn 4; have := lt 5; have := nn 5; omega)]
    simp only [Nat.reduceAdd]
    have := lt 2; have := nn 2; have := lt 3; have := nn 3; have := lt 4; have := nn 4; have := lt 5; have := nn 5
    omega
  · show mask21 (load3 a 5 / 2 ^ 2) = _
    rw [load3_eq, mask21_eq (by have := lt 5; have := nn 5; have := lt 6; have := nn 6; have := lt 7; have := nn 7; omega)]
    simp only [Nat.reduceAdd]
    have := lt 5; have := nn 5; have := lt 6; have := nn 6; have := lt 7; have := nn 7
    omega
  · show mask21 (load4 a 7 / 2 ^ 7) = _
    rw [load4_eq, mask21_eq (by have := lt 7; have := nn 7; have := lt 8; have := nn 8; have := lt 9; have := nn 9; have := lt 10; have := nn 10; omega)]
    simp only [Nat.reduceAdd]
    have := lt 7; have := nn 7; have := lt 8; have := nn 8; have := lt 9; have := nn 9; have := lt 10; have := nn 10
    omega
  · show mask21 (load4 a 10 / 2 ^ 4) = _
    rw [load4_eq, mask21_eq (by have := lt 10; have := nn 10; have := lt 11; have := nn 11; have := lt 12; have := nn 12; have := lt 13; have := nn 13; omega)]
    simp only [Nat.reduceAdd]
    have := lt 10; have := nn 10; have := lt 11; have := nn 11; have := lt 12; have := nn 12; have := lt 13; have := nn 13
    omega
  · show mask21 (load3 a 13 / 2 ^ 1) = _
    rw [load3_eq, mask21_eq (by have := lt 13; have := nn 13; have := lt 14; have := nn 14; have := lt 15; have := nn 15; omega)]
    simp only [Nat.reduceAdd]
    have := lt 13; have := nn 13; have := lt 14; have := nn 14; have := lt 15; have := nn 15
    omega
  · show mask21 (load4 a 15 / 2 ^ 6) = _
    rw [load4_eq, mask21_eq (by have := lt 15; have := nn 15; have := lt 16; have := nn 16; have := lt 17; have := nn 17; have := lt 18; have := nn 18; omega)]
    simp only [Nat.reduceAdd]
    have := lt 15; have := nn 15; have := lt 16; have := nn 16; have := lt 17; have := nn 17; have := lt 18; have := nn 18
    omega
  · show mask21 (load3 a 18 / 2 ^ 3) = _
    rw [load3_eq, mask21_eq (by have := lt 18; have := nn 18; have := lt 19; have := nn 19; have := lt 20; have := nn 20; omega)]
    simp only [Nat.reduceAdd]
    have := lt 18; have := nn 18; have := lt 19; have := nn 19; have := lt 20; have := nn 20
    omega
  · show mask21 (load3 a 21) = _
    rw [load3_eq, mask21_eq (by have := lt 21; have := nn 21; have := lt 22; have := nn 22; have := lt 23; have := nn 23; omega)]
    simp only [Nat.reduceAdd]
    have := lt 21; have := nn 21; have := lt 22; have := nn 22; have := lt 23; have := nn 23
    omega
  · show mask21 (load4 a 23 / 2 ^ 5) = _
    rw [load4_eq, mask21_eq (by have := lt 23; have := nn 23; have := lt 24; have := nn 24; have := lt 25; have := nn 25; have := lt 26; have := nn 26; omega)]
    simp only [Nat.reduceAdd]
    have := lt 23; have := nn 23; have := lt 24; have := nn 24; have := lt 25; have := nn 25; have := lt 26; have := nn 26
    omega
  · show mask21 (load3 a 26 / 2 ^ 2) = _
    rw [load3_eq, mask21_eq (by have := lt 26; have := nn 26; have := lt 27; have := nn 27; have := lt 28; have := nn 28; omega)]
    simp only [Nat.reduceAdd]
    have := lt 26; have := nn 26; have := lt 27; have := nn 27; have := lt 28; have := nn 28
    omega
  · show (load4 a 28 / 2 ^ 7) = _
    rw [load4_eq]
    simp only [Nat.reduceAdd]
    have := lt 28; have := nn 28; have := lt 29; have := nn 29; have := lt 30; have := nn 30; have := lt 31; have := nn 31
    omega

/-- The limbs are those of the number. -/
theorem scLoad_spec {a : Bytes} (h : a.length = 32) :
    (∀ i, 0 ≤ scLoad a i ∧ scLoad a i ≤ 33554431) ∧ (∀ i, 12 ≤ i → scLoad a i = 0) ∧
      scLoad a 0 + scLoad a 1 * 2097152 + scLoad a 2 * 4398046511104 + scLoad a 3 * 9223372036854775808 + scLoad a 4 * 19342813113834066795298816 + scLoad a 5 * 40564819207303340847894502572032 + scLoad a 6 * 85070591730234615865843651857942052864 + scLoad a 7 * 178405961588244985132285746181186892047843328 + scLoad a 8 * 374144419156711147060143317175368453031918731001856 + scLoad a 9 * 784637716923335095479473677900958302012794430558004314112 + scLoad a 10 * 1645504557321206042154969182557350504982735865633579863348609024 + scLoad a 11 * 3450873173395281893717377931138512726225554486085193277581262111899648 = leNat a := by
  obtain ⟨l0, l1, l2, l3, l4, l5, l6, l7, l8, l9, l10, l11⟩ := scLoad_limbs a
  have lt : ∀ i, (at' a i : Int) < 256 := fun i => by exact_mod_cast at_lt a i
  have nn : ∀ i, (0 : Int) ≤ at' a i := fun i => Int.natCast_nonneg _
  have z : ∀ i, 12 ≤ i → scLoad a i = 0 := by
    intro i hi
    obtain ⟨j, rfl⟩ : ∃ j, i = j + 12 := ⟨i - 12, by omega⟩
    rfl
  refine ⟨?_, z, ?_⟩
  · intro i
    by_cases hi : 12 ≤ i
    · rw [z i hi]; decide
    · interval_cases i
      · rw [l0]; have := lt 0; have := nn 0; have := lt 1; have := nn 1; have := lt 2; have := nn 2; omega
      · rw [l1]; have := lt 2; have := nn 2; have := lt 3; have := nn 3; have := lt 4; have := nn 4; have := lt 5; have := nn 5; omega
      · rw [l2]; have := lt 5; have := nn 5; have := lt 6; have := nn 6; have := lt 7; have := nn 7; omega
      · rw [l3]; have := lt 7; have := nn 7; have := lt 8; have := nn 8; have := lt 9; have := nn 9; have := lt 10; have := nn 10; omega
      · rw [l4]; have := lt 10; have := nn 10; have := lt 11; have := nn 11; have := lt 12; have := nn 12; have := lt 13; have := nn 13; omega
      · rw [l5]; have := lt 13; have := nn 13; have := lt 14; have := nn 14; have := lt 15; have := nn 15; omega
      · rw [l6]; have := lt 15; have := nn 15; have := lt 16; have := nn 16; have := lt 17; have := nn 17; have := lt 18; have := nn 18; omega
      · rw [l7]; have := lt 18; have := nn 18; have := lt 19; have := nn 19; have := lt 20; have := nn 20; omega
      · rw [l8]; have := lt 21; have := nn 21; have := lt 22; have := nn 22; have := lt 23; have := nn 23; omega
      · rw [l9]; have := lt 23; have := nn 23; have := lt 24; have := nn 24; have := lt 25; have := nn 25; have := lt 26; have := nn 26; omega
      · rw [l10]; have := lt 26; have := nn 26; have := lt 27; have := nn 27; have := lt 28; have := nn 28; omega
      · rw [l11]; have := lt 28; have := nn 28; have := lt 29; have := nn 29; have := lt 30; have := nn 30; have := lt 31; have := nn 31; omega
  · rw [leNat_at a h, l0, l1, l2, l3, l4, l5, l6, l7, l8, l9, l10, l11]
    have s2 : (at' a 2 : Int) = ((at' a 2 : Int) % 32) + 32 * ((at' a 2 : Int) / 32) := by omega
    have s5 : (at' a 5 : Int) = ((at' a 5 : Int) % 4) + 4 * ((at' a 5 : Int) / 4) := by omega
    have s7 : (at' a 7 : Int) = ((at' a 7 : Int) % 128) + 128 * ((at' a 7 : Int) / 128) := by omega
    have s10 : (at' a 10 : Int) = ((at' a 10 : Int) % 16) + 16 * ((at' a 10 : Int) / 16) := by omega
    have s13 : (at' a 13 : Int) = ((at' a 13 : Int) % 2) + 2 * ((at' a 13 : Int) / 2) := by omega
    have s15 : (at' a 15 : Int) = ((at' a 15 : Int) % 64) + 64 * ((at' a 15 : Int) / 64) := by omega
    have s18 : (at' a 18 : Int) = ((at' a 18 : Int) % 8) + 8 * ((at' a 18 : Int) / 8) := by omega
    have s23 : (at' a 23 : Int) = ((at' a 23 : Int) % 32) + 32 * ((at' a 23 : Int) / 32) := by omega
    have s26 : (at' a 26 : Int) = ((at' a 26 : Int) % 4) + 4 * ((at' a 26 : Int) / 4) := by omega
    have s28 : (at' a 28 : Int) = ((at' a 28 : Int) % 128) + 128 * ((at' a 28 : Int) / 128) := by omega
    push_cast
    linear_combination - 65536 * s2 - 1099511627776 * s5 - 72057594037927936 * s7 - 1208925819614629174706176 * s10 - 20282409603651670423947251286016 * s13 - 1329227995784915872903807060280344576 * s15 - 22300745198530623141535718272648361505980416 * s18 - 24519928653854221733733552434404946937899825954937634816 * s23 - 411376139330301510538742295639337626245683966408394965837152256 * s26 - 26959946667150639794667015087019630673637144422540572481103610249216 * s28

/-! ## Writing limbs -/

theorem byteOf_lor64 {a c : Int} (k : Nat) (hk : k ≤ 8) (ha : 0 ≤ a) (hak : a < 2 ^ k) (hc : 0 ≤ c) :
    ((byteOf (lor64 a (w64 (c * 2 ^ k)))).toNat : Int) = (a + c * 2 ^ k) % 256 := by
  rw [byteOf_toNat]
  obtain ⟨a', rfl⟩ := Int.eq_ofNat_of_zero_le ha
  obtain ⟨c', rfl⟩ := Int.eq_ofNat_of_zero_le hc
  have hak' : a' < 2 ^ k := by exact_mod_cast hak
  have kle : 2 ^ k ≤ 2 ^ 8 := Nat.pow_le_pow_right (by decide) hk
  unfold lor64
  have e0 : ∀ x : Int, BitVec.ofInt 64 (w64 x) = BitVec.ofInt 64 x := fun x => by
    unfold w64
    rw [← BitVec.toInt_inj, BitVec.toInt_ofInt, BitVec.toInt_ofInt, Int.bmod_bmod]
  have e1 : BitVec.ofInt 64 (w64 ((c' : Int) * 2 ^ k)) = BitVec.ofNat 64 (c' * 2 ^ k) := by
    rw [e0, ← BitVec.ofInt_natCast]
    push_cast
    rfl
  have e2 : BitVec.ofInt 64 (a' : Int) = BitVec.ofNat 64 a' := BitVec.ofInt_natCast ..
  have e3 : (BitVec.ofNat 64 a' ||| BitVec.ofNat 64 (c' * 2 ^ k)).toNat % 256 = (a' + c' * 2 ^ k) % 256 := by
    rw [BitVec.toNat_or, BitVec.toNat_ofNat, BitVec.toNat_ofNat, Nat.mod_eq_of_lt (a := a') (by omega)]
    have e4 : c' * 2 ^ k % 2 ^ 64 = (c' % 2 ^ (64 - k)) <<< k := by
      rw [Nat.shiftLeft_eq, ← Nat.mul_mod_mul_right, ← pow_add]
      congr 2; omega
    rw [e4, or_shift hak', ← Nat.shiftLeft_eq, ← e4]
    rw [Nat.add_mod, Nat.mod_mod_of_dvd _ (by decide : 256 ∣ 2 ^ 64), ← Nat.add_mod]
  rw [e1, e2]
  have e5 : ∀ b : BitVec 64, b.toInt % 256 = ((b.toNat % 256 : Nat) : Int) := by
    intro b
    rw [BitVec.toInt_eq_toNat_bmod]
    have : ((b.toNat : Int).bmod (2 ^ 64)) % 256 = (b.toNat : Int) % 256 := by
      rw [Int.bmod_def]
      have := b.isLt
      split <;> omega
    rw [this]
    push_cast
    rfl
  rw [e5, e3]
  push_cast
  rfl

theorem scPack_length (s : Nat → Int) : (scPack s).length = 32 := rfl

theorem scPack_spec {s : Nat → Int} (h : ∀ i < 11, 0 ≤ s i ∧ s i < 2097152) (h1 : 0 ≤ s 11)
    (h2 : s 11 < 4194304) (hz : ∀ i, 12 ≤ i → s i = 0) : (leNat (scPack s) : Int) = sval s := by
  obtain ⟨r0, q0⟩ := h 0 (by decide)
  obtain ⟨r1, q1⟩ := h 1 (by decide)
  obtain ⟨r2, q2⟩ := h 2 (by decide)
  obtain ⟨r3, q3⟩ := h 3 (by decide)
  obtain ⟨r4, q4⟩ := h 4 (by decide)
  obtain ⟨r5, q5⟩ := h 5 (by decide)
  obtain ⟨r6, q6⟩ := h 6 (by decide)
  obtain ⟨r7, q7⟩ := h 7 (by decide)
  obtain ⟨r8, q8⟩ := h 8 (by decide)
  obtain ⟨r9, q9⟩ := h 9 (by decide)
  obtain ⟨r10, q10⟩ := h 10 (by decide)
  have r11 := h1
  have q11 := h2
  rw [leNat_at _ (scPack_length s)]
  have B0 : (at' (scPack s) 0 : Int) = s 0 % 256 := by
    refine (byteOf_toNat (s 0 / 2 ^ 0)).trans ?_
    omega
  have B1 : (at' (scPack s) 1 : Int) = s 0 / 256 % 256 := by
    refine (byteOf_toNat (s 0 / 2 ^ 8)).trans ?_
    omega
  have B2 : (at' (scPack s) 2 : Int) = s 0 / 65536 + 32 * (s 1 % 8) := by
    refine (byteOf_lor64 (a := s 0 / 2 ^ 16) (c := s 1) 5 (by decide) (by omega) (by omega) r1).trans ?_
    omega
  have B3 : (at' (scPack s) 3 : Int) = s 1 / 8 % 256 := by
    refine (byteOf_toNat (s 1 / 2 ^ 3)).trans ?_
    omega
  have B4 : (at' (scPack s) 4 : Int) = s 1 / 2048 % 256 := by
    refine (byteOf_toNat (s 1 / 2 ^ 11)).trans ?_
    omega
  have B5 : (at' (scPack s) 5 : Int) = s 1 / 524288 + 4 * (s 2 % 64) := by
    refine (byteOf_lor64 (a := s 1 / 2 ^ 19) (c := s 2) 2 (by decide) (by omega) (by omega) r2).trans ?_
    omega
  have B6 : (at' (scPack s) 6 : Int) = s 2 / 64 % 256 := by
    refine (byteOf_toNat (s 2 / 2 ^ 6)).trans ?_
    omega
  have B7 : (at' (scPack s) 7 : Int) = s 2 / 16384 + 128 * (s 3 % 2) := by
    refine (byteOf_lor64 (a := s 2 / 2 ^ 14) (c := s 3) 7 (by decide) (by omega) (by omega) r3).trans ?_
    omega
  have B8 : (at' (scPack s) 8 : Int) = s 3 / 2 % 256 := by
    refine (byteOf_toNat (s 3 / 2 ^ 1)).trans ?_
    omega
  have B9 : (at' (scPack s) 9 : Int) = s 3 / 512 % 256 := by
    refine (byteOf_toNat (s 3 / 2 ^ 9)).trans ?_
    omega
  have B10 : (at' (scPack s) 10 : Int) = s 3 / 131072 + 16 * (s 4 % 16) := by
    refine (byteOf_lor64 (a := s 3 / 2 ^ 17) (c := s 4) 4 (by decide) (by omega) (by omega) r4).trans ?_
    omega
  have B11 : (at' (scPack s) 11 : Int) = s 4 / 16 % 256 := by
    refine (byteOf_toNat (s 4 / 2 ^ 4)).trans ?_
    omega
  have B12 : (at' (scPack s) 12 : Int) = s 4 / 4096 % 256 := by
    refine (byteOf_toNat (s 4 / 2 ^ 12)).trans ?_
    omega
  have B13 : (at' (scPack s) 13 : Int) = s 4 / 1048576 + 2 * (s 5 % 128) := by
    refine (byteOf_lor64 (a := s 4 / 2 ^ 20) (c := s 5) 1 (by decide) (by omega) (by omega) r5).trans ?_
    omega
  have B14 : (at' (scPack s) 14 : Int) = s 5 / 128 % 256 := by
    refine (byteOf_toNat (s 5 / 2 ^ 7)).trans ?_
    omega
  have B15 : (at' (scPack s) 15 : Int) = s 5 / 32768 + 64 * (s 6 % 4) := by
    refine (byteOf_lor64 (a := s 5 / 2 ^ 15) (c := s 6) 6 (by decide) (by omega) (by omega) r6).trans ?_
    omega
  have B16 : (at' (scPack s) 16 : Int) = s 6 / 4 % 256 := by
    refine (byteOf_toNat (s 6 / 2 ^ 2)).trans ?_
    omega
  have B17 : (at' (scPack s) 17 : Int) = s 6 / 1024 % 256 := by
    refine (byteOf_toNat (s 6 / 2 ^ 10)).trans ?_
    omega
  have B18 : (at' (scPack s) 18 : Int) = s 6 / 262144 + 8 * (s 7 % 32) := by
    refine (byteOf_lor64 (a := s 6 / 2 ^ 18) (c := s 7) 3 (by decide) (by omega) (by omega) r7).trans ?_
    omega
  have B19 : (at' (scPack s) 19 : Int) = s 7 / 32 % 256 := by
    refine (byteOf_toNat (s 7 / 2 ^ 5)).trans ?_
    omega
  have B20 : (at' (scPack s) 20 : Int) = s 7 / 8192 := by
    refine (byteOf_toNat (s 7 / 2 ^ 13)).trans ?_
    omega
  have B21 : (at' (scPack s) 21 : Int) = s 8 % 256 := by
    refine (byteOf_toNat (s 8 / 2 ^ 0)).trans ?_
    omega
  have B22 : (at' (scPack s) 22 : Int) = s 8 / 256 % 256 := by
    refine (byteOf_toNat (s 8 / 2 ^ 8)).trans ?_
    omega
  have B23 : (at' (scPack s) 23 : Int) = s 8 / 65536 + 32 * (s 9 % 8) := by
    refine (byteOf_lor64 (a := s 8 / 2 ^ 16) (c := s 9) 5 (by decide) (by omega) (by omega) r9).trans ?_
    omega
  have B24 : (at' (scPack s) 24 : Int) = s 9 / 8 % 256 := by
    refine (byteOf_toNat (s 9 / 2 ^ 3)).trans ?_
    omega
  have B25 : (at' (scPack s) 25 : Int) = s 9 / 2048 % 256 := by
    refine (byteOf_toNat (s 9 / 2 ^ 11)).trans ?_
    omega
  have B26 : (at' (scPack s) 26 : Int) = s 9 / 524288 + 4 * (s 10 % 64) := by
    refine (byteOf_lor64 (a := s 9 / 2 ^ 19) (c := s 10) 2 (by decide) (by omega) (by omega) r10).trans ?_
    omega
  have B27 : (at' (scPack s) 27 : Int) = s 10 / 64 % 256 := by
    refine (byteOf_toNat (s 10 / 2 ^ 6)).trans ?_
    omega
  have B28 : (at' (scPack s) 28 : Int) = s 10 / 16384 + 128 * (s 11 % 2) := by
    refine (byteOf_lor64 (a := s 10 / 2 ^ 14) (c := s 11) 7 (by decide) (by omega) (by omega) r11).trans ?_
    omega
  have B29 : (at' (scPack s) 29 : Int) = s 11 / 2 % 256 := by
    refine (byteOf_toNat (s 11 / 2 ^ 1)).trans ?_
    omega
  have B30 : (at' (scPack s) 30 : Int) = s 11 / 512 % 256 := by
    refine (byteOf_toNat (s 11 / 2 ^ 9)).trans ?_
    omega
  have B31 : (at' (scPack s) 31 : Int) = s 11 / 131072 := by
    refine (byteOf_toNat (s 11 / 2 ^ 17)).trans ?_
    omega
  have L0 : s 0 = (s 0 % 256) + 256 * (s 0 / 256 % 256) + 65536 * (s 0 / 65536) := by omega
  have L1 : s 1 = (s 1 % 8) + 8 * (s 1 / 8 % 256) + 2048 * (s 1 / 2048 % 256) + 524288 * (s 1 / 524288) := by omega
  have L2 : s 2 = (s 2 % 64) + 64 * (s 2 / 64 % 256) + 16384 * (s 2 / 16384) := by omega
  have L3 : s 3 = (s 3 % 2) + 2 * (s 3 / 2 % 256) + 512 * (s 3 / 512 % 256) + 131072 * (s 3 / 131072) := by omega
  have L4 : s 4 = (s 4 % 16) + 16 * (s 4 / 16 % 256) + 4096 * (s 4 / 4096 % 256) + 1048576 * (s 4 / 1048576) := by omega
  have L5 : s 5 = (s 5 % 128) + 128 * (s 5 / 128 % 256) + 32768 * (s 5 / 32768) := by omega
  have L6 : s 6 = (s 6 % 4) + 4 * (s 6 / 4 % 256) + 1024 * (s 6 / 1024 % 256) + 262144 * (s 6 / 262144) := by omega
  have L7 : s 7 = (s 7 % 32) + 32 * (s 7 / 32 % 256) + 8192 * (s 7 / 8192) := by omega
  have L8 : s 8 = (s 8 % 256) + 256 * (s 8 / 256 % 256) + 65536 * (s 8 / 65536) := by omega
  have L9 : s 9 = (s 9 % 8) + 8 * (s 9 / 8 % 256) + 2048 * (s 9 / 2048 % 256) + 524288 * (s 9 / 524288) := by omega
  have L10 : s 10 = (s 10 % 64) + 64 * (s 10 / 64 % 256) + 16384 * (s 10 / 16384) := by omega
  have L11 : s 11 = (s 11 % 2) + 2 * (s 11 / 2 % 256) + 512 * (s 11 / 512 % 256) + 131072 * (s 11 / 131072) := by omega
  have e : sval s = ∑ i ∈ Finset.range 12, s i * 2 ^ (21 * i) := by
    unfold sval
    symm
    apply Finset.sum_subset
    · intro i hi
      rw [Finset.mem_range] at *
      omega
    · intro i _ hi
      rw [Finset.mem_range, not_lt] at hi
      rw [hz i hi, zero_mul]
  rw [e]
  simp only [Finset.sum_range_succ, Finset.sum_range_zero]
  norm_num only
  push_cast
  linear_combination 1 * B0 + 256 * B1 + 65536 * B2 + 16777216 * B3 + 4294967296 * B4 + 1099511627776 * B5 + 281474976710656 * B6 + 72057594037927936 * B7 + 18446744073709551616 * B8 + 4722366482869645213696 * B9 + 1208925819614629174706176 * B10 + 309485009821345068724781056 * B11 + 79228162514264337593543950336 * B12 + 20282409603651670423947251286016 * B13 + 5192296858534827628530496329220096 * B14 + 1329227995784915872903807060280344576 * B15 + 340282366920938463463374607431768211456 * B16 + 87112285931760246646623899502532662132736 * B17 + 22300745198530623141535718272648361505980416 * B18 + 5708990770823839524233143877797980545530986496 * B19 + 1461501637330902918203684832716283019655932542976 * B20 + 374144419156711147060143317175368453031918731001856 * B21 + 95780971304118053647396689196894323976171195136475136 * B22 + 24519928653854221733733552434404946937899825954937634816 * B23 + 6277101735386680763835789423207666416102355444464034512896 * B24 + 1606938044258990275541962092341162602522202993782792835301376 * B25 + 411376139330301510538742295639337626245683966408394965837152256 * B26 + 105312291668557186697918027683670432318895095400549111254310977536 * B27 + 26959946667150639794667015087019630673637144422540572481103610249216 * B28 + 6901746346790563787434755862277025452451108972170386555162524223799296 * B29 + 1766847064778384329583297500742918515827483896875618958121606201292619776 * B30 + 452312848583266388373324160190187140051835877600158453279131187530910662656 * B31 - 1 * L0 - 2097152 * L1 - 4398046511104 * L2 - 9223372036854775808 * L3 - 19342813113834066795298816 * L4 - 40564819207303340847894502572032 * L5 - 85070591730234615865843651857942052864 * L6 - 178405961588244985132285746181186892047843328 * L7 - 374144419156711147060143317175368453031918731001856 * L8 - 784637716923335095479473677900958302012794430558004314112 * L9 - 1645504557321206042154969182557350504982735865633579863348609024 * L10 - 3450873173395281893717377931138512726225554486085193277581262111899648 * L11

/-! ## Products -/

theorem prod_bound {a b : Int} (ha : 0 ≤ a ∧ a ≤ 33554431) (hb : 0 ≤ b ∧ b ≤ 33554431) :
    0 ≤ a * b ∧ a * b ≤ 1125899839733761 :=
  ⟨mul_nonneg ha.1 hb.1, (mul_le_mul ha.2 hb.2 hb.1 (by decide)).trans (by decide)⟩

theorem scProduct_spec {a b : Nat → Int} (ha : ∀ i, 0 ≤ a i ∧ a i ≤ 33554431)
    (hb : ∀ i, 0 ≤ b i ∧ b i ≤ 33554431) :
    scProduct a b 0 = a 0 * b 0 ∧
    scProduct a b 1 = a 0 * b 1 + a 1 * b 0 ∧
    scProduct a b 2 = a 0 * b 2 + a 1 * b 1 + a 2 * b 0 ∧
    scProduct a b 3 = a 0 * b 3 + a 1 * b 2 + a 2 * b 1 + a 3 * b 0 ∧
    scProduct a b 4 = a 0 * b 4 + a 1 * b 3 + a 2 * b 2 + a 3 * b 1 + a 4 * b 0 ∧
    scProduct a b 5 = a 0 * b 5 + a 1 * b 4 + a 2 * b 3 + a 3 * b 2 + a 4 * b 1 + a 5 * b 0 ∧
    scProduct a b 6 = a 0 * b 6 + a 1 * b 5 + a 2 * b 4 + a 3 * b 3 + a 4 * b 2 + a 5 * b 1 + a 6 * b 0 ∧
    scProduct a b 7 = a 0 * b 7 + a 1 * b 6 + a 2 * b 5 + a 3 * b 4 + a 4 * b 3 + a 5 * b 2 + a 6 * b 1 + a 7 * b 0 ∧
    scProduct a b 8 = a 0 * b 8 + a 1 * b 7 + a 2 * b 6 + a 3 * b 5 + a 4 * b 4 + a 5 * b 3 + a 6 * b 2 + a 7 * b 1 + a 8 * b 0 ∧
    scProduct a b 9 = a 0 * b 9 + a 1 * b 8 + a 2 * b 7 + a 3 * b 6 + a 4 * b 5 + a 5 * b 4 + a 6 * b 3 + a 7 * b 2 + a 8 * b 1 + a 9 * b 0 ∧
    scProduct a b 10 = a 0 * b 10 + a 1 * b 9 + a 2 * b 8 + a 3 * b 7 + a 4 * b 6 + a 5 * b 5 + a 6 * b 4 + a 7 * b 3 + a 8 * b 2 + a 9 * b 1 + a 10 * b 0 ∧
    scProduct a b 11 = a 0 * b 11 + a 1 * b 10 + a 2 * b 9 + a 3 * b 8 + a 4 * b 7 + a 5 * b 6 + a 6 * b 5 + a 7 * b 4 + a 8 * b 3 + a 9 * b 2 + a 10 * b 1 + a 11 * b 0 ∧
    scProduct a b 12 = a 1 * b 11 + a 2 * b 10 + a 3 * b 9 + a 4 * b 8 + a 5 * b 7 + a 6 * b 6 + a 7 * b 5 + a 8 * b 4 + a 9 * b 3 + a 10 * b 2 + a 11 * b 1 ∧
    scProduct a b 13 = a 2 * b 11 + a 3 * b 10 + a 4 * b 9 + a 5 * b 8 + a 6 * b 7 + a 7 * b 6 + a 8 * b 5 + a 9 * b 4 + a 10 * b 3 + a 11 * b 2 ∧
    scProduct a b 14 = a 3 * b 11 + a 4 * b 10 + a 5 * b 9 + a 6 * b 8 + a 7 * b 7 + a 8 * b 6 + a 9 * b 5 + a 10 * b 4 + a 11 * b 3 ∧
    scProduct a b 15 = a 4 * b 11 + a 5 * b 10 + a 6 * b 9 + a 7 * b 8 + a 8 * b 7 + a 9 * b 6 + a 10 * b 5 + a 11 * b 4 ∧
    scProduct a b 16 = a 5 * b 11 + a 6 * b 10 + a 7 * b 9 + a 8 * b 8 + a 9 * b 7 + a 10 * b 6 + a 11 * b 5 ∧
    scProduct a b 17 = a 6 * b 11 + a 7 * b 10 + a 8 * b 9 + a 9 * b 8 + a 10 * b 7 + a 11 * b 6 ∧
    scProduct a b 18 = a 7 * b 11 + a 8 * b 10 + a 9 * b 9 + a 10 * b 8 + a 11 * b 7 ∧
    scProduct a b 19 = a 8 * b 11 + a 9 * b 10 + a 10 * b 9 + a 11 * b 8 ∧
    scProduct a b 20 = a 9 * b 11 + a 10 * b 10 + a 11 * b 9 ∧
    scProduct a b 21 = a 10 * b 11 + a 11 * b 10 ∧
    scProduct a b 22 = a 11 * b 11 := by
  refine ⟨?_, ?_, ?_, ?_, ?_, ?_, ?_, ?_, ?_, ?_, ?_, ?_, ?_, ?_, ?_, ?_, ?_, ?_, ?_, ?_, ?_, ?_, ?_⟩
  · exact w64_eq (by
      have := prod_bound (ha 0) (hb 0)
      rw [abs_le]
      omega)
  · exact w64_eq (by
      have := prod_bound (ha 0) (hb 1)
      have := prod_bound (ha 1) (hb 0)
      rw [abs_le]
      omega)
  · exact w64_eq (by
      have := prod_bound (ha 0) (hb 2)
      have := prod_bound (ha 1) (hb 1)
      have := prod_bound (ha 2) (hb 0)
      rw [abs_le]
      omega)
  · exact w64_eq (by
      have := prod_bound (ha 0) (hb 3)
      have := prod_bound (ha 1) (hb 2)
      have := prod_bound (ha 2) (hb 1)
      have := prod_bound (ha 3) (hb 0)
      rw [abs_le]
      omega)
  · exact w64_eq (by
      have := prod_bound (ha 0) (hb 4)
      have := prod_bound (ha 1) (hb 3)
      have := prod_bound (ha 2) (hb 2)
      have := prod_bound (ha 3) (hb 1)
      have := prod_bound (ha 4) (hb 0)
      rw [abs_le]
      omega)
  · exact w64_eq (by
      have := prod_bound (ha 0) (hb 5)
      have := prod_bound (ha 1) (hb 4)
      have := prod_bound (ha 2) (hb 3)
      have := prod_bound (ha 3) (hb 2)
      have := prod_bound (ha 4) (hb 1)
      have := prod_bound (ha 5) (hb 0)
      rw [abs_le]
      omega)
  · exact w64_eq (by
      have := prod_bound (ha 0) (hb 6)
      have := prod_bound (ha 1) (hb 5)
      have := prod_bound (ha 2) (hb 4)
      have := prod_bound (ha 3) (hb 3)
      have := prod_bound (ha 4) (hb 2)
      have := prod_bound (ha 5) (hb 1)
      have := prod_bound (ha 6) (hb 0)
      rw [abs_le]
      omega)
  · exact w64_eq (by
      have := prod_bound (ha 0) (hb 7)
      have := prod_bound (ha 1) (hb 6)
      have := prod_bound (ha 2) (hb 5)
      have := prod_bound (ha 3) (hb 4)
      have := prod_bound (ha 4) (hb 3)
      have := prod_bound (ha 5) (hb 2)
      have := prod_bound (ha 6) (hb 1)
      have := prod_bound (ha 7) (hb 0)
      rw [abs_le]
      omega)
  · exact w64_eq (by
      have := prod_bound (ha 0) (hb 8)
      have := prod_bound (ha 1) (hb 7)
      have := prod_bound (ha 2) (hb 6)
      have := prod_bound (ha 3) (hb 5)
      have := prod_bound (ha 4) (hb 4)
      have := prod_bound (ha 5) (hb 3)
      have := prod_bound (ha 6) (hb 2)
      have := prod_bound (ha 7) (hb 1)
      have := prod_bound (ha 8) (hb 0)
      rw [abs_le]
      omega)
  · exact w64_eq (by
      have := prod_bound (ha 0) (hb 9)
      have := prod_bound (ha 1) (hb 8)
      have := prod_bound (ha 2) (hb 7)
      have := prod_bound (ha 3) (hb 6)
      have := prod_bound (ha 4) (hb 5)
      have := prod_bound (ha 5) (hb 4)
      have := prod_bound (ha 6) (hb 3)
      have := prod_bound (ha 7) (hb 2)
      have := prod_bound (ha 8) (hb 1)
      have := prod_bound (ha 9) (hb 0)
      rw [abs_le]
      omega)
  · exact w64_eq (by
      have := prod_bound (ha 0) (hb 10)
      have := prod_bound (ha 1) (hb 9)
      have := prod_bound (ha 2) (hb 8)
      have := prod_bound (ha 3) (hb 7)
      have := prod_bound (ha 4) (hb 6)
      have := prod_bound (ha 5) (hb 5)
      have := prod_bound (ha 6) (hb 4)
      have := prod_bound (ha 7) (hb 3)
      have := prod_bound (ha 8) (hb 2)
      have := prod_bound (ha 9) (hb 1)
      have := prod_bound (ha 10) (hb 0)
      rw [abs_le]
      omega)
  · exact w64_eq (by
      have := prod_bound (ha 0) (hb 11)
      have := prod_bound (ha 1) (hb 10)
      have := prod_bound (ha 2) (hb 9)
      have := prod_bound (ha 3) (hb 8)
      have := prod_bound (ha 4) (hb 7)
      have := prod_bound (ha 5) (hb 6)
      have := prod_bound (ha 6) (hb 5)
      have := prod_bound (ha 7) (hb 4)
      have := prod_bound (ha 8) (hb 3)
      have := prod_bound (ha 9) (hb 2)
      have := prod_bound (ha 10) (hb 1)
      have := prod_bound (ha 11) (hb 0)
      rw [abs_le]
      omega)
  · exact w64_eq (by
      have := prod_bound (ha 1) (hb 11)
      have := prod_bound (ha 2) (hb 10)
      have := prod_bound (ha 3) (hb 9)
      have := prod_bound (ha 4) (hb 8)
      have := prod_bound (ha 5) (hb 7)
      have := prod_bound (ha 6) (hb 6)
      have := prod_bound (ha 7) (hb 5)
      have := prod_bound (ha 8) (hb 4)
      have := prod_bound (ha 9) (hb 3)
      have := prod_bound (ha 10) (hb 2)
      have := prod_bound (ha 11) (hb 1)
      rw [abs_le]
      omega)
  · exact w64_eq (by
      have := prod_bound (ha 2) (hb 11)
      have := prod_bound (ha 3) (hb 10)
      have := prod_bound (ha 4) (hb 9)
      have := prod_bound (ha 5) (hb 8)
      have := prod_bound (ha 6) (hb 7)
      have := prod_bound (ha 7) (hb 6)
      have := prod_bound (ha 8) (hb 5)
      have := prod_bound (ha 9) (hb 4)
      have := prod_bound (ha 10) (hb 3)
      have := prod_bound (ha 11) (hb 2)
      rw [abs_le]
      omega)
  · exact w64_eq (by
      have := prod_bound (ha 3) (hb 11)
      have := prod_bound (ha 4) (hb 10)
      have := prod_bound (ha 5) (hb 9)
      have := prod_bound (ha 6) (hb 8)
      have := prod_bound (ha 7) (hb 7)
      have := prod_bound (ha 8) (hb 6)
      have := prod_bound (ha 9) (hb 5)
      have := prod_bound (ha 10) (hb 4)
      have := prod_bound (ha 11) (hb 3)
      rw [abs_le]
      omega)
  · exact w64_eq (by
      have := prod_bound (ha 4) (hb 11)
      have := prod_bound (ha 5) (hb 10)
      have := prod_bound (ha 6) (hb 9)
      have := prod_bound (ha 7) (hb 8)
      have := prod_bound (ha 8) (hb 7)
      have := prod_bound (ha 9) (hb 6)
      have := prod_bound (ha 10) (hb 5)
      have := prod_bound (ha 11) (hb 4)
      rw [abs_le]
      omega)
  · exact w64_eq (by
      have := prod_bound (ha 5) (hb 11)
      have := prod_bound (ha 6) (hb 10)
      have := prod_bound (ha 7) (hb 9)
      have := prod_bound (ha 8) (hb 8)
      have := prod_bound (ha 9) (hb 7)
      have := prod_bound (ha 10) (hb 6)
      have := prod_bound (ha 11) (hb 5)
      rw [abs_le]
      omega)
  · exact w64_eq (by
      have := prod_bound (ha 6) (hb 11)
      have := prod_bound (ha 7) (hb 10)
      have := prod_bound (ha 8) (hb 9)
      have := prod_bound (ha 9) (hb 8)
      have := prod_bound (ha 10) (hb 7)
      have := prod_bound (ha 11) (hb 6)
      rw [abs_le]
      omega)
  · exact w64_eq (by
      have := prod_bound (ha 7) (hb 11)
      have := prod_bound (ha 8) (hb 10)
      have := prod_bound (ha 9) (hb 9)
      have := prod_bound (ha 10) (hb 8)
      have := prod_bound (ha 11) (hb 7)
      rw [abs_le]
      omega)
  · exact w64_eq (by
      have := prod_bound (ha 8) (hb 11)
      have := prod_bound (ha 9) (hb 10)
      have := prod_bound (ha 10) (hb 9)
      have := prod_bound (ha 11) (hb 8)
      rw [abs_le]
      omega)
  · exact w64_eq (by
      have := prod_bound (ha 9) (hb 11)
      have := prod_bound (ha 10) (hb 10)
      have := prod_bound (ha 11) (hb 9)
      rw [abs_le]
      omega)
  · exact w64_eq (by
      have := prod_bound (ha 10) (hb 11)
      have := prod_bound (ha 11) (hb 10)
      rw [abs_le]
      omega)
  · exact w64_eq (by
      have := prod_bound (ha 11) (hb 11)
      rw [abs_le]
      omega)

theorem scProduct_bound {a b : Nat → Int} (ha : ∀ i, 0 ≤ a i ∧ a i ≤ 33554431)
    (hb : ∀ i, 0 ≤ b i ∧ b i ≤ 33554431) (k : Nat) (hk : k < 23) :
    |scProduct a b k| ≤ 18014398509481984 := by
  obtain ⟨p0, p1, p2, p3, p4, p5, p6, p7, p8, p9, p10, p11, p12, p13, p14, p15, p16, p17, p18, p19, p20, p21, p22⟩ := scProduct_spec ha hb
  interval_cases k
  · rw [p0]
    have := prod_bound (ha 0) (hb 0)
    rw [abs_le]
    omega
  · rw [p1]
    have := prod_bound (ha 0) (hb 1)
    have := prod_bound (ha 1) (hb 0)
    rw [abs_le]
    omega
  · rw [p2]
    have := prod_bound (ha 0) (hb 2)
    have := prod_bound (ha 1) (hb 1)
    have := prod_bound (ha 2) (hb 0)
    rw [abs_le]
    omega
  · rw [p3]
    have := prod_bound (ha 0) (hb 3)
    have := prod_bound (ha 1) (hb 2)
    have := prod_bound (ha 2) (hb 1)
    have := prod_bound (ha 3) (hb 0)
    rw [abs_le]
    omega
  · rw [p4]
    have := prod_bound (ha 0) (hb 4)
    have := prod_bound (ha 1) (hb 3)
    have := prod_bound (ha 2) (hb 2)
    have := prod_bound (ha 3) (hb 1)
    have := prod_bound (ha 4) (hb 0)
    rw [abs_le]
    omega
  · rw [p5]
    have := prod_bound (ha 0) (hb 5)
    have := prod_bound (ha 1) (hb 4)
    have := prod_bound (ha 2) (hb 3)
    have := prod_bound (ha 3) (hb 2)
    have := prod_bound (ha 4) (hb 1)
    have := prod_bound (ha 5) (hb 0)
    rw [abs_le]
    omega
  · rw [p6]
    have := prod_bound (ha 0) (hb 6)
    have := prod_bound (ha 1) (hb 5)
    have := prod_bound (ha 2) (hb 4)
    have := prod_bound (ha 3) (hb 3)
    have := prod_bound (ha 4) (hb 2)
    have := prod_bound (ha 5) (hb 1)
    have := prod_bound (ha 6) (hb 0)
    rw [abs_le]
    omega
  · rw [p7]
    have := prod_bound (ha 0) (hb 7)
    have := prod_bound (ha 1) (hb 6)
    have := prod_bound (ha 2) (hb 5)
    have := prod_bound (ha 3) (hb 4)
    have := prod_bound (ha 4) (hb 3)
    have := prod_bound (ha 5) (hb 2)
    have := prod_bound (ha 6) (hb 1)
    have := prod_bound (ha 7) (hb 0)
    rw [abs_le]
    omega
  · rw [p8]
    have := prod_bound (ha 0) (hb 8)
    have := prod_bound (ha 1) (hb 7)
    have := prod_bound (ha 2) (hb 6)
    have := prod_bound (ha 3) (hb 5)
    have := prod_bound (ha 4) (hb 4)
    have := prod_bound (ha 5) (hb 3)
    have := prod_bound (ha 6) (hb 2)
    have := prod_bound (ha 7) (hb 1)
    have := prod_bound (ha 8) (hb 0)
    rw [abs_le]
    omega
  · rw [p9]
    have := prod_bound (ha 0) (hb 9)
    have := prod_bound (ha 1) (hb 8)
    have := prod_bound (ha 2) (hb 7)
    have := prod_bound (ha 3) (hb 6)
    have := prod_bound (ha 4) (hb 5)
    have := prod_bound (ha 5) (hb 4)
    have := prod_bound (ha 6) (hb 3)
    have := prod_bound (ha 7) (hb 2)
    have := prod_bound (ha 8) (hb 1)
    have := prod_bound (ha 9) (hb 0)
    rw [abs_le]
    omega
  · rw [p10]
    have := prod_bound (ha 0) (hb 10)
    have := prod_bound (ha 1) (hb 9)
    have := prod_bound (ha 2) (hb 8)
    have := prod_bound (ha 3) (hb 7)
    have := prod_bound (ha 4) (hb 6)
    have := prod_bound (ha 5) (hb 5)
    have := prod_bound (ha 6) (hb 4)
    have := prod_bound (ha 7) (hb 3)
    have := prod_bound (ha 8) (hb 2)
    have := prod_bound (ha 9) (hb 1)
    have := prod_bound (ha 10) (hb 0)
    rw [abs_le]
    omega
  · rw [p11]
    have := prod_bound (ha 0) (hb 11)
    have := prod_bound (ha 1) (hb 10)
    have := prod_bound (ha 2) (hb 9)
    have := prod_bound (ha 3) (hb 8)
    have := prod_bound (ha 4) (hb 7)
    have := prod_bound (ha 5) (hb 6)
    have := prod_bound (ha 6) (hb 5)
    have := prod_bound (ha 7) (hb 4)
    have := prod_bound (ha 8) (hb 3)
    have := prod_bound (ha 9) (hb 2)
    have := prod_bound (ha 10) (hb 1)
    have := prod_bound (ha 11) (hb 0)
    rw [abs_le]
    omega
  · rw [p12]
    have := prod_bound (ha 1) (hb 11)
    have := prod_bound (ha 2) (hb 10)
    have := prod_bound (ha 3) (hb 9)
    have := prod_bound (ha 4) (hb 8)
    have := prod_bound (ha 5) (hb 7)
    have := prod_bound (ha 6) (hb 6)
    have := prod_bound (ha 7) (hb 5)
    have := prod_bound (ha 8) (hb 4)
    have := prod_bound (ha 9) (hb 3)
    have := prod_bound (ha 10) (hb 2)
    have := prod_bound (ha 11) (hb 1)
    rw [abs_le]
    omega
  · rw [p13]
    have := prod_bound (ha 2) (hb 11)
    have := prod_bound (ha 3) (hb 10)
    have := prod_bound (ha 4) (hb 9)
    have := prod_bound (ha 5) (hb 8)
    have := prod_bound (ha 6) (hb 7)
    have := prod_bound (ha 7) (hb 6)
    have := prod_bound (ha 8) (hb 5)
    have := prod_bound (ha 9) (hb 4)
    have := prod_bound (ha 10) (hb 3)
    have := prod_bound (ha 11) (hb 2)
    rw [abs_le]
    omega
  · rw [p14]
    have := prod_bound (ha 3) (hb 11)
    have := prod_bound (ha 4) (hb 10)
    have := prod_bound (ha 5) (hb 9)
    have := prod_bound (ha 6) (hb 8)
    have := prod_bound (ha 7) (hb 7)
    have := prod_bound (ha 8) (hb 6)
    have := prod_bound (ha 9) (hb 5)
    have := prod_bound (ha 10) (hb 4)
    have := prod_bound (ha 11) (hb 3)
    rw [abs_le]
    omega
  · rw [p15]
    have := prod_bound (ha 4) (hb 11)
    have := prod_bound (ha 5) (hb 10)
    have := prod_bound (ha 6) (hb 9)
    have := prod_bound (ha 7) (hb 8)
    have := prod_bound (ha 8) (hb 7)
    have := prod_bound (ha 9) (hb 6)
    have := prod_bound (ha 10) (hb 5)
    have := prod_bound (ha 11) (hb 4)
    rw [abs_le]
    omega
  · rw [p16]
    have := prod_bound (ha 5) (hb 11)
    have := prod_bound (ha 6) (hb 10)
    have := prod_bound (ha 7) (hb 9)
    have := prod_bound (ha 8) (hb 8)
    have := prod_bound (ha 9) (hb 7)
    have := prod_bound (ha 10) (hb 6)
    have := prod_bound (ha 11) (hb 5)
    rw [abs_le]
    omega
  · rw [p17]
    have := prod_bound (ha 6) (hb 11)
    have := prod_bound (ha 7) (hb 10)
    have := prod_bound (ha 8) (hb 9)
    have := prod_bound (ha 9) (hb 8)
    have := prod_bound (ha 10) (hb 7)
    have := prod_bound (ha 11) (hb 6)
    rw [abs_le]
    omega
  · rw [p18]
    have := prod_bound (ha 7) (hb 11)
    have := prod_bound (ha 8) (hb 10)
    have := prod_bound (ha 9) (hb 9)
    have := prod_bound (ha 10) (hb 8)
    have := prod_bound (ha 11) (hb 7)
    rw [abs_le]
    omega
  · rw [p19]
    have := prod_bound (ha 8) (hb 11)
    have := prod_bound (ha 9) (hb 10)
    have := prod_bound (ha 10) (hb 9)
    have := prod_bound (ha 11) (hb 8)
    rw [abs_le]
    omega
  · rw [p20]
    have := prod_bound (ha 9) (hb 11)
    have := prod_bound (ha 10) (hb 10)
    have := prod_bound (ha 11) (hb 9)
    rw [abs_le]
    omega
  · rw [p21]
    have := prod_bound (ha 10) (hb 11)
    have := prod_bound (ha 11) (hb 10)
    rw [abs_le]
    omega
  · rw [p22]
    have := prod_bound (ha 11) (hb 11)
    rw [abs_le]
    omega

theorem scProduct_zero (a b : Nat → Int) (k : Nat) (hk : 23 ≤ k) : scProduct a b k = 0 := by
  obtain ⟨j, rfl⟩ : ∃ j, k = j + 23 := ⟨k - 23, by omega⟩
  cases j <;> rfl

set_option exponentiation.threshold 600 in
/-- Products of scalars: the canonical bytes of the product modulo the order, also when the factors are
not reduced. -/
theorem scMul_spec {a b : Bytes} (ha : a.length = 32) (hb : b.length = 32) :
    leNat (scMul a b) = leNat a * leNat b % primeOrder := by
  obtain ⟨a1, -, a3⟩ := scLoad_spec ha
  obtain ⟨b1, -, b3⟩ := scLoad_spec hb
  unfold scMul
  generalize scLoad a = x at *
  generalize scLoad b = y at *
  obtain ⟨q1, q2, q3, q4, q5⟩ := scReduceLimbs_spec (scProduct_bound a1 b1) (scProduct_zero x y)
  have e := scPack_spec q1 q2 q3 q4
  rw [q5] at e
  have v : sval (scProduct x y) = leNat a * leNat b := by
    rw [← a3, ← b3]
    unfold sval
    simp only [Finset.sum_range_succ, Finset.sum_range_zero]
    rw [scProduct_zero x y 23 le_rfl]
    obtain ⟨p0, p1, p2, p3, p4, p5, p6, p7, p8, p9, p10, p11, p12, p13, p14, p15, p16, p17, p18, p19, p20, p21, p22⟩ := scProduct_spec a1 b1
    rw [p0, p1, p2, p3, p4, p5, p6, p7, p8, p9, p10, p11, p12, p13, p14, p15, p16, p17, p18, p19, p20, p21, p22]
    norm_num only
    ring
  rw [v] at e
  exact_mod_cast e

/-! ## Differences -/

theorem scDifference_spec {a c : Nat → Int} (ha : ∀ i, 0 ≤ a i ∧ a i ≤ 33554431)
    (hc : ∀ i, 0 ≤ c i ∧ c i ≤ 33554431) :
    scDifference a c 0 = 1916624 - c 0 + a 0 ∧
    scDifference a c 1 = 863866 - c 1 + a 1 ∧
    scDifference a c 2 = 18828 - c 2 + a 2 ∧
    scDifference a c 3 = 1284811 - c 3 + a 3 ∧
    scDifference a c 4 = 2007799 - c 4 + a 4 ∧
    scDifference a c 5 = 456654 - c 5 + a 5 ∧
    scDifference a c 6 = 5 - c 6 + a 6 ∧
    scDifference a c 7 = 0 - c 7 + a 7 ∧
    scDifference a c 8 = 0 - c 8 + a 8 ∧
    scDifference a c 9 = 0 - c 9 + a 9 ∧
    scDifference a c 10 = 0 - c 10 + a 10 ∧
    scDifference a c 11 = 0 - c 11 + a 11 := by
  refine ⟨?_, ?_, ?_, ?_, ?_, ?_, ?_, ?_, ?_, ?_, ?_, ?_⟩
  · exact w64_eq (by have := ha 0; have := hc 0; rw [abs_le]; omega)
  · exact w64_eq (by have := ha 1; have := hc 1; rw [abs_le]; omega)
  · exact w64_eq (by have := ha 2; have := hc 2; rw [abs_le]; omega)
  · exact w64_eq (by have := ha 3; have := hc 3; rw [abs_le]; omega)
  · exact w64_eq (by have := ha 4; have := hc 4; rw [abs_le]; omega)
  · exact w64_eq (by have := ha 5; have := hc 5; rw [abs_le]; omega)
  · exact w64_eq (by have := ha 6; have := hc 6; rw [abs_le]; omega)
  · exact w64_eq (by have := ha 7; have := hc 7; rw [abs_le]; omega)
  · exact w64_eq (by have := ha 8; have := hc 8; rw [abs_le]; omega)
  · exact w64_eq (by have := ha 9; have := hc 9; rw [abs_le]; omega)
  · exact w64_eq (by have := ha 10; have := hc 10; rw [abs_le]; omega)
  · exact w64_eq (by have := ha 11; have := hc 11; rw [abs_le]; omega)

theorem scDifference_bound {a c : Nat → Int} (ha : ∀ i, 0 ≤ a i ∧ a i ≤ 33554431)
    (hc : ∀ i, 0 ≤ c i ∧ c i ≤ 33554431) (k : Nat) (hk : k < 23) :
    |scDifference a c k| ≤ 18014398509481984 := by
  obtain ⟨p0, p1, p2, p3, p4, p5, p6, p7, p8, p9, p10, p11⟩ := scDifference_spec ha hc
  interval_cases k
  · rw [p0]; have := ha 0; have := hc 0; rw [abs_le]; omega
  · rw [p1]; have := ha 1; have := hc 1; rw [abs_le]; omega
  · rw [p2]; have := ha 2; have := hc 2; rw [abs_le]; omega
  · rw [p3]; have := ha 3; have := hc 3; rw [abs_le]; omega
  · rw [p4]; have := ha 4; have := hc 4; rw [abs_le]; omega
  · rw [p5]; have := ha 5; have := hc 5; rw [abs_le]; omega
  · rw [p6]; have := ha 6; have := hc 6; rw [abs_le]; omega
  · rw [p7]; have := ha 7; have := hc 7; rw [abs_le]; omega
  · rw [p8]; have := ha 8; have := hc 8; rw [abs_le]; omega
  · rw [p9]; have := ha 9; have := hc 9; rw [abs_le]; omega
  · rw [p10]; have := ha 10; have := hc 10; rw [abs_le]; omega
  · rw [p11]; have := ha 11; have := hc 11; rw [abs_le]; omega
  · show |(16 : Int)| ≤ _; decide
  · show |(0 : Int)| ≤ _; decide
  · show |(0 : Int)| ≤ _; decide
  · show |(0 : Int)| ≤ _; decide
  · show |(0 : Int)| ≤ _; decide
  · show |(0 : Int)| ≤ _; decide
  · show |(0 : Int)| ≤ _; decide
  · show |(0 : Int)| ≤ _; decide
  · show |(0 : Int)| ≤ _; decide
  · show |(0 : Int)| ≤ _; decide
  · show |(0 : Int)| ≤ _; decide

theorem scDifference_zero (a c : Nat → Int) (k : Nat) (hk : 13 ≤ k) : scDifference a c k = 0 := by
  obtain ⟨j, rfl⟩ : ∃ j, k = j + 13 := ⟨k - 13, by omega⟩
  rfl

/-- Differences of scalars: the canonical bytes of the difference modulo the order. -/
theorem scSub_spec {a c : Bytes} (ha : a.length = 32) (hc : c.length = 32) :
    (leNat (scSub a c) : Int) = ((leNat a : Int) - leNat c) % primeOrder := by
  obtain ⟨a1, -, a3⟩ := scLoad_spec ha
  obtain ⟨b1, -, b3⟩ := scLoad_spec hc
  unfold scSub
  generalize scLoad a = x at *
  generalize scLoad c = y at *
  obtain ⟨q1, q2, q3, q4, q5⟩ := scReduceLimbs_spec (scDifference_bound a1 b1)
    (fun k hk => scDifference_zero x y k (by omega))
  have e := scPack_spec q1 q2 q3 q4
  rw [q5] at e
  have v : sval (scDifference x y) = leNat a - leNat c + primeOrder * 16 := by
    rw [← a3, ← b3]
    have z : sval (scDifference x y) = ∑ i ∈ Finset.range 13, scDifference x y i * 2 ^ (21 * i) := by
      unfold sval
      symm
      apply Finset.sum_subset
      · intro i hi
        rw [Finset.mem_range] at *
        omega
      · intro i _ hi
        rw [Finset.mem_range, not_lt] at hi
        rw [scDifference_zero x y i hi, zero_mul]
    rw [z]
    simp only [Finset.sum_range_succ, Finset.sum_range_zero]
    obtain ⟨p0, p1, p2, p3, p4, p5, p6, p7, p8, p9, p10, p11⟩ := scDifference_spec a1 b1
    rw [p0, p1, p2, p3, p4, p5, p6, p7, p8, p9, p10, p11, show scDifference x y 12 = 16 from rfl]
    have hp : (primeOrder : Int) =
      7237005577332262213973186563042994240857116359379907606001950938285454250989 := rfl
    rw [hp]
    norm_num only
    ring
  rw [e, v, Int.add_mul_emod_self_left]

theorem scMul_length (a b : Bytes) : (scMul a b).length = 32 := rfl

theorem scSub_length (a b : Bytes) : (scSub a b).length = 32 := rfl

end Verif.Kyber
