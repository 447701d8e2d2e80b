import Verif.Ed25519.Field
import Verif.Model.HashLemmas

/-!
# Sums, negation, selection and the byte format of field elements
-/

namespace Verif.Kyber

theorem feZero_spec : feZero.Bd 1 ∧ feZero.val = 0 := by
  simp [Fe.Bd, Fe.val, Fe.int, feZero]

theorem feOne_spec : feOne.Bd 1 ∧ feOne.val = 1 := by
  simp [Fe.Bd, Fe.val, Fe.int, feOne]

theorem Fe.Bd.small {f : Fe} {n : Int} (h : f.Bd n) (hn : n ≤ 31) :
    |f.l0| ≤ 1040187392 ∧ |f.l1| ≤ 1040187392 ∧ |f.l2| ≤ 1040187392 ∧ |f.l3| ≤ 1040187392 ∧ |f.l4| ≤ 1040187392 ∧ |f.l5| ≤ 1040187392 ∧ |f.l6| ≤ 1040187392 ∧ |f.l7| ≤ 1040187392 ∧ |f.l8| ≤ 1040187392 ∧ |f.l9| ≤ 1040187392 := by
  unfold Fe.Bd at h
  simp only [abs_le] at *
  omega

theorem feAdd_spec {f g : Fe} {m n : Int} (hf : f.Bd m) (hg : g.Bd n) (hm : m ≤ 31) (hn : n ≤ 31) :
    (feAdd f g).Bd (m + n) ∧ (feAdd f g).val = f.val + g.val := by
  have sf := hf.small (by omega)
  have sg := hg.small (by omega)
  have e : feAdd f g = ⟨f.l0 + g.l0, f.l1 + g.l1, f.l2 + g.l2, f.l3 + g.l3, f.l4 + g.l4, f.l5 + g.l5, f.l6 + g.l6, f.l7 + g.l7, f.l8 + g.l8, f.l9 + g.l9⟩ := by
    unfold feAdd Fe.zip
    simp only [abs_le] at sf sg
    congr 1 <;> apply w32_eq <;> rw [abs_le] <;> omega
  rw [e]
  constructor
  · unfold Fe.Bd at *
    simp only [abs_le] at *
    refine ⟨?_, ?_, ?_, ?_, ?_, ?_, ?_, ?_, ?_, ?_⟩ <;> constructor <;> linarith
  · unfold Fe.val
    rw [← Int.cast_add]
    congr 1
    unfold Fe.int
    ring

theorem feSub_spec {f g : Fe} {m n : Int} (hf : f.Bd m) (hg : g.Bd n) (hm : m ≤ 31) (hn : n ≤ 31) :
    (feSub f g).Bd (m + n) ∧ (feSub f g).val = f.val - g.val := by
  have sf := hf.small (by omega)
  have sg := hg.small (by omega)
  have e : feSub f g = ⟨f.l0 - g.l0, f.l1 - g.l1, f.l2 - g.l2, f.l3 - g.l3, f.l4 - g.l4, f.l5 - g.l5, f.l6 - g.l6, f.l7 - g.l7, f.l8 - g.l8, f.l9 - g.l9⟩ := by
    unfold feSub Fe.zip
    simp only [abs_le] at sf sg
    congr 1 <;> apply w32_eq <;> rw [abs_le] <;> omega
  rw [e]
  constructor
  · unfold Fe.Bd at *
    simp only [abs_le] at *
    refine ⟨?_, ?_, ?_, ?_, ?_, ?_, ?_, ?_, ?_, ?_⟩ <;> constructor <;> linarith
  · unfold Fe.val
    rw [← Int.cast_sub]
    congr 1
    unfold Fe.int
    ring

theorem feNeg_spec {f : Fe} {m : Int} (hf : f.Bd m) (hm : m ≤ 31) :
    (feNeg f).Bd m ∧ (feNeg f).val = - f.val := by
  have sf := hf.small (by omega)
  have e : feNeg f = ⟨- f.l0, - f.l1, - f.l2, - f.l3, - f.l4, - f.l5, - f.l6, - f.l7, - f.l8, - f.l9⟩ := by
    unfold feNeg Fe.zip
    simp only [abs_le] at sf
    congr 1 <;> apply w32_eq <;> rw [abs_le] <;> omega
  rw [e]
  constructor
  · unfold Fe.Bd at *
    simp only [abs_neg]
    exact hf
  · unfold Fe.val
    rw [← Int.cast_neg]
    congr 1
    unfold Fe.int
    ring

theorem toInt_ofInt {x : Int} (h : |x| ≤ 2147483647) : (BitVec.ofInt 32 x).toInt = x := by
  rw [BitVec.toInt_ofInt]
  exact w32_eq h

theorem ofInt_toInt (b : BitVec 32) : BitVec.ofInt 32 b.toInt = b := BitVec.ofInt_toInt

theorem cmove_zero {x y : Int} (h : |x| ≤ 2147483647) :
    lxor32 x (land32 (w32 (-0)) (lxor32 x y)) = x := by
  have e : w32 (-0) = 0 := by decide
  have z : BitVec.ofInt 32 0 = 0#32 := by decide
  unfold lxor32 land32
  rw [e, z]
  simp only [BitVec.ofInt_toInt, BitVec.zero_and, BitVec.xor_zero]
  exact toInt_ofInt h

theorem cmove_one {x y : Int} (h : |y| ≤ 2147483647) :
    lxor32 x (land32 (w32 (-1)) (lxor32 x y)) = y := by
  have e : BitVec.ofInt 32 (w32 (-1)) = BitVec.allOnes 32 := by decide
  unfold lxor32 land32
  rw [e]
  simp only [BitVec.ofInt_toInt, BitVec.allOnes_and, ← BitVec.xor_assoc, BitVec.xor_self, BitVec.zero_xor]
  exact toInt_ofInt h

theorem feCMove_zero {f g : Fe} {m : Int} (hf : f.Bd m) (hm : m ≤ 31) : feCMove f g 0 = f := by
  have sf := hf.small (by omega)
  unfold feCMove Fe.zip
  simp only [abs_le] at sf
  cases f
  dsimp only at sf ⊢
  congr 1 <;> exact cmove_zero (by rw [abs_le]; omega)

theorem feCMove_one {f g : Fe} {m : Int} (hg : g.Bd m) (hm : m ≤ 31) : feCMove f g 1 = g := by
  have sg := hg.small (by omega)
  unfold feCMove Fe.zip
  simp only [abs_le] at sg
  cases g
  dsimp only at sg ⊢
  congr 1 <;> exact cmove_one (by rw [abs_le]; omega)

/-! ## Decoding -/

theorem at_lt (s : Bytes) (i : Nat) : at' s i < 256 := by
  unfold at'
  exact UInt8.toNat_lt _

theorem or_shift {a b k : Nat} (h : a < 2 ^ k) : a ||| b <<< k = a + b * 2 ^ k := by
  rw [Nat.or_comm, ← Nat.shiftLeft_add_eq_or_of_lt h, Nat.shiftLeft_eq, Nat.add_comm]

theorem load3_eq (s : Bytes) (i : Nat) :
    load3 s i = (at' s i : Int) + 256 * at' s (i + 1) + 65536 * at' s (i + 2) := by
  have h0 := at_lt s i
  have h1 := at_lt s (i + 1)
  unfold load3
  rw [or_shift (b := at' s (i + 1)) (by omega), or_shift (by omega)]
  push_cast
  ring

theorem load4_eq (s : Bytes) (i : Nat) :
    load4 s i = (at' s i : Int) + 256 * at' s (i + 1) + 65536 * at' s (i + 2)
      + 16777216 * at' s (i + 3) := by
  have h0 := at_lt s i
  have h1 := at_lt s (i + 1)
  have h2 := at_lt s (i + 2)
  unfold load4
  rw [or_shift (b := at' s (i + 1)) (by omega), or_shift (b := at' s (i + 2)) (by omega),
    or_shift (by omega)]
  push_cast
  ring

theorem leNat_at (s : Bytes) (h : s.length = 32) :
    leNat s = at' s 0 + 256 * at' s 1 + 65536 * at' s 2 + 16777216 * at' s 3 + 4294967296 * at' s 4 + 1099511627776 * at' s 5 + 281474976710656 * at' s 6 + 72057594037927936 * at' s 7 + 18446744073709551616 * at' s 8 + 4722366482869645213696 * at' s 9 + 1208925819614629174706176 * at' s 10 + 309485009821345068724781056 * at' s 11 + 79228162514264337593543950336 * at' s 12 + 20282409603651670423947251286016 * at' s 13 + 5192296858534827628530496329220096 * at' s 14 + 1329227995784915872903807060280344576 * at' s 15 + 340282366920938463463374607431768211456 * at' s 16 + 87112285931760246646623899502532662132736 * at' s 17 + 22300745198530623141535718272648361505980416 * at' s 18 + 5708990770823839524233143877797980545530986496 * at' s 19 + 1461501637330902918203684832716283019655932542976 * at' s 20 + 374144419156711147060143317175368453031918731001856 * at' s 21 + 95780971304118053647396689196894323976171195136475136 * at' s 22 + 24519928653854221733733552434404946937899825954937634816 * at' s 23 + 6277101735386680763835789423207666416102355444464034512896 * at' s 24 + 1606938044258990275541962092341162602522202993782792835301376 * at' s 25 + 411376139330301510538742295639337626245683966408394965837152256 * at' s 26 + 105312291668557186697918027683670432318895095400549111254310977536 * at' s 27 + 26959946667150639794667015087019630673637144422540572481103610249216 * at' s 28 + 6901746346790563787434755862277025452451108972170386555162524223799296 * at' s 29 + 1766847064778384329583297500742918515827483896875618958121606201292619776 * at' s 30 + 452312848583266388373324160190187140051835877600158453279131187530910662656 * at' s 31 := by
  match s, h with
  | [b0, b1, b2, b3, b4, b5, b6, b7, b8, b9, b10, b11, b12, b13, b14, b15, b16, b17, b18, b19, b20, b21, b22, b23, b24, b25, b26, b27, b28, b29, b30, b31], _ =>
    simp only [leNat, at', List.getD_cons_zero, List.getD_cons_succ]
    ring

theorem and_mask (n : Nat) : n &&& 8388607 = n % 8388608 := Nat.and_two_pow_sub_one_eq_mod n 23

theorem feFromBytes_spec (s : Bytes) (h : s.length = 32) :
    (feFromBytes s).Bd 1 ∧
      ∃ k, (feFromBytes s).int + (prime25519 : Int) * k = ((leNat s % 2 ^ 255 : Nat) : Int) := by
  have lt : ∀ i, (at' s i : Int) < 256 := fun i => by exact_mod_cast at_lt s i
  have nn : ∀ i, (0 : Int) ≤ at' s i := fun i => Int.natCast_nonneg _
  unfold feFromBytes
  rw [leNat_at s h]
  have g0 : load4 s 0 = (at' s 0 : Int) + 256 * at' s 1 + 65536 * at' s 2 + 16777216 * at' s 3 := by
    rw [load4_eq]
  have g1 : w64 (load3 s 4 * 2 ^ 6) = 64 * ((at' s 4 : Int) + 256 * at' s 5 + 65536 * at' s 6) := by
    rw [load3_eq]; norm_num only
    rw [w64_eq (by rw [abs_le]; have := lt 4; have := nn 4; have := lt 5; have := nn 5; have := lt 6; have := nn 6; omega)]; ring
  have g2 : w64 (load3 s 7 * 2 ^ 5) = 32 * ((at' s 7 : Int) + 256 * at' s 8 + 65536 * at' s 9) := by
    rw [load3_eq]; norm_num only
    rw [w64_eq (by rw [abs_le]; have := lt 7; have := nn 7; have := lt 8; have := nn 8; have := lt 9; have := nn 9; omega)]; ring
  have g3 : w64 (load3 s 10 * 2 ^ 3) = 8 * ((at' s 10 : Int) + 256 * at' s 11 + 65536 * at' s 12) := by
    rw [load3_eq]; norm_num only
    rw [w64_eq (by rw [abs_le]; have := lt 10; have := nn 10; have := lt 11; have := nn 11; have := lt 12; have := nn 12; omega)]; ring
  have g4 : w64 (load3 s 13 * 2 ^ 2) = 4 * ((at' s 13 : Int) + 256 * at' s 14 + 65536 * at' s 15) := by
    rw [load3_eq]; norm_num only
    rw [w64_eq (by rw [abs_le]; have := lt 13; have := nn 13; have := lt 14; have := nn 14; have := lt 15; have := nn 15; omega)]; ring
  have g5 : load4 s 16 = (at' s 16 : Int) + 256 * at' s 17 + 65536 * at' s 18 + 16777216 * at' s 19 := by
    rw [load4_eq]
  have g6 : w64 (load3 s 20 * 2 ^ 7) = 128 * ((at' s 20 : Int) + 256 * at' s 21 + 65536 * at' s 22) := by
    rw [load3_eq]; norm_num only
    rw [w64_eq (by rw [abs_le]; have := lt 20; have := nn 20; have := lt 21; have := nn 21; have := lt 22; have := nn 22; omega)]; ring
  have g7 : w64 (load3 s 23 * 2 ^ 5) = 32 * ((at' s 23 : Int) + 256 * at' s 24 + 65536 * at' s 25) := by
    rw [load3_eq]; norm_num only
    rw [w64_eq (by rw [abs_le]; have := lt 23; have := nn 23; have := lt 24; have := nn 24; have := lt 25; have := nn 25; omega)]; ring
  have g8 : w64 (load3 s 26 * 2 ^ 4) = 16 * ((at' s 26 : Int) + 256 * at' s 27 + 65536 * at' s 28) := by
    rw [load3_eq]; norm_num only
    rw [w64_eq (by rw [abs_le]; have := lt 26; have := nn 26; have := lt 27; have := nn 27; have := lt 28; have := nn 28; omega)]; ring
  have g9 : w64 (((load3 s 29).toNat &&& 8388607 : Nat) * 2 ^ 2) = 4 * ((at' s 29 : Int) + 256 * at' s 30 + 65536 * ((at' s 31 % 128 : Nat) : Int)) := by
    rw [load3_eq, and_mask]
    have := lt 29; have := nn 29; have := lt 30; have := nn 30; have := lt 31; have := nn 31
    have e : ((((at' s 29 : Int) + 256 * at' s 30 + 65536 * at' s 31).toNat % 8388608 : Nat) : Int) = (at' s 29 : Int) + 256 * at' s 30 + 65536 * ((at' s 31 % 128 : Nat) : Int) := by
      omega
    norm_num only
    rw [e, w64_eq (by rw [abs_le]; omega)]; ring
  rw [g0, g1, g2, g3, g4, g5, g6, g7, g8, g9]
  dsimp only
  obtain ⟨h0, v0⟩ : ∃ x, x = (at' s 0 : Int) + 256 * at' s 1 + 65536 * at' s 2 + 16777216 * at' s 3 := ⟨_, rfl⟩
  have b0 : |h0| ≤ 4294967296 := by
    rw [abs_le]; have := lt 0; have := nn 0; have := lt 1; have := nn 1; have := lt 2; have := nn 2; have := lt 3; have := nn 3; omega
  obtain ⟨h1, v1⟩ : ∃ x, x = 64 * ((at' s 4 : Int) + 256 * at' s 5 + 65536 * at' s 6) := ⟨_, rfl⟩
  have b1 : |h1| ≤ 1073741824 := by
    rw [abs_le]; have := lt 4; have := nn 4; have := lt 5; have := nn 5; have := lt 6; have := nn 6; omega
  obtain ⟨h2, v2⟩ : ∃ x, x = 32 * ((at' s 7 : Int) + 256 * at' s 8 + 65536 * at' s 9) := ⟨_, rfl⟩
  have b2 : |h2| ≤ 536870912 := by
    rw [abs_le]; have := lt 7; have := nn 7; have := lt 8; have := nn 8; have := lt 9; have := nn 9; omega
  obtain ⟨h3, v3⟩ : ∃ x, x = 8 * ((at' s 10 : Int) + 256 * at' s 11 + 65536 * at' s 12) := ⟨_, rfl⟩
  have b3 : |h3| ≤ 134217728 := by
    rw [abs_le]; have := lt 10; have := nn 10; have := lt 11; have := nn 11; have := lt 12; have := nn 12; omega
  obtain ⟨h4, v4⟩ : ∃ x, x = 4 * ((at' s 13 : Int) + 256 * at' s 14 + 65536 * at' s 15) := ⟨_, rfl⟩
  have b4 : |h4| ≤ 67108864 := by
    rw [abs_le]; have := lt 13; have := nn 13; have := lt 14; have := nn 14; have := lt 15; have := nn 15; omega
  obtain ⟨h5, v5⟩ : ∃ x, x = (at' s 16 : Int) + 256 * at' s 17 + 65536 * at' s 18 + 16777216 * at' s 19 := ⟨_, rfl⟩
  have b5 : |h5| ≤ 4294967296 := by
    rw [abs_le]; have := lt 16; have := nn 16; have := lt 17; have := nn 17; have := lt 18; have := nn 18; have := lt 19; have := nn 19; omega
  obtain ⟨h6, v6⟩ : ∃ x, x = 128 * ((at' s 20 : Int) + 256 * at' s 21 + 65536 * at' s 22) := ⟨_, rfl⟩
  have b6 : |h6| ≤ 2147483648 := by
    rw [abs_le]; have := lt 20; have := nn 20; have := lt 21; have := nn 21; have := lt 22; have := nn 22; omega
  obtain ⟨h7, v7⟩ : ∃ x, x = 32 * ((at' s 23 : Int) + 256 * at' s 24 + 65536 * at' s 25) := ⟨_, rfl⟩
  have b7 : |h7| ≤ 536870912 := by
    rw [abs_le]; have := lt 23; have := nn 23; have := lt 24; have := nn 24; have := lt 25; have := nn 25; omega
  obtain ⟨h8, v8⟩ : ∃ x, x = 16 * ((at' s 26 : Int) + 256 * at' s 27 + 65536 * at' s 28) := ⟨_, rfl⟩
  have b8 : |h8| ≤ 268435456 := by
    rw [abs_le]; have := lt 26; have := nn 26; have := lt 27; have := nn 27; have := lt 28; have := nn 28; omega
  obtain ⟨h9, v9⟩ : ∃ x, x = 4 * ((at' s 29 : Int) + 256 * at' s 30 + 65536 * ((at' s 31 % 128 : Nat) : Int)) := ⟨_, rfl⟩
  have b9 : |h9| ≤ 33554432 := by
    rw [abs_le]; have := lt 29; have := nn 29; have := lt 30; have := nn 30; have := lt 31; have := nn 31; omega
  rw [← v0, ← v1, ← v2, ← v3, ← v4, ← v5, ← v6, ← v7, ← v8, ← v9]
  obtain ⟨c0, e0, a0⟩ := roundTop_spec (h := h9) (n := h0) (by have := abs_le.1 b9; rw [abs_le]; omega) (by have := abs_le.1 b0; rw [abs_le]; omega)
  rw [e0]; dsimp only
  obtain ⟨n0a, f0a⟩ : ∃ x, x = h9 - 33554432 * c0 := ⟨_, rfl⟩
  obtain ⟨n0b, f0b⟩ : ∃ x, x = h0 + 19 * c0 := ⟨_, rfl⟩
  rw [← f0a] at a0
  rw [← f0a, ← f0b]
  have d0 : |n0b| ≤ 4294967334 := by
    have := abs_le.1 b9; have := abs_le.1 b0; have := abs_le.1 a0; rw [abs_le]; omega
  obtain ⟨c1, e1, a1⟩ := round25_spec (h := h1) (n := h2) (by have := abs_le.1 b1; rw [abs_le]; omega) (by have := abs_le.1 b2; rw [abs_le]; omega)
  rw [e1]; dsimp only
  obtain ⟨n1a, f1a⟩ : ∃ x, x = h1 - 33554432 * c1 := ⟨_, rfl⟩
  obtain ⟨n1b, f1b⟩ : ∃ x, x = h2 + c1 := ⟨_, rfl⟩
  rw [← f1a] at a1
  rw [← f1a, ← f1b]
  have d1 : |n1b| ≤ 536870945 := by
    have := abs_le.1 b1; have := abs_le.1 b2; have := abs_le.1 a1; rw [abs_le]; omega
  obtain ⟨c2, e2, a2⟩ := round25_spec (h := h3) (n := h4) (by have := abs_le.1 b3; rw [abs_le]; omega) (by have := abs_le.1 b4; rw [abs_le]; omega)
  rw [e2]; dsimp only
  obtain ⟨n2a, f2a⟩ : ∃ x, x = h3 - 33554432 * c2 := ⟨_, rfl⟩
  obtain ⟨n2b, f2b⟩ : ∃ x, x = h4 + c2 := ⟨_, rfl⟩
  rw [← f2a] at a2
  rw [← f2a, ← f2b]
  have d2 : |n2b| ≤ 67108869 := by
    have := abs_le.1 b3; have := abs_le.1 b4; have := abs_le.1 a2; rw [abs_le]; omega
  obtain ⟨c3, e3, a3⟩ := round25_spec (h := h5) (n := h6) (by have := abs_le.1 b5; rw [abs_le]; omega) (by have := abs_le.1 b6; rw [abs_le]; omega)
  rw [e3]; dsimp only
  obtain ⟨n3a, f3a⟩ : ∃ x, x = h5 - 33554432 * c3 := ⟨_, rfl⟩
  obtain ⟨n3b, f3b⟩ : ∃ x, x = h6 + c3 := ⟨_, rfl⟩
  rw [← f3a] at a3
  rw [← f3a, ← f3b]
  have d3 : |n3b| ≤ 2147483777 := by
    have := abs_le.1 b5; have := abs_le.1 b6; have := abs_le.1 a3; rw [abs_le]; omega
  obtain ⟨c4, e4, a4⟩ := round25_spec (h := h7) (n := h8) (by have := abs_le.1 b7; rw [abs_le]; omega) (by have := abs_le.1 b8; rw [abs_le]; omega)
  rw [e4]; dsimp only
  obtain ⟨n4a, f4a⟩ : ∃ x, x = h7 - 33554432 * c4 := ⟨_, rfl⟩
  obtain ⟨n4b, f4b⟩ : ∃ x, x = h8 + c4 := ⟨_, rfl⟩
  rw [← f4a] at a4
  rw [← f4a, ← f4b]
  have d4 : |n4b| ≤ 268435473 := by
    have := abs_le.1 b7; have := abs_le.1 b8; have := abs_le.1 a4; rw [abs_le]; omega
  obtain ⟨c5, e5, a5⟩ := round26_spec (h := n0b) (n := n1a) (by have := abs_le.1 d0; rw [abs_le]; omega) (by have := abs_le.1 a1; rw [abs_le]; omega)
  rw [e5]; dsimp only
  obtain ⟨n5a, f5a⟩ : ∃ x, x = n0b - 67108864 * c5 := ⟨_, rfl⟩
  obtain ⟨n5b, f5b⟩ : ∃ x, x = n1a + c5 := ⟨_, rfl⟩
  rw [← f5a] at a5
  rw [← f5a, ← f5b]
  have d5 : |n5b| ≤ 16777281 := by
    have := abs_le.1 d0; have := abs_le.1 a1; have := abs_le.1 a5; rw [abs_le]; omega
  obtain ⟨c6, e6, a6⟩ := round26_spec (h := n1b) (n := n2a) (by have := abs_le.1 d1; rw [abs_le]; omega) (by have := abs_le.1 a2; rw [abs_le]; omega)
  rw [e6]; dsimp only
  obtain ⟨n6a, f6a⟩ : ∃ x, x = n1b - 67108864 * c6 := ⟨_, rfl⟩
  obtain ⟨n6b, f6b⟩ : ∃ x, x = n2a + c6 := ⟨_, rfl⟩
  rw [← f6a] at a6
  rw [← f6a, ← f6b]
  have d6 : |n6b| ≤ 16777225 := by
    have := abs_le.1 d1; have := abs_le.1 a2; have := abs_le.1 a6; rw [abs_le]; omega
  obtain ⟨c7, e7, a7⟩ := round26_spec (h := n2b) (n := n3a) (by have := abs_le.1 d2; rw [abs_le]; omega) (by have := abs_le.1 a3; rw [abs_le]; omega)
  rw [e7]; dsimp only
  obtain ⟨n7a, f7a⟩ : ∃ x, x = n2b - 67108864 * c7 := ⟨_, rfl⟩
  obtain ⟨n7b, f7b⟩ : ∃ x, x = n3a + c7 := ⟨_, rfl⟩
  rw [← f7a] at a7
  rw [← f7a, ← f7b]
  have d7 : |n7b| ≤ 16777218 := by
    have := abs_le.1 d2; have := abs_le.1 a3; have := abs_le.1 a7; rw [abs_le]; omega
  obtain ⟨c8, e8, a8⟩ := round26_spec (h := n3b) (n := n4a) (by have := abs_le.1 d3; rw [abs_le]; omega) (by have := abs_le.1 a4; rw [abs_le]; omega)
  rw [e8]; dsimp only
  obtain ⟨n8a, f8a⟩ : ∃ x, x = n3b - 67108864 * c8 := ⟨_, rfl⟩
  obtain ⟨n8b, f8b⟩ : ∃ x, x = n4a + c8 := ⟨_, rfl⟩
  rw [← f8a] at a8
  rw [← f8a, ← f8b]
  have d8 : |n8b| ≤ 16777249 := by
    have := abs_le.1 d3; have := abs_le.1 a4; have := abs_le.1 a8; rw [abs_le]; omega
  obtain ⟨c9, e9, a9⟩ := round26_spec (h := n4b) (n := n0a) (by have := abs_le.1 d4; rw [abs_le]; omega) (by have := abs_le.1 a0; rw [abs_le]; omega)
  rw [e9]; dsimp only
  obtain ⟨n9a, f9a⟩ : ∃ x, x = n4b - 67108864 * c9 := ⟨_, rfl⟩
  obtain ⟨n9b, f9b⟩ : ∃ x, x = n0a + c9 := ⟨_, rfl⟩
  rw [← f9a] at a9
  rw [← f9a, ← f9b]
  have d9 : |n9b| ≤ 16777221 := by
    have := abs_le.1 d4; have := abs_le.1 a0; have := abs_le.1 a9; rw [abs_le]; omega
  rw [w32_eq (x := n5a) (by have := abs_le.1 a5; rw [abs_le]; omega), w32_eq (x := n5b) (by have := abs_le.1 d5; rw [abs_le]; omega), w32_eq (x := n6a) (by have := abs_le.1 a6; rw [abs_le]; omega), w32_eq (x := n6b) (by have := abs_le.1 d6; rw [abs_le]; omega), w32_eq (x := n7a) (by have := abs_le.1 a7; rw [abs_le]; omega), w32_eq (x := n7b) (by have := abs_le.1 d7; rw [abs_le]; omega), w32_eq (x := n8a) (by have := abs_le.1 a8; rw [abs_le]; omega), w32_eq (x := n8b) (by have := abs_le.1 d8; rw [abs_le]; omega), w32_eq (x := n9a) (by have := abs_le.1 a9; rw [abs_le]; omega), w32_eq (x := n9b) (by have := abs_le.1 d9; rw [abs_le]; omega)]
  constructor
  · refine ⟨by have := abs_le.1 a5; dsimp only; rw [abs_le]; omega, by have := abs_le.1 d5; dsimp only; rw [abs_le]; omega, by have := abs_le.1 a6; dsimp only; rw [abs_le]; omega, by have := abs_le.1 d6; dsimp only; rw [abs_le]; omega, by have := abs_le.1 a7; dsimp only; rw [abs_le]; omega, by have := abs_le.1 d7; dsimp only; rw [abs_le]; omega, by have := abs_le.1 a8; dsimp only; rw [abs_le]; omega, by have := abs_le.1 d8; dsimp only; rw [abs_le]; omega, by have := abs_le.1 a9; dsimp only; rw [abs_le]; omega, by have := abs_le.1 d9; dsimp only; rw [abs_le]; omega⟩
  · refine ⟨c0, ?_⟩
    have r : (at' s 0 + 256 * at' s 1 + 65536 * at' s 2 + 16777216 * at' s 3 + 4294967296 * at' s 4 + 1099511627776 * at' s 5 + 281474976710656 * at' s 6 + 72057594037927936 * at' s 7 + 18446744073709551616 * at' s 8 + 4722366482869645213696 * at' s 9 + 1208925819614629174706176 * at' s 10 + 309485009821345068724781056 * at' s 11 + 79228162514264337593543950336 * at' s 12 + 20282409603651670423947251286016 * at' s 13 + 5192296858534827628530496329220096 * at' s 14 + 1329227995784915872903807060280344576 * at' s 15 + 340282366920938463463374607431768211456 * at' s 16 + 87112285931760246646623899502532662132736 * at' s 17 + 22300745198530623141535718272648361505980416 * at' s 18 + 5708990770823839524233143877797980545530986496 * at' s 19 + 1461501637330902918203684832716283019655932542976 * at' s 20 + 374144419156711147060143317175368453031918731001856 * at' s 21 + 95780971304118053647396689196894323976171195136475136 * at' s 22 + 24519928653854221733733552434404946937899825954937634816 * at' s 23 + 6277101735386680763835789423207666416102355444464034512896 * at' s 24 + 1606938044258990275541962092341162602522202993782792835301376 * at' s 25 + 411376139330301510538742295639337626245683966408394965837152256 * at' s 26 + 105312291668557186697918027683670432318895095400549111254310977536 * at' s 27 + 26959946667150639794667015087019630673637144422540572481103610249216 * at' s 28 + 6901746346790563787434755862277025452451108972170386555162524223799296 * at' s 29 + 1766847064778384329583297500742918515827483896875618958121606201292619776 * at' s 30 + 452312848583266388373324160190187140051835877600158453279131187530910662656 * at' s 31) % 2 ^ 255 =
        at' s 0 + 256 * at' s 1 + 65536 * at' s 2 + 16777216 * at' s 3 + 4294967296 * at' s 4 + 1099511627776 * at' s 5 + 281474976710656 * at' s 6 + 72057594037927936 * at' s 7 + 18446744073709551616 * at' s 8 + 4722366482869645213696 * at' s 9 + 1208925819614629174706176 * at' s 10 + 309485009821345068724781056 * at' s 11 + 79228162514264337593543950336 * at' s 12 + 20282409603651670423947251286016 * at' s 13 + 5192296858534827628530496329220096 * at' s 14 + 1329227995784915872903807060280344576 * at' s 15 + 340282366920938463463374607431768211456 * at' s 16 + 87112285931760246646623899502532662132736 * at' s 17 + 22300745198530623141535718272648361505980416 * at' s 18 + 5708990770823839524233143877797980545530986496 * at' s 19 + 1461501637330902918203684832716283019655932542976 * at' s 20 + 374144419156711147060143317175368453031918731001856 * at' s 21 + 95780971304118053647396689196894323976171195136475136 * at' s 22 + 24519928653854221733733552434404946937899825954937634816 * at' s 23 + 6277101735386680763835789423207666416102355444464034512896 * at' s 24 + 1606938044258990275541962092341162602522202993782792835301376 * at' s 25 + 411376139330301510538742295639337626245683966408394965837152256 * at' s 26 + 105312291668557186697918027683670432318895095400549111254310977536 * at' s 27 + 26959946667150639794667015087019630673637144422540572481103610249216 * at' s 28 + 6901746346790563787434755862277025452451108972170386555162524223799296 * at' s 29 + 1766847064778384329583297500742918515827483896875618958121606201292619776 * at' s 30 + 452312848583266388373324160190187140051835877600158453279131187530910662656 * (at' s 31 % 128) := by
      have := at_lt s 0; have := at_lt s 1; have := at_lt s 2; have := at_lt s 3; have := at_lt s 4; have := at_lt s 5; have := at_lt s 6; have := at_lt s 7; have := at_lt s 8; have := at_lt s 9; have := at_lt s 10; have := at_lt s 11; have := at_lt s 12; have := at_lt s 13; have := at_lt s 14; have := at_lt s 15; have := at_lt s 16; have := at_lt s 17; have := at_lt s 18; have := at_lt s 19; have := at_lt s 20; have := at_lt s 21; have := at_lt s 22; have := at_lt s 23; have := at_lt s 24; have := at_lt s 25; have := at_lt s 26; have := at_lt s 27; have := at_lt s 28; have := at_lt s 29; have := at_lt s 30; have := at_lt s 31
      omega
    rw [r]
    unfold Fe.int prime25519
    dsimp only
    push_cast
    subst f9a f9b f8a f8b f7a f7b f6a f6b f5a f5b f4a f4b f3a f3b f2a f2b f1a f1b f0a f0b v0 v1 v2 v3 v4 v5 v6 v7 v8 v9
    push_cast
    ring

end Verif.Kyber
