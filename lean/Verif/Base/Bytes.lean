import Verif.Base.Outcome
import Mathlib.Data.Nat.Digits.Lemmas

/-!
# Byte strings: hexadecimal, decimal, base64, splitting

These are the parts of the Go standard library (`encoding/hex`, `strconv.Itoa`,
`encoding/base64`, `strings.Split`) that the repository relies on, written as small total
functions on byte lists.
-/

namespace Verif

set_option maxRecDepth 20000

/-- A Go `[]byte` or `string`. -/
abbrev Bytes := List UInt8

/-- ASCII bytes of a Lean string literal (used for constants that occur in the Go code). -/
def ascii (s : String) : Bytes := s.toList.map fun c => UInt8.ofNat c.toNat

/-- Property of all bytes from a check of all 256 values. -/
theorem UInt8.forall_of_fin {P : UInt8 → Prop} (h : ∀ n : Fin 256, P (UInt8.ofNat n.val)) :
    ∀ b : UInt8, P b := by
  intro b
  have := h ⟨b.toNat, b.toNat_lt⟩
  simpa using this

/-! ## Hexadecimal (`encoding/hex`, and the `%x` verb of `fmt`) -/

/-- Lower case hexadecimal digit of a value below 16. -/
def hexDigit (n : UInt8) : UInt8 := if n < 10 then 48 + n else 87 + n

/-- `hex.EncodeToString` and `fmt.Sprintf("%x", bytes)`. -/
def hexEncode : Bytes → Bytes
  | [] => []
  | b :: bs => hexDigit (b / 16) :: hexDigit (b % 16) :: hexEncode bs

/-- `encoding/hex.fromHexChar`: accepts both letter cases. -/
def hexVal (c : UInt8) : Option UInt8 :=
  if 48 ≤ c ∧ c ≤ 57 then some (c - 48)
  else if 97 ≤ c ∧ c ≤ 102 then some (c - 87)
  else if 65 ≤ c ∧ c ≤ 70 then some (c - 55)
  else none

/-- `hex.DecodeString`: `none` is the error result (odd length or invalid character). -/
def hexDecode : Bytes → Option Bytes
  | [] => some []
  | [_] => none
  | a :: b :: rest =>
    match hexVal a, hexVal b, hexDecode rest with
    | some x, some y, some r => some ((x * 16 + y) :: r)
    | _, _, _ => none

@[simp] theorem hexEncode_nil : hexEncode [] = [] := rfl

theorem hexEncode_length : ∀ l : Bytes, (hexEncode l).length = 2 * l.length
  | [] => rfl
  | b :: bs => by simp [hexEncode, hexEncode_length bs]; omega

theorem hexVal_hexDigit_div (b : UInt8) : hexVal (hexDigit (b / 16)) = some (b / 16) := by
  revert b; apply UInt8.forall_of_fin; decide

theorem hexVal_hexDigit_mod (b : UInt8) : hexVal (hexDigit (b % 16)) = some (b % 16) := by
  revert b; apply UInt8.forall_of_fin; decide

theorem div_mod_16 (b : UInt8) : b / 16 * 16 + b % 16 = b := by
  revert b; apply UInt8.forall_of_fin; decide

/-- Decoding an encoding gives back the bytes. -/
theorem hexDecode_hexEncode : ∀ l : Bytes, hexDecode (hexEncode l) = some l
  | [] => rfl
  | b :: bs => by
    simp [hexEncode, hexDecode, hexVal_hexDigit_div, hexVal_hexDigit_mod, hexDecode_hexEncode bs,
      div_mod_16]

theorem hexEncode_injective : Function.Injective hexEncode := by
  intro a b h
  have := congrArg hexDecode h
  simpa [hexDecode_hexEncode] using this

/-- The lower case hexadecimal alphabet. -/
def isLowerHex (c : UInt8) : Bool := (48 ≤ c && c ≤ 57) || (97 ≤ c && c ≤ 102)

/-- The hexadecimal alphabet in both letter cases. -/
def isHexChar (c : UInt8) : Bool :=
  (48 ≤ c && c ≤ 57) || (97 ≤ c && c ≤ 102) || (65 ≤ c && c ≤ 70)

theorem isLowerHex_hexDigit_div (b : UInt8) : isLowerHex (hexDigit (b / 16)) = true := by
  revert b; apply UInt8.forall_of_fin; decide

theorem isLowerHex_hexDigit_mod (b : UInt8) : isLowerHex (hexDigit (b % 16)) = true := by
  revert b; apply UInt8.forall_of_fin; decide

theorem hexEncode_alphabet : ∀ (l : Bytes), ∀ c ∈ hexEncode l, isLowerHex c = true
  | [], _, h => by simp at h
  | b :: bs, c, h => by
    simp only [hexEncode, List.mem_cons] at h
    rcases h with rfl | rfl | h
    · exact isLowerHex_hexDigit_div b
    · exact isLowerHex_hexDigit_mod b
    · exact hexEncode_alphabet bs c h

theorem hexVal_isSome (c : UInt8) : (hexVal c).isSome = isHexChar c := by
  revert c; apply UInt8.forall_of_fin; decide

/-- Exact characterisation of the strings accepted by `hex.DecodeString`. -/
theorem hexDecode_isSome : ∀ s : Bytes,
    (hexDecode s).isSome = true ↔ s.length % 2 = 0 ∧ ∀ c ∈ s, isHexChar c = true
  | [] => by simp [hexDecode]
  | [a] => by simp [hexDecode]
  | a :: b :: rest => by
    have ih := hexDecode_isSome rest
    have ha := hexVal_isSome a
    have hb := hexVal_isSome b
    have hlen : (a :: b :: rest).length % 2 = rest.length % 2 := by
      simp only [List.length_cons]; omega
    rw [hlen]
    simp only [List.forall_mem_cons]
    rw [← ha, ← hb]
    unfold hexDecode
    cases hexVal a <;> cases hexVal b <;> cases hr : hexDecode rest <;> simp_all

theorem hexDecode_length : ∀ {s r : Bytes}, hexDecode s = some r → s.length = 2 * r.length
  | [], r, h => by simp [hexDecode] at h; subst h; rfl
  | [a], r, h => by simp [hexDecode] at h
  | a :: b :: rest, r, h => by
    unfold hexDecode at h
    cases ha : hexVal a <;> cases hb : hexVal b <;> cases hr : hexDecode rest <;>
      simp [ha, hb, hr] at h
    have := hexDecode_length hr
    subst h
    simp [this]; omega

/-- Upper case letters decode like lower case ones. -/
def lowerByte (c : UInt8) : UInt8 := if 65 ≤ c ∧ c ≤ 90 then c + 32 else c

theorem hexVal_lower (c : UInt8) : hexVal (lowerByte c) = hexVal c := by
  revert c; apply UInt8.forall_of_fin; decide

theorem hexDecode_lower : ∀ s : Bytes, hexDecode (s.map lowerByte) = hexDecode s
  | [] => rfl
  | [_] => rfl
  | a :: b :: rest => by
    simp [hexDecode, hexVal_lower, hexDecode_lower rest]

/-! ## Decimal numbers (`strconv.Itoa`) -/

/-- Decimal digits of a natural number, most significant first. -/
def natDec (n : Nat) : Bytes :=
  if n = 0 then [48] else (Nat.digits 10 n).reverse.map fun d => UInt8.ofNat (48 + d)

/-- `strconv.Itoa`. -/
def itoa (i : Int) : Bytes :=
  if i < 0 then 45 :: natDec i.natAbs else natDec i.natAbs

/-- `int(x)` for a `uint64` or (64-bit) `uint` value: two's complement reinterpretation. -/
def toInt (x : UInt64) : Int := x.toInt64.toInt

/-- `strconv.Itoa(int(x))`. -/
def itoaU (x : UInt64) : Bytes := itoa (toInt x)

/-- Is the byte an ASCII decimal digit? -/
def isDigit (c : UInt8) : Bool := 48 ≤ c && c ≤ 57

theorem digitByte_toNat {d : Nat} (h : d < 10) : (UInt8.ofNat (48 + d)).toNat = 48 + d := by
  rw [UInt8.toNat_ofNat']; omega

theorem natDec_digits (n : Nat) : ∀ c ∈ natDec n, isDigit c = true := by
  intro c hc
  unfold natDec at hc
  split at hc
  · simp at hc; subst hc; decide
  · simp only [List.mem_map, List.mem_reverse] at hc
    obtain ⟨d, hd, rfl⟩ := hc
    have hd' : d < 10 := Nat.digits_lt_base (by norm_num) hd
    have := digitByte_toNat hd'
    simp only [isDigit, Bool.and_eq_true, decide_eq_true_eq, UInt8.le_iff_toNat_le, this]
    constructor
    · simp
    · simp; omega

theorem natDec_ne_nil (n : Nat) : natDec n ≠ [] := by
  unfold natDec
  split
  · simp
  · rename_i h
    simp [Nat.digits_eq_nil_iff_eq_zero, h]

theorem map_digitByte_injective : ∀ {a b : List Nat}, (∀ d ∈ a, d < 10) → (∀ d ∈ b, d < 10) →
    a.map (fun d => UInt8.ofNat (48 + d)) = b.map (fun d => UInt8.ofNat (48 + d)) → a = b
  | [], [], _, _, _ => rfl
  | [], _ :: _, _, _, h => by simp at h
  | _ :: _, [], _, _, h => by simp at h
  | x :: xs, y :: ys, ha, hb, h => by
    simp only [List.map_cons, List.cons.injEq] at h
    have hx := digitByte_toNat (ha x (by simp))
    have hy := digitByte_toNat (hb y (by simp))
    have hxy : x = y := by
      have := congrArg UInt8.toNat h.1
      rw [hx, hy] at this; omega
    have := map_digitByte_injective (fun d hd => ha d (by simp [hd]))
      (fun d hd => hb d (by simp [hd])) h.2
    rw [hxy, this]

theorem natDec_injective : Function.Injective natDec := by
  intro a b h
  have key : ∀ n : Nat, n ≠ 0 → natDec n ≠ [48] := by
    intro n hn h0
    unfold natDec at h0
    rw [if_neg hn] at h0
    have h1 : (Nat.digits 10 n).reverse = [0] := by
      apply map_digitByte_injective (b := [0])
      · intro d hd
        exact Nat.digits_lt_base (by norm_num) (List.mem_reverse.mp hd)
      · simp
      · simpa using h0
    have h2 : Nat.digits 10 n = [0] := by
      have := congrArg List.reverse h1
      simpa using this
    have h3 := Nat.ofDigits_digits 10 n
    rw [h2] at h3
    simp at h3
    exact hn h3.symm
  by_cases ha : a = 0
  · by_cases hb : b = 0
    · rw [ha, hb]
    · exfalso
      apply key b hb
      rw [← h, ha]; rfl
  · by_cases hb : b = 0
    · exfalso
      apply key a ha
      rw [h, hb]; rfl
    · unfold natDec at h
      rw [if_neg ha, if_neg hb] at h
      have h1 : (Nat.digits 10 a).reverse = (Nat.digits 10 b).reverse := by
        apply map_digitByte_injective _ _ h <;>
        · intro d hd
          exact Nat.digits_lt_base (by norm_num) (List.mem_reverse.mp hd)
      exact Nat.digits.injective 10 (List.reverse_injective h1)

theorem itoa_ne_nil (i : Int) : itoa i ≠ [] := by
  unfold itoa; split
  · simp
  · exact natDec_ne_nil _

theorem itoa_injective : Function.Injective itoa := by
  intro a b h
  have dig : ∀ n : Nat, ∀ r, natDec n ≠ 45 :: r := by
    intro n r hn
    have := natDec_digits n 45 (by rw [hn]; simp)
    simp [isDigit] at this
  unfold itoa at h
  split at h <;> split at h
  · have := natDec_injective (List.cons.inj h).2; omega
  · exact absurd h.symm (dig _ _)
  · exact absurd h (dig _ _)
  · have := natDec_injective h; omega

theorem toInt_injective : Function.Injective toInt := by
  intro a b h
  have h1 : a.toInt64 = b.toInt64 := Int64.toInt_inj.mp h
  have := congrArg Int64.toUInt64 h1
  simpa using this

/-- Distinct `uint64` amounts are printed differently, although those from `2^63` on are printed as
negative numbers. -/
theorem itoaU_injective : Function.Injective itoaU :=
  fun _ _ h => toInt_injective (itoa_injective h)

theorem itoaU_ne_nil (x : UInt64) : itoaU x ≠ [] := itoa_ne_nil _

theorem natDec_length_le {n k : Nat} (hk : 0 < k) (h : n < 10 ^ k) : (natDec n).length ≤ k := by
  unfold natDec
  split
  · simpa using Nat.succ_le_of_lt hk
  · rename_i hn
    simp only [List.length_map, List.length_reverse]
    exact (Nat.digits_length_le_iff (by norm_num) n).mpr h

theorem toInt_natAbs_le (x : UInt64) : (toInt x).natAbs ≤ 2 ^ 63 := by
  have h1 := Int64.le_toInt x.toInt64
  have h2 := Int64.toInt_lt x.toInt64
  unfold toInt
  omega

theorem itoaU_length (x : UInt64) : 1 ≤ (itoaU x).length ∧ (itoaU x).length ≤ 20 := by
  constructor
  · have := itoaU_ne_nil x
    exact List.length_pos_iff.mpr this
  · have h := toInt_natAbs_le x
    have h19 : (natDec (toInt x).natAbs).length ≤ 19 :=
      natDec_length_le (by norm_num) (lt_of_le_of_lt h (by norm_num))
    unfold itoaU itoa
    split
    · simp; omega
    · omega

end Verif
