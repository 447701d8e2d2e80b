import Verif.Base.Bytes

/-!
# Standard base64 (`encoding/base64`, `StdEncoding`)
-/

namespace Verif

set_option maxRecDepth 20000

/-- The character for a 6-bit value (values above 63 do not occur). -/
def b64Char (v : UInt8) : UInt8 :=
  if v < 26 then 65 + v
  else if v < 52 then 71 + v
  else if v < 62 then v - 4
  else if v = 62 then 43
  else 47

/-- The 6-bit value of a character, `none` for characters outside of the alphabet. -/
def b64Val (c : UInt8) : Option UInt8 :=
  if 65 ≤ c ∧ c ≤ 90 then some (c - 65)
  else if 97 ≤ c ∧ c ≤ 122 then some (c - 71)
  else if 48 ≤ c ∧ c ≤ 57 then some (c + 4)
  else if c = 43 then some 62
  else if c = 47 then some 63
  else none

/-- The padding character `=`. -/
def b64Pad : UInt8 := 61

/-- `base64.StdEncoding.EncodeToString`. -/
def b64Encode : Bytes → Bytes
  | [] => []
  | [a] => [b64Char (a / 4), b64Char (a % 4 * 16), b64Pad, b64Pad]
  | [a, b] => [b64Char (a / 4), b64Char (a % 4 * 16 + b / 16), b64Char (b % 16 * 4), b64Pad]
  | a :: b :: c :: rest =>
    b64Char (a / 4) :: b64Char (a % 4 * 16 + b / 16) :: b64Char (b % 16 * 4 + c / 64) ::
      b64Char (c % 64) :: b64Encode rest

/-- Decoding of a text without line breaks: quadruples, padding only at the very end, the unused
bits of the last character are ignored (non-strict mode). -/
def b64DecodeQ : Bytes → Option Bytes
  | [] => some []
  | a :: b :: c :: d :: rest =>
    match b64Val a, b64Val b with
    | some x, some y =>
      if c = b64Pad then
        if d = b64Pad ∧ rest = [] then some [x * 4 + y / 16] else none
      else
        match b64Val c with
        | none => none
        | some z =>
          if d = b64Pad then
            if rest = [] then some [x * 4 + y / 16, y * 16 + z / 4] else none
          else
            match b64Val d, b64DecodeQ rest with
            | some w, some r => some ((x * 4 + y / 16) :: (y * 16 + z / 4) :: (z * 64 + w) :: r)
            | _, _ => none
    | _, _ => none
  | _ => none

/-- `base64.StdEncoding.DecodeString`: carriage returns and line feeds are skipped. -/
def b64Decode (s : Bytes) : Option Bytes := b64DecodeQ (s.filter fun c => c ≠ 10 ∧ c ≠ 13)

/-- The characters of an encoding: alphabet or padding. -/
def isB64 (c : UInt8) : Bool := (b64Val c).isSome || c == b64Pad

theorem isB64_char (v : UInt8) : isB64 (b64Char v) = true := by
  revert v; apply UInt8.forall_of_fin; decide

theorem b64Encode_alphabet : ∀ l : Bytes, ∀ c ∈ b64Encode l, isB64 c = true
  | [] => by simp [b64Encode]
  | [a] => by simp [b64Encode, isB64_char]; decide
  | [a, b] => by simp [b64Encode, isB64_char]; decide
  | a :: b :: c :: rest => by
    have := b64Encode_alphabet rest
    simp only [b64Encode, List.forall_mem_cons, isB64_char, true_and]
    exact this

theorem b64Val_char {v : UInt8} (h : v < 64) : b64Val (b64Char v) = some v := by
  revert v; apply UInt8.forall_of_fin; decide

theorem b64Char_ne_pad (v : UInt8) : b64Char v ≠ b64Pad := by
  revert v; apply UInt8.forall_of_fin; decide

private theorem lt64_a (a : UInt8) : a / 4 < 64 := by
  revert a; apply UInt8.forall_of_fin; decide

private theorem lt64_d (c : UInt8) : c % 64 < 64 := by
  revert c; apply UInt8.forall_of_fin; decide

private theorem lt64_a' (a : UInt8) : a % 4 * 16 < 64 := by
  revert a; apply UInt8.forall_of_fin; decide

private theorem lt64_b' (b : UInt8) : b % 16 * 4 < 64 := by
  revert b; apply UInt8.forall_of_fin; decide

private theorem toNat_ab (a b : UInt8) :
    (a % 4 * 16 + b / 16).toNat = a.toNat % 4 * 16 + b.toNat / 16 := by
  have ha := a.toNat_lt
  have hb := b.toNat_lt
  simp only [UInt8.toNat_add, UInt8.toNat_mul, UInt8.toNat_mod, UInt8.toNat_div]
  simp
  omega

private theorem toNat_bc (b c : UInt8) :
    (b % 16 * 4 + c / 64).toNat = b.toNat % 16 * 4 + c.toNat / 64 := by
  have hb := b.toNat_lt
  have hc := c.toNat_lt
  simp only [UInt8.toNat_add, UInt8.toNat_mul, UInt8.toNat_mod, UInt8.toNat_div]
  simp
  omega

private theorem lt64_ab (a b : UInt8) : a % 4 * 16 + b / 16 < 64 := by
  have hb := b.toNat_lt
  rw [UInt8.lt_iff_toNat_lt, toNat_ab]
  simp
  omega

private theorem lt64_bc (b c : UInt8) : b % 16 * 4 + c / 64 < 64 := by
  have hc := c.toNat_lt
  rw [UInt8.lt_iff_toNat_lt, toNat_bc]
  simp
  omega

private theorem join_a (a b : UInt8) : a / 4 * 4 + (a % 4 * 16 + b / 16) / 16 = a := by
  have ha := a.toNat_lt
  have hb := b.toNat_lt
  apply UInt8.toNat_inj.mp
  rw [UInt8.toNat_add, UInt8.toNat_div (a % 4 * 16 + b / 16), toNat_ab]
  simp only [UInt8.toNat_mul, UInt8.toNat_div]
  simp
  omega

private theorem join_b (a b c : UInt8) :
    (a % 4 * 16 + b / 16) * 16 + (b % 16 * 4 + c / 64) / 4 = b := by
  have hb := b.toNat_lt
  have hc := c.toNat_lt
  apply UInt8.toNat_inj.mp
  rw [UInt8.toNat_add, UInt8.toNat_mul, UInt8.toNat_div (b % 16 * 4 + c / 64), toNat_bc, toNat_ab]
  simp
  omega

private theorem join_c (b c : UInt8) : (b % 16 * 4 + c / 64) * 64 + c % 64 = c := by
  have hc := c.toNat_lt
  apply UInt8.toNat_inj.mp
  rw [UInt8.toNat_add, UInt8.toNat_mul, toNat_bc]
  simp
  omega

private theorem join_a0 (a : UInt8) : a / 4 * 4 + a % 4 * 16 / 16 = a := by
  revert a; apply UInt8.forall_of_fin; decide

private theorem join_b0 (a b : UInt8) : (a % 4 * 16 + b / 16) * 16 + b % 16 * 4 / 4 = b := by
  have := join_b a b 0
  simpa using this

theorem b64DecodeQ_encode : ∀ l : Bytes, b64DecodeQ (b64Encode l) = some l
  | [] => rfl
  | [a] => by
    simp [b64Encode, b64DecodeQ, b64Val_char (lt64_a a), b64Val_char (lt64_a' a), join_a0]
  | [a, b] => by
    simp [b64Encode, b64DecodeQ, b64Val_char (lt64_a a), b64Val_char (lt64_ab a b),
      b64Val_char (lt64_b' b), b64Char_ne_pad, join_a, join_b0]
  | a :: b :: c :: rest => by
    simp [b64Encode, b64DecodeQ, b64Val_char (lt64_a a), b64Val_char (lt64_ab a b),
      b64Val_char (lt64_bc b c), b64Val_char (lt64_d c), b64Char_ne_pad, b64DecodeQ_encode rest,
      join_a, join_b, join_c]

theorem isB64_not_newline (c : UInt8) : isB64 c = true → c ≠ 10 ∧ c ≠ 13 := by
  revert c; apply UInt8.forall_of_fin; decide

/-- Decoding an encoding gives back the bytes. -/
theorem b64Decode_encode (l : Bytes) : b64Decode (b64Encode l) = some l := by
  unfold b64Decode
  rw [List.filter_eq_self.mpr, b64DecodeQ_encode]
  intro c hc
  simpa using isB64_not_newline c (b64Encode_alphabet l c hc)

theorem b64Encode_injective : Function.Injective b64Encode := by
  intro a b h
  have := congrArg b64Decode h
  simpa [b64Decode_encode] using this

theorem b64Encode_length : ∀ l : Bytes, (b64Encode l).length = 4 * ((l.length + 2) / 3)
  | [] => rfl
  | [_] => by simp [b64Encode]
  | [_, _] => by simp [b64Encode]
  | a :: b :: c :: rest => by
    simp only [b64Encode, List.length_cons, b64Encode_length rest]
    omega

end Verif
