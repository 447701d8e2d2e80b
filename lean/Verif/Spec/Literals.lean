import Verif.Base.Utf8

/-!
# String literals of JSON

Which string a literal between quotes stands for, after RFC 8259, section 7. `Spelled l v`: the
bytes `l` between the quotes spell the string `v`.
-/

namespace Verif

/-- The value of a hexadecimal digit, in either letter case. -/
def DigitOf (c : UInt8) (v : Nat) : Prop :=
  (v < 10 ∧ c.toNat = 48 + v) ∨ (10 ≤ v ∧ v < 16 ∧ (c.toNat = 87 + v ∨ c.toNat = 55 + v))

instance (c : UInt8) (v : Nat) : Decidable (DigitOf c v) := by unfold DigitOf; infer_instance

/-- Four hexadecimal digits and the number they denote. -/
def FourDigits (d : Bytes) (n : Nat) : Prop :=
  ∃ a b c e w x y z, d = [a, b, c, e] ∧ DigitOf a w ∧ DigitOf b x ∧ DigitOf c y ∧ DigitOf e z ∧
    n = w * 4096 + x * 256 + y * 16 + z

/-- The letters behind a backslash and the bytes they stand for. -/
def shortEscapes : List (UInt8 × UInt8) :=
  [(34, 34), (92, 92), (47, 47), (98, 8), (102, 12), (110, 10), (114, 13), (116, 9)]

/-- The literal spells the string: character by character, each one written as itself, by a short
escape, by its number, or by the two numbers of its surrogate pair. -/
inductive Spelled : Bytes → Bytes → Prop
  | nil : Spelled [] []
  | plain {l v : Bytes} (n : Nat) : IsChar n → 32 ≤ n → n ≠ 34 → n ≠ 92 → Spelled l v →
      Spelled (utf8 n ++ l) (utf8 n ++ v)
  | short {l v : Bytes} (e c : UInt8) : (e, c) ∈ shortEscapes → Spelled l v →
      Spelled (92 :: e :: l) (c :: v)
  | number {l v : Bytes} (d : Bytes) (n : Nat) : FourDigits d n → IsChar n → Spelled l v →
      Spelled ([92, 117] ++ d ++ l) (utf8 n ++ v)
  | pair {l v : Bytes} (d d' : Bytes) (n : Nat) : 0x10000 ≤ n → n < 0x110000 →
      FourDigits d (0xD800 + (n - 0x10000) / 0x400) → FourDigits d' (0xDC00 + (n - 0x10000) % 0x400) →
      Spelled l v → Spelled ([92, 117] ++ d ++ [92, 117] ++ d' ++ l) (utf8 n ++ v)

end Verif
