import Verif.Model.Rsa
import Mathlib.Data.Nat.ModEq

/-!
# The files of private keys: C102
-/

namespace Verif

/-- The contents of an encoded integer: a number in two's complement without superfluous bytes. -/
def IntegerOctets (w : Bytes) : Prop :=
  w ≠ [] ∧ ∀ x y r, w = x :: y :: r → ¬ (x = 0 ∧ y < 128) ∧ ¬ (x = 255 ∧ 128 ≤ y)

/-- A number of seven bits per byte. -/
def base128 (b : Bytes) : Nat := b.foldl (fun n x => n * 128 + x.toNat % 128) 0

/-- A tag: one byte that does not end in five ones, or such a byte and a number of at least 31 and less than
2³¹ in at most five bytes of seven bits, the last of which is marked. -/
def TagOctets (t : Bytes) : Prop :=
  (∃ x, t = [x] ∧ x % 32 ≠ 31) ∨
  ∃ x hi lo, t = x :: (hi ++ [lo]) ∧ x % 32 = 31 ∧ hi.length ≤ 4 ∧ (∀ y ∈ hi, 128 ≤ y) ∧ lo < 128 ∧
    31 ≤ base128 (hi ++ [lo]) ∧ base128 (hi ++ [lo]) < 2 ^ 31

/-- Bytes that begin with a tag and a length in the shortest form, however long they are. -/
def Headed (b : Bytes) : Prop := ∃ t n r, TagOctets t ∧ n < 2 ^ 31 ∧ b = t ++ (derLen n ++ r)

/-- What may stand behind the primes of a key that has two: up to `n` integers, then nothing or something that
has a header; an empty sequence if it is a sequence. -/
inductive Behind : Nat → Bytes → Prop
  | nil (n) : Behind n []
  | int {n w r} : IntegerOctets w → Behind n r → Behind (n + 1) (tlv tagInteger w ++ r)
  | noPrimes (n r) : Behind n (tagSequence :: 0 :: r)
  | other {n x r} : x ≠ tagInteger → x ≠ tagSequence → Headed (x :: r) → Behind n (x :: r)
  | spare {r} : Headed (tagInteger :: r) → Behind 0 (tagInteger :: r)

/-- The contents of the version: 0, 1, or any negative number of at most eight bytes. -/
def VersionOctets (v : Bytes) : Prop :=
  v = [0] ∨ v = [1] ∨ (IntegerOctets v ∧ v.length ≤ 8 ∧ ∃ x r, v = x :: r ∧ 128 ≤ x)

end Verif
