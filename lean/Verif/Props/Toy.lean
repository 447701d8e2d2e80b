import Verif.Model.Sig
import Verif.Props.Hash
import Mathlib.Algebra.Field.ZMod
import Mathlib.Tactic.Ring
import Mathlib.Tactic.IntervalCases

/-!
# A toy curve for non-vacuity examples: the additive group of integers modulo 5
-/

namespace Verif

instance : Fact (Nat.Prime 5) := ⟨by decide⟩

/-- The points are the integers modulo 5 with base point 1; the hash of a message is one plus its
length, so challenges are usually not zero. -/
@[reducible] def toyCurve : Curve where
  F := ZMod 5
  canon a := ⟨UInt8.ofNat a.val :: List.replicate 31 0, by simp⟩
  canon_value := by decide
  canon_fits := by decide
  Pt := ZMod 5
  base := 1
  add a b := a + b
  sub a b := a - b
  mul s p := (multiplier s : ZMod 5) * p
  enc p := UInt8.ofNat p.val :: List.replicate 31 0
  dec b := if b.length = 32 then some ((b.headD 0).toNat : ZMod 5) else none
  enc_len := by simp
  dec_enc := by decide
  mul_base := by
    intro s
    have : ∀ a : ZMod 5, a * 1 = (multiplier ⟨UInt8.ofNat a.val :: List.replicate 31 0, by simp⟩ :
      ZMod 5) * 1 := by decide
    exact this _
  mul_mul := by
    intro s a
    have : ∀ a b : ZMod 5, b * ((multiplier ⟨UInt8.ofNat a.val :: List.replicate 31 0, by simp⟩ :
      ZMod 5) * 1) = (multiplier ⟨UInt8.ofNat (b * a).val :: List.replicate 31 0, by simp⟩ :
      ZMod 5) * 1 := by decide
    exact this _ _
  add_mul := by decide
  sub_mul := by decide
  mul_inj := by decide
  hashF m := ((m.length + 1 : Nat) : ZMod 5)

instance : Fact (Nat.Prime 17) := ⟨by decide⟩

/-- The same with the integers modulo 17, in which no digit is zero. -/
@[reducible] def toyCurve17 : Curve where
  F := ZMod 17
  canon a := ⟨UInt8.ofNat a.val :: List.replicate 31 0, by simp⟩
  canon_value := by decide
  canon_fits := by decide
  Pt := ZMod 17
  base := 1
  add a b := a + b
  sub a b := a - b
  mul s p := (multiplier s : ZMod 17) * p
  enc p := UInt8.ofNat p.val :: List.replicate 31 0
  dec b := if b.length = 32 then some ((b.headD 0).toNat : ZMod 17) else none
  enc_len := by simp
  dec_enc := by decide
  mul_base := by
    intro s
    have : ∀ a : ZMod 17, a * 1 = (multiplier ⟨UInt8.ofNat a.val :: List.replicate 31 0, by simp⟩ :
      ZMod 17) * 1 := by decide
    exact this _
  mul_mul := by
    intro s a
    have : ∀ a : ZMod 17, (multiplier ⟨UInt8.ofNat a.val :: List.replicate 31 0, by simp⟩ :
      ZMod 17) * 1 = a * 1 := by decide
    show (multiplier s : ZMod 17) * ((multiplier ⟨UInt8.ofNat a.val :: List.replicate 31 0, by simp⟩ :
      ZMod 17) * 1) = _
    rw [this, this]
    ring
  add_mul := by
    intro a b
    have : ∀ a : ZMod 17, (multiplier ⟨UInt8.ofNat a.val :: List.replicate 31 0, by simp⟩ :
      ZMod 17) * 1 = a * 1 := by decide
    rw [this, this, this]
    ring
  sub_mul := by
    intro a b
    have : ∀ a : ZMod 17, (multiplier ⟨UInt8.ofNat a.val :: List.replicate 31 0, by simp⟩ :
      ZMod 17) * 1 = a * 1 := by decide
    rw [this, this, this]
    ring
  mul_inj := by
    intro a b h
    have : ∀ a : ZMod 17, (multiplier ⟨UInt8.ofNat a.val :: List.replicate 31 0, by simp⟩ :
      ZMod 17) * 1 = a * 1 := by decide
    rw [this, this] at h
    simpa using h
  hashF m := ((m.length + 1 : Nat) : ZMod 17)

theorem toy17_digits : ∀ t : Nat, 0 < t → t ≤ 16 → (t : ZMod 17) ≠ 0 := by
  intro t h0 h1
  interval_cases t <;> decide

/-- The largest raw scalar. -/
def bigSc : Scalar := ⟨List.replicate 32 255, by simp⟩

theorem bigSc_large : ¬ bigSc.Fits := by decide +kernel

/-- The raw scalar with the given first byte. -/
def toySc (n : UInt8) : Scalar := ⟨n :: List.replicate 31 0, by simp⟩

end Verif
