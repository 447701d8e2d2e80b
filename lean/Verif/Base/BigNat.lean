import Verif.Base.Bytes
import Mathlib.Data.Nat.Digits.Lemmas

/-!
# Natural numbers as byte strings (`math/big`: `Bytes`, `SetBytes`, `BitLen`)
-/

namespace Verif

/-- `(*big.Int).SetBytes`: big endian. -/
def beNat (b : Bytes) : Nat := b.foldl (fun a x => a * 256 + x.toNat) 0

/-- `(*big.Int).Bytes`: big endian, without leading zeros; empty for zero. -/
def beBytes (n : Nat) : Bytes := ((Nat.digits 256 n).map UInt8.ofNat).reverse

/-- Zeros in front up to `k` bytes (`(*big.Int).FillBytes`, `leftPad` of `crypto/rsa`). -/
def leftPad (k : Nat) (b : Bytes) : Bytes := List.replicate (k - b.length) 0 ++ b

theorem foldl_beNat (b : Bytes) : ∀ a : Nat,
    b.foldl (fun a x => a * 256 + x.toNat) a = a * 256 ^ b.length + beNat b := by
  induction b with
  | nil => intro a; simp [beNat]
  | cons x b ih =>
    intro a
    unfold beNat
    simp only [List.foldl_cons, List.length_cons]
    rw [ih, ih (0 * 256 + x.toNat)]
    ring

@[simp] theorem beNat_nil : beNat [] = 0 := rfl

theorem beNat_append (a b : Bytes) : beNat (a ++ b) = beNat a * 256 ^ b.length + beNat b := by
  unfold beNat
  rw [List.foldl_append, foldl_beNat]
  rfl

theorem beNat_cons (x : UInt8) (b : Bytes) :
    beNat (x :: b) = x.toNat * 256 ^ b.length + beNat b := by
  rw [← List.singleton_append, beNat_append]
  simp [beNat]

theorem beNat_lt (b : Bytes) : beNat b < 256 ^ b.length := by
  induction b with
  | nil => simp
  | cons x b ih =>
    rw [beNat_cons, List.length_cons, pow_succ]
    have hx := x.toNat_lt
    have : (x.toNat + 1) * 256 ^ b.length ≤ 256 * 256 ^ b.length :=
      Nat.mul_le_mul_right _ (by omega)
    nlinarith

/-- Byte strings of the same length are determined by their value. -/
theorem beNat_inj : ∀ {a b : Bytes}, a.length = b.length → beNat a = beNat b → a = b
  | [], [], _, _ => rfl
  | x :: a, y :: b, hl, h => by
    have hl' : a.length = b.length := by simpa using hl
    rw [beNat_cons, beNat_cons, hl'] at h
    have ha := beNat_lt a
    have hb := beNat_lt b
    rw [hl'] at ha
    have hp : 0 < 256 ^ b.length := Nat.pow_pos (by decide)
    have hx : x.toNat = y.toNat := by
      have h1 := congrArg (· / 256 ^ b.length) h
      beta_reduce at h1
      rw [Nat.mul_comm, Nat.mul_add_div hp, Nat.mul_comm, Nat.mul_add_div hp,
        Nat.div_eq_of_lt ha, Nat.div_eq_of_lt hb] at h1
      omega
    rw [hx] at h
    have := beNat_inj hl' (by omega : beNat a = beNat b)
    rw [this, UInt8.toNat_inj.mp hx]

theorem beNat_replicate_zero (k : Nat) (b : Bytes) : beNat (List.replicate k 0 ++ b) = beNat b := by
  induction k with
  | zero => simp
  | succ k ih => rw [List.replicate_succ, List.cons_append, beNat_cons, ih]; simp

theorem beNat_leftPad (k : Nat) (b : Bytes) : beNat (leftPad k b) = beNat b :=
  beNat_replicate_zero _ _

theorem leftPad_length {k : Nat} {b : Bytes} (h : b.length ≤ k) : (leftPad k b).length = k := by
  simp [leftPad]; omega

theorem beBytes_zero : beBytes 0 = [] := rfl

/-- The value without the last byte, then the last byte. -/
theorem beBytes_of_pos {n : Nat} (h : 0 < n) :
    beBytes n = beBytes (n / 256) ++ [UInt8.ofNat (n % 256)] := by
  unfold beBytes
  rw [Nat.digits_def' (by decide) h]
  simp

theorem beNat_beBytes (n : Nat) : beNat (beBytes n) = n := by
  induction n using Nat.strong_induction_on with
  | _ n ih =>
    rcases Nat.eq_zero_or_pos n with rfl | h
    · rfl
    · rw [beBytes_of_pos h, beNat_append, ih (n / 256) (Nat.div_lt_self h (by decide))]
      simp [beNat]
      omega

theorem beBytes_injective : Function.Injective beBytes := by
  intro a b h
  have := congrArg beNat h
  simpa [beNat_beBytes] using this

theorem beBytes_length_le {n k : Nat} : (beBytes n).length ≤ k ↔ n < 256 ^ k := by
  unfold beBytes
  rw [List.length_reverse, List.length_map]
  exact Nat.digits_length_le_iff (by decide) n

/-- No leading zero. -/
theorem beBytes_head {n : Nat} (h : 0 < n) : ∃ x t, beBytes n = x :: t ∧ x ≠ 0 := by
  induction n using Nat.strong_induction_on with
  | _ n ih =>
    rw [beBytes_of_pos h]
    rcases Nat.eq_zero_or_pos (n / 256) with h0 | h0
    · rw [h0, beBytes_zero]
      refine ⟨_, [], rfl, ?_⟩
      have : n < 256 := by omega
      intro e
      have := congrArg UInt8.toNat e
      simp at this
      omega
    · obtain ⟨x, t, e, hx⟩ := ih (n / 256) (Nat.div_lt_self h (by decide)) h0
      exact ⟨x, t ++ [UInt8.ofNat (n % 256)], by rw [e]; rfl, hx⟩

/-- The bytes of the value of a string without leading zero are the string. -/
theorem beBytes_beNat {x : UInt8} {b : Bytes} (hx : x ≠ 0) : beBytes (beNat (x :: b)) = x :: b := by
  have hx' : 0 < x.toNat := by
    rcases Nat.eq_zero_or_pos x.toNat with h | h
    · exact absurd (UInt8.toNat_inj.mp (by simpa using h)) hx
    · exact h
  have hlt := beNat_lt (x :: b)
  have hle : 256 ^ b.length ≤ beNat (x :: b) := by
    rw [beNat_cons]; nlinarith [Nat.pow_pos (n := b.length) (by decide : 0 < 256)]
  have h1 : (beBytes (beNat (x :: b))).length ≤ (x :: b).length := beBytes_length_le.mpr hlt
  have h2 : ¬ (beBytes (beNat (x :: b))).length ≤ b.length := by
    rw [beBytes_length_le]; omega
  simp only [List.length_cons] at h1
  exact beNat_inj (by simp only [List.length_cons]; omega) (beNat_beBytes _)

/-- Padding the bytes of the value of a string to its length gives the string. -/
theorem leftPad_beBytes_beNat (b : Bytes) : leftPad b.length (beBytes (beNat b)) = b := by
  have h := beBytes_length_le.mpr (beNat_lt b)
  exact beNat_inj (leftPad_length h) (by rw [beNat_leftPad, beNat_beBytes])

end Verif
