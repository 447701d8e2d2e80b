import Verif.Spec.Crypto

/-!
# Helper lemmas about `libs/hash`
-/

namespace Verif

theorem Hash.str_length (h : Hash) : h.str.length = 128 := by
  simp [Hash.str, hexEncode_length, h.len]

theorem Hash.str_injective : Function.Injective Hash.str :=
  fun _ _ e => Hash.ext (hexEncode_injective e)

@[simp] theorem Hash.compare_iff {a b : Hash} : a.compare b = true ↔ a = b := by
  simp only [Hash.compare, beq_iff_eq]
  exact ⟨Hash.ext, congrArg Hash.bytes⟩

theorem Hash.compare_false_iff {a b : Hash} : a.compare b = false ↔ a ≠ b := by
  rw [← Bool.not_eq_true, Hash.compare_iff]

theorem two_hashes_length (a b : Hash) : (a.bytes ++ b.bytes).length = 128 := by
  simp [a.len, b.len]

theorem hash_append_inj {a b : Hash} {x y : Bytes} (h : a.bytes ++ x = b.bytes ++ y) :
    a = b ∧ x = y := by
  have := List.append_inj h (by rw [a.len, b.len])
  exact ⟨Hash.ext this.1, this.2⟩

theorem append_hash_inj {a b : Hash} {x y : Bytes} (h : x ++ a.bytes = y ++ b.bytes) :
    x = y ∧ a = b := by
  have := List.append_inj' h (by rw [a.len, b.len])
  exact ⟨this.1, Hash.ext this.2⟩

/-- The concatenation of a list of hashes. -/
def hashesBytes (l : List Hash) : Bytes := (l.map Hash.bytes).flatten

@[simp] theorem hashesBytes_nil : hashesBytes [] = [] := rfl
@[simp] theorem hashesBytes_cons (a : Hash) (l : List Hash) :
    hashesBytes (a :: l) = a.bytes ++ hashesBytes l := rfl
@[simp] theorem hashesBytes_append (a b : List Hash) :
    hashesBytes (a ++ b) = hashesBytes a ++ hashesBytes b := by
  simp [hashesBytes]

theorem hashesBytes_length : ∀ l : List Hash, (hashesBytes l).length = 64 * l.length
  | [] => rfl
  | a :: l => by simp [hashesBytes_length l, a.len]; omega

theorem hashesBytes_injective : ∀ {a b : List Hash}, hashesBytes a = hashesBytes b → a = b
  | [], [], _ => rfl
  | [], b :: bs, h => by
    have := congrArg List.length h
    simp [b.len] at this; omega
  | a :: as, [], h => by
    have := congrArg List.length h
    simp [a.len] at this
  | a :: as, b :: bs, h => by
    obtain ⟨h1, h2⟩ := hash_append_inj h
    rw [h1, hashesBytes_injective h2]

variable [Sha512]

theorem fromBytes_of_len {x : Bytes} (h : x.length = 64) : fromBytes x = ⟨x, h⟩ := by
  simp [fromBytes, h]

theorem fromBytes_of_ne {x : Bytes} (h : x.length ≠ 64) : fromBytes x = Sha512.sum x := by
  simp [fromBytes, h]

@[simp] theorem fromBytes_hash (h : Hash) : fromBytes h.bytes = h := by
  simp [fromBytes, h.len]

/-- Equal hashes of strings that are both not 64 bytes long. -/
theorem fromBytes_eq_red {x y : Bytes} (hx : x.length ≠ 64) (hy : y.length ≠ 64)
    (h : fromBytes x = fromBytes y) : x = y ∨ ShaCollision x y := by
  rw [fromBytes_of_ne hx, fromBytes_of_ne hy] at h
  by_cases e : x = y
  · exact .inl e
  · exact .inr ⟨e, hx, hy, h⟩

/-- Equal hashes in general. -/
theorem fromBytes_eq_red' {x y : Bytes} (h : fromBytes x = fromBytes y) :
    x = y ∨ ShaCollision x y ∨ ShaPassThrough x y ∨ ShaPassThrough y x := by
  by_cases hx : x.length = 64 <;> by_cases hy : y.length = 64
  · rw [fromBytes_of_len hx, fromBytes_of_len hy] at h
    exact .inl (congrArg Hash.bytes h)
  · rw [fromBytes_of_len hx, fromBytes_of_ne hy] at h
    exact .inr (.inr (.inl ⟨hx, hy, (congrArg Hash.bytes h).symm⟩))
  · rw [fromBytes_of_ne hx, fromBytes_of_len hy] at h
    exact .inr (.inr (.inr ⟨hy, hx, congrArg Hash.bytes h⟩))
  · rcases fromBytes_eq_red hx hy h with e | e
    · exact .inl e
    · exact .inr (.inl e)

@[simp] theorem fromString_str (h : Hash) : fromString h.str = .ok h := by
  simp [fromString, Hash.str, hexDecode_hexEncode]

theorem fromString_eq_ok {s : Bytes} {h : Hash} :
    fromString s = .ok h ↔ ∃ b, hexDecode s = some b ∧ h = fromBytes b := by
  unfold fromString
  cases hexDecode s <;> simp [eq_comm]

theorem fromString_not_crash (s : Bytes) (c : Crash) : fromString s ≠ .crash c := by
  unfold fromString
  split <;> simp

omit [Sha512] in
theorem toInt_of_lt {d : UInt64} (h : d.toNat < 2 ^ 63) : toInt d = d.toNat := by
  unfold toInt
  rw [UInt64.toInt64, Int64.toInt]
  simp only [Int64.toBitVec]
  rw [BitVec.toInt_eq_toNat_of_lt]
  · rfl
  · simpa using by omega

omit [Sha512] in
theorem toInt_of_ge {d : UInt64} (h : 2 ^ 63 ≤ d.toNat) : toInt d < 0 := by
  unfold toInt
  rw [UInt64.toInt64, Int64.toInt]
  simp only [Int64.toBitVec]
  rw [BitVec.toInt_eq_toNat_cond]
  have := d.toNat_lt
  rw [if_neg]
  · simp only [UInt64.toNat_toBitVec]; omega
  · simp only [UInt64.toNat_toBitVec]; omega

end Verif
