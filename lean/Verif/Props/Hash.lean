import Verif.Model.HashLemmas
import Verif.Base.Split

/-!
# Properties of `libs/hash` (C01 - C04)
-/

namespace Verif

/-- A toy hash function for non-vacuity examples: pad with zeroes / truncate to 64 bytes. -/
@[reducible] def toySha : Sha512 where
  sum x := ⟨(x ++ List.replicate 64 0).take 64, by simp⟩

/-! ## C01 -/

/-- C01: the string form of a hash consists of 128 lower case hexadecimal characters. -/
theorem C01_string_shape (h : Hash) :
    h.str.length = 128 ∧ ∀ c ∈ h.str, (48 ≤ c ∧ c ≤ 57) ∨ (97 ≤ c ∧ c ≤ 102) := by
  refine ⟨h.str_length, fun c hc => ?_⟩
  have := hexEncode_alphabet _ c hc
  simpa [isLowerHex] using this

/-- C01: parsing the string form gives back the hash. -/
theorem C01_string_round_trip [Sha512] (h : Hash) : fromString h.str = .ok h := fromString_str h

/-- C01: strings are equal exactly when `Compare` says so, and exactly when the hashes are equal. -/
theorem C01_compare_iff_string (a b : Hash) :
    (a.compare b = true ↔ a.str = b.str) ∧ (a.compare b = true ↔ a = b) := by
  rw [Hash.compare_iff]
  exact ⟨⟨fun e => by rw [e], fun e => Hash.str_injective e⟩, Iff.rfl⟩

/-- Specification of the directory part of a path: the string cut in `n` folders of 16 letters. -/
def folders : Nat → Bytes → List Bytes
  | 0, _ => []
  | n + 1, s => s.take 16 :: folders n (s.drop 16)

private theorem pathLoop_inner (w : Bytes) : ∀ (i : Nat) (out cur s : Bytes),
    1 ≤ i % 16 → i % 16 + w.length ≤ 16 →
    Hash.pathLoop i out cur (w ++ s) = Hash.pathLoop (i + w.length) out (cur ++ w) s := by
  induction w with
  | nil => intro i out cur s _ _; simp
  | cons c w ih =>
    intro i out cur s h1 h2
    simp only [List.length_cons] at h2
    have hi : ¬ (cur ≠ [] ∧ i % 16 = 0) := by omega
    rw [List.cons_append, Hash.pathLoop, if_neg hi]
    by_cases hw : w = []
    · subst hw; simp
    · have : 0 < w.length := List.length_pos_iff.mpr hw
      rw [ih _ _ _ _ (by omega) (by omega)]
      simp only [List.append_assoc, List.singleton_append, List.length_cons]
      congr 1; omega

private theorem pathLoop_folder {w : Bytes} (hw : w.length = 16) {i : Nat} (hi : i % 16 = 0)
    (out cur s : Bytes) :
    Hash.pathLoop i out cur (w ++ s) =
      Hash.pathLoop (i + 16) (if cur = [] then out else Hash.joinPath out cur) w s := by
  cases w with
  | nil => simp at hw
  | cons c w =>
    have hl : w.length = 15 := by simpa using hw
    rw [List.cons_append, Hash.pathLoop]
    by_cases hc : cur = []
    · subst hc
      simp only [ne_eq, not_true_eq_false, false_and, ↓reduceIte]
      rw [pathLoop_inner w _ _ _ _ (by omega) (by omega)]
      simp only [hl, List.nil_append, List.singleton_append]
    · simp only [ne_eq, hc, not_false_eq_true, hi, and_self, ↓reduceIte]
      rw [pathLoop_inner w _ _ _ _ (by omega) (by omega)]
      simp only [hl, List.singleton_append]

private theorem pathLoop_folders : ∀ (n i : Nat) (s out cur : Bytes), s.length = 16 * n →
    i % 16 = 0 → cur ≠ [] →
    (Hash.pathLoop i out cur s).2 ≠ [] ∧
    Hash.joinPath (Hash.pathLoop i out cur s).1 (Hash.pathLoop i out cur s).2 =
      (folders n s).foldl Hash.joinPath (Hash.joinPath out cur) := by
  intro n
  induction n with
  | zero =>
    intro i s out cur hs _ hc
    have : s = [] := List.length_eq_zero_iff.mp (by omega)
    subst this
    simp [Hash.pathLoop, folders, hc]
  | succ n ih =>
    intro i s out cur hs hi hc
    have hw : (s.take 16).length = 16 := by simp; omega
    have hne : s.take 16 ≠ [] := by intro e; rw [e] at hw; simp at hw
    have key := pathLoop_folder hw hi out cur (s.drop 16)
    rw [List.take_append_drop, if_neg hc] at key
    rw [key]
    have := ih (i + 16) (s.drop 16) (Hash.joinPath out cur) (s.take 16) (by simp; omega)
      (by omega) hne
    simpa [folders] using this

private theorem foldl_joinPath (s : Bytes) (hs : s ≠ []) : ∀ (l : List Bytes) (a : Bytes), a ≠ [] →
    (∀ p ∈ l, p ≠ []) →
    Hash.joinPath (l.foldl Hash.joinPath a) s = joinWith 47 (a :: (l ++ [s])) := by
  intro l
  induction l with
  | nil => intro a ha _; simp [Hash.joinPath, ha, hs, joinWith]
  | cons p l ih =>
    intro a ha hl
    have hp := hl p (by simp)
    simp only [List.foldl_cons, List.cons_append, joinWith]
    rw [ih _ (by simp [Hash.joinPath, ha, hp]) (fun q hq => hl q (by simp [hq]))]
    have : Hash.joinPath a p = a ++ 47 :: p := by simp [Hash.joinPath, ha, hp]
    rw [this]
    cases hls : l ++ [s] with
    | nil => simp at hls
    | cons x xs => simp [joinWith]

private theorem folders_ne_nil : ∀ (n : Nat) (s : Bytes), s.length = 16 * n →
    ∀ p ∈ folders n s, p ≠ []
  | 0, _, _ => by simp [folders]
  | n + 1, s, h => by
    have hw : (s.take 16).length = 16 := by simp; omega
    have hne : s.take 16 ≠ [] := by intro e; rw [e] at hw; simp at hw
    simp only [folders, List.forall_mem_cons]
    exact ⟨hne, folders_ne_nil n (s.drop 16) (by simp; omega)⟩

/-- C01: the path consists of eight folders of 16 letters each (the string form cut in pieces),
followed by the full string form, separated by `/`. -/
theorem C01_path_shape (h : Hash) : h.path = joinWith 47 (folders 8 h.str ++ [h.str]) := by
  have hl := h.str_length
  have hs : h.str ≠ [] := by intro e; rw [e] at hl; simp at hl
  have hw : (h.str.take 16).length = 16 := by simp; omega
  have hne : h.str.take 16 ≠ [] := by intro e; rw [e] at hw; simp at hw
  have key := pathLoop_folder hw (i := 0) rfl [] [] (h.str.drop 16)
  rw [List.take_append_drop, if_pos rfl] at key
  have k2 := pathLoop_folders 7 16 (h.str.drop 16) [] (h.str.take 16) (by simp; omega) rfl hne
  have hj : Hash.joinPath [] (h.str.take 16) = h.str.take 16 := by simp [Hash.joinPath]
  unfold Hash.path
  simp only [key]
  rw [if_pos k2.1, k2.2, hj,
    foldl_joinPath _ hs _ _ hne (folders_ne_nil 7 (h.str.drop 16) (by simp; omega))]
  rfl

/-- C01: paths are equal exactly when the hashes are equal. -/
theorem C01_path_iff (a b : Hash) : a.path = b.path ↔ a = b := by
  refine ⟨fun e => ?_, fun e => by rw [e]⟩
  have key : ∀ h : Hash, ∃ p, h.path = p ++ h.str := by
    intro h
    rw [C01_path_shape]
    have : ∀ (l : List Bytes) (s : Bytes), ∃ p, joinWith 47 (l ++ [s]) = p ++ s := by
      intro l s
      induction l with
      | nil => exact ⟨[], rfl⟩
      | cons x xs ih =>
        obtain ⟨p, hp⟩ := ih
        cases hxs : xs ++ [s] with
        | nil => simp at hxs
        | cons y ys =>
          rw [hxs] at hp
          exact ⟨x ++ 47 :: p, by simp [hxs, joinWith, hp]⟩
    exact this _ _
  obtain ⟨p, hp⟩ := key a
  obtain ⟨q, hq⟩ := key b
  rw [hp, hq] at e
  have := List.append_inj' e (by rw [a.str_length, b.str_length])
  exact Hash.str_injective this.2

/-- Two different hashes exist, so the equivalences above are not about a one-element type. -/
example : ∃ a b : Hash, a ≠ b ∧ a.path ≠ b.path := by
  refine ⟨⟨List.replicate 64 0, by simp⟩, ⟨List.replicate 64 1, by simp⟩, ?_, ?_⟩
  · intro e; have := congrArg Hash.bytes e; simp at this
  · rw [Ne, C01_path_iff]
    intro e; have := congrArg Hash.bytes e; simp at this

/-! ## C02 -/

/-- C02: `FromString` never panics. -/
theorem C02_total [Sha512] (s : Bytes) (c : Crash) : fromString s ≠ .crash c :=
  fromString_not_crash s c

/-- C02: `FromString` succeeds exactly on strings of even length over `0-9a-fA-F`, and fails with an
error on all others. -/
theorem C02_rejects_exactly [Sha512] (s : Bytes) :
    ((∃ h, fromString s = .ok h) ↔
      s.length % 2 = 0 ∧
        ∀ c ∈ s, (48 ≤ c ∧ c ≤ 57) ∨ (97 ≤ c ∧ c ≤ 102) ∨ (65 ≤ c ∧ c ≤ 70)) ∧
    ((∃ m, fromString s = .err m) ↔ ¬ ∃ h, fromString s = .ok h) := by
  constructor
  · have h := hexDecode_isSome s
    have h2 : ∀ c : UInt8, isHexChar c = true ↔
        ((48 ≤ c ∧ c ≤ 57) ∨ (97 ≤ c ∧ c ≤ 102) ∨ (65 ≤ c ∧ c ≤ 70)) := by
      intro c; simp [isHexChar, or_assoc]
    simp only [h2] at h
    rw [← h]
    unfold fromString
    cases hexDecode s <;> simp
  · unfold fromString
    cases hexDecode s <;> simp

/-- C02: letter case does not matter. -/
theorem C02_case_insensitive [Sha512] (s : Bytes) : fromString (s.map lowerByte) = fromString s := by
  simp [fromString, hexDecode_lower]

/-- C02: on the hex encoding of any byte string the result is `FromBytes` of that byte string. -/
theorem C02_value [Sha512] (x : Bytes) : fromString (hexEncode x) = .ok (fromBytes x) := by
  simp [fromString, hexDecode_hexEncode]

example : letI := toySha; ∃ h, fromString (ascii "0aFF") = .ok h ∧ h.bytes.take 2 = [10, 255] := by
  refine ⟨_, rfl, ?_⟩
  decide

example : letI := toySha; ∃ m, fromString (ascii "0g") = .err m := ⟨_, rfl⟩

/-! ## C03 -/

/-- C03: hashing is the identity on 64-byte strings and SHA-512 on everything else. -/
theorem C03_fromBytes [Sha512] (x : Bytes) :
    (x.length = 64 → (fromBytes x).bytes = x) ∧ (x.length ≠ 64 → fromBytes x = Sha512.sum x) :=
  ⟨fun h => by rw [fromBytes_of_len h], fromBytes_of_ne⟩

/-- C03: hashing a hash again changes nothing. -/
theorem C03_idempotent [Sha512] (x : Bytes) : fromBytes (fromBytes x).bytes = fromBytes x :=
  fromBytes_hash _

/-! ## C04 -/

/-- C04: row boundaries are invisible: row lists with the same concatenation have the same hash. -/
theorem C04_concatenation_only [Sha512] {r₁ r₂ : List Bytes} (h : r₁.flatten = r₂.flatten) :
    fromMultiBytes r₁ = fromMultiBytes r₂ := by
  simp [fromMultiBytes, h]

/-- C04 (negation of "distinct rows, distinct hashes"): every hash function identifies these two
different row lists. -/
theorem C04_rows_not_separated_neg [Sha512] (x y : Bytes) (hx : x ≠ []) :
    [x, y] ≠ [x ++ y] ∧ fromMultiBytes [x, y] = fromMultiBytes [x ++ y] ∧
    [x, y] ≠ [[], x ++ y] ∧ fromMultiBytes [x, y] = fromMultiBytes [[], x ++ y] := by
  refine ⟨by simp, C04_concatenation_only (by simp), ?_, C04_concatenation_only (by simp)⟩
  intro e
  exact hx (List.cons.inj e).1

/-- C04: equal hashes mean equal concatenations, or an explicit SHA-512 collision, or a 64-byte
input that is the SHA-512 value of the other one. -/
theorem C04_binding [Sha512] {r₁ r₂ : List Bytes} (h : fromMultiBytes r₁ = fromMultiBytes r₂) :
    r₁.flatten = r₂.flatten ∨ ShaCollision r₁.flatten r₂.flatten ∨
      ShaPassThrough r₁.flatten r₂.flatten ∨ ShaPassThrough r₂.flatten r₁.flatten :=
  fromBytes_eq_red' h

/-- The hypothesis of `C04_binding` is met by different row lists. -/
example : letI := toySha; fromMultiBytes [[1], [2, 3]] = fromMultiBytes [[1, 2], [3]] := rfl

/-- All cases of the conclusion can happen: the toy hash has a collision. -/
example : letI := toySha; ShaCollision [0] [] := by
  refine ⟨by simp, by simp, by simp, ?_⟩
  rfl

end Verif
