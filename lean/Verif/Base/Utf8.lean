import Verif.Base.Bytes

/-!
# What Go's `encoding/json` does to string values

`json.Marshal` writes a Go string rune by rune; a byte that does not start a valid UTF-8 sequence is
written as the replacement character U+FFFD (`encoding/json/encode.go`, `string`, using
`utf8.DecodeRuneInString`). All other escapes decode to what was written. So the value that comes
back is the string with these bytes replaced.
-/

namespace Verif

/-- Is the byte in the range? -/
def inRange (lo hi : Nat) (b : UInt8) : Bool := decide (lo ≤ b.toNat ∧ b.toNat ≤ hi)

/-- `unicode/utf8`, `DecodeRuneInString`: the size of the valid sequence the text starts with, or 0
when there is none. The ranges are those of the tables `first` and `acceptRanges`. -/
def runeSize : Bytes → Nat
  | [] => 0
  | b0 :: rest =>
    if inRange 0 0x7F b0 then 1
    else match rest with
      | [] => 0
      | b1 :: rest =>
        if inRange 0xC2 0xDF b0 && inRange 0x80 0xBF b1 then 2
        else match rest with
          | [] => 0
          | b2 :: rest =>
            if ((inRange 0xE0 0xE0 b0 && inRange 0xA0 0xBF b1) ||
                (inRange 0xE1 0xEC b0 && inRange 0x80 0xBF b1) ||
                (inRange 0xED 0xED b0 && inRange 0x80 0x9F b1) ||
                (inRange 0xEE 0xEF b0 && inRange 0x80 0xBF b1)) && inRange 0x80 0xBF b2 then 3
            else match rest with
              | [] => 0
              | b3 :: _ =>
                if ((inRange 0xF0 0xF0 b0 && inRange 0x90 0xBF b1) ||
                    (inRange 0xF1 0xF3 b0 && inRange 0x80 0xBF b1) ||
                    (inRange 0xF4 0xF4 b0 && inRange 0x80 0x8F b1)) &&
                    inRange 0x80 0xBF b2 && inRange 0x80 0xBF b3 then 4
                else 0

/-- The string that comes back from `json.Marshal` followed by `json.Unmarshal`. -/
def jsonText : Bytes → Bytes
  | [] => []
  | b :: bs =>
    match runeSize (b :: bs) with
    | 0 => 0xEF :: 0xBF :: 0xBD :: jsonText bs
    | k + 1 => b :: bs.take k ++ jsonText (bs.drop k)
  termination_by l => l.length
  decreasing_by all_goals simp

/-! ## Valid texts -/

/-- The UTF-8 encoding of a code point. -/
def utf8 (n : Nat) : Bytes :=
  if n < 0x80 then [UInt8.ofNat n]
  else if n < 0x800 then [UInt8.ofNat (0xC0 + n / 64), UInt8.ofNat (0x80 + n % 64)]
  else if n < 0x10000 then
    [UInt8.ofNat (0xE0 + n / 4096), UInt8.ofNat (0x80 + n / 64 % 64), UInt8.ofNat (0x80 + n % 64)]
  else
    [UInt8.ofNat (0xF0 + n / 262144), UInt8.ofNat (0x80 + n / 4096 % 64),
      UInt8.ofNat (0x80 + n / 64 % 64), UInt8.ofNat (0x80 + n % 64)]

/-- Code points that are characters: not above 10FFFF and no surrogates. -/
def IsChar (n : Nat) : Prop := n < 0xD800 ∨ (0xDFFF < n ∧ n < 0x110000)

/-- A text in UTF-8: the concatenation of encodings of characters. -/
def Utf8 (b : Bytes) : Prop := ∃ cs : List Nat, (∀ c ∈ cs, IsChar c) ∧ b = (cs.map utf8).flatten

private theorem ofNat_toNat {n : Nat} (h : n < 256) : (UInt8.ofNat n).toNat = n := by
  rw [UInt8.toNat_ofNat']; exact Nat.mod_eq_of_lt h

theorem runeSize_utf8 (n : Nat) (h : IsChar n) (rest : Bytes) :
    runeSize (utf8 n ++ rest) = (utf8 n).length := by
  unfold IsChar at h
  unfold utf8
  split
  · rename_i h1
    simp [runeSize, inRange, ofNat_toNat (show n < 256 by omega)]
    omega
  split
  · rename_i h1 h2
    have e0 := ofNat_toNat (show 0xC0 + n / 64 < 256 by omega)
    have e1 := ofNat_toNat (show 0x80 + n % 64 < 256 by omega)
    simp only [List.cons_append, List.nil_append, runeSize, inRange, e0, e1, List.length_cons,
      List.length_nil]
    rw [if_neg (by simp; omega), if_pos (by simp; omega)]
  split
  · rename_i h1 h2 h3
    have e0 := ofNat_toNat (show 0xE0 + n / 4096 < 256 by omega)
    have e1 := ofNat_toNat (show 0x80 + n / 64 % 64 < 256 by omega)
    have e2 := ofNat_toNat (show 0x80 + n % 64 < 256 by omega)
    simp only [List.cons_append, List.nil_append, runeSize, inRange, e0, e1, e2, List.length_cons,
      List.length_nil]
    rw [if_neg (by simp; omega), if_neg (by simp; omega), if_pos]
    simp only [Bool.and_eq_true, Bool.or_eq_true, decide_eq_true_eq]
    omega
  · rename_i h1 h2 h3
    have e0 := ofNat_toNat (show 0xF0 + n / 262144 < 256 by omega)
    have e1 := ofNat_toNat (show 0x80 + n / 4096 % 64 < 256 by omega)
    have e2 := ofNat_toNat (show 0x80 + n / 64 % 64 < 256 by omega)
    have e3 := ofNat_toNat (show 0x80 + n % 64 < 256 by omega)
    simp only [List.cons_append, List.nil_append, runeSize, inRange, e0, e1, e2, e3,
      List.length_cons, List.length_nil]
    rw [if_neg (by simp; omega), if_neg (by simp; omega), if_neg, if_pos]
    · simp only [Bool.and_eq_true, Bool.or_eq_true, decide_eq_true_eq]
      omega
    · simp only [Bool.and_eq_true, Bool.or_eq_true, decide_eq_true_eq]
      omega

theorem utf8_ne_nil (n : Nat) : utf8 n ≠ [] := by
  unfold utf8
  split
  · simp
  split
  · simp
  split <;> simp

theorem jsonText_utf8_append (n : Nat) (h : IsChar n) (rest : Bytes) :
    jsonText (utf8 n ++ rest) = utf8 n ++ jsonText rest := by
  have hs := runeSize_utf8 n h rest
  cases hu : utf8 n with
  | nil => exact absurd hu (utf8_ne_nil n)
  | cons b bs =>
    rw [hu] at hs
    simp only [List.cons_append] at hs ⊢
    rw [jsonText, hs]
    simp

/-- Valid texts come back unchanged. -/
theorem jsonText_of_utf8 {b : Bytes} (h : Utf8 b) : jsonText b = b := by
  obtain ⟨cs, hc, rfl⟩ := h
  induction cs with
  | nil => simp [jsonText]
  | cons c cs ih =>
    simp only [List.map_cons, List.flatten_cons]
    rw [jsonText_utf8_append c (hc c (by simp)), ih fun x hx => hc x (by simp [hx])]

private theorem byte_eq {b : UInt8} {n : Nat} (h : b.toNat = n) : b = UInt8.ofNat n := by
  rw [← h, UInt8.ofNat_toNat]

/-- A valid sequence is the encoding of a character. -/
theorem runeSize_sound (b : Bytes) (k : Nat) (h : runeSize b = k + 1) :
    ∃ n rest, IsChar n ∧ b = utf8 n ++ rest ∧ (utf8 n).length = k + 1 := by
  unfold runeSize at h
  split at h
  · simp at h
  rename_i b0 rest
  split at h
  · rename_i h0
    simp only [inRange, decide_eq_true_eq] at h0
    refine ⟨b0.toNat, rest, .inl (by omega), ?_, ?_⟩
    · simp [utf8, show b0.toNat < 0x80 by omega]
    · simp [utf8, show b0.toNat < 0x80 by omega]; omega
  split at h
  · simp at h
  rename_i b1 rest
  split at h
  · rename_i h1
    simp only [inRange, Bool.and_eq_true, decide_eq_true_eq] at h1
    have e : utf8 ((b0.toNat - 0xC0) * 64 + (b1.toNat - 0x80)) = [b0, b1] := by
      unfold utf8
      rw [if_neg (by omega), if_pos (by omega)]
      rw [← byte_eq (b := b0) (by omega), ← byte_eq (b := b1) (by omega)]
    exact ⟨(b0.toNat - 0xC0) * 64 + (b1.toNat - 0x80), rest, .inl (by omega), by rw [e]; rfl, by rw [e]; simp; omega⟩
  split at h
  · simp at h
  rename_i b2 rest
  split at h
  · rename_i h1
    simp only [inRange, Bool.and_eq_true, Bool.or_eq_true, decide_eq_true_eq] at h1
    have e : utf8 ((b0.toNat - 0xE0) * 4096 + (b1.toNat - 0x80) * 64 + (b2.toNat - 0x80)) =
        [b0, b1, b2] := by
      unfold utf8
      rw [if_neg (by omega), if_neg (by omega), if_pos (by omega)]
      rw [← byte_eq (b := b0) (by omega), ← byte_eq (b := b1) (by omega),
        ← byte_eq (b := b2) (by omega)]
    exact ⟨(b0.toNat - 0xE0) * 4096 + (b1.toNat - 0x80) * 64 + (b2.toNat - 0x80), rest,
      by unfold IsChar; omega, by rw [e]; rfl, by rw [e]; simp; omega⟩
  split at h
  · simp at h
  rename_i b3 rest
  split at h
  · rename_i h1
    simp only [inRange, Bool.and_eq_true, Bool.or_eq_true, decide_eq_true_eq] at h1
    have e : utf8 ((b0.toNat - 0xF0) * 262144 + (b1.toNat - 0x80) * 4096 + (b2.toNat - 0x80) * 64 +
        (b3.toNat - 0x80)) = [b0, b1, b2, b3] := by
      unfold utf8
      rw [if_neg (by omega), if_neg (by omega), if_neg (by omega)]
      rw [← byte_eq (b := b0) (by omega), ← byte_eq (b := b1) (by omega),
        ← byte_eq (b := b2) (by omega), ← byte_eq (b := b3) (by omega)]
    exact ⟨(b0.toNat - 0xF0) * 262144 + (b1.toNat - 0x80) * 4096 + (b2.toNat - 0x80) * 64 +
      (b3.toNat - 0x80), rest, by unfold IsChar; omega, by rw [e]; rfl, by rw [e]; simp; omega⟩
  · simp at h

theorem utf8_fffd : utf8 0xFFFD = [0xEF, 0xBF, 0xBD] := by decide

/-- What comes back is always valid, at least as long, and longer unless the text was valid. -/
theorem jsonText_spec : ∀ (m : Nat) (b : Bytes), b.length ≤ m →
    Utf8 (jsonText b) ∧ b.length ≤ (jsonText b).length ∧
      ((jsonText b).length = b.length → Utf8 b)
  | _, [], _ => by
    rw [jsonText]
    exact ⟨⟨[], by simp, rfl⟩, by simp, fun _ => ⟨[], by simp, rfl⟩⟩
  | 0, _ :: _, h => by simp at h
  | m + 1, b :: bs, hm => by
    rw [jsonText]
    cases hs : runeSize (b :: bs) with
    | zero =>
      obtain ⟨⟨cs, hc, he⟩, h2, h3⟩ := jsonText_spec m bs (by simpa using hm)
      simp only
      refine ⟨⟨0xFFFD :: cs, ?_, ?_⟩, ?_, ?_⟩
      · intro c hm
        rcases List.mem_cons.mp hm with rfl | hm
        · right; omega
        · exact hc c hm
      · simp only [List.map_cons, List.flatten_cons, utf8_fffd, he]; rfl
      · simp only [List.length_cons]; omega
      · intro h; simp only [List.length_cons] at h; omega
    | succ k =>
      obtain ⟨n, rest, hn, he, hl⟩ := runeSize_sound _ _ hs
      have hb : b :: bs.take k = utf8 n := by
        have : (b :: bs).take (k + 1) = utf8 n := by rw [he, ← hl, List.take_left]
        simpa using this
      have hd : bs.drop k = rest := by
        have : (b :: bs).drop (k + 1) = rest := by rw [he, ← hl, List.drop_left]
        simpa using this
      have hlen : (b :: bs).length = (utf8 n).length + rest.length := by rw [he]; simp
      obtain ⟨⟨cs, hc, he'⟩, h2, h3⟩ := jsonText_spec m rest (by
        have := List.length_pos_iff.mpr (utf8_ne_nil n); omega)
      simp only
      rw [hb, hd]
      refine ⟨⟨n :: cs, ?_, by simp [he']⟩, ?_, ?_⟩
      · intro c hm
        rcases List.mem_cons.mp hm with rfl | hm
        · exact hn
        · exact hc c hm
      · rw [List.length_append, hlen]; omega
      · intro h
        rw [List.length_append, hlen] at h
        obtain ⟨cs, hc, hr⟩ := h3 (by omega)
        refine ⟨n :: cs, ?_, by rw [he, hr]; simp⟩
        intro c hm
        rcases List.mem_cons.mp hm with rfl | hm
        · exact hn
        · exact hc c hm

/-- A text comes back unchanged exactly when it is valid. -/
theorem jsonText_eq_iff (b : Bytes) : jsonText b = b ↔ Utf8 b :=
  ⟨fun h => (jsonText_spec _ b le_rfl).2.2 (by rw [h]), jsonText_of_utf8⟩

theorem jsonText_utf8 (b : Bytes) : Utf8 (jsonText b) := (jsonText_spec _ b le_rfl).1

theorem jsonText_ne_nil {b : Bytes} (h : b ≠ []) : jsonText b ≠ [] := by
  have := (jsonText_spec _ b le_rfl).2.1
  intro e
  rw [e] at this
  simp at this
  exact h this

theorem jsonText_nil : jsonText [] = [] := by rw [jsonText]

/-- ASCII texts are valid. -/
theorem utf8_of_ascii {b : Bytes} (h : ∀ x ∈ b, x.toNat < 0x80) : Utf8 b := by
  refine ⟨b.map UInt8.toNat, ?_, ?_⟩
  · intro c hc
    obtain ⟨x, hx, rfl⟩ := List.mem_map.mp hc
    have := h x hx
    left; omega
  · induction b with
    | nil => rfl
    | cons x xs ih =>
      have := h x (by simp)
      simp only [List.map_cons, List.flatten_cons, utf8, this, if_true, UInt8.ofNat_toNat]
      rw [← ih fun y hy => h y (by simp [hy])]
      rfl

end Verif
