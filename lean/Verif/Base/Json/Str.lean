import Verif.Base.Utf8
import Verif.Base.Json.TextLemmas

/-!
# String literals of `encoding/json`

Writing (`encode.go`, `string`, with HTML escaping, which `json.Marshal` switches on) and reading
(`decode.go`, `unquoteBytes`). A string that is written and read back is `jsonText` of it.
-/

namespace Verif

/-- How an ASCII byte is written. Newer versions of the library write `\b` and `\f` for 8 and 12;
they are read back alike. -/
def escByte (b : UInt8) : Bytes :=
  if b == 34 || b == 92 then [92, b]
  else if b == 10 then [92, 110]
  else if b == 13 then [92, 114]
  else if b == 9 then [92, 116]
  else if b < 32 || b == 60 || b == 62 || b == 38 then
    [92, 117, 48, 48, hexDigit (b / 16), hexDigit (b % 16)]
  else [b]

/-- The literal that `json.Marshal` writes for a string. -/
def jsonEsc : Bytes → Bytes
  | [] => []
  | b :: bs =>
    match runeSize (b :: bs) with
    | 0 => [92, 117, 102, 102, 102, 100] ++ jsonEsc bs
    | 1 => escByte b ++ jsonEsc bs
    | k + 2 =>
      (if b :: bs.take (k + 1) = [0xE2, 0x80, 0xA8] then [92, 117, 50, 48, 50, 56]
        else if b :: bs.take (k + 1) = [0xE2, 0x80, 0xA9] then [92, 117, 50, 48, 50, 57]
        else b :: bs.take (k + 1)) ++ jsonEsc (bs.drop (k + 1))
  termination_by l => l.length
  decreasing_by all_goals simp

/-- Four hexadecimal digits and the text behind them (`decode.go`, `getu4`). -/
def hex4 : Bytes → Option (Nat × Bytes)
  | a :: b :: c :: d :: r =>
    match hexVal a, hexVal b, hexVal c, hexVal d with
    | some a, some b, some c, some d =>
      some (((a.toNat * 16 + b.toNat) * 16 + c.toNat) * 16 + d.toNat, r)
    | _, _, _, _ => none
  | _ => none

/-- The byte that an escape stands for. -/
def escVal (e : UInt8) : UInt8 :=
  if e == 98 then 8 else if e == 102 then 12 else if e == 110 then 10
  else if e == 114 then 13 else if e == 116 then 9 else e

/-- U+FFFD in UTF-8. -/
def fffd : Bytes := [0xEF, 0xBF, 0xBD]

/-- `\u` followed by four digits, or an unpaired surrogate replaced (`utf16.DecodeRune`): the
encoded character and the rest. -/
def unU (s : Bytes) : Bytes × Bytes :=
  match hex4 s with
  | none => ([], [])
  | some (u, r) =>
    if 0xD800 ≤ u ∧ u < 0xE000 then
      match r with
      | 92 :: 117 :: r' =>
        match hex4 r' with
        | some (w, r2) =>
          if u < 0xDC00 ∧ 0xDC00 ≤ w ∧ w < 0xE000 then
            (utf8 ((u - 0xD800) * 1024 + (w - 0xDC00) + 0x10000), r2)
          else (fffd, r)
        | none => (fffd, r)
      | _ => (fffd, r)
    else (utf8 u, r)

/-- The string that a literal stands for; the first argument bounds the recursion. -/
def unq : Nat → Bytes → Bytes
  | 0, _ => []
  | _ + 1, [] => []
  | n + 1, 92 :: 117 :: s => (unU s).1 ++ unq n (unU s).2
  | n + 1, 92 :: e :: s => escVal e :: unq n s
  | n + 1, b :: s =>
    match runeSize (b :: s) with
    | 0 => fffd ++ unq n s
    | k + 1 => b :: s.take k ++ unq n (s.drop k)

/-- The string that a literal stands for. -/
def unquote (l : Bytes) : Bytes := unq l.length l

/-! ## What was written is read back -/

theorem strLit_u {a b c d : UInt8} (h : (isHexChar a && isHexChar b && isHexChar c && isHexChar d) = true)
    (r : Bytes) : strLit (92 :: 117 :: a :: b :: c :: d :: r) =
      (strLit r).map fun p => (92 :: 117 :: a :: b :: c :: d :: p.1, p.2) := by
  rw [strLit.eq_4]; simp only [h, if_true]

/-- The bytes can be put in front of a literal. -/
def Prefixable (w : Bytes) : Prop :=
  ∀ r, strLit (w ++ r) = (strLit r).map fun p => (w ++ p.1, p.2)

theorem prefixable_nil : Prefixable [] := by intro r; cases h : strLit r <;> simp [h]

theorem Prefixable.append {v w : Bytes} (hv : Prefixable v) (hw : Prefixable w) :
    Prefixable (v ++ w) := by
  intro r
  rw [List.append_assoc, hv, hw]
  cases strLit r <;> simp

theorem Prefixable.isStrLit {w : Bytes} (h : Prefixable w) : IsStrLit w := by
  have := h [34]
  rw [IsStrLit, this]
  simp [strLit]

theorem prefixable_plain {c : UInt8} (h1 : ¬ c < 32) (h2 : c ≠ 34) (h3 : c ≠ 92) :
    Prefixable [c] := fun r => by
  rw [List.singleton_append, strLit_plain h1 h2 h3]
  rfl

theorem prefixable_escByte (b : UInt8) (hb : b.toNat < 0x80) : Prefixable (escByte b) := by
  unfold escByte
  split
  · rename_i h
    intro r
    simp only [List.cons_append, List.nil_append]
    rw [strLit_esc]
    simp only [isEsc]
    simp only [Bool.or_eq_true, beq_iff_eq] at h ⊢
    tauto
  split
  · intro r; exact strLit_esc rfl r
  split
  · intro r; exact strLit_esc rfl r
  split
  · intro r; exact strLit_esc rfl r
  split
  · intro r
    simp only [List.cons_append, List.nil_append]
    rw [strLit_u]
    revert b; apply UInt8.forall_of_fin; decide +kernel
  · rename_i h1 h2 h3 h4 h5
    simp only [Bool.or_eq_true, beq_iff_eq, decide_eq_true_eq, not_or] at h1 h5
    exact prefixable_plain h5.1.1.1 h1.1 h1.2

theorem prefixable_high {w : Bytes} (h : ∀ c ∈ w, 0x80 ≤ c.toNat) : Prefixable w := by
  induction w with
  | nil => exact prefixable_nil
  | cons c w ih =>
    have hc := h c (by simp)
    refine (prefixable_plain (c := c) ?_ ?_ ?_).append (ih fun x hx => h x (by simp [hx]))
    · rw [UInt8.lt_iff_toNat_lt]; simp; omega
    · rintro rfl; simp at hc
    · rintro rfl; simp at hc

/-- The bytes of a multi-byte character are not ASCII. -/
theorem utf8_high {n : Nat} (h : IsChar n) (h0 : 0x80 ≤ n) : ∀ c ∈ utf8 n, 0x80 ≤ c.toNat := by
  unfold IsChar at h
  unfold utf8
  rw [if_neg (by omega)]
  have e : ∀ m, 0x80 ≤ m → m < 256 → 0x80 ≤ (UInt8.ofNat m).toNat := by
    intro m h1 h2
    rw [UInt8.toNat_ofNat', Nat.mod_eq_of_lt h2]; exact h1
  split
  · intro c hc
    simp only [List.mem_cons, List.not_mem_nil, or_false] at hc
    rcases hc with rfl | rfl <;> exact e _ (by omega) (by omega)
  split
  · intro c hc
    simp only [List.mem_cons, List.not_mem_nil, or_false] at hc
    rcases hc with rfl | rfl | rfl <;> exact e _ (by omega) (by omega)
  · intro c hc
    simp only [List.mem_cons, List.not_mem_nil, or_false] at hc
    rcases hc with rfl | rfl | rfl | rfl <;> exact e _ (by omega) (by omega)

/-- The first character of a text that starts with one. -/
theorem runeSize_head {b : UInt8} {bs : Bytes} {k : Nat} (h : runeSize (b :: bs) = k + 1) :
    ∃ n, IsChar n ∧ b :: bs.take k = utf8 n ∧ (utf8 n).length = k + 1 := by
  obtain ⟨n, rest, hn, he, hl⟩ := runeSize_sound _ _ h
  refine ⟨n, hn, ?_, hl⟩
  have : (b :: bs).take (k + 1) = utf8 n := by rw [he, ← hl, List.take_left]
  simpa using this

theorem utf8_length_one {n : Nat} (h : (utf8 n).length = 1) : n < 0x80 := by
  unfold utf8 at h
  split at h
  · assumption
  split at h
  · simp at h
  split at h <;> simp at h

/-- What `json.Marshal` writes is a string literal. -/
theorem prefixable_jsonEsc : ∀ (m : Nat) (b : Bytes), b.length ≤ m → Prefixable (jsonEsc b)
  | _, [], _ => by rw [jsonEsc]; exact prefixable_nil
  | 0, _ :: _, h => by simp at h
  | m + 1, b :: bs, hm => by
    simp only [List.length_cons] at hm
    rw [jsonEsc]
    split
    · refine Prefixable.append ?_ (prefixable_jsonEsc m bs (by omega))
      intro r
      exact strLit_u rfl r
    · rename_i h
      refine Prefixable.append ?_ (prefixable_jsonEsc m bs (by omega))
      obtain ⟨n, hn, h1, h2⟩ := runeSize_head h
      have h3 := utf8_length_one h2
      simp only [List.take_zero, utf8, h3, if_true] at h1
      simp only [List.cons.injEq, and_true] at h1
      refine prefixable_escByte b ?_
      rw [h1, UInt8.toNat_ofNat']; omega
    · rename_i k h
      refine Prefixable.append ?_ (prefixable_jsonEsc m _ (by simp; omega))
      split
      · intro r; exact strLit_u rfl r
      split
      · intro r; exact strLit_u rfl r
      · obtain ⟨n, hn, h1, h2⟩ := runeSize_head h
        rw [h1]
        refine prefixable_high (utf8_high hn ?_)
        by_contra hlt
        have hlt : n < 0x80 := by omega
        simp [utf8, hlt] at h2

theorem isStrLit_jsonEsc (b : Bytes) : IsStrLit (jsonEsc b) :=
  (prefixable_jsonEsc _ b le_rfl).isStrLit

theorem unq_escByte (b : UInt8) (hb : b.toNat < 0x80) (n : Nat) (s : Bytes) :
    unq (n + 1) (escByte b ++ s) = b :: unq n s := by
  have hr : runeSize (b :: s) = 1 := by
    have : inRange 0 0x7F b = true := by simp [inRange]; omega
    simp [runeSize, this]
  unfold escByte
  split
  · rename_i h
    have h1 : b ≠ 117 := by rintro rfl; simp at h
    have h2 : escVal b = b := by
      simp only [Bool.or_eq_true, beq_iff_eq] at h
      rcases h with rfl | rfl <;> rfl
    simp only [List.cons_append, List.nil_append]
    rw [unq.eq_4 _ _ _ (by intro e; exact h1 e), h2]
  split
  · rename_i h
    simp only [beq_iff_eq] at h
    subst h
    simp only [List.cons_append, List.nil_append]
    rw [unq.eq_4 _ _ _ (by decide)]; rfl
  split
  · rename_i h
    simp only [beq_iff_eq] at h
    subst h
    simp only [List.cons_append, List.nil_append]
    rw [unq.eq_4 _ _ _ (by decide)]; rfl
  split
  · rename_i h
    simp only [beq_iff_eq] at h
    subst h
    simp only [List.cons_append, List.nil_append]
    rw [unq.eq_4 _ _ _ (by decide)]; rfl
  split
  · simp only [List.cons_append, List.nil_append]
    rw [unq.eq_3]
    have e : hex4 (48 :: 48 :: hexDigit (b / 16) :: hexDigit (b % 16) :: s) = some (b.toNat, s) := by
      have h0 : hexVal 48 = some 0 := rfl
      simp only [hex4, hexVal_hexDigit_div, hexVal_hexDigit_mod, h0]
      simp only [UInt8.toNat_div, UInt8.toNat_mod, UInt8.toNat_ofNat]
      norm_num
      omega
    have e2 : unU (48 :: 48 :: hexDigit (b / 16) :: hexDigit (b % 16) :: s) = ([b], s) := by
      unfold unU
      rw [e]
      simp only
      rw [if_neg (by omega)]
      simp [utf8, hb]
    rw [e2]; rfl
  · rename_i h1 h2 h3 h4 h5
    simp only [Bool.or_eq_true, beq_iff_eq, not_or] at h1
    rw [List.singleton_append, unq.eq_5 _ _ _ (by intro s h; simp [h1.2] at h)
      (by intro e s h; simp [h1.2] at h), hr]
    simp

theorem unq_utf8 {c : Nat} (h : IsChar c) (h0 : 0x80 ≤ c) (n : Nat) (s : Bytes) :
    unq (n + 1) (utf8 c ++ s) = utf8 c ++ unq n s := by
  have hs := runeSize_utf8 c h s
  have hh := utf8_high h h0
  cases hu : utf8 c with
  | nil => exact absurd hu (utf8_ne_nil c)
  | cons b bs =>
    rw [hu] at hs hh
    have hb := hh b (by simp)
    have h92 : b ≠ 92 := by rintro rfl; simp at hb
    simp only [List.cons_append] at hs ⊢
    rw [unq.eq_5 _ _ _ (by intro s h; exact absurd h h92) (by intro e s h; exact absurd h h92), hs]
    simp

/-- Every written unit takes at least one byte, so the bound of the reader suffices. -/
theorem unq_jsonEsc : ∀ (m : Nat) (b : Bytes), b.length ≤ m → ∀ n, (jsonEsc b).length ≤ n →
    unq n (jsonEsc b) = jsonText b
  | _, [], _, n, _ => by
    rw [jsonEsc, jsonText]
    cases n <;> rfl
  | 0, _ :: _, h, _, _ => by simp at h
  | m + 1, b :: bs, hm, n, hn => by
    simp only [List.length_cons] at hm
    rw [jsonText]
    rw [jsonEsc] at hn ⊢
    cases hs : runeSize (b :: bs) with
    | zero =>
      rw [hs] at hn
      simp only [List.length_append, List.length_cons, List.length_nil] at hn ⊢
      obtain ⟨n, rfl⟩ : ∃ k, n = k + 1 := ⟨n - 1, by omega⟩
      simp only [List.cons_append, List.nil_append]
      rw [unq.eq_3]
      have e : ∀ s, unU (102 :: 102 :: 102 :: 100 :: s) = (fffd, s) := fun s => rfl
      rw [e, unq_jsonEsc m bs (by omega) n (by omega)]
      rfl
    | succ k =>
      obtain ⟨c, hc, h1, h2⟩ := runeSize_head hs
      cases k with
      | zero =>
        rw [hs] at hn
        simp only [List.length_append] at hn ⊢
        have h3 := utf8_length_one h2
        simp only [List.take_zero, utf8, h3, if_true] at h1
        simp only [List.cons.injEq, and_true] at h1
        have hb : b.toNat < 0x80 := by rw [h1, UInt8.toNat_ofNat']; omega
        have hpos : 1 ≤ (escByte b).length := by
          unfold escByte; repeat' split
          all_goals simp
        obtain ⟨n, rfl⟩ : ∃ k, n = k + 1 := ⟨n - 1, by omega⟩
        rw [unq_escByte b hb, unq_jsonEsc m bs (by omega) n (by omega)]
        simp
      | succ k =>
        rw [hs] at hn
        simp only [List.length_append] at hn ⊢
        have hge : 0x80 ≤ c := by
          by_contra hlt
          have hlt : c < 0x80 := by omega
          simp [utf8, hlt] at h2
        have hpos : 1 ≤ (if b :: bs.take (k + 1) = [0xE2, 0x80, 0xA8] then [92, 117, 50, 48, 50, 56]
            else if b :: bs.take (k + 1) = [0xE2, 0x80, 0xA9] then [92, 117, 50, 48, 50, 57]
            else b :: bs.take (k + 1)).length := by
          split
          · simp
          split
          · simp
          · simp
        obtain ⟨n, rfl⟩ : ∃ k, n = k + 1 := ⟨n - 1, by omega⟩
        have ih := unq_jsonEsc m (bs.drop (k + 1)) (by simp; omega) n (by omega)
        split
        · rename_i h3
          simp only [List.cons_append, List.nil_append]
          rw [unq.eq_3]
          have e : ∀ s, unU (50 :: 48 :: 50 :: 56 :: s) = ([0xE2, 0x80, 0xA8], s) := fun s => rfl
          rw [e]
          simp only
          rw [ih, ← List.cons_append, h3]
        split
        · rename_i h3
          simp only [List.cons_append, List.nil_append]
          rw [unq.eq_3]
          have e : ∀ s, unU (50 :: 48 :: 50 :: 57 :: s) = ([0xE2, 0x80, 0xA9], s) := fun s => rfl
          rw [e]
          simp only
          rw [ih, ← List.cons_append, h3]
        · rw [h1, unq_utf8 hc hge, ih]

/-- What `json.Marshal` writes for a string is read back as `jsonText` of it. -/
theorem unquote_jsonEsc (b : Bytes) : unquote (jsonEsc b) = jsonText b :=
  unq_jsonEsc _ b le_rfl _ le_rfl

end Verif
