import Verif.Base.Json.Text

/-!
# Parsing what was rendered, and texts that were cut off
-/

namespace Verif

/-! ## String literals -/

theorem strLit_esc {e : UInt8} (he : isEsc e = true) (r : Bytes) :
    strLit (92 :: e :: r) = (strLit r).map fun p => (92 :: e :: p.1, p.2) := by
  have : e ≠ 117 := by rintro rfl; simp [isEsc] at he
  rw [strLit.eq_5 _ _ (by simp [this])]
  simp [he]

theorem strLit_plain {c : UInt8} (h1 : ¬ c < 32) (h2 : c ≠ 34) (h3 : c ≠ 92) (r : Bytes) :
    strLit (c :: r) = (strLit r).map fun p => (c :: p.1, p.2) := by
  rw [strLit.eq_6 _ _ (by simp [h3]) h2 (by simp [h3]) (by simp [h3])]
  simp [h1]

theorem strLit_append {s l r : Bytes} (t : Bytes) (h : strLit s = some (l, r)) :
    strLit (s ++ t) = some (l, r ++ t) := by
  fun_induction strLit s generalizing l r with
  | case1 => simp at h
  | case2 => simp at h
  | case3 r => simp at h; simp [strLit, ← h]
  | case4 a b c d r hx ih =>
    simp only [Option.map_eq_some_iff, Prod.mk.injEq, Prod.exists] at h
    obtain ⟨l', r', h1, h2, h3⟩ := h
    subst h2 h3
    simp [strLit, hx, ih h1]
  | case5 => simp at h
  | case6 e r hn he ih =>
    simp only [Option.map_eq_some_iff, Prod.mk.injEq, Prod.exists] at h
    obtain ⟨l', r', h1, h2, h3⟩ := h
    subst h2 h3
    rw [List.cons_append, List.cons_append, strLit_esc he, ih h1]
    rfl
  | case7 => simp at h
  | case8 => simp at h
  | case9 c r h1 h2 h3 h4 h5 ih =>
    simp only [Option.map_eq_some_iff, Prod.mk.injEq, Prod.exists] at h
    obtain ⟨l', r', g1, g2, g3⟩ := h
    subst g2 g3
    have hc : c ≠ 92 := by
      rintro rfl
      cases r with
      | nil => simp at h1
      | cons e r => exact h4 e r rfl rfl
    rw [List.cons_append, strLit_plain h5 h2 hc, ih g1]
    rfl

/-- The text is the literal, its closing quote and the rest. -/
theorem strLit_split {s l r : Bytes} (h : strLit s = some (l, r)) :
    s = l ++ 34 :: r ∧ IsStrLit l := by
  unfold IsStrLit
  fun_induction strLit s generalizing l r with
  | case1 => simp at h
  | case2 => simp at h
  | case3 r => simp at h; obtain ⟨rfl, rfl⟩ := h; simp [strLit]
  | case4 a b c d r hx ih =>
    simp only [Option.map_eq_some_iff, Prod.mk.injEq, Prod.exists] at h
    obtain ⟨l', r', h1, h2, h3⟩ := h
    subst h2 h3
    obtain ⟨h2, h3⟩ := ih h1
    simp [strLit, hx, h3, ← h2]
  | case5 => simp at h
  | case6 e r hn he ih =>
    simp only [Option.map_eq_some_iff, Prod.mk.injEq, Prod.exists] at h
    obtain ⟨l', r', h1, h2, h3⟩ := h
    subst h2 h3
    obtain ⟨h2, h3⟩ := ih h1
    refine ⟨by rw [h2]; rfl, ?_⟩
    rw [List.cons_append, List.cons_append, strLit_esc he, h3]
    rfl
  | case7 => simp at h
  | case8 => simp at h
  | case9 c r h1 h2 h3 h4 h5 ih =>
    simp only [Option.map_eq_some_iff, Prod.mk.injEq, Prod.exists] at h
    obtain ⟨l', r', g1, g2, g3⟩ := h
    subst g2 g3
    have hc : c ≠ 92 := by
      rintro rfl
      cases r with
      | nil => simp at h1
      | cons e r => exact h4 e r rfl rfl
    obtain ⟨g2, g3⟩ := ih g1
    refine ⟨by rw [g2]; rfl, ?_⟩
    rw [List.cons_append, strLit_plain h5 h2 hc, g3]
    rfl

theorem IsStrLit.append {l : Bytes} (h : IsStrLit l) (t : Bytes) :
    strLit (l ++ 34 :: t) = some (l, t) := by
  have := strLit_append t h
  simpa using this

theorem isStrLit_nil : IsStrLit [] := rfl

/-! ## Numbers -/

theorem mem_takeWhile {p : UInt8 → Bool} {l : Bytes} {c : UInt8} (h : c ∈ l.takeWhile p) :
    p c = true := by
  induction l with
  | nil => simp at h
  | cons x l ih =>
    rw [List.takeWhile_cons] at h
    split at h
    · rcases List.mem_cons.mp h with rfl | h
      · assumption
      · exact ih h
    · simp at h

theorem takeWhile_of_all {p : UInt8 → Bool} {l : Bytes} (h : ∀ c ∈ l, p c = true) :
    l.takeWhile p = l := by
  induction l with
  | nil => rfl
  | cons x l ih => simp [h x (by simp), ih fun c hc => h c (by simp [hc])]

theorem dropWhile_of_all {p : UInt8 → Bool} {l : Bytes} (h : ∀ c ∈ l, p c = true) :
    l.dropWhile p = [] := by
  induction l with
  | nil => rfl
  | cons x l ih => simp [h x (by simp), ih fun c hc => h c (by simp [hc])]

/-- May the byte continue a number? -/
def isNumByte (c : UInt8) : Bool :=
  isDigit c || c == 46 || c == 101 || c == 69 || c == 43 || c == 45

/-- The text does not continue a number. -/
def NumStop (t : Bytes) : Prop := ∀ c ∈ t.head?, isNumByte c = false

theorem digits1_append {s l r : Bytes} (t : Bytes) (h : digits1 s = some (l, r))
    (ht : r ≠ [] ∨ NumStop t) : digits1 (s ++ t) = some (l, r ++ t) := by
  unfold digits1 at h ⊢
  split at h
  · simp at h
  rename_i hne
  simp only [Option.some.injEq, Prod.mk.injEq] at h
  obtain ⟨rfl, rfl⟩ := h
  have key : (s ++ t).takeWhile isDigit = s.takeWhile isDigit ∧
      (s ++ t).dropWhile isDigit = s.dropWhile isDigit ++ t := by
    clear hne
    induction s with
    | nil =>
      rcases ht with ht | ht
      · simp at ht
      · cases t with
        | nil => simp
        | cons c t =>
          have := ht c (by simp)
          simp [isNumByte] at this
          simp [this]
    | cons c s ih =>
      by_cases hc : isDigit c
      · simp only [List.cons_append, List.takeWhile_cons, List.dropWhile_cons, hc, if_true] at ht ⊢
        obtain ⟨h1, h2⟩ := ih ht
        simp [h1, h2]
      · simp [hc]
  rw [key.1, key.2, if_neg hne]

theorem digits1_split {s l r : Bytes} (h : digits1 s = some (l, r)) :
    s = l ++ r ∧ l ≠ [] ∧ ∀ c ∈ l, isDigit c = true := by
  unfold digits1 at h
  split at h
  · simp at h
  rename_i hne
  simp only [Option.some.injEq, Prod.mk.injEq] at h
  obtain ⟨rfl, rfl⟩ := h
  refine ⟨(List.takeWhile_append_dropWhile).symm, hne, ?_⟩
  intro c hc
  exact mem_takeWhile hc

theorem intPart_split {s l r : Bytes} (h : intPart s = some (l, r)) :
    s = l ++ r ∧ ∃ c l', l = c :: l' ∧ isDigit c = true := by
  unfold intPart at h
  split at h
  · simp at h
    obtain ⟨rfl, rfl⟩ := h
    exact ⟨rfl, 48, [], rfl, rfl⟩
  · obtain ⟨h1, h2, h3⟩ := digits1_split h
    refine ⟨h1, ?_⟩
    cases l with
    | nil => exact absurd rfl h2
    | cons c l => exact ⟨c, l, rfl, h3 c (by simp)⟩

theorem fracPart_split {s l r : Bytes} (h : fracPart s = some (l, r)) : s = l ++ r := by
  unfold fracPart at h
  split at h
  · simp only [Option.map_eq_some_iff, Prod.mk.injEq, Prod.exists] at h
    obtain ⟨l', r', h1, rfl, rfl⟩ := h
    simp [(digits1_split h1).1]
  · simp at h
    obtain ⟨rfl, rfl⟩ := h
    rfl

theorem expPart_split {s l r : Bytes} (h : expPart s = some (l, r)) : s = l ++ r := by
  unfold expPart at h
  split at h
  · split at h
    · split at h
      · split at h <;>
        · simp only [Option.map_eq_some_iff, Prod.mk.injEq, Prod.exists] at h
          obtain ⟨l', r', h1, rfl, rfl⟩ := h
          simp [(digits1_split h1).1]
      · simp at h
    · simp at h
      obtain ⟨rfl, rfl⟩ := h
      rfl
  · simp at h
    obtain ⟨rfl, rfl⟩ := h
    rfl

theorem intPart_append {s l r : Bytes} (t : Bytes) (h : intPart s = some (l, r))
    (ht : r ≠ [] ∨ NumStop t) : intPart (s ++ t) = some (l, r ++ t) := by
  unfold intPart at h
  split at h
  · simp at h
    obtain ⟨rfl, rfl⟩ := h
    rfl
  · rename_i hn
    have hd := digits1_append t h ht
    obtain ⟨h1, h2, h3⟩ := digits1_split h
    cases l with
    | nil => exact absurd rfl h2
    | cons c l =>
      subst h1
      have : c ≠ 48 := by rintro rfl; exact hn _ rfl
      rw [List.cons_append, List.cons_append] at hd ⊢
      unfold intPart
      split
      · rename_i heq; simp at heq; exact absurd heq.1 this
      · exact hd

theorem fracPart_append {s l r : Bytes} (t : Bytes) (h : fracPart s = some (l, r))
    (ht : r ≠ [] ∨ NumStop t) : fracPart (s ++ t) = some (l, r ++ t) := by
  unfold fracPart at h
  split at h
  · simp only [Option.map_eq_some_iff, Prod.mk.injEq, Prod.exists] at h
    obtain ⟨l', r', h1, rfl, rfl⟩ := h
    simp [fracPart, digits1_append t h1 ht]
  · rename_i hn
    simp at h
    obtain ⟨rfl, rfl⟩ := h
    unfold fracPart
    split
    · rename_i r heq
      exfalso
      cases s with
      | nil =>
        rcases ht with ht | ht
        · exact ht rfl
        · simp only [List.nil_append] at heq
          subst heq
          have := ht 46 (by simp)
          simp [isNumByte] at this
      | cons c s =>
        simp at heq
        obtain ⟨rfl, -⟩ := heq
        exact hn s rfl
    · simp

theorem expPart_append {s l r : Bytes} (t : Bytes) (h : expPart s = some (l, r))
    (ht : r ≠ [] ∨ NumStop t) : expPart (s ++ t) = some (l, r ++ t) := by
  unfold expPart at h
  split at h
  · rename_i e s
    split at h
    · rename_i he
      split at h
      · rename_i g s
        split at h
        · rename_i hg
          simp only [Option.map_eq_some_iff, Prod.mk.injEq, Prod.exists] at h
          obtain ⟨l', r', h1, rfl, rfl⟩ := h
          have hd := digits1_append t h1 ht
          simp only [List.cons_append, expPart, he, hg, if_true, hd]
          rfl
        · rename_i hg
          simp only [Option.map_eq_some_iff, Prod.mk.injEq, Prod.exists] at h
          obtain ⟨l', r', h1, rfl, rfl⟩ := h
          have hd := digits1_append t h1 ht
          rw [List.cons_append] at hd
          simp only [List.cons_append, expPart, he, hg, if_true, hd]
          rfl
      · simp at h
    · rename_i he
      simp at h
      obtain ⟨rfl, rfl⟩ := h
      simp only [List.cons_append, expPart, he]
      rfl
  · simp at h
    obtain ⟨rfl, rfl⟩ := h
    rcases ht with ht | ht
    · exact absurd rfl ht
    · cases t with
      | nil => rfl
      | cons c t =>
        have := ht c (by simp)
        simp only [isNumByte, Bool.or_eq_false_iff] at this
        simp [expPart, this]

theorem absNum_split {s l r : Bytes} (h : absNum s = some (l, r)) :
    s = l ++ r ∧ ∃ c l', l = c :: l' ∧ isDigit c = true := by
  unfold absNum at h
  simp only [Option.bind_eq_bind, Option.pure_def, Option.bind_eq_some_iff, Prod.exists,
    Option.some.injEq, Prod.mk.injEq] at h
  obtain ⟨i, s1, h1, f, s2, h2, e, s3, h3, rfl, rfl⟩ := h
  obtain ⟨h4, c, l', rfl, hc⟩ := intPart_split h1
  refine ⟨?_, c, l' ++ (f ++ e), rfl, hc⟩
  rw [h4, fracPart_split h2, expPart_split h3]
  simp

theorem absNum_append {s l r : Bytes} (t : Bytes) (h : absNum s = some (l, r))
    (ht : r ≠ [] ∨ NumStop t) : absNum (s ++ t) = some (l, r ++ t) := by
  unfold absNum at h ⊢
  simp only [Option.bind_eq_bind, Option.pure_def, Option.bind_eq_some_iff, Prod.exists,
    Option.some.injEq, Prod.mk.injEq] at h ⊢
  obtain ⟨i, s1, h1, f, s2, h2, e, s3, h3, rfl, rfl⟩ := h
  have e3 := expPart_split h3
  have e2 := fracPart_split h2
  have ht2 : s2 ≠ [] ∨ NumStop t := by
    rcases ht with ht | ht
    · left; intro h; rw [h] at e3; simp at e3; exact ht e3.2
    · exact .inr ht
  have ht1 : s1 ≠ [] ∨ NumStop t := by
    rcases ht2 with ht | ht
    · left; intro h; rw [h] at e2; simp at e2; exact ht e2.2
    · exact .inr ht
  exact ⟨i, _, intPart_append t h1 ht1, f, _, fracPart_append t h2 ht2, e, _,
    expPart_append t h3 ht, rfl, rfl⟩

theorem numLit_split {s l r : Bytes} (h : numLit s = some (l, r)) :
    s = l ++ r ∧ ∃ c l', l = c :: l' ∧ (isDigit c || c == 45) = true := by
  unfold numLit at h
  split at h
  · simp only [Option.map_eq_some_iff, Prod.mk.injEq, Prod.exists] at h
    obtain ⟨l', r', h1, rfl, rfl⟩ := h
    exact ⟨by simp [← (absNum_split h1).1], 45, l', rfl, rfl⟩
  · obtain ⟨h1, c, l', h2, h3⟩ := absNum_split h
    exact ⟨h1, c, l', h2, by simp [h3]⟩

theorem numLit_append {s l r : Bytes} (t : Bytes) (h : numLit s = some (l, r))
    (ht : r ≠ [] ∨ NumStop t) : numLit (s ++ t) = some (l, r ++ t) := by
  unfold numLit at h
  split at h
  · simp only [Option.map_eq_some_iff, Prod.mk.injEq, Prod.exists] at h
    obtain ⟨l', r', h1, rfl, rfl⟩ := h
    simp [numLit, absNum_append t h1 ht]
  · have hd := absNum_append t h ht
    obtain ⟨h1, c, l', rfl, hc⟩ := absNum_split h
    have : c ≠ 45 := by rintro rfl; simp [isDigit] at hc
    subst h1
    rw [List.cons_append, List.cons_append] at hd ⊢
    unfold numLit
    split
    · rename_i heq; simp at heq; exact absurd heq.1 this
    · exact hd

theorem IsNumLit.append {l : Bytes} (h : IsNumLit l) {t : Bytes} (ht : NumStop t) :
    numLit (l ++ t) = some (l, t) := numLit_append t h (.inr ht)

/-- What was read as a number is a complete number literal. -/
theorem isNumLit_of_digits {l : Bytes} (h : l ≠ []) (hd : ∀ c ∈ l, isDigit c = true)
    (h0 : l = [48] ∨ l.head? ≠ some 48) : IsNumLit l := by
  have e1 : l.takeWhile isDigit = l := by
    exact takeWhile_of_all hd
  have e2 : l.dropWhile isDigit = [] := by
    exact dropWhile_of_all hd
  have e3 : digits1 l = some (l, []) := by simp [digits1, e1, e2, h]
  have e4 : intPart l = some (l, []) := by
    rcases h0 with rfl | h0
    · rfl
    · unfold intPart
      split
      · simp at h0
      · exact e3
  have e5 : absNum l = some (l, []) := by
    simp [absNum, e4, fracPart, expPart]
  unfold IsNumLit numLit
  split
  · have := hd 45 (by simp)
    simp [isDigit] at this
  · exact e5

/-! ## White space -/

theorem skipWs_append {s : Bytes} (t : Bytes) (h : skipWs s ≠ []) :
    skipWs (s ++ t) = skipWs s ++ t := by
  unfold skipWs at h ⊢
  induction s with
  | nil => simp at h
  | cons c s ih =>
    by_cases hc : isWs c
    · simp only [List.cons_append, List.dropWhile_cons, hc, if_true] at h ⊢
      exact ih h
    · simp [hc]

theorem skipWs_cons {c : UInt8} (h : isWs c = false) (s : Bytes) : skipWs (c :: s) = c :: s := by
  simp [skipWs, h]

theorem skipWs_length (s : Bytes) : (skipWs s).length ≤ s.length :=
  (List.dropWhile_suffix isWs).length_le

theorem skipWs_idem (s : Bytes) : skipWs (skipWs s) = skipWs s := by
  unfold skipWs
  induction s with
  | nil => rfl
  | cons c s ih =>
    by_cases hc : isWs c
    · simp only [List.dropWhile_cons, hc, if_true]; exact ih
    · simp [hc]

/-! ## The parser by first byte -/

theorem parseVal_obj (n : Nat) {s r : Bytes} (h : skipWs s = 123 :: r) :
    parseVal (n + 1) s = match skipWs r with
      | 125 :: r' => some (.obj [], r')
      | r' => (parseMembers n r').map fun p => (.obj p.1, p.2) := by
  simp only [parseVal, h]
  rfl

theorem parseVal_arr (n : Nat) {s r : Bytes} (h : skipWs s = 91 :: r) :
    parseVal (n + 1) s = match skipWs r with
      | 93 :: r' => some (.arr [], r')
      | r' => (parseElems n r').map fun p => (.arr p.1, p.2) := by
  simp only [parseVal, h]
  rfl

theorem parseVal_str (n : Nat) {s r : Bytes} (h : skipWs s = 34 :: r) :
    parseVal (n + 1) s = (strLit r).map fun p => (.str p.1, p.2) := by
  simp only [parseVal, h]

theorem parseVal_true (n : Nat) {s r : Bytes} (h : skipWs s = 116 :: 114 :: 117 :: 101 :: r) :
    parseVal (n + 1) s = some (.bool true, r) := by
  simp only [parseVal, h]

theorem parseVal_false (n : Nat) {s r : Bytes} (h : skipWs s = 102 :: 97 :: 108 :: 115 :: 101 :: r) :
    parseVal (n + 1) s = some (.bool false, r) := by
  simp only [parseVal, h]

theorem parseVal_null (n : Nat) {s r : Bytes} (h : skipWs s = 110 :: 117 :: 108 :: 108 :: r) :
    parseVal (n + 1) s = some (.null, r) := by
  simp only [parseVal, h]

theorem parseVal_num (n : Nat) {s r : Bytes} {c : UInt8} (h : skipWs s = c :: r)
    (hc : (isDigit c || c == 45) = true) :
    parseVal (n + 1) s = (numLit (c :: r)).map fun p => (.num p.1, p.2) := by
  have ne : ∀ d : UInt8, (isDigit d || d == 45) = false → c ≠ d := by
    rintro d hd rfl; rw [hc] at hd; simp at hd
  have h1 := ne 123 rfl
  have h2 := ne 91 rfl
  have h3 := ne 34 rfl
  have h4 := ne 116 rfl
  have h5 := ne 102 rfl
  have h6 := ne 110 rfl
  simp only [parseVal, h]
  split
  all_goals first
    | (rename_i heq; injection heq with a b; contradiction)
    | rfl

/-- The cases of a successful parse of a value. -/
theorem parseVal_cases {n : Nat} {s r : Bytes} {v : Json} (h : parseVal (n + 1) s = some (v, r)) :
    (∃ q, skipWs s = 123 :: q ∧ skipWs q = 125 :: r ∧ v = .obj []) ∨
    (∃ q ms, skipWs s = 123 :: q ∧ (∀ x, skipWs q ≠ 125 :: x) ∧
      parseMembers n (skipWs q) = some (ms, r) ∧ v = .obj ms) ∨
    (∃ q, skipWs s = 91 :: q ∧ skipWs q = 93 :: r ∧ v = .arr []) ∨
    (∃ q vs, skipWs s = 91 :: q ∧ (∀ x, skipWs q ≠ 93 :: x) ∧
      parseElems n (skipWs q) = some (vs, r) ∧ v = .arr vs) ∨
    (∃ q l, skipWs s = 34 :: q ∧ strLit q = some (l, r) ∧ v = .str l) ∨
    (skipWs s = 116 :: 114 :: 117 :: 101 :: r ∧ v = .bool true) ∨
    (skipWs s = 102 :: 97 :: 108 :: 115 :: 101 :: r ∧ v = .bool false) ∨
    (skipWs s = 110 :: 117 :: 108 :: 108 :: r ∧ v = .null) ∨
    (∃ l, numLit (skipWs s) = some (l, r) ∧ v = .num l) := by
  rw [parseVal] at h
  split at h
  · rename_i q hq
    split at h
    · rename_i q' hq'
      simp at h
      obtain ⟨rfl, rfl⟩ := h
      exact .inl ⟨q, hq, hq', rfl⟩
    · rename_i hn
      simp only [Option.map_eq_some_iff, Prod.mk.injEq, Prod.exists] at h
      obtain ⟨ms, r', h1, rfl, rfl⟩ := h
      exact .inr (.inl ⟨q, ms, hq, hn, h1, rfl⟩)
  · rename_i q hq
    split at h
    · rename_i q' hq'
      simp at h
      obtain ⟨rfl, rfl⟩ := h
      exact .inr (.inr (.inl ⟨q, hq, hq', rfl⟩))
    · rename_i hn
      simp only [Option.map_eq_some_iff, Prod.mk.injEq, Prod.exists] at h
      obtain ⟨ms, r', h1, rfl, rfl⟩ := h
      exact .inr (.inr (.inr (.inl ⟨q, ms, hq, hn, h1, rfl⟩)))
  · rename_i q hq
    simp only [Option.map_eq_some_iff, Prod.mk.injEq, Prod.exists] at h
    obtain ⟨ms, r', h1, rfl, rfl⟩ := h
    exact .inr (.inr (.inr (.inr (.inl ⟨q, ms, hq, h1, rfl⟩))))
  · rename_i hq
    simp at h
    obtain ⟨rfl, rfl⟩ := h
    exact .inr (.inr (.inr (.inr (.inr (.inl ⟨hq, rfl⟩)))))
  · rename_i hq
    simp at h
    obtain ⟨rfl, rfl⟩ := h
    exact .inr (.inr (.inr (.inr (.inr (.inr (.inl ⟨hq, rfl⟩))))))
  · rename_i hq
    simp at h
    obtain ⟨rfl, rfl⟩ := h
    exact .inr (.inr (.inr (.inr (.inr (.inr (.inr (.inl ⟨hq, rfl⟩)))))))
  · simp only [Option.map_eq_some_iff, Prod.mk.injEq, Prod.exists] at h
    obtain ⟨ms, r', h1, rfl, rfl⟩ := h
    exact .inr (.inr (.inr (.inr (.inr (.inr (.inr (.inr ⟨ms, h1, rfl⟩)))))))

/-- The cases of a successful parse of members. -/
theorem parseMembers_iff {n : Nat} {s r : Bytes} {ms : List (Bytes × Json)} :
    parseMembers (n + 1) s = some (ms, r) ↔
    ∃ q k r1 r2 v r3, skipWs s = 34 :: q ∧ strLit q = some (k, r1) ∧ skipWs r1 = 58 :: r2 ∧
      parseVal n r2 = some (v, r3) ∧
      ((∃ r4 ms', skipWs r3 = 44 :: r4 ∧ parseMembers n r4 = some (ms', r) ∧ ms = (k, v) :: ms') ∨
        (skipWs r3 = 125 :: r ∧ ms = [(k, v)])) := by
  constructor
  · intro h
    rw [parseMembers] at h
    split at h
    · rename_i q hq
      simp only [Option.bind_eq_bind, Option.bind_eq_some_iff, Prod.exists] at h
      obtain ⟨k, r1, h1, h⟩ := h
      split at h
      · rename_i r2 h2
        simp only [Option.bind_eq_some_iff, Prod.exists] at h
        obtain ⟨v, r3, h3, h⟩ := h
        refine ⟨q, k, r1, r2, v, r3, hq, h1, h2, h3, ?_⟩
        split at h
        · rename_i r4 h4
          simp only [Option.map_eq_some_iff, Prod.mk.injEq, Prod.exists] at h
          obtain ⟨ms', r', h5, rfl, rfl⟩ := h
          exact .inl ⟨r4, ms', h4, h5, rfl⟩
        · rename_i r4 h4
          simp at h
          obtain ⟨rfl, rfl⟩ := h
          exact .inr ⟨h4, rfl⟩
        · simp at h
      · simp at h
    · simp at h
  · rintro ⟨q, k, r1, r2, v, r3, h1, h2, h3, h4, (⟨r4, ms', h5, h6, rfl⟩ | ⟨h5, rfl⟩)⟩ <;>
    simp [parseMembers, *]

/-- The cases of a successful parse of elements. -/
theorem parseElems_iff {n : Nat} {s r : Bytes} {vs : List Json} :
    parseElems (n + 1) s = some (vs, r) ↔
    ∃ v r1, parseVal n s = some (v, r1) ∧
      ((∃ r2 vs', skipWs r1 = 44 :: r2 ∧ parseElems n r2 = some (vs', r) ∧ vs = v :: vs') ∨
        (skipWs r1 = 93 :: r ∧ vs = [v])) := by
  constructor
  · intro h
    rw [parseElems] at h
    simp only [Option.bind_eq_bind, Option.bind_eq_some_iff, Prod.exists] at h
    obtain ⟨v, r1, h1, h⟩ := h
    refine ⟨v, r1, h1, ?_⟩
    split at h
    · rename_i r4 h4
      simp only [Option.map_eq_some_iff, Prod.mk.injEq, Prod.exists] at h
      obtain ⟨ms', r', h5, rfl, rfl⟩ := h
      exact .inl ⟨r4, ms', h4, h5, rfl⟩
    · rename_i r4 h4
      simp at h
      obtain ⟨rfl, rfl⟩ := h
      exact .inr ⟨h4, rfl⟩
    · simp at h
  · rintro ⟨v, r1, h1, (⟨r4, ms', h5, h6, rfl⟩ | ⟨h5, rfl⟩)⟩ <;>
    simp [parseElems, *]

/-! ## More text behind -/

theorem skipWs_append_cons {s r : Bytes} {c : UInt8} (t : Bytes) (h : skipWs s = c :: r) :
    skipWs (s ++ t) = c :: (r ++ t) := by
  rw [skipWs_append t (by rw [h]; simp), h]; rfl

/-- A successful parse does not depend on what follows, unless a number is cut. -/
theorem parse_append (n : Nat) :
    (∀ s v r t, parseVal n s = some (v, r) → (∀ l, v = .num l → r ≠ [] ∨ NumStop t) →
      parseVal n (s ++ t) = some (v, r ++ t)) ∧
    (∀ s ms r t, parseMembers n s = some (ms, r) → parseMembers n (s ++ t) = some (ms, r ++ t)) ∧
    (∀ s vs r t, parseElems n s = some (vs, r) → parseElems n (s ++ t) = some (vs, r ++ t)) := by
  induction n with
  | zero =>
    refine ⟨?_, ?_, ?_⟩ <;> intro s v r t h <;> simp [parseVal, parseMembers, parseElems] at h
  | succ n ih =>
    obtain ⟨ihv, ihm, ihe⟩ := ih
    refine ⟨?_, ?_, ?_⟩
    · intro s v r t h ht
      rcases parseVal_cases h with ⟨q, h1, h2, rfl⟩ | ⟨q, ms, h1, h2, h3, rfl⟩ | ⟨q, h1, h2, rfl⟩ |
        ⟨q, vs, h1, h2, h3, rfl⟩ | ⟨q, l, h1, h2, rfl⟩ | ⟨h1, rfl⟩ | ⟨h1, rfl⟩ | ⟨h1, rfl⟩ |
        ⟨l, h1, rfl⟩
      · rw [parseVal_obj n (skipWs_append_cons t h1), skipWs_append_cons t h2]; rfl
      · have hne : skipWs q ≠ [] := by
          intro e
          rw [e] at h3
          cases n with
          | zero => simp [parseMembers] at h3
          | succ n => simp [parseMembers, skipWs] at h3
        rw [parseVal_obj n (skipWs_append_cons t h1), skipWs_append t hne]
        split
        · rename_i x heq
          cases hq : skipWs q with
          | nil => exact absurd hq hne
          | cons c q' =>
            rw [hq] at heq
            simp at heq
            exact absurd (heq.1 ▸ hq) (h2 q')
        · rw [ihm _ _ _ t h3]; rfl
      · rw [parseVal_arr n (skipWs_append_cons t h1), skipWs_append_cons t h2]; rfl
      · have hne : skipWs q ≠ [] := by
          intro e
          rw [e] at h3
          cases n with
          | zero => simp [parseElems] at h3
          | succ n =>
            obtain ⟨v, r1, h4, -⟩ := parseElems_iff.mp h3
            cases n with
            | zero => simp [parseVal] at h4
            | succ n => simp [parseVal, skipWs, numLit, absNum, intPart, digits1] at h4
        rw [parseVal_arr n (skipWs_append_cons t h1), skipWs_append t hne]
        split
        · rename_i x heq
          cases hq : skipWs q with
          | nil => exact absurd hq hne
          | cons c q' =>
            rw [hq] at heq
            simp at heq
            exact absurd (heq.1 ▸ hq) (h2 q')
        · rw [ihe _ _ _ t h3]; rfl
      · rw [parseVal_str n (skipWs_append_cons t h1), strLit_append t h2]; rfl
      · rw [parseVal_true n (skipWs_append_cons t h1)]; rfl
      · rw [parseVal_false n (skipWs_append_cons t h1)]; rfl
      · rw [parseVal_null n (skipWs_append_cons t h1)]; rfl
      · obtain ⟨h2, c, l', rfl, hc⟩ := numLit_split h1
        have e : skipWs (s ++ t) = c :: (l' ++ (r ++ t)) := by
          rw [skipWs_append_cons t h2]; simp
        rw [parseVal_num n e hc]
        have := numLit_append t h1 (ht _ rfl)
        rw [h2] at this
        simp only [List.cons_append, List.append_assoc] at this
        rw [this]
        rfl
    · intro s ms r t h
      obtain ⟨q, k, r1, r2, v, r3, h1, h2, h3, h4, h5⟩ := parseMembers_iff.mp h
      refine parseMembers_iff.mpr ⟨q ++ t, k, r1 ++ t, r2 ++ t, v, r3 ++ t,
        skipWs_append_cons t h1, strLit_append t h2, skipWs_append_cons t h3,
        ihv _ _ _ t h4 (fun _ _ => .inl ?_), ?_⟩
      · rintro rfl
        rcases h5 with ⟨r4, ms', h5, -⟩ | ⟨h5, -⟩ <;> simp [skipWs] at h5
      · rcases h5 with ⟨r4, ms', h5, h6, rfl⟩ | ⟨h5, rfl⟩
        · exact .inl ⟨r4 ++ t, ms', skipWs_append_cons t h5, ihm _ _ _ t h6, rfl⟩
        · exact .inr ⟨skipWs_append_cons t h5, rfl⟩
    · intro s vs r t h
      obtain ⟨v, r1, h1, h2⟩ := parseElems_iff.mp h
      refine parseElems_iff.mpr ⟨v, r1 ++ t, ihv _ _ _ t h1 (fun _ _ => .inl ?_), ?_⟩
      · rintro rfl
        rcases h2 with ⟨r4, ms', h5, -⟩ | ⟨h5, -⟩ <;> simp [skipWs] at h5
      · rcases h2 with ⟨r4, ms', h5, h6, rfl⟩ | ⟨h5, rfl⟩
        · exact .inl ⟨r4 ++ t, ms', skipWs_append_cons t h5, ihe _ _ _ t h6, rfl⟩
        · exact .inr ⟨skipWs_append_cons t h5, rfl⟩

/-- More fuel does not change a success. -/
theorem parse_mono (n : Nat) :
    (∀ s x, parseVal n s = some x → parseVal (n + 1) s = some x) ∧
    (∀ s x, parseMembers n s = some x → parseMembers (n + 1) s = some x) ∧
    (∀ s x, parseElems n s = some x → parseElems (n + 1) s = some x) := by
  induction n with
  | zero => refine ⟨?_, ?_, ?_⟩ <;> intro s x h <;> simp [parseVal, parseMembers, parseElems] at h
  | succ n ih =>
    obtain ⟨ihv, ihm, ihe⟩ := ih
    refine ⟨?_, ?_, ?_⟩
    · rintro s ⟨v, r⟩ h
      rcases parseVal_cases h with ⟨q, h1, h2, rfl⟩ | ⟨q, ms, h1, h2, h3, rfl⟩ | ⟨q, h1, h2, rfl⟩ |
        ⟨q, vs, h1, h2, h3, rfl⟩ | ⟨q, l, h1, h2, rfl⟩ | ⟨h1, rfl⟩ | ⟨h1, rfl⟩ | ⟨h1, rfl⟩ |
        ⟨l, h1, rfl⟩
      · rw [parseVal_obj _ h1, h2]; rfl
      · rw [parseVal_obj _ h1]
        split
        · rename_i x heq; exact absurd heq (h2 x)
        · rw [ihm _ _ h3]; rfl
      · rw [parseVal_arr _ h1, h2]; rfl
      · rw [parseVal_arr _ h1]
        split
        · rename_i x heq; exact absurd heq (h2 x)
        · rw [ihe _ _ h3]; rfl
      · rw [parseVal_str _ h1, h2]; rfl
      · rw [parseVal_true _ h1]
      · rw [parseVal_false _ h1]
      · rw [parseVal_null _ h1]
      · obtain ⟨h2, c, l', rfl, hc⟩ := numLit_split h1
        rw [List.cons_append] at h2
        rw [parseVal_num _ h2 hc]
        rw [h2] at h1
        rw [h1]
        rfl
    · rintro s ⟨ms, r⟩ h
      obtain ⟨q, k, r1, r2, v, r3, h1, h2, h3, h4, h5⟩ := parseMembers_iff.mp h
      refine parseMembers_iff.mpr ⟨q, k, r1, r2, v, r3, h1, h2, h3, ihv _ _ h4, ?_⟩
      rcases h5 with ⟨r4, ms', h5, h6, rfl⟩ | ⟨h5, rfl⟩
      · exact .inl ⟨r4, ms', h5, ihm _ _ h6, rfl⟩
      · exact .inr ⟨h5, rfl⟩
    · rintro s ⟨vs, r⟩ h
      obtain ⟨v, r1, h1, h2⟩ := parseElems_iff.mp h
      refine parseElems_iff.mpr ⟨v, r1, ihv _ _ h1, ?_⟩
      rcases h2 with ⟨r4, ms', h5, h6, rfl⟩ | ⟨h5, rfl⟩
      · exact .inl ⟨r4, ms', h5, ihe _ _ h6, rfl⟩
      · exact .inr ⟨h5, rfl⟩

theorem parseVal_mono {n m : Nat} (hnm : n ≤ m) {s : Bytes} {x : Json × Bytes}
    (h : parseVal n s = some x) : parseVal m s = some x := by
  induction hnm with
  | refl => exact h
  | step _ ih => exact (parse_mono _).1 _ _ ih

/-! ## What was rendered is parsed -/

/-- The first byte of a rendered value. -/
theorem render_head : ∀ (v : Json), v.Proper →
    ∃ c r, v.render = c :: r ∧ isWs c = false ∧ c ≠ 93 ∧ c ≠ 125
  | .null, _ => ⟨_, _, rfl, rfl, by decide, by decide⟩
  | .bool true, _ => ⟨_, _, rfl, rfl, by decide, by decide⟩
  | .bool false, _ => ⟨_, _, rfl, rfl, by decide, by decide⟩
  | .str l, _ => ⟨34, l ++ [34], rfl, rfl, by decide, by decide⟩
  | .arr [], _ => ⟨91, [93], rfl, rfl, by decide, by decide⟩
  | .arr (v :: vs), _ => ⟨91, v.render ++ renderElems vs, by simp [Json.render], rfl, by decide, by decide⟩
  | .obj [], _ => ⟨123, [125], rfl, rfl, by decide, by decide⟩
  | .obj ((k, v) :: ms), _ =>
    ⟨123, 34 :: (k ++ 34 :: 58 :: (v.render ++ renderMembers ms)), by simp [Json.render], rfl, by decide, by decide⟩
  | .num l, h => by
    obtain ⟨-, c, l', rfl, hc⟩ := numLit_split h
    refine ⟨c, l', by simp [Json.render], ?_, ?_, ?_⟩
    · clear h; revert hc; revert c; apply UInt8.forall_of_fin; decide +kernel
    · rintro rfl; simp [isDigit] at hc
    · rintro rfl; simp [isDigit] at hc

theorem numStop_cons {c : UInt8} (h : isNumByte c = false) (t : Bytes) : NumStop (c :: t) := by
  intro d hd
  simp at hd
  rw [← hd]; exact h

theorem numStop_nil : NumStop [] := by intro d hd; simp at hd

theorem renderElems_stop (vs : List Json) (t : Bytes) : NumStop (renderElems vs ++ t) := by
  cases vs <;> simp only [renderElems, List.cons_append] <;> exact numStop_cons rfl _

theorem renderMembers_stop (ms : List (Bytes × Json)) (t : Bytes) :
    NumStop (renderMembers ms ++ t) := by
  rcases ms with _ | ⟨⟨k, v⟩, ms⟩ <;> simp only [renderMembers, List.cons_append] <;>
    exact numStop_cons rfl _

theorem renderElems_pos (vs : List Json) : 1 ≤ (renderElems vs).length := by
  cases vs <;> simp [renderElems]

theorem renderMembers_pos (ms : List (Bytes × Json)) : 1 ≤ (renderMembers ms).length := by
  rcases ms with _ | ⟨⟨k, v⟩, ms⟩ <;> simp [renderMembers]

/-- The value is parsed back in front of every text that does not continue a number. -/
def Reads (v : Json) : Prop :=
  ∀ n rest, NumStop rest → v.render.length ≤ n → parseVal n (v.render ++ rest) = some (v, rest)

mutual

theorem reads : ∀ v : Json, v.Proper → Reads v
  | .null, _ => by
    intro n rest _ hn
    simp only [Json.render, List.length_cons] at hn
    obtain ⟨m, rfl⟩ : ∃ m, n = m + 1 := ⟨n - 1, by omega⟩
    exact parseVal_null m (by simp [Json.render, skipWs, isWs])
  | .bool true, _ => by
    intro n rest _ hn
    simp only [Json.render, List.length_cons] at hn
    obtain ⟨m, rfl⟩ : ∃ m, n = m + 1 := ⟨n - 1, by omega⟩
    exact parseVal_true m (by simp [Json.render, skipWs, isWs])
  | .bool false, _ => by
    intro n rest _ hn
    simp only [Json.render, List.length_cons] at hn
    obtain ⟨m, rfl⟩ : ∃ m, n = m + 1 := ⟨n - 1, by omega⟩
    exact parseVal_false m (by simp [Json.render, skipWs, isWs])
  | .num l, h => by
    intro n rest hs hn
    have hl := h
    obtain ⟨-, c, l', rfl, hc⟩ := numLit_split h
    obtain ⟨c', r', h1, h2, -, -⟩ := render_head (.num (c :: l')) h
    simp only [Json.render] at h1 hn ⊢
    simp only [List.cons.injEq] at h1
    obtain ⟨rfl, -⟩ := h1
    simp only [List.length_cons] at hn
    obtain ⟨m, rfl⟩ : ∃ m, n = m + 1 := ⟨n - 1, by omega⟩
    rw [List.cons_append, parseVal_num m (c := c) (r := l' ++ rest) (skipWs_cons h2 _) hc]
    have := IsNumLit.append hl hs
    rw [List.cons_append] at this
    rw [this]
    rfl
  | .str l, h => by
    intro n rest _ hn
    simp only [Json.render, List.length_cons] at hn
    obtain ⟨m, rfl⟩ : ∃ m, n = m + 1 := ⟨n - 1, by omega⟩
    simp only [Json.render, List.cons_append, List.append_assoc, List.nil_append]
    rw [parseVal_str m (skipWs_cons rfl _), IsStrLit.append h rest]
    rfl
  | .arr [], _ => by
    intro n rest _ hn
    simp only [Json.render, List.length_cons] at hn
    obtain ⟨m, rfl⟩ : ∃ m, n = m + 1 := ⟨n - 1, by omega⟩
    simp only [Json.render, List.cons_append, List.nil_append]
    rw [parseVal_arr m (skipWs_cons rfl _), skipWs_cons rfl]
    rfl
  | .arr (v :: vs), h => by
    intro n rest _ hn
    simp only [Json.Proper, properElems] at h
    simp only [Json.render, List.length_cons, List.length_append] at hn
    obtain ⟨m, rfl⟩ : ∃ m, n = m + 1 := ⟨n - 1, by omega⟩
    obtain ⟨c, r, h1, h2, h3, -⟩ := render_head v h.1
    have e := readsElems vs h.2 v (reads v h.1) (by rw [h1]; simp) m rest (by omega)
    simp only [Json.render, List.cons_append, List.append_assoc]
    rw [parseVal_arr m (skipWs_cons rfl _)]
    rw [h1, List.cons_append] at e ⊢
    rw [skipWs_cons h2]
    split
    · rename_i heq; simp at heq; exact absurd heq.1 h3
    · rw [e]; rfl
  | .obj [], _ => by
    intro n rest _ hn
    simp only [Json.render, List.length_cons] at hn
    obtain ⟨m, rfl⟩ : ∃ m, n = m + 1 := ⟨n - 1, by omega⟩
    simp only [Json.render, List.cons_append, List.nil_append]
    rw [parseVal_obj m (skipWs_cons rfl _), skipWs_cons rfl]
    rfl
  | .obj ((k, v) :: ms), h => by
    intro n rest _ hn
    simp only [Json.Proper, properMembers] at h
    simp only [Json.render, List.length_cons, List.length_append] at hn
    obtain ⟨m, rfl⟩ : ∃ m, n = m + 1 := ⟨n - 1, by omega⟩
    have e := readsMembers ms h.2.2 k v h.1 (reads v h.2.1)
      (by obtain ⟨c, r, h1, -⟩ := render_head v h.2.1; rw [h1]; simp) m rest (by omega)
    simp only [Json.render, List.cons_append, List.append_assoc]
    rw [parseVal_obj m (skipWs_cons rfl _), skipWs_cons rfl]
    split
    · rename_i heq; simp at heq
    · rw [e]; rfl

theorem readsElems : ∀ vs : List Json, properElems vs → ∀ u : Json, Reads u →
    1 ≤ u.render.length → ∀ n rest, u.render.length + (renderElems vs).length ≤ n →
    parseElems n (u.render ++ (renderElems vs ++ rest)) = some (u :: vs, rest)
  | [], _, u, hu, _, n, rest, hn => by
    simp only [renderElems, List.length_cons, List.length_nil] at hn
    obtain ⟨m, rfl⟩ : ∃ m, n = m + 1 := ⟨n - 1, by omega⟩
    exact parseElems_iff.mpr ⟨u, renderElems [] ++ rest, hu m _ (renderElems_stop _ _) (by omega),
      .inr ⟨by simp [renderElems, skipWs, isWs], rfl⟩⟩
  | w :: ws, h, u, hu, hp, n, rest, hn => by
    simp only [properElems] at h
    simp only [renderElems, List.length_cons, List.length_append] at hn
    have := renderElems_pos ws
    obtain ⟨m, rfl⟩ : ∃ m, n = m + 1 := ⟨n - 1, by omega⟩
    obtain ⟨c, r, h1, h2, h3, -⟩ := render_head w h.1
    have e := readsElems ws h.2 w (reads w h.1) (by rw [h1]; simp) m rest (by omega)
    refine parseElems_iff.mpr ⟨u, renderElems (w :: ws) ++ rest,
      hu m _ (renderElems_stop _ _) (by omega),
      .inl ⟨w.render ++ (renderElems ws ++ rest), w :: ws, ?_, e, rfl⟩⟩
    simp only [renderElems, List.cons_append, List.append_assoc]
    exact skipWs_cons rfl _

theorem readsMembers : ∀ ms : List (Bytes × Json), properMembers ms → ∀ (k : Bytes) (u : Json),
    IsStrLit k → Reads u → 1 ≤ u.render.length → ∀ n rest,
    k.length + u.render.length + (renderMembers ms).length + 2 ≤ n →
    parseMembers n (34 :: (k ++ 34 :: 58 :: (u.render ++ (renderMembers ms ++ rest)))) =
      some ((k, u) :: ms, rest)
  | [], _, k, u, hk, hu, _, n, rest, hn => by
    simp only [renderMembers, List.length_cons, List.length_nil] at hn
    obtain ⟨m, rfl⟩ : ∃ m, n = m + 1 := ⟨n - 1, by omega⟩
    exact parseMembers_iff.mpr ⟨_, k, _, _, u, renderMembers [] ++ rest, skipWs_cons rfl _,
      hk.append _, skipWs_cons rfl _, hu m _ (renderMembers_stop _ _) (by omega),
      .inr ⟨by simp [renderMembers, skipWs, isWs], rfl⟩⟩
  | (l, w) :: ws, h, k, u, hk, hu, hp, n, rest, hn => by
    simp only [properMembers] at h
    simp only [renderMembers, List.length_cons, List.length_append] at hn
    have := renderMembers_pos ws
    obtain ⟨m, rfl⟩ : ∃ m, n = m + 1 := ⟨n - 1, by omega⟩
    obtain ⟨c, r, h1, h2, h3, -⟩ := render_head w h.2.1
    have e := readsMembers ws h.2.2 l w h.1 (reads w h.2.1) (by rw [h1]; simp) m rest (by omega)
    refine parseMembers_iff.mpr ⟨_, k, _, _, u, renderMembers ((l, w) :: ws) ++ rest,
      skipWs_cons rfl _, hk.append _, skipWs_cons rfl _,
      hu m _ (renderMembers_stop _ _) (by omega), .inl ⟨_, _, ?_, e, rfl⟩⟩
    simp only [renderMembers, List.cons_append, List.append_assoc]
    exact skipWs_cons rfl _

end

/-- What was rendered is parsed. -/
theorem parseJson_render {v : Json} (h : v.Proper) : parseJson v.render = some v := by
  have := reads v h (v.render.length + 1) [] numStop_nil (by omega)
  rw [List.append_nil] at this
  simp [parseJson, this, skipWs]

/-- No strict prefix of a rendered object is a JSON text. -/
theorem parseJson_prefix {ms : List (Bytes × Json)} (h : (Json.obj ms).Proper) {p s : Bytes}
    (hp : p ++ s = (Json.obj ms).render) (hs : s ≠ []) : parseJson p = none := by
  unfold parseJson
  split
  · rename_i w r hw
    rw [if_neg]
    intro hr
    have hnum : ∀ l, w = .num l → r ≠ [] ∨ NumStop s := by
      rintro l rfl
      exfalso
      rcases parseVal_cases hw with ⟨q, h1, h2, h3⟩ | ⟨q, ms, h1, h2, h3, h3⟩ | ⟨q, h1, h2, h3⟩ |
        ⟨q, vs, h1, h2, h3, h3⟩ | ⟨q, l, h1, h2, h3⟩ | ⟨h1, h3⟩ | ⟨h1, h3⟩ | ⟨h1, h3⟩ |
        ⟨l, h1, h3⟩
      all_goals try (simp at h3; done)
      obtain ⟨h2, c, l', rfl, hc⟩ := numLit_split h1
      cases p with
      | nil => simp [skipWs] at h2
      | cons d p =>
        obtain ⟨c', r', g1, g2, -⟩ := render_head _ h
        have g3 : d = 123 := by
          rcases ms with _ | ⟨⟨k, v⟩, ms⟩ <;> simp [Json.render] at hp <;> exact hp.1
        subst g3
        rw [skipWs_cons rfl] at h2
        simp at h2
        rw [← h2.1] at hc
        simp [isDigit] at hc
    have h1 := (parse_append _).1 _ _ _ s hw hnum
    rw [hp] at h1
    have h2 := reads _ h ((Json.obj ms).render.length + 1) [] numStop_nil (by omega)
    rw [List.append_nil] at h2
    have h3 := parseVal_mono (m := (Json.obj ms).render.length + 1) (by rw [← hp]; simp) h1
    rw [h2] at h3
    simp at h3
    exact hs h3.2.2
  · rfl

end Verif
