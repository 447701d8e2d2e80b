import Verif.Spec.Url
import Verif.Props.Peers

/-!
# URLs of peers: C108
-/

namespace Verif

/-! ## Characters -/

theorem hexDigit_iff {c : UInt8} {v : Nat} : HexDigit c v ↔ ∃ x, hexVal c = some x ∧ x.toNat = v := by
  constructor
  · intro h
    have hv : v < 16 := by
      rcases h with h | h
      · have := (List.getElem?_eq_some_iff.mp h).1; simpa [ascii] using this
      · have := (List.getElem?_eq_some_iff.mp h).1; simpa [ascii] using this
    revert h
    unfold HexDigit
    have : ∀ v < 16, ((ascii "0123456789abcdef")[v]? = some c ∨ (ascii "0123456789ABCDEF")[v]? = some c) →
        ∃ x, hexVal c = some x ∧ x.toNat = v := by
      revert c
      apply UInt8.forall_of_fin
      decide +kernel
    exact this v hv
  · rintro ⟨x, hx, rfl⟩
    revert hx
    have : ∀ x, hexVal c = some x →
        ((ascii "0123456789abcdef")[x.toNat]? = some c ∨ (ascii "0123456789ABCDEF")[x.toNat]? = some c) := by
      intro x hx
      have key : (hexVal c).all fun x => (ascii "0123456789abcdef")[x.toNat]? = some c ∨
          (ascii "0123456789ABCDEF")[x.toNat]? = some c := by
        clear hx
        revert c
        apply UInt8.forall_of_fin
        decide +kernel
      rw [hx] at key
      simpa using key
    exact this x

theorem hexVal_lt {c x : UInt8} (h : hexVal c = some x) : x.toNat < 16 := by
  have key : ∀ c : UInt8, (hexVal c).all fun x => x.toNat < 16 := by
    apply UInt8.forall_of_fin
    decide +kernel
  have := key c
  rw [h] at this
  simpa using this

theorem userByte_iff (c : UInt8) : userByte c = true ↔ UserChar c := by
  unfold UserChar
  revert c
  apply UInt8.forall_of_fin
  decide +kernel

theorem hostChar_iff (c : UInt8) : HostChar c ↔ hostByte c = true := (hostByte_iff c).symm

theorem hostChar_not {c : UInt8} (h : HostChar c) : c ≠ 35 ∧ c ≠ 63 ∧ c ≠ 47 ∧ c ≠ 64 ∧ c ≠ 37 :=
  have := hostByte_not ((hostChar_iff c).mp h)
  ⟨this.1, this.2.1, this.2.2.1, this.2.2.2.1, this.2.2.2.2.1⟩

theorem digit_iff (c : UInt8) : isDigit c = true ↔ 48 ≤ c ∧ c ≤ 57 := by simp [isDigit]

/-! ## Escapes -/

theorem escapesOk_iff : ∀ s : Bytes, escapesOk s = true ↔ Escaped s
  | [] => by simp [escapesOk, Escaped.nil]
  | c :: s => by
    by_cases h37 : ∃ a b cs, c = 37 ∧ s = a :: b :: cs
    · obtain ⟨a, b, cs, rfl, rfl⟩ := h37
      rw [escapesOk]
      simp only [Bool.and_eq_true, escapesOk_iff cs]
      constructor
      · rintro ⟨⟨h1, h2⟩, h3⟩
        obtain ⟨x, hx⟩ := Option.isSome_iff_exists.mp h1
        obtain ⟨y, hy⟩ := Option.isSome_iff_exists.mp h2
        exact .hex (hexDigit_iff.mpr ⟨x, hx, rfl⟩) (hexDigit_iff.mpr ⟨y, hy, rfl⟩) h3
      · intro h
        cases h with
        | plain h _ => exact absurd rfl h
        | hex h1 h2 h3 =>
          obtain ⟨x, hx, -⟩ := hexDigit_iff.mp h1
          obtain ⟨y, hy, -⟩ := hexDigit_iff.mp h2
          simp [hx, hy, h3]
    · rw [escapesOk]
      · simp only [Bool.and_eq_true, escapesOk_iff s, decide_eq_true_eq, ne_eq]
        constructor
        · rintro ⟨h1, h2⟩
          exact .plain h1 h2
        · intro h
          cases h with
          | plain h1 h2 => exact ⟨h1, h2⟩
          | hex h1 h2 h3 => exact absurd ⟨_, _, _, rfl, rfl⟩ h37
      · intro a b cs e1 e2
        exact h37 ⟨a, b, cs, e1, e2⟩

theorem highByte (x y : UInt8) :
    x * 16 + y = UInt8.ofNat (16 * x.toNat + y.toNat) := by
  apply UInt8.toNat_inj.mp
  simp
  omega

theorem unescapeHost_iff : ∀ {s r : Bytes}, unescapeHost s = some r ↔ HostText s r
  | [], r => by
    simp only [unescapeHost, Option.some.injEq]
    constructor
    · rintro rfl; exact .nil
    · intro h; cases h; rfl
  | c :: s, r => by
    by_cases h37 : ∃ a b cs, c = 37 ∧ s = a :: b :: cs
    · obtain ⟨a, b, cs, rfl, rfl⟩ := h37
      rw [unescapeHost]
      constructor
      · intro h
        cases hx : hexVal a with
        | none => simp [hx] at h
        | some x =>
          cases hy : hexVal b with
          | none => simp [hx, hy] at h
          | some y =>
            simp only [hx, hy, Option.bind_eq_bind, Option.bind_some] at h
            split at h
            · simp at h
            rename_i hc
            cases hr : unescapeHost cs with
            | none => simp [hr] at h
            | some t =>
              simp only [hr, Option.bind_some, Option.some.injEq] at h
              have ih := unescapeHost_iff.mp hr
              subst h
              by_cases hx8 : x < 8
              · have h25 : a = 50 ∧ b = 53 := by
                  by_contra hn
                  exact hc ⟨hx8, hn⟩
                obtain ⟨rfl, rfl⟩ := h25
                have e1 : x = 2 := by
                  have : hexVal 50 = some 2 := by decide
                  rw [this] at hx; exact (Option.some.inj hx).symm
                have e2 : y = 5 := by
                  have : hexVal 53 = some 5 := by decide
                  rw [this] at hy; exact (Option.some.inj hy).symm
                subst e1 e2
                exact .percent ih
              · rw [highByte]
                refine .high (hexDigit_iff.mpr ⟨x, hx, rfl⟩) (hexDigit_iff.mpr ⟨y, hy, rfl⟩) ?_ ih
                have := UInt8.le_iff_toNat_le.mp (UInt8.not_lt.mp hx8)
                simpa using this
      · intro h
        cases h with
        | plain h _ => exact absurd rfl (hostChar_not h).2.2.2.2
        | percent h =>
          have h1 : hexVal 50 = some 2 := by decide
          have h2 : hexVal 53 = some 5 := by decide
          simp [h1, h2, unescapeHost_iff.mpr h]
        | high h1 h2 h3 h4 =>
          obtain ⟨x, hx, rfl⟩ := hexDigit_iff.mp h1
          obtain ⟨y, hy, rfl⟩ := hexDigit_iff.mp h2
          have hx8 : ¬ x < 8 := by
            rw [UInt8.lt_iff_toNat_lt]
            simpa using h3
          simp [hx, hy, hx8, unescapeHost_iff.mpr h4, highByte]
    · rw [unescapeHost]
      · constructor
        · intro h
          split at h
          · rename_i hc
            cases hr : unescapeHost s with
            | none => simp [hr] at h
            | some t =>
              simp only [hr, Option.map_some, Option.some.injEq] at h
              subst h
              exact .plain ((hostChar_iff c).mpr hc) (unescapeHost_iff.mp hr)
          · simp at h
        · intro h
          cases h with
          | plain h1 h2 => simp [(hostChar_iff c).mp h1, unescapeHost_iff.mpr h2]
          | percent h => exact absurd ⟨_, _, _, rfl, rfl⟩ h37
          | high _ _ _ _ => exact absurd ⟨_, _, _, rfl, rfl⟩ h37
      · intro a b cs e1 e2
        exact h37 ⟨a, b, cs, e1, e2⟩

/-! ## Hosts and ports -/

theorem digit_hostChar {c : UInt8} (h : isDigit c = true) : HostChar c :=
  (hostChar_iff c).mpr (isDigit_hostByte h)

theorem hostText_plain : ∀ {s : Bytes}, (∀ c ∈ s, HostChar c) → HostText s s
  | [], _ => .nil
  | c :: _, h => .plain (h c (by simp)) (hostText_plain fun d hd => h d (by simp [hd]))

theorem HostText.append {a b r t : Bytes} (h1 : HostText a r) (h2 : HostText b t) :
    HostText (a ++ b) (r ++ t) := by
  induction h1 with
  | nil => exact h2
  | plain h _ ih => exact .plain h ih
  | percent _ ih => exact .percent ih
  | high h1 h2 h3 _ ih => exact .high h1 h2 h3 ih

theorem high_ge {x y : Nat} {a b : UInt8} (ha : HexDigit a x) (hb : HexDigit b y) (h : 8 ≤ x) :
    128 ≤ UInt8.ofNat (16 * x + y) := by
  obtain ⟨x', hx, rfl⟩ := hexDigit_iff.mp ha
  obtain ⟨y', hy, rfl⟩ := hexDigit_iff.mp hb
  have := hexVal_lt hx
  have := hexVal_lt hy
  rw [UInt8.le_iff_toNat_le]
  simp
  omega

/-- A text that means nothing but plain ASCII characters other than the percent sign is written this
way. -/
theorem hostText_ascii {s r : Bytes} (h : HostText s r) (hr : ∀ c ∈ r, c ≠ 37 ∧ c < 128) : s = r := by
  induction h with
  | nil => rfl
  | plain _ _ ih => rw [ih fun c hc => hr c (by simp [hc])]
  | percent _ _ => exact absurd rfl (hr 37 (by simp)).1
  | high h1 h2 h3 _ _ =>
    exact absurd (hr _ (by simp)).2 (UInt8.not_lt.mpr (high_ge h1 h2 h3))

/-- The meaning of a host with a port ends with the port, and the rest is the meaning of the rest. -/
theorem hostText_split {s m p : Bytes} (hp : ∀ c ∈ p, isDigit c = true) (h : HostText s (m ++ 58 :: p)) :
    ∃ t, s = t ++ 58 :: p ∧ HostText t m := by
  have hasc : ∀ c ∈ (58 :: p : Bytes), c ≠ 37 ∧ c < 128 := by
    intro c hc
    rcases List.mem_cons.mp hc with rfl | hc
    · decide
    · have := hp c hc
      revert this
      revert c
      have : ∀ c : UInt8, isDigit c = true → c ≠ 37 ∧ c < 128 := by
        apply UInt8.forall_of_fin; decide +kernel
      intro c _ _ h
      exact this c h
  induction m generalizing s with
  | nil => exact ⟨[], hostText_ascii h hasc, .nil⟩
  | cons d m ih =>
    rw [List.cons_append] at h
    cases h with
    | plain h1 h2 =>
      obtain ⟨t, rfl, ht⟩ := ih h2
      exact ⟨_ :: t, rfl, .plain h1 ht⟩
    | percent h2 =>
      obtain ⟨t, rfl, ht⟩ := ih h2
      exact ⟨37 :: 50 :: 53 :: t, rfl, .percent ht⟩
    | high h1 h2 h3 h4 =>
      obtain ⟨t, rfl, ht⟩ := ih h4
      exact ⟨37 :: _ :: _ :: t, rfl, .high h1 h2 h3 ht⟩

theorem hostText_head {s r : Bytes} (h : HostText s r) : s.head? = some 91 ↔ r.head? = some 91 := by
  cases h with
  | nil => simp
  | plain _ _ => simp
  | percent _ => simp
  | high h1 h2 h3 _ =>
    have := high_ge h1 h2 h3
    simp only [List.head?_cons, Option.some.injEq]
    constructor
    · intro h; exact absurd h (by decide)
    · intro h; rw [h] at this; exact absurd this (by decide)

theorem hostText_last {s r : Bytes} (h : HostText s r) : s.getLast? = some 93 ↔ r.getLast? = some 93 := by
  induction h with
  | nil => simp
  | @plain c s r hc h ih =>
    cases s with
    | nil => cases h; simp
    | cons d s =>
      have : r ≠ [] := by rintro rfl; cases h
      rw [List.getLast?_cons_cons, ih]
      cases r with
      | nil => exact absurd rfl this
      | cons e r => rw [List.getLast?_cons_cons]
  | @percent s r h ih =>
    rw [List.getLast?_cons_cons, List.getLast?_cons_cons]
    cases s with
    | nil => cases h; simp
    | cons d s =>
      have : r ≠ [] := by rintro rfl; cases h
      rw [List.getLast?_cons_cons, ih]
      cases r with
      | nil => exact absurd rfl this
      | cons e r => rw [List.getLast?_cons_cons]
  | @high a b x y s r h1 h2 h3 h ih =>
    rw [List.getLast?_cons_cons, List.getLast?_cons_cons]
    cases s with
    | nil =>
      cases h
      simp only [List.getLast?_singleton, Option.some.injEq]
      constructor
      · rintro rfl
        obtain ⟨y', hy, -⟩ := hexDigit_iff.mp h2
        exact absurd hy (by simp [hexVal])
      · intro e
        have := high_ge h1 h2 h3
        rw [e] at this
        exact absurd this (by decide)
    | cons d s =>
      have : r ≠ [] := by rintro rfl; cases h
      rw [List.getLast?_cons_cons, ih]
      cases r with
      | nil => exact absurd rfl this
      | cons e r => rw [List.getLast?_cons_cons]

theorem digits_no {p : Bytes} (hp : ∀ c ∈ p, isDigit c = true) : (58 : UInt8) ∉ p ∧ 93 ∉ p := by
  constructor <;> intro h <;> exact absurd (hp _ h) (by decide)

theorem getLast?_snoc (a : Bytes) (c : UInt8) : (a ++ [c]).getLast? = some c := by simp

theorem unescapeZone_iff : ∀ {s r : Bytes}, unescapeZone s = some r ↔ ZoneText s r
  | [], r => by
    simp only [unescapeZone, Option.some.injEq]
    constructor
    · rintro rfl; exact .nil
    · intro h; cases h; rfl
  | c :: s, r => by
    by_cases h37 : ∃ a b cs, c = 37 ∧ s = a :: b :: cs
    · obtain ⟨a, b, cs, rfl, rfl⟩ := h37
      rw [unescapeZone]
      constructor
      · intro h
        cases hx : hexVal a with
        | none => simp [hx] at h
        | some x =>
          cases hy : hexVal b with
          | none => simp [hx, hy] at h
          | some y =>
            simp only [hx, hy, Option.bind_eq_bind, Option.bind_some] at h
            split at h
            · simp at h
            rename_i hc
            cases hr : unescapeZone cs with
            | none => simp [hr] at h
            | some t =>
              simp only [hr, Option.bind_some, Option.some.injEq] at h
              have ih := unescapeZone_iff.mp hr
              subst h
              by_cases h25 : a = 50 ∧ b = 53
              · obtain ⟨rfl, rfl⟩ := h25
                have e1 : x = 2 := by
                  have : hexVal 50 = some 2 := by decide
                  rw [this] at hx; exact (Option.some.inj hx).symm
                have e2 : y = 5 := by
                  have : hexVal 53 = some 5 := by decide
                  rw [this] at hy; exact (Option.some.inj hy).symm
                subst e1 e2
                exact .percent ih
              · have hl1 := hexVal_lt hx
                have hl2 := hexVal_lt hy
                have hv : (x * 16 + y).toNat = 16 * x.toNat + y.toNat := by
                  simp
                  omega
                have hcase : x * 16 + y = 32 ∨
                    (hostByte (x * 16 + y) = true ∧ x * 16 + y < 128) := by
                  by_contra hn
                  rw [not_or] at hn
                  exact hc ⟨h25, hn.1, hn.2⟩
                rw [highByte]
                refine .escape (hexDigit_iff.mpr ⟨x, hx, rfl⟩) (hexDigit_iff.mpr ⟨y, hy, rfl⟩) ?_ ih
                rcases hcase with e | ⟨e1, e2⟩
                · left
                  rw [← hv, e]
                  rfl
                · right
                  rw [← highByte, ← hv]
                  exact ⟨(hostChar_iff _).mpr e1, by simpa [UInt8.lt_iff_toNat_lt] using e2⟩
      · intro h
        cases h with
        | plain h _ => exact absurd rfl (hostChar_not h).2.2.2.2
        | percent h =>
          have h1 : hexVal 50 = some 2 := by decide
          have h2 : hexVal 53 = some 5 := by decide
          simp [h1, h2, unescapeZone_iff.mpr h]
        | escape h1 h2 h3 h4 =>
          obtain ⟨x, hx, rfl⟩ := hexDigit_iff.mp h1
          obtain ⟨y, hy, rfl⟩ := hexDigit_iff.mp h2
          have hl1 := hexVal_lt hx
          have hl2 := hexVal_lt hy
          have hv : (x * 16 + y).toNat = 16 * x.toNat + y.toNat := by
            simp
            omega
          have hcase : x * 16 + y = 32 ∨
              (hostByte (x * 16 + y) = true ∧ x * 16 + y < 128) := by
            rw [← highByte, ← hv] at h3
            rcases h3 with e | ⟨e1, e2⟩
            · left
              exact UInt8.toNat_inj.mp e
            · right
              exact ⟨(hostChar_iff _).mp e1, UInt8.lt_iff_toNat_lt.mpr e2⟩
          have hn : ¬ (¬ (a = 50 ∧ b = 53) ∧ x * 16 + y ≠ 32 ∧
              ¬ (hostByte (x * 16 + y) = true ∧ x * 16 + y < 128)) := by
            rintro ⟨-, n1, n2⟩
            exact hcase.elim n1 n2
          simp only [hx, hy, Option.bind_eq_bind, Option.bind_some]
          rw [if_neg hn, unescapeZone_iff.mpr h4, ← highByte]
          rfl
    · rw [unescapeZone]
      · constructor
        · intro h
          split at h
          · rename_i hc
            cases hr : unescapeZone s with
            | none => simp [hr] at h
            | some t =>
              simp only [hr, Option.map_some, Option.some.injEq] at h
              subst h
              exact .plain ((hostChar_iff c).mpr hc) (unescapeZone_iff.mp hr)
          · simp at h
        · intro h
          cases h with
          | plain h1 h2 => simp [(hostChar_iff c).mp h1, unescapeZone_iff.mpr h2]
          | percent h => exact absurd ⟨_, _, _, rfl, rfl⟩ h37
          | escape _ _ _ _ => exact absurd ⟨_, _, _, rfl, rfl⟩ h37
      · intro a b cs e1 e2
        exact h37 ⟨a, b, cs, e1, e2⟩

theorem infix_cons_25 {c : UInt8} {s : Bytes} (h : ¬ ∃ cs, c = 37 ∧ s = 50 :: 53 :: cs) :
    ascii "%25" <:+: c :: s ↔ ascii "%25" <:+: s := by
  rw [List.infix_cons_iff]
  constructor
  · rintro (⟨t, ht⟩ | h')
    · have h25 : ascii "%25" = [37, 50, 53] := by decide
      rw [h25] at ht
      simp only [List.cons_append, List.nil_append, List.cons.injEq] at ht
      exact absurd ⟨t, ht.1.symm, ht.2.symm⟩ h
    · exact h'
  · exact .inr

theorem cutZone_none : ∀ {s : Bytes}, cutZone s = none ↔ ¬ ascii "%25" <:+: s
  | [] => by
    have : ascii "%25" = [37, 50, 53] := by decide
    simp [cutZone, this]
  | c :: s => by
    by_cases h37 : ∃ cs, c = 37 ∧ s = 50 :: 53 :: cs
    · obtain ⟨cs, rfl, rfl⟩ := h37
      simp only [cutZone, reduceCtorEq, false_iff, not_not]
      exact ⟨[], cs, rfl⟩
    · rw [infix_cons_25 h37, ← cutZone_none, cutZone]
      · simp
      · intro cs e1 e2
        exact h37 ⟨cs, e1, e2⟩

theorem cutZone_iff : ∀ {s a z : Bytes}, cutZone s = some (a, z) ↔
    ∃ t, z = ascii "%25" ++ t ∧ s = a ++ z ∧ ¬ ascii "%25" <:+: a
  | [], a, z => by
    have h25 : ascii "%25" = [37, 50, 53] := by decide
    simp only [cutZone, reduceCtorEq, false_iff, not_exists, not_and]
    rintro t rfl h
    have := congrArg List.length h
    simp [h25] at this
  | c :: s, a, z => by
    have h25 : ascii "%25" = [37, 50, 53] := by decide
    by_cases h37 : ∃ cs, c = 37 ∧ s = 50 :: 53 :: cs
    · obtain ⟨cs, rfl, rfl⟩ := h37
      simp only [cutZone, Option.some.injEq, Prod.mk.injEq]
      constructor
      · rintro ⟨rfl, rfl⟩
        exact ⟨cs, by rw [h25]; rfl, rfl, by simp [h25]⟩
      · rintro ⟨t, rfl, h, hn⟩
        cases a with
        | nil => exact ⟨rfl, h⟩
        | cons d a =>
          rw [h25] at h
          simp only [List.cons_append, List.nil_append, List.cons.injEq] at h
          obtain ⟨rfl, h⟩ := h
          cases a with
          | nil => simp at h
          | cons e a =>
            simp only [List.cons_append, List.cons.injEq] at h
            obtain ⟨rfl, h⟩ := h
            cases a with
            | nil => simp at h
            | cons f a =>
              simp only [List.cons_append, List.cons.injEq] at h
              obtain ⟨rfl, h⟩ := h
              exact absurd ⟨[], a, by rw [h25]; rfl⟩ hn
    · rw [cutZone]
      · constructor
        · intro h
          cases e : cutZone s with
          | none => simp [e] at h
          | some y =>
            obtain ⟨a', z'⟩ := y
            simp only [e, Option.map_some, Option.some.injEq, Prod.mk.injEq] at h
            obtain ⟨rfl, rfl⟩ := h
            obtain ⟨t, ht, hs, hn⟩ := cutZone_iff.mp e
            refine ⟨t, ht, by rw [hs]; rfl, ?_⟩
            rw [infix_cons_25]
            · exact hn
            · rintro ⟨cs, rfl, rfl⟩
              exact h37 ⟨cs ++ z', rfl, by rw [hs]; rfl⟩
        · rintro ⟨t, rfl, h, hn⟩
          cases a with
          | nil =>
            rw [h25] at h
            simp only [List.nil_append, List.cons_append, List.cons.injEq] at h
            exact absurd ⟨t, h⟩ h37
          | cons d a =>
            simp only [List.cons_append, List.cons.injEq] at h
            obtain ⟨rfl, h⟩ := h
            have hn' : ¬ ascii "%25" <:+: a := fun hi => hn (List.infix_cons hi)
            rw [cutZone_iff.mpr ⟨t, rfl, h, hn'⟩]
            rfl
      · intro cs e1 e2
        exact h37 ⟨cs, e1, e2⟩

/-- The text of a host as a head and a tail. -/
theorem hostText_cons {c : UInt8} {s r : Bytes} (h : HostText (c :: s) r) (hc : HostChar c) :
    ∃ r', r = c :: r' ∧ HostText s r' := by
  cases h with
  | plain _ h => exact ⟨_, rfl, h⟩
  | percent _ => exact absurd rfl (hostChar_not hc).2.2.2.2
  | high _ _ _ _ => exact absurd rfl (hostChar_not hc).2.2.2.2

theorem hostText_snoc {s t r : Bytes} (h : HostText (s ++ t) r) (ht : ∀ c ∈ t, HostChar c)
    (h93 : t.head? = some 93) : ∃ r', r = r' ++ t ∧ HostText s r' := by
  have hown : ∀ {t r : Bytes}, HostText t r → (∀ c ∈ t, HostChar c) → r = t := by
    intro t
    induction t with
    | nil => intro r h _; cases h; rfl
    | cons c t ih =>
      intro r h hc
      obtain ⟨r', rfl, h'⟩ := hostText_cons h (hc c (by simp))
      rw [ih h' fun d hd => hc d (by simp [hd])]
  obtain ⟨u, hu⟩ : ∃ u, u = s ++ t := ⟨_, rfl⟩
  rw [← hu] at h
  induction h generalizing s with
  | nil =>
    have := congrArg List.length hu
    cases t with
    | nil => simp at h93
    | cons c t => simp at this
  | @plain c v r hc h ih =>
    cases s with
    | nil =>
      rw [List.nil_append] at hu
      exact ⟨[], by rw [List.nil_append]; exact hown (hu ▸ .plain hc h) ht, .nil⟩
    | cons d s =>
      simp only [List.cons_append, List.cons.injEq] at hu
      obtain ⟨rfl, hu⟩ := hu
      obtain ⟨r', rfl, h'⟩ := ih hu
      exact ⟨c :: r', rfl, .plain hc h'⟩
  | @percent v r h ih =>
    match s with
    | [] =>
      rw [List.nil_append] at hu
      exact ⟨[], by rw [List.nil_append]; exact hown (hu ▸ .percent h) ht, .nil⟩
    | [d] =>
      simp only [List.cons_append, List.nil_append, List.cons.injEq] at hu
      rw [← hu.2] at h93
      simp at h93
    | [d, e] =>
      simp only [List.cons_append, List.nil_append, List.cons.injEq] at hu
      rw [← hu.2.2] at h93
      simp at h93
    | d :: e :: f :: s =>
      simp only [List.cons_append, List.cons.injEq] at hu
      obtain ⟨rfl, rfl, rfl, hu⟩ := hu
      obtain ⟨r', rfl, h'⟩ := ih hu
      exact ⟨37 :: r', rfl, .percent h'⟩
  | @high a b x y v r h1 h2 h3 h ih =>
    match s with
    | [] =>
      rw [List.nil_append] at hu
      exact ⟨[], by rw [List.nil_append]; exact hown (hu ▸ .high h1 h2 h3 h) ht, .nil⟩
    | [d] =>
      simp only [List.cons_append, List.nil_append, List.cons.injEq] at hu
      rw [← hu.2] at h93
      simp only [List.head?_cons, Option.some.injEq] at h93
      subst h93
      obtain ⟨y', hy, -⟩ := hexDigit_iff.mp h1
      exact absurd hy (by simp [hexVal])
    | [d, e] =>
      simp only [List.cons_append, List.nil_append, List.cons.injEq] at hu
      rw [← hu.2.2] at h93
      simp only [List.head?_cons, Option.some.injEq] at h93
      subst h93
      obtain ⟨y', hy, -⟩ := hexDigit_iff.mp h2
      exact absurd hy (by simp [hexVal])
    | d :: e :: f :: s =>
      simp only [List.cons_append, List.cons.injEq] at hu
      obtain ⟨rfl, rfl, rfl, hu⟩ := hu
      obtain ⟨r', rfl, h'⟩ := ih hu
      exact ⟨_ :: r', rfl, .high h1 h2 h3 h'⟩

theorem hostText_own {t : Bytes} (ht : ∀ c ∈ t, HostChar c) {r : Bytes} (h : HostText t r) :
    r = t := by
  induction t generalizing r with
  | nil => cases h; rfl
  | cons c t ih =>
    obtain ⟨r', rfl, h'⟩ := hostText_cons h (ht c (by simp))
    rw [ih (fun d hd => ht d (by simp [hd])) h']

/-- What a host in brackets means. -/
theorem parseHost_open {x r : Bytes} (hx : x.head? = some 91) :
    parseHost x = some r ↔ ∃ inner m after, x = 91 :: inner ++ 93 :: after ∧
      (after = [] ∨ ∃ d, after = 58 :: d ∧ digitsOnly d = true) ∧ AddressText inner m ∧
      r = 91 :: m ++ 93 :: after := by
  have h91 : HostChar 91 := (hostChar_iff _).mpr (by decide)
  have hafter : ∀ {after : Bytes}, (after = [] ∨ ∃ d, after = 58 :: d ∧ digitsOnly d = true) →
      (∀ c ∈ (93 :: after : Bytes), HostChar c) ∧ (93 : UInt8) ∉ after := by
    rintro after (rfl | ⟨d, rfl, hd⟩)
    · refine ⟨fun c hc => ?_, by simp⟩
      simp only [List.mem_singleton] at hc
      subst hc
      exact (hostChar_iff _).mpr (by decide)
    · have hd' := List.all_eq_true.mp hd
      refine ⟨fun c hc => ?_, by simpa using (digits_no hd').2⟩
      rcases List.mem_cons.mp hc with rfl | hc
      · exact (hostChar_iff _).mpr (by decide)
      rcases List.mem_cons.mp hc with rfl | hc
      · exact (hostChar_iff _).mpr (by decide)
      · exact digit_hostChar (hd' c hc)
  have hcases : ∀ {after : Bytes}, (after = [] ∨ (after.head? = some 58 ∧ digitsOnly after.tail = true)) ↔
      (after = [] ∨ ∃ d, after = 58 :: d ∧ digitsOnly d = true) := by
    intro after
    cases after with
    | nil => simp
    | cons c after => simp
  have hcut91 : ∀ inner : Bytes, cutZone (91 :: inner) = (cutZone inner).map fun z => (91 :: z.1, z.2) := by
    intro inner
    rw [cutZone]
    intro cs e
    exact absurd e (by decide)
  unfold parseHost
  rw [if_pos hx]
  constructor
  · intro h
    cases hc : cutLast 93 x with
    | none => rw [hc] at h; simp at h
    | some y =>
      obtain ⟨before, after⟩ := y
      rw [hc] at h
      simp only at h
      have hxs := cutLast_some hc
      obtain ⟨inner, rfl⟩ : ∃ inner, before = 91 :: inner := by
        cases before with
        | nil =>
          rw [hxs] at hx
          simp at hx
        | cons c before =>
          rw [hxs] at hx
          simp only [List.cons_append, List.head?_cons, Option.some.injEq] at hx
          exact ⟨before, by rw [hx]⟩
      split at h
      · rename_i hport
        rw [hcases] at hport
        obtain ⟨ha, -⟩ := hafter hport
        rw [hcut91] at h
        cases hz : cutZone inner with
        | none =>
          rw [hz] at h
          simp only [Option.map_none] at h
          have ht := unescapeHost_iff.mp h
          rw [hxs] at ht
          obtain ⟨r', rfl, ht'⟩ := hostText_snoc ht ha rfl
          obtain ⟨m, rfl, hm⟩ := hostText_cons ht' h91
          exact ⟨inner, m, after, hxs, hport, .bare (cutZone_none.mp hz) hm, rfl⟩
        | some y =>
          obtain ⟨front, zone⟩ := y
          rw [hz] at h
          simp only [Option.map_some] at h
          obtain ⟨t, rfl, hin, hno⟩ := cutZone_iff.mp hz
          cases h1 : unescapeHost (91 :: front) with
          | none => simp [h1] at h
          | some r1 =>
            cases h2 : unescapeZone (ascii "%25" ++ t) with
            | none => simp [h1, h2] at h
            | some r2 =>
              cases h3 : unescapeHost (93 :: after) with
              | none => simp [h1, h2, h3] at h
              | some r3 =>
                simp only [h1, h2, h3, Option.bind_eq_bind, Option.bind_some,
                  Option.some.injEq] at h
                obtain ⟨m, rfl, hm⟩ := hostText_cons (unescapeHost_iff.mp h1) h91
                obtain rfl := hostText_own ha (unescapeHost_iff.mp h3)
                have hz2 : ∃ rz, r2 = 37 :: rz ∧ ZoneText t rz := by
                  have hzt := unescapeZone_iff.mp h2
                  have h25 : ascii "%25" = [37, 50, 53] := by decide
                  rw [h25] at hzt
                  simp only [List.cons_append, List.nil_append] at hzt
                  cases hzt with
                  | plain g _ => exact absurd rfl (hostChar_not g).2.2.2.2
                  | percent g => exact ⟨_, rfl, g⟩
                  | escape g1 g2 g3 g4 =>
                    obtain ⟨x1, hx1, rfl⟩ := hexDigit_iff.mp g1
                    obtain ⟨x2, hx2, rfl⟩ := hexDigit_iff.mp g2
                    have e1 : x1 = 2 := by
                      have : hexVal 50 = some 2 := by decide
                      rw [this] at hx1; exact (Option.some.inj hx1).symm
                    have e2 : x2 = 5 := by
                      have : hexVal 53 = some 5 := by decide
                      rw [this] at hx2; exact (Option.some.inj hx2).symm
                    subst e1 e2
                    exact ⟨_, rfl, g4⟩
                obtain ⟨rz, rfl, hrz⟩ := hz2
                refine ⟨inner, m ++ 37 :: rz, after, hxs, hport, ?_, by rw [← h]; simp⟩
                rw [hin]
                exact .zoned hno hm hrz
      · simp at h
  · rintro ⟨inner, m, after, rfl, hport, hadd, rfl⟩
    obtain ⟨ha, hno⟩ := hafter hport
    rw [cutLast_append hno]
    simp only
    rw [if_pos (hcases.mpr hport), hcut91]
    cases hadd with
    | bare h1 h2 =>
      rw [cutZone_none.mpr h1]
      exact unescapeHost_iff.mpr ((HostText.plain h91 h2).append (hostText_plain ha))
    | @zoned a z ra rz h1 h2 h3 =>
      rw [cutZone_iff.mpr ⟨z, rfl, rfl, h1⟩]
      have h25 : ascii "%25" = [37, 50, 53] := by decide
      have e2 : unescapeZone (ascii "%25" ++ z) = some (37 :: rz) := by
        rw [unescapeZone_iff, h25]
        exact .percent h3
      simp only [Option.map_some, unescapeHost_iff.mpr (HostText.plain h91 h2), e2,
        unescapeHost_iff.mpr (hostText_plain ha), Option.bind_eq_bind, Option.bind_some]
      simp

/-- What a host without brackets means. -/
theorem parseHost_closed {x r : Bytes} (hx : x.head? ≠ some 91) (h : parseHost x = some r) :
    unescapeHost x = some r := by
  unfold parseHost at h
  rw [if_neg hx] at h
  split at h
  · split at h
    · exact h
    · simp at h
  · exact h

/-- What the host part means, together with the port. -/
theorem parseHost_split {x r name port : Bytes} (hport : port ≠ []) :
    (parseHost x = some r ∧ splitHostPort r = (name, port)) ↔
    ∃ host, x = host ++ 58 :: port ∧ (∀ c ∈ port, isDigit c = true) ∧
      (if host.head? = some 91 then (∃ inner, host = 91 :: inner ++ [93] ∧ AddressText inner name) ∧
        r = 91 :: name ++ [93] ++ 58 :: port
       else HostText host name ∧ r = name ++ 58 :: port) := by
  by_cases hx : x.head? = some 91
  · rw [parseHost_open hx]
    have hsplit : ∀ m d : Bytes, digitsOnly d = true →
        splitHostPort (91 :: m ++ 93 :: 58 :: d) = (m, d) := by
      intro m d hd
      have e : 91 :: m ++ 93 :: 58 :: d = (91 :: m ++ [93]) ++ 58 :: d := by simp
      rw [e]
      unfold splitHostPort
      rw [cutLast_append (digits_no (List.all_eq_true.mp hd)).1]
      have := getLast?_snoc (91 :: m) 93
      simp only [List.cons_append] at this
      simp [hd, this]
    constructor
    · rintro ⟨⟨inner, m, after, rfl, hafter, hadd, rfl⟩, hs⟩
      rcases hafter with rfl | ⟨d, rfl, hd⟩
      · exfalso
        unfold splitHostPort at hs
        cases hc : cutLast 58 (91 :: m ++ [93]) with
        | none =>
          rw [hc] at hs
          simp only at hs
          split at hs <;> exact hport (Prod.mk.inj hs).2.symm
        | some z =>
          obtain ⟨u, p⟩ := z
          rw [hc] at hs
          simp only at hs
          have hr := cutLast_some hc
          have hnd : digitsOnly p = false := by
            by_contra hd
            rw [Bool.not_eq_false] at hd
            have hl := congrArg List.getLast? hr
            rw [getLast?_snoc, List.getLast?_append, List.getLast?_cons] at hl
            cases hp : p.getLast? with
            | none => rw [hp] at hl; simp at hl
            | some e =>
              rw [hp] at hl
              simp at hl
              have := List.all_eq_true.mp hd e (List.mem_of_getLast? hp)
              rw [← hl] at this
              exact absurd this (by decide)
          simp only [hnd, Bool.false_eq_true, if_false] at hs
          split at hs <;> exact hport (Prod.mk.inj hs).2.symm
      · rw [hsplit m d hd] at hs
        obtain ⟨rfl, rfl⟩ := Prod.mk.inj hs
        refine ⟨91 :: inner ++ [93], by simp, List.all_eq_true.mp hd, ?_⟩
        rw [if_pos (by simp)]
        exact ⟨⟨inner, rfl, hadd⟩, by simp⟩
    · rintro ⟨host, rfl, hdig, h⟩
      have hb : host.head? = some 91 := by
        cases host with
        | nil => simp at hx
        | cons c host => simpa using hx
      rw [if_pos hb] at h
      obtain ⟨⟨inner, rfl, hadd⟩, rfl⟩ := h
      have hd : digitsOnly port = true := List.all_eq_true.mpr hdig
      refine ⟨⟨inner, name, 58 :: port, by simp, .inr ⟨port, rfl, hd⟩, hadd, by simp⟩, ?_⟩
      have := hsplit name port hd
      simpa using this
  · constructor
    · rintro ⟨h1, h2⟩
      have hu := unescapeHost_iff.mp (parseHost_closed hx h1)
      unfold splitHostPort at h2
      cases hc : cutLast 58 r with
      | none =>
        rw [hc] at h2
        simp only at h2
        split at h2 <;> exact absurd (Prod.mk.inj h2).2.symm hport
      | some z =>
        obtain ⟨m, p⟩ := z
        rw [hc] at h2
        simp only at h2
        have hr := cutLast_some hc
        by_cases hd : digitsOnly p = true
        · simp only [hd, if_true] at h2
          have hdig := List.all_eq_true.mp hd
          subst hr
          obtain ⟨host, rfl, hh⟩ := hostText_split hdig hu
          have hnb : host.head? ≠ some 91 := by
            cases host with
            | nil => simp
            | cons c host => simpa using hx
          have hbr : ¬ (m.head? = some 91 ∧ m.getLast? = some 93) :=
            fun hbr => hnb ((hostText_head hh).mpr hbr.1)
          rw [if_neg hbr] at h2
          obtain ⟨rfl, rfl⟩ := Prod.mk.inj h2
          refine ⟨host, rfl, hdig, ?_⟩
          rw [if_neg hnb]
          exact ⟨hh, rfl⟩
        · simp only [hd, Bool.false_eq_true, if_false] at h2
          split at h2 <;> exact absurd (Prod.mk.inj h2).2.symm hport
    · rintro ⟨host, rfl, hdig, h⟩
      have hd : digitsOnly port = true := List.all_eq_true.mpr hdig
      have hno := digits_no hdig
      have hcol : ∀ c ∈ (58 :: port : Bytes), HostChar c := by
        intro c hc
        rcases List.mem_cons.mp hc with rfl | hc
        · exact (hostChar_iff _).mpr (by decide)
        · exact digit_hostChar (hdig c hc)
      have hb : host.head? ≠ some 91 := by
        cases host with
        | nil => simp
        | cons c host => simpa using hx
      rw [if_neg hb] at h
      obtain ⟨h1, rfl⟩ := h
      have hb1 : name.head? ≠ some 91 := fun e => hb ((hostText_head h1).mpr e)
      constructor
      · unfold parseHost
        rw [if_neg hx, cutLast_append hno.1]
        simp only [hd, if_true]
        exact unescapeHost_iff.mpr (h1.append (hostText_plain hcol))
      · unfold splitHostPort
        rw [cutLast_append hno.1]
        simp [hd, hb1]

/-! ## Cutting texts -/

theorem cut_exists (c : UInt8) (s : Bytes) : ∃ o : Option Bytes,
    s = s.takeWhile (fun d => decide (d ≠ c)) ++ o.elim [] (fun f => c :: f) ∧
    s.dropWhile (fun d => decide (d ≠ c)) = o.elim [] (fun f => c :: f) ∧
    c ∉ s.takeWhile (fun d => decide (d ≠ c)) := by
  induction s with
  | nil => exact ⟨none, by simp⟩
  | cons d s ih =>
    by_cases h : d = c
    · subst h
      exact ⟨some s, by simp⟩
    · obtain ⟨o, h1, h2, h3⟩ := ih
      refine ⟨o, ?_, ?_, ?_⟩
      · simp only [List.takeWhile_cons, decide_not, h, decide_false, Bool.not_false, if_true,
          List.cons_append, List.cons.injEq, true_and]
        simpa using h1
      · simpa [List.dropWhile_cons, h] using h2
      · simp only [List.takeWhile_cons, decide_not, h, decide_false, Bool.not_false, if_true,
          List.mem_cons, not_or]
        exact ⟨Ne.symm h, by simpa using h3⟩

theorem cut_of {c : UInt8} {a : Bytes} (h : c ∉ a) (o : Option Bytes) :
    (a ++ o.elim [] (fun f => c :: f)).takeWhile (fun d => decide (d ≠ c)) = a ∧
    (a ++ o.elim [] (fun f => c :: f)).dropWhile (fun d => decide (d ≠ c)) =
      o.elim [] (fun f => c :: f) := by
  induction a with
  | nil => cases o <;> simp
  | cons d a ih =>
    simp only [List.mem_cons, not_or] at h
    obtain ⟨h1, h2⟩ := ih h.2
    have hd : d ≠ c := Ne.symm h.1
    simp only [List.cons_append, List.takeWhile_cons, List.dropWhile_cons, hd, ne_eq, not_false_eq_true,
      decide_true, if_true]
    exact ⟨by rw [h1], h2⟩

theorem cutLast_none {c : UInt8} : ∀ {s : Bytes}, cutLast c s = none → c ∉ s
  | [], _ => by simp
  | d :: s, h => by
    rw [cutLast] at h
    cases e : cutLast c s with
    | some x => rw [e] at h; simp at h
    | none =>
      rw [e] at h
      simp only [ite_eq_right_iff, reduceCtorEq, imp_false] at h
      simp only [List.mem_cons, not_or]
      exact ⟨Ne.symm h, cutLast_none e⟩

theorem cutLast_after {c : UInt8} : ∀ {s a b : Bytes}, cutLast c s = some (a, b) → c ∉ b
  | [], a, b, h => by simp [cutLast] at h
  | d :: s, a, b, h => by
    rw [cutLast] at h
    cases e : cutLast c s with
    | some x =>
      obtain ⟨a', b'⟩ := x
      rw [e] at h
      simp only [Option.some.injEq, Prod.mk.injEq] at h
      obtain ⟨rfl, rfl⟩ := h
      exact cutLast_after e
    | none =>
      rw [e] at h
      simp only at h
      split at h
      · simp only [Option.some.injEq, Prod.mk.injEq] at h
        obtain ⟨rfl, rfl⟩ := h
        exact cutLast_none e
      · simp at h

/-! ## Schemes -/

theorem getScheme_some : ∀ {s acc sch rest : Bytes}, getScheme acc s = some (sch, rest) →
    ∃ t, s = t ++ 58 :: rest ∧ sch = acc ++ t.map lowerByte
  | [], acc, sch, rest, h => by simp [getScheme] at h
  | c :: s, acc, sch, rest, h => by
    rw [getScheme] at h
    split at h
    · obtain ⟨t, rfl, rfl⟩ := getScheme_some h
      exact ⟨c :: t, rfl, by simp⟩
    · split at h
      · rename_i hl hc
        split at h
        · simp at h
        · obtain ⟨t, rfl, rfl⟩ := getScheme_some h
          refine ⟨c :: t, rfl, ?_⟩
          have key : ∀ c : UInt8, ¬ (97 ≤ lowerByte c ∧ lowerByte c ≤ 122) → lowerByte c = c := by
            apply UInt8.forall_of_fin
            decide +kernel
          simp [key c hl]
      · split at h
        · split at h
          · simp at h
          · simp only [Option.some.injEq, Prod.mk.injEq] at h
            obtain ⟨rfl, rfl⟩ := h
            rename_i e _
            exact ⟨[], by simp [e], by simp⟩
        · simp at h

theorem getScheme_letters (rest : Bytes) : ∀ (t acc : Bytes),
    (∀ c ∈ t, 97 ≤ lowerByte c ∧ lowerByte c ≤ 122) → acc ++ t ≠ [] →
    getScheme acc (t ++ 58 :: rest) = some (acc ++ t.map lowerByte, rest)
  | [], acc, _, hne => by
    have hne : acc ≠ [] := by simpa using hne
    rw [List.nil_append, getScheme]
    simp [hne, lowerByte, isDigit]
  | c :: t, acc, h, _ => by
    rw [List.cons_append, getScheme, if_pos (h c (by simp)),
      getScheme_letters rest t _ (fun d hd => h d (by simp [hd])) (by simp)]
    simp

theorem sameLetters_iff {s t : Bytes} (ht : ∀ c ∈ t, 97 ≤ c ∧ c ≤ 122) :
    SameLetters s t ↔ s.map lowerByte = t := by
  have key : ∀ c d : UInt8, 97 ≤ d ∧ d ≤ 122 →
      ((c = d ∨ (65 ≤ c ∧ c ≤ 90 ∧ c + 32 = d)) ↔ lowerByte c = d) := by
    intro c d hd
    unfold lowerByte
    split
    · rename_i h
      constructor
      · rintro (rfl | h')
        · exact absurd (UInt8.le_trans hd.1 h.2) (by decide)
        · exact h'.2.2
      · intro e
        exact .inr ⟨h.1, h.2, e⟩
    · rename_i h
      constructor
      · rintro (rfl | h')
        · rfl
        · exact absurd ⟨h'.1, h'.2.1⟩ h
      · exact .inl
  unfold SameLetters
  induction s generalizing t with
  | nil =>
    constructor
    · intro h; cases h; rfl
    · intro h; simp at h; subst h; exact .nil
  | cons c s ih =>
    cases t with
    | nil => simp
    | cons d t =>
      rw [List.forall₂_cons, List.map_cons, List.cons.injEq]
      exact and_congr (key c d (ht d (by simp))) (ih (t := t) fun e he => ht e (List.mem_cons_of_mem _ he))

/-! ## Authorities and ports -/

theorem parseAuthority_iff {s hp : Bytes} : parseAuthority s = some hp ↔
    ∃ (user : Option Bytes) (hostPort : Bytes), s = (user.elim [] fun x => x ++ [64]) ++ hostPort ∧
      64 ∉ hostPort ∧ parseHost hostPort = some hp ∧
      ∀ x, user = some x → (∀ c ∈ x, UserChar c) ∧ Escaped x := by
  unfold parseAuthority
  constructor
  · intro h
    cases e : cutLast 64 s with
    | none =>
      rw [e] at h
      exact ⟨none, s, rfl, cutLast_none e, h, by simp⟩
    | some z =>
      obtain ⟨user, host⟩ := z
      rw [e] at h
      simp only at h
      cases hh : parseHost host with
      | none => rw [hh] at h; simp at h
      | some r =>
        rw [hh] at h
        simp only at h
        split at h
        · rename_i hu
          simp only [Option.some.injEq] at h
          subst h
          refine ⟨some user, host, by simp [cutLast_some e], cutLast_after e, hh, ?_⟩
          rintro x ⟨⟩
          exact ⟨fun c hc => (userByte_iff c).mp (List.all_eq_true.mp hu.1 c hc),
            (escapesOk_iff _).mp hu.2⟩
        · simp at h
  · rintro ⟨user, hostPort, rfl, hno, hh, hu⟩
    cases user with
    | none =>
      simp only [Option.elim_none, List.nil_append]
      rw [cutLast_of_not_mem hno]
      exact hh
    | some x =>
      obtain ⟨h1, h2⟩ := hu x rfl
      simp only [Option.elim_some, List.append_assoc, List.singleton_append]
      rw [cutLast_append hno]
      have h1' : x.all userByte = true :=
        List.all_eq_true.mpr fun c hc => (userByte_iff c).mpr (h1 c hc)
      simp [hh, h1', (escapesOk_iff _).mpr h2]

theorem decVal_eq (s : Bytes) : decVal s = digitsValue s := by
  unfold decVal digitsValue
  induction s using List.reverseRecOn with
  | nil => rfl
  | append_singleton s c ih =>
    rw [List.foldl_append, ih]
    simp [Nat.ofDigits_cons]
    omega

theorem atoiPort_some {s : Bytes} {n : UInt64} :
    atoiPort s = some n ↔ s ≠ [] ∧ digitsValue s = n.toNat ∧ n.toNat < 2 ^ 63 := by
  unfold atoiPort
  rw [decVal_eq]
  by_cases h : s = []
  · simp [h]
  · rw [if_neg h]
    constructor
    · intro e
      split at e
      · rename_i hlt
        simp only [Option.some.injEq] at e
        subst e
        have : (UInt64.ofNat (digitsValue s)).toNat = digitsValue s := by simp; omega
        rw [this]
        exact ⟨h, rfl, hlt⟩
      · simp at e
    · rintro ⟨-, e, hlt⟩
      rw [e, if_pos hlt]
      simp

theorem hexDigit_not {c : UInt8} {v : Nat} (h : HexDigit c v) :
    c ≠ 35 ∧ c ≠ 63 ∧ c ≠ 47 ∧ c ≠ 64 := by
  obtain ⟨x, hx, -⟩ := hexDigit_iff.mp h
  refine ⟨?_, ?_, ?_, ?_⟩ <;> rintro rfl <;> simp [hexVal] at hx

theorem hostText_chars {s r : Bytes} (h : HostText s r) :
    (35 : UInt8) ∉ s ∧ 63 ∉ s ∧ 47 ∉ s ∧ 64 ∉ s := by
  induction h with
  | nil => simp
  | plain h _ ih =>
    have := hostChar_not h
    simp only [List.mem_cons, not_or]
    exact ⟨⟨this.1.symm, ih.1⟩, ⟨this.2.1.symm, ih.2.1⟩, ⟨this.2.2.1.symm, ih.2.2.1⟩,
      this.2.2.2.1.symm, ih.2.2.2⟩
  | percent _ ih => simpa using ih
  | high h1 h2 _ _ ih =>
    have a1 := hexDigit_not h1
    have a2 := hexDigit_not h2
    simp only [List.mem_cons, not_or]
    exact ⟨⟨by decide, a1.1.symm, a2.1.symm, ih.1⟩, ⟨by decide, a1.2.1.symm, a2.2.1.symm, ih.2.1⟩,
      ⟨by decide, a1.2.2.1.symm, a2.2.2.1.symm, ih.2.2.1⟩, by decide, a1.2.2.2.symm, a2.2.2.2.symm,
      ih.2.2.2⟩

theorem zoneText_chars {s r : Bytes} (h : ZoneText s r) :
    (35 : UInt8) ∉ s ∧ 63 ∉ s ∧ 47 ∉ s ∧ 64 ∉ s := by
  induction h with
  | nil => simp
  | plain h _ ih =>
    have := hostChar_not h
    simp only [List.mem_cons, not_or]
    exact ⟨⟨this.1.symm, ih.1⟩, ⟨this.2.1.symm, ih.2.1⟩, ⟨this.2.2.1.symm, ih.2.2.1⟩,
      this.2.2.2.1.symm, ih.2.2.2⟩
  | percent _ ih => simpa using ih
  | escape h1 h2 _ _ ih =>
    have a1 := hexDigit_not h1
    have a2 := hexDigit_not h2
    simp only [List.mem_cons, not_or]
    exact ⟨⟨by decide, a1.1.symm, a2.1.symm, ih.1⟩, ⟨by decide, a1.2.1.symm, a2.2.1.symm, ih.2.1⟩,
      ⟨by decide, a1.2.2.1.symm, a2.2.2.1.symm, ih.2.2.1⟩, by decide, a1.2.2.2.symm, a2.2.2.2.symm,
      ih.2.2.2⟩

theorem addressText_chars {s r : Bytes} (h : AddressText s r) :
    (35 : UInt8) ∉ s ∧ 63 ∉ s ∧ 47 ∉ s ∧ 64 ∉ s := by
  cases h with
  | bare _ h => exact hostText_chars h
  | zoned _ h1 h2 =>
    have a1 := hostText_chars h1
    have a2 := zoneText_chars h2
    have h25 : ascii "%25" = [37, 50, 53] := by decide
    simp only [h25, List.mem_append, List.mem_cons, List.not_mem_nil, or_false, not_or]
    refine ⟨⟨a1.1, ?_, a2.1⟩, ⟨a1.2.1, ?_, a2.2.1⟩, ⟨a1.2.2.1, ?_, a2.2.2.1⟩,
      a1.2.2.2, ?_, a2.2.2.2⟩ <;> decide

theorem userChar_not {c : UInt8} (h : UserChar c) : c ≠ 35 ∧ c ≠ 63 ∧ c ≠ 47 := by
  rw [← userByte_iff] at h
  revert c
  apply UInt8.forall_of_fin
  decide +kernel

/-! ## C108: which texts denote peers -/

theorem urlParse_eq_some {raw sch hp : Bytes} (hp0 : hp ≠ []) : urlParse raw = some (sch, hp) ↔
    ∃ (t auth path : Bytes) (query frag : Option Bytes),
      raw = (t ++ (58 :: 47 :: 47 :: (auth ++ (path ++ query.elim [] fun q => 63 :: q)))) ++
        (frag.elim [] fun f => 35 :: f) ∧
      35 ∉ t ++ (58 :: 47 :: 47 :: (auth ++ (path ++ query.elim [] fun q => 63 :: q))) ∧
      (∀ c ∈ t ++ (58 :: 47 :: 47 :: (auth ++ (path ++ query.elim [] fun q => 63 :: q))),
        ¬ c < 32 ∧ c ≠ 127) ∧
      (∀ f, frag = some f → Escaped f) ∧
      getScheme [] (t ++ (58 :: 47 :: 47 :: (auth ++ (path ++ query.elim [] fun q => 63 :: q)))) =
        some (sch, 47 :: 47 :: (auth ++ (path ++ query.elim [] fun q => 63 :: q))) ∧
      63 ∉ auth ++ path ∧ 47 ∉ auth ∧ (path = [] ∨ path.head? = some 47) ∧
      parseAuthority auth = some hp ∧ Escaped path := by
  constructor
  · intro h
    unfold urlParse at h
    obtain ⟨frag, f1, f2, f3⟩ := cut_exists 35 raw
    simp only [Option.bind_eq_bind] at h
    generalize hu : raw.takeWhile (fun d => decide (d ≠ 35)) = u at h f1 f3
    split at h
    · simp at h
    rename_i hctl
    split at h
    · simp at h
    rename_i hfrag
    cases hg : getScheme [] u with
    | none => rw [hg] at h; simp at h
    | some z =>
      obtain ⟨sch', rest⟩ := z
      rw [hg] at h
      simp only [Option.bind_some] at h
      obtain ⟨t, ht, -⟩ := getScheme_some hg
      obtain ⟨query, q1, -, q3⟩ := cut_exists 63 rest
      generalize hb : rest.takeWhile (fun d => decide (d ≠ 63)) = body at h q1 q3
      split at h
      · rename_i r
        obtain ⟨o, p1, p2, p3⟩ := cut_exists 47 r
        cases hpa : parseAuthority (r.takeWhile fun d => decide (d ≠ 47)) with
        | none => rw [hpa] at h; simp at h
        | some hp' =>
          rw [hpa] at h
          simp only [Option.bind_some] at h
          split at h
          · rename_i hesc
            simp only [Option.some.injEq, Prod.mk.injEq] at h
            obtain ⟨rfl, rfl⟩ := h
            have hr : r = r.takeWhile (fun d => decide (d ≠ 47)) ++
                r.dropWhile (fun d => decide (d ≠ 47)) := List.takeWhile_append_dropWhile.symm
            have hrest : rest = 47 :: 47 :: (r.takeWhile (fun d => decide (d ≠ 47)) ++
                (r.dropWhile (fun d => decide (d ≠ 47)) ++ query.elim [] fun q => 63 :: q)) := by
              rw [← List.append_assoc, ← hr]
              exact q1
            have hu' : u = t ++ (58 :: 47 :: 47 :: (r.takeWhile (fun d => decide (d ≠ 47)) ++
                (r.dropWhile (fun d => decide (d ≠ 47)) ++ query.elim [] fun q => 63 :: q))) := by
              rw [ht, hrest]
            refine ⟨t, r.takeWhile (fun d => decide (d ≠ 47)), r.dropWhile (fun d => decide (d ≠ 47)),
              query, frag, ?_, ?_, ?_, ?_, ?_, ?_, p3, ?_, hpa, (escapesOk_iff _).mp hesc⟩
            · rw [← hu']; exact f1
            · rw [← hu']; exact f3
            · rw [← hu']
              intro c hc
              simp only [List.any_eq_true, Bool.or_eq_true, decide_eq_true_eq, beq_iff_eq, not_exists,
                not_and, not_or] at hctl
              exact hctl c hc
            · rintro f rfl
              have : (raw.dropWhile fun d => decide (d ≠ 35)).tail = f := by rw [f2]; rfl
              rw [this] at hfrag
              exact (escapesOk_iff _).mp (by simpa using hfrag)
            · rw [← hu', ← hrest]; exact hg
            · rw [← hr]
              simpa using q3
            · rw [p2]
              cases o <;> simp
          · simp at h
      · split at h
        · simp only [Option.some.injEq, Prod.mk.injEq] at h
          exact absurd h.2.symm hp0
        · simp at h
  · rintro ⟨t, auth, path, query, frag, rfl, h35, hctl, hfrag, hg, h63, h47, hpath, hpa, hesc⟩
    obtain ⟨e1, e2⟩ := cut_of h35 frag
    unfold urlParse
    simp only [e1, e2, Option.bind_eq_bind]
    rw [if_neg (by
      simp only [List.any_eq_true, Bool.or_eq_true, decide_eq_true_eq, beq_iff_eq, not_exists,
        not_and, not_or]
      exact hctl)]
    have hf : escapesOk (frag.elim [] fun f => 35 :: f).tail = true := by
      cases frag with
      | none => rfl
      | some f => exact (escapesOk_iff _).mpr (hfrag f rfl)
    rw [if_neg (by simp [hf])]
    simp only [Option.bind_some, hg]
    have hb : (63 : UInt8) ∉ 47 :: 47 :: (auth ++ path) := by simpa using h63
    obtain ⟨e3, -⟩ := cut_of hb query
    have e3' : (47 :: 47 :: (auth ++ (path ++ query.elim [] fun q => 63 :: q))).takeWhile
        (fun d => decide (d ≠ 63)) = 47 :: 47 :: (auth ++ path) := by
      rw [← e3]
      simp
    rw [e3']
    have hp : ∃ o : Option Bytes, path = o.elim [] fun f => 47 :: f := by
      rcases hpath with rfl | h
      · exact ⟨none, rfl⟩
      · cases path with
        | nil => simp at h
        | cons c path =>
          simp only [List.head?_cons, Option.some.injEq] at h
          subst h
          exact ⟨some path, rfl⟩
    obtain ⟨o, rfl⟩ := hp
    obtain ⟨e4, e5⟩ := cut_of h47 o
    simp only [e4, e5, hpa, Option.bind_some, (escapesOk_iff _).mpr hesc, if_true]

/-- C108: the texts accepted as the URL of a peer, and the peer, are exactly those of the grammar. -/
theorem C108_accepted_exactly {raw : Bytes} {p : Peer} :
    toPeer raw = .ok p ↔ ∃ u : PeerURL, u.text = raw ∧ u.Denotes p := by
  have hlow : ∀ b : Bool, ∀ c ∈ (if b then ascii "https" else ascii "onion"), 97 ≤ c ∧ c ≤ 122 := by
    decide
  constructor
  · intro h
    unfold toPeer at h
    cases hu : urlParse raw with
    | none => rw [hu] at h; simp at h
    | some z =>
      obtain ⟨sch, hp⟩ := z
      rw [hu] at h
      simp only at h
      cases ha : atoiPort (splitHostPort hp).2 with
      | none => rw [ha] at h; simp at h
      | some n =>
        rw [ha] at h
        simp only at h
        obtain ⟨h1, h2, h3, rfl⟩ := peerNow_eq_ok.mp h
        obtain ⟨a1, a2, a3⟩ := atoiPort_some.mp ha
        have hp0 : hp ≠ [] := by
          rintro rfl
          exact a1 rfl
        obtain ⟨t, auth, path, query, frag, e1, e2, e3, e4, e5, e6, e7, e8, e9, e10⟩ :=
          (urlParse_eq_some hp0).mp hu
        obtain ⟨user, hostPort, rfl, g2, g3, g4⟩ := parseAuthority_iff.mp e9
        obtain ⟨host, rfl, k2, k3⟩ := (parseHost_split a1).mp ⟨g3, rfl⟩
        obtain ⟨t', ht', hs⟩ := getScheme_some e5
        have ht : t = t' := by
          have := List.append_cancel_right ht'
          exact this
        subst ht
        refine ⟨⟨t, user, host, (splitHostPort hp).2, path, query, frag⟩, ?_, ?_⟩
        · simp only [PeerURL.text, PeerURL.front]
          rw [e1]
          simp [ascii]
        · have hfront : PeerURL.front ⟨t, user, host, (splitHostPort hp).2, path, query, frag⟩ =
              t ++ (58 :: 47 :: 47 :: ((user.elim [] fun x => x ++ [64]) ++
                (host ++ 58 :: (splitHostPort hp).2) ++ (path ++ query.elim [] fun q => 63 :: q))) := by
            simp [PeerURL.front, ascii]
          refine ⟨?_, rfl, ?_, g4, ?_, h1, ?_, a2, h2, a3, e8, ⟨e10, ?_, ?_⟩, ?_, e4⟩
          · simp only
            rw [sameLetters_iff (hlow _)]
            rw [List.nil_append] at hs
            rw [← hs]
            by_cases hc : sch = ascii "https"
            · simp [hc]
            · have : sch = ascii "onion" := by simpa [hc] using h3
              simp [this]
          · rw [hfront]
            intro c hc
            obtain ⟨c1, c2⟩ := e3 c hc
            exact ⟨UInt8.not_lt.mp c1, c2⟩
          · simp only
            split
            · rename_i hb
              rw [if_pos hb] at k3
              exact k3.1
            · rename_i hb
              rw [if_neg hb] at k3
              exact k3.1
          · intro c hc
            exact (digit_iff c).mp (k2 c hc)
          · exact fun hm => e6 (List.mem_append_right _ hm)
          · exact fun hm => e2 (by simp [hm])
          · rintro q rfl
            exact fun hm => e2 (by simp [hm])
  · rintro ⟨u, rfl, d⟩
    obtain ⟨scheme, user, host, port, path, query, frag⟩ := u
    obtain ⟨d1, d2, d3, d4, d5, d6, d7, d8, d9, d10, d11, d12, d13, d14⟩ := d
    simp only at d1 d2 d3 d4 d5 d6 d7 d8 d9 d10 d11 d12 d13 d14
    obtain ⟨phost, pport, clear, onion⟩ := p
    simp only at d1 d2 d5 d6 d8 d9 d10
    subst d2
    have hport : port ≠ [] := by
      rintro rfl
      apply d9
      apply UInt64.toNat_inj.mp
      rw [← d8]
      rfl
    have hdig : ∀ c ∈ port, isDigit c = true := fun c hc => (digit_iff c).mpr (d7 c hc)
    have hd35 : ∀ c, isDigit c = true → c ≠ 35 ∧ c ≠ 63 ∧ c ≠ 47 ∧ c ≠ 64 := by
      apply UInt8.forall_of_fin
      decide +kernel
    have hchars : (35 : UInt8) ∉ host ∧ 63 ∉ host ∧ 47 ∉ host ∧ 64 ∉ host := by
      split at d5
      · obtain ⟨inner, rfl, hin⟩ := d5
        have := addressText_chars hin
        simpa using this
      · exact hostText_chars d5
    have hpchars : (35 : UInt8) ∉ port ∧ 63 ∉ port ∧ 47 ∉ port ∧ 64 ∉ port :=
      ⟨fun h => (hd35 _ (hdig _ h)).1 rfl, fun h => (hd35 _ (hdig _ h)).2.1 rfl,
        fun h => (hd35 _ (hdig _ h)).2.2.1 rfl, fun h => (hd35 _ (hdig _ h)).2.2.2 rfl⟩
    have huchars : (35 : UInt8) ∉ (user.elim [] fun x => x ++ [64]) ∧
        63 ∉ (user.elim [] fun x => x ++ [64]) ∧ 47 ∉ (user.elim [] fun x => x ++ [64]) := by
      cases user with
      | none => simp
      | some x =>
        have h := (d4 x rfl).1
        simp only [Option.elim_some, List.mem_append, List.mem_singleton, not_or]
        exact ⟨⟨fun hm => (userChar_not (h _ hm)).1 rfl, by decide⟩,
          ⟨fun hm => (userChar_not (h _ hm)).2.1 rfl, by decide⟩,
          fun hm => (userChar_not (h _ hm)).2.2 rfl, by decide⟩
    have hsch : scheme.map lowerByte = if clear then ascii "https" else ascii "onion" :=
      (sameLetters_iff (hlow _)).mp d1
    have hlet : ∀ c ∈ scheme, 97 ≤ lowerByte c ∧ lowerByte c ≤ 122 := by
      intro c hc
      exact hlow clear _ (hsch ▸ List.mem_map_of_mem hc)
    have h35s : (35 : UInt8) ∉ scheme := fun h => absurd (hlet _ h) (by decide)
    have hne : scheme ≠ [] := by
      rintro rfl
      cases clear <;> simp [ascii] at hsch
    -- the host and the port
    obtain ⟨r, hr, hsplit⟩ : ∃ r, parseHost (host ++ 58 :: port) = some r ∧
        splitHostPort r = (phost, port) := by
      by_cases hb : host.head? = some 91
      · rw [if_pos hb] at d5
        exact ⟨_, (parseHost_split hport).mpr ⟨host, rfl, hdig, by rw [if_pos hb]; exact ⟨d5, rfl⟩⟩⟩
      · rw [if_neg hb] at d5
        exact ⟨_, (parseHost_split hport).mpr ⟨host, rfl, hdig, by rw [if_neg hb]; exact ⟨d5, rfl⟩⟩⟩
    have hr0 : r ≠ [] := by
      rintro rfl
      have : splitHostPort [] = ([], []) := by decide
      rw [this] at hsplit
      exact hport (Prod.mk.inj hsplit).2.symm
    have hfront : PeerURL.front ⟨scheme, user, host, port, path, query, frag⟩ =
        scheme ++ (58 :: 47 :: 47 :: ((user.elim [] fun x => x ++ [64]) ++
          (host ++ 58 :: port) ++ (path ++ query.elim [] fun q => 63 :: q))) := by
      simp [PeerURL.front, ascii]
    have hq35 : (35 : UInt8) ∉ (query.elim [] fun q => 63 :: q) := by
      cases query with
      | none => simp
      | some q => simpa using d13 q rfl
    have hparse : urlParse (PeerURL.text ⟨scheme, user, host, port, path, query, frag⟩) =
        some (if clear then ascii "https" else ascii "onion", r) := by
      rw [urlParse_eq_some hr0]
      refine ⟨scheme, (user.elim [] fun x => x ++ [64]) ++ (host ++ 58 :: port), path, query, frag,
        ?_, ?_, ?_, d14, ?_, ?_, ?_, d11, ?_, d12.1⟩
      · rw [PeerURL.text, hfront]
      · simp only [List.mem_append, List.mem_cons, not_or]
        exact ⟨h35s, by decide, by decide, by decide, ⟨huchars.1, hchars.1, by decide, hpchars.1⟩,
          d12.2.2, hq35⟩
      · rw [hfront] at d3
        intro c hc
        obtain ⟨c1, c2⟩ := d3 c hc
        exact ⟨UInt8.not_lt.mpr c1, c2⟩
      · rw [getScheme_letters _ scheme [] hlet (by simpa using hne), List.nil_append, hsch]
      · simp only [List.mem_append, List.mem_cons, not_or]
        exact ⟨⟨huchars.2.1, hchars.2.1, by decide, hpchars.2.1⟩, d12.2.1⟩
      · simp only [List.mem_append, List.mem_cons, not_or]
        exact ⟨huchars.2.2, hchars.2.2.1, by decide, hpchars.2.2.1⟩
      · refine parseAuthority_iff.mpr ⟨user, host ++ 58 :: port, rfl, ?_, hr, d4⟩
        simp only [List.mem_append, List.mem_cons, not_or]
        exact ⟨hchars.2.2.2, by decide, hpchars.2.2.2⟩
    unfold toPeer
    rw [hparse]
    simp only [hsplit, atoiPort_some.mpr ⟨hport, d8, d10⟩]
    refine peerNow_eq_ok.mpr ⟨d6, d9, ?_, ?_⟩
    · cases clear <;> simp
    · cases clear
      · simp [show ¬ ascii "onion" = ascii "https" by decide]
      · simp

section examples

/-- C108: an IPv6 address with a user, a path, a query and a fragment; the scheme in capitals. -/
example : toPeer (ascii "HTTPS://me%21@[fe80::1]:08080/a%20b?%#c") =
    .ok ⟨ascii "fe80::1", 8080, true, false⟩ := by
  refine C108_accepted_exactly.mpr ⟨⟨ascii "HTTPS", some (ascii "me%21"), ascii "[fe80::1]",
    ascii "08080", ascii "/a%20b", some (ascii "%"), some (ascii "c")⟩, by decide, ?_⟩
  refine ⟨(sameLetters_iff (by decide)).mpr (by decide), rfl, by decide, ?_, ?_, by decide, by decide,
    by decide, by decide, by decide, .inr rfl, ⟨(escapesOk_iff _).mp (by decide), by decide, by decide⟩,
    ?_, ?_⟩
  · rintro x ⟨⟩
    exact ⟨fun c hc => (userByte_iff c).mp (by revert c; decide), (escapesOk_iff _).mp (by decide)⟩
  · rw [if_pos (by decide)]
    exact ⟨ascii "fe80::1", by decide, .bare (cutZone_none.mp (by decide))
      (unescapeHost_iff.mp (by decide))⟩
  · rintro q ⟨⟩; decide
  · rintro f ⟨⟩; exact (escapesOk_iff _).mp (by decide)

/-- C108: the zone of an address may have escapes that the address in front of it may not have, and
belongs to the name of the peer. -/
example : toPeer (ascii "onion://[fe80::1%25eth%20%41]:1") =
      .ok ⟨ascii "fe80::1%eth A", 1, false, true⟩ ∧
    toPeer (ascii "onion://[fe80::%41%25eth]:1") = .err "the URL is invalid" ∧
    toPeer (ascii "onion://[fe80::1%25%C3%A9]:1") = .err "the URL is invalid" ∧
    toPeer (ascii "onion://[fe80::%C3%A9]:1") = .ok ⟨ascii "fe80::" ++ [195, 169], 1, false, true⟩ := by
  decide +kernel

/-- C108: a path must not have a percent sign that is no escape. -/
example : ∀ p, toPeer (ascii "https://a:1/%") ≠ .ok p := by
  intro p
  have : toPeer (ascii "https://a:1/%") = .err "the URL is invalid" := by decide
  rw [this]
  simp

end examples

end Verif
