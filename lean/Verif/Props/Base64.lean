import Verif.Props.Encryption
import Verif.Props.Exact
import Verif.Spec.Base64

/-!
# Which texts are decoded: C54, C102, C104
-/

namespace Verif
set_option maxRecDepth 20000

private theorem b64Val_eq_some {c v : UInt8} : b64Val c = some v ↔ v < 64 ∧ c = b64Char v := by
  constructor
  · intro h
    have : ∀ c : UInt8, ∀ v ∈ b64Val c, v < 64 ∧ c = b64Char v := by
      apply UInt8.forall_of_fin; decide +kernel
    exact this c v h
  · rintro ⟨h, rfl⟩; exact b64Val_char h

private theorem b64Char_inj {v w : UInt8} (hv : v < 64) (hw : w.toNat < 64) (h : b64Char v = b64Char w) : v = w := by
  have hw : w < 64 := by rw [UInt8.lt_iff_toNat_lt]; simpa using hw
  have := b64Val_char hv
  rw [h, b64Val_char hw] at this
  exact (Option.some.inj this).symm

/-- The texts of some bytes, without line breaks, that are decoded. -/
private inductive B64Text : Bytes → Bytes → Prop
  | nil : B64Text [] []
  | one {a k : UInt8} : k.toNat < 16 →
      B64Text [a] [b64Char (a / 4), b64Char (a % 4 * 16 + k), b64Pad, b64Pad]
  | two {a b k : UInt8} : k.toNat < 4 →
      B64Text [a, b] [b64Char (a / 4), b64Char (a % 4 * 16 + b / 16), b64Char (b % 16 * 4 + k), b64Pad]
  | three {a b c : UInt8} {x t : Bytes} : B64Text x t →
      B64Text (a :: b :: c :: x) (b64Char (a / 4) :: b64Char (a % 4 * 16 + b / 16) ::
        b64Char (b % 16 * 4 + c / 64) :: b64Char (c % 64) :: t)

private theorem split_one {p q : UInt8} (hp : p < 64) (hq : q < 64) :
    p = (p * 4 + q / 16) / 4 ∧ ∃ k : UInt8, k.toNat < 16 ∧ q = (p * 4 + q / 16) % 4 * 16 + k := by
  rw [UInt8.lt_iff_toNat_lt] at hp hq
  simp only [UInt8.reduceToNat] at hp hq
  refine ⟨?_, q % 16, ?_, ?_⟩
  · rw [← UInt8.toNat_inj]; simp; omega
  · simp; omega
  · rw [← UInt8.toNat_inj]; simp; omega

private theorem split_two {p q z : UInt8} (hp : p < 64) (hq : q < 64) (hz : z < 64) :
    p = (p * 4 + q / 16) / 4 ∧ q = (p * 4 + q / 16) % 4 * 16 + (q * 16 + z / 4) / 16 ∧
      ∃ k : UInt8, k.toNat < 4 ∧ z = (q * 16 + z / 4) % 16 * 4 + k := by
  rw [UInt8.lt_iff_toNat_lt] at hp hq hz
  simp only [UInt8.reduceToNat] at hp hq hz
  refine ⟨?_, ?_, z % 4, ?_, ?_⟩
  · rw [← UInt8.toNat_inj]; simp; omega
  · rw [← UInt8.toNat_inj]; simp; omega
  · simp; omega
  · rw [← UInt8.toNat_inj]; simp; omega

private theorem split_three {p q z w : UInt8} (hp : p < 64) (hq : q < 64) (hz : z < 64) (hw : w < 64) :
    p = (p * 4 + q / 16) / 4 ∧ q = (p * 4 + q / 16) % 4 * 16 + (q * 16 + z / 4) / 16 ∧
      z = (q * 16 + z / 4) % 16 * 4 + (z * 64 + w) / 64 ∧ w = (z * 64 + w) % 64 := by
  rw [UInt8.lt_iff_toNat_lt] at hp hq hz hw
  simp only [UInt8.reduceToNat] at hp hq hz hw
  refine ⟨?_, ?_, ?_, ?_⟩ <;>
  · rw [← UInt8.toNat_inj]; simp; omega

private theorem join_one {a k : UInt8} (h : k.toNat < 16) :
    a / 4 < 64 ∧ a % 4 * 16 + k < 64 ∧ a / 4 * 4 + (a % 4 * 16 + k) / 16 = a := by
  have := a.toNat_lt
  refine ⟨?_, ?_, ?_⟩
  · rw [UInt8.lt_iff_toNat_lt]; simp; omega
  · rw [UInt8.lt_iff_toNat_lt]; simp; omega
  · rw [← UInt8.toNat_inj]; simp; omega

private theorem join_two {a b k : UInt8} (h : k.toNat < 4) :
    a / 4 < 64 ∧ a % 4 * 16 + b / 16 < 64 ∧ b % 16 * 4 + k < 64 ∧
      a / 4 * 4 + (a % 4 * 16 + b / 16) / 16 = a ∧
      (a % 4 * 16 + b / 16) * 16 + (b % 16 * 4 + k) / 4 = b := by
  have := a.toNat_lt
  have := b.toNat_lt
  refine ⟨?_, ?_, ?_, ?_, ?_⟩
  · rw [UInt8.lt_iff_toNat_lt]; simp; omega
  · rw [UInt8.lt_iff_toNat_lt]; simp; omega
  · rw [UInt8.lt_iff_toNat_lt]; simp; omega
  · rw [← UInt8.toNat_inj]; simp; omega
  · rw [← UInt8.toNat_inj]; simp; omega

private theorem join_three {a b c : UInt8} :
    a / 4 < 64 ∧ a % 4 * 16 + b / 16 < 64 ∧ b % 16 * 4 + c / 64 < 64 ∧ c % 64 < 64 ∧
      a / 4 * 4 + (a % 4 * 16 + b / 16) / 16 = a ∧
      (a % 4 * 16 + b / 16) * 16 + (b % 16 * 4 + c / 64) / 4 = b ∧
      (b % 16 * 4 + c / 64) * 64 + c % 64 = c := by
  have := a.toNat_lt
  have := b.toNat_lt
  have := c.toNat_lt
  refine ⟨?_, ?_, ?_, ?_, ?_, ?_, ?_⟩
  · rw [UInt8.lt_iff_toNat_lt]; simp; omega
  · rw [UInt8.lt_iff_toNat_lt]; simp; omega
  · rw [UInt8.lt_iff_toNat_lt]; simp; omega
  · rw [UInt8.lt_iff_toNat_lt]; simp; omega
  · rw [← UInt8.toNat_inj]; simp; omega
  · rw [← UInt8.toNat_inj]; simp; omega
  · rw [← UInt8.toNat_inj]; simp; omega

private theorem b64DecodeQ_of_text {x t : Bytes} (h : B64Text x t) : b64DecodeQ t = some x := by
  induction h with
  | nil => rfl
  | @one a k hk =>
    obtain ⟨h1, h2, h3⟩ := join_one (a := a) hk
    simp [b64DecodeQ, b64Val_char h1, b64Val_char h2, h3]
  | @two a b k hk =>
    obtain ⟨h1, h2, h3, h4, h5⟩ := join_two (a := a) (b := b) hk
    simp [b64DecodeQ, b64Val_char h1, b64Val_char h2, b64Val_char h3, h4, h5, b64Char_ne_pad]
  | @three a b c x t _ ih =>
    obtain ⟨h1, h2, h3, h4, h5, h6, h7⟩ := join_three (a := a) (b := b) (c := c)
    simp [b64DecodeQ, b64Val_char h1, b64Val_char h2, b64Val_char h3, b64Val_char h4, h5, h6, h7,
      b64Char_ne_pad, ih]

private theorem text_of_b64DecodeQ : ∀ t x, b64DecodeQ t = some x → B64Text x t
  | [], x, h => by cases h; exact .nil
  | [_], x, h => by simp [b64DecodeQ] at h
  | [_, _], x, h => by simp [b64DecodeQ] at h
  | [_, _, _], x, h => by simp [b64DecodeQ] at h
  | a :: b :: c :: d :: rest, x, h => by
    rw [b64DecodeQ] at h
    cases hp : b64Val a with
    | none => simp [hp] at h
    | some p =>
    cases hq : b64Val b with
    | none => simp [hp, hq] at h
    | some q =>
    simp only [hp, hq] at h
    obtain ⟨lp, rfl⟩ := b64Val_eq_some.mp hp
    obtain ⟨lq, rfl⟩ := b64Val_eq_some.mp hq
    split at h
    · rename_i hc
      split at h
      · rename_i hd
        obtain ⟨rfl, rfl⟩ := hd
        cases h
        subst hc
        obtain ⟨h1, k, hk, h2⟩ := split_one lp lq
        have := B64Text.one (a := p * 4 + q / 16) hk
        rwa [← h1, ← h2] at this
      · cases h
    · cases hz : b64Val c with
      | none => simp [hz] at h
      | some z =>
      simp only [hz] at h
      obtain ⟨lz, rfl⟩ := b64Val_eq_some.mp hz
      split at h
      · rename_i hd
        split at h
        · rename_i hr
          subst hr
          subst hd
          cases h
          obtain ⟨h1, h2, k, hk, h3⟩ := split_two lp lq lz
          have := B64Text.two (a := p * 4 + q / 16) (b := q * 16 + z / 4) hk
          rwa [← h1, ← h2, ← h3] at this
        · cases h
      · cases hw : b64Val d with
        | none => simp [hw] at h
        | some w =>
        cases hr : b64DecodeQ rest with
        | none => simp [hr, hw] at h
        | some r =>
        simp only [hw, hr, Option.some.injEq] at h
        subst h
        obtain ⟨lw, rfl⟩ := b64Val_eq_some.mp hw
        obtain ⟨h1, h2, h3, h4⟩ := split_three lp lq lz lw
        have := B64Text.three (a := p * 4 + q / 16) (b := q * 16 + z / 4) (c := z * 64 + w)
          (text_of_b64DecodeQ rest r hr)
        rwa [← h1, ← h2, ← h3, ← h4] at this

private theorem b64Text_iff {x t : Bytes} : B64Text x t ↔ UpToSpareBits x t := by
  constructor
  · intro h
    induction h with
    | nil => exact .inl rfl
    | @one a k hk =>
      have := a.toNat_lt
      refine .inr ⟨[b64Char (a / 4)], [61, 61], a % 4 * 16, k, rfl, rfl, rfl, by simpa using hk, ?_, ?_⟩
      · simp
      · simp; omega
    | @two a b k hk =>
      have := b.toNat_lt
      refine .inr ⟨[b64Char (a / 4), b64Char (a % 4 * 16 + b / 16)], [61], b % 16 * 4, k, rfl, rfl, rfl,
        by simpa using hk, ?_, ?_⟩
      · simp
      · simp; omega
    | @three a b c x t _ ih =>
      rcases ih with rfl | ⟨body, pad, v, k, h1, h2, rfl, h4⟩
      · exact .inl rfl
      · refine .inr ⟨b64Char (a / 4) :: b64Char (a % 4 * 16 + b / 16) :: b64Char (b % 16 * 4 + c / 64) ::
          b64Char (c % 64) :: body, pad, v, k, ?_, by simp [b64Encode, h2], rfl, h4⟩
        rw [h1]
        congr 2
        simp only [List.length_cons]
        omega
  · induction x using b64Encode.induct generalizing t with
    | case1 =>
      rintro (rfl | ⟨body, pad, v, k, h1, h2, -⟩)
      · exact .nil
      · simp [b64Encode] at h2
    | case2 a =>
      rintro (rfl | ⟨body, pad, v, k, rfl, h2, rfl, h3, h4, h5⟩)
      · have := B64Text.one (a := a) (k := 0) (by simp)
        rwa [UInt8.add_zero] at this
      · have e : b64Encode [a] = [b64Char (a / 4)] ++ b64Char (a % 4 * 16) :: [61, 61] := rfl
        rw [e] at h2
        obtain ⟨rfl, e⟩ := List.append_inj' h2 (by simp)
        have e := b64Char_inj (join_one (a := a) (k := 0) (by simp)).2.1 h5 (by simpa using (List.cons.inj e).1)
        subst e
        have := B64Text.one (a := a) (k := k) (by simpa using h3)
        simpa [b64Pad] using this
    | case3 a b =>
      rintro (rfl | ⟨body, pad, v, k, rfl, h2, rfl, h3, h4, h5⟩)
      · have := B64Text.two (a := a) (b := b) (k := 0) (by simp)
        rwa [UInt8.add_zero] at this
      · have e : b64Encode [a, b] = [b64Char (a / 4), b64Char (a % 4 * 16 + b / 16)] ++
          b64Char (b % 16 * 4) :: [61] := rfl
        rw [e] at h2
        obtain ⟨rfl, e⟩ := List.append_inj' h2 (by simp)
        have e := b64Char_inj (join_two (a := a) (b := b) (k := 0) (by simp)).2.2.1 h5
          (by simpa using (List.cons.inj e).1)
        subst e
        have := B64Text.two (a := a) (b := b) (k := k) (by simpa using h3)
        simpa [b64Pad] using this
    | case4 a b c rest ih =>
      rintro (rfl | ⟨body, pad, v, k, rfl, h2, rfl, h3, h4, h5⟩)
      · exact .three (ih (.inl rfl))
      · have hl : (3 - (a :: b :: c :: rest).length % 3) % 3 = (3 - rest.length % 3) % 3 := by
          simp only [List.length_cons]; omega
        rw [hl] at h2 h3 h4 ⊢
        rcases Nat.eq_zero_or_pos ((3 - rest.length % 3) % 3) with h0 | h0
        · rw [h0] at h2 h3 ⊢
          have : k = 0 := by
            rw [← UInt8.toNat_inj]; simpa using h3
          subst this
          rw [UInt8.add_zero, ← h2]
          exact .three (ih (.inl rfl))
        · have hlen := congrArg List.length h2
          rw [b64Encode_length] at hlen
          simp only [List.length_cons, List.length_append, List.length_replicate] at hlen
          have e : b64Encode (a :: b :: c :: rest) = [b64Char (a / 4), b64Char (a % 4 * 16 + b / 16),
            b64Char (b % 16 * 4 + c / 64), b64Char (c % 64)] ++ b64Encode rest := rfl
          rw [e, List.append_eq_append_iff] at h2
          rcases h2 with ⟨body', rfl, h2⟩ | ⟨c', h1, h2⟩
          · exact .three (ih (.inr ⟨body', _, v, k, rfl, h2, rfl, h3, h4, h5⟩))
          · have := congrArg List.length h1
            simp only [List.length_cons, List.length_append, List.length_nil] at this
            omega

/-- C54: exactly which texts are decoded to given bytes: line breaks may stand anywhere, and the bits of the
last character that no byte needs may be any. -/
theorem C54_accepted_texts_exact (s x : Bytes) :
    b64Decode s = some x ↔ UpToSpareBits x (withoutBreaks s) := by
  rw [← b64Text_iff]
  exact ⟨text_of_b64DecodeQ _ _, b64DecodeQ_of_text⟩

private theorem no_breaks (x : Bytes) : withoutBreaks (b64Encode x) = b64Encode x := by
  unfold withoutBreaks
  rw [List.filter_eq_self]
  intro c hc
  have h := b64Encode_alphabet x c hc
  have : ∀ c : UInt8, isB64 c = true → c ≠ 10 ∧ c ≠ 13 := by
    apply UInt8.forall_of_fin; decide +kernel
  simpa using this c h

private theorem b64_tail : ∀ x : Bytes, x.length % 3 ≠ 0 → ∃ body pad v,
    pad = List.replicate ((3 - x.length % 3) % 3) 61 ∧ b64Encode x = body ++ b64Char v :: pad ∧
      v.toNat % 4 ^ pad.length = 0 ∧ v.toNat < 64 := by
  intro x
  induction x using b64Encode.induct with
  | case1 => simp
  | case2 a =>
    intro _
    have := a.toNat_lt
    refine ⟨[b64Char (a / 4)], [61, 61], a % 4 * 16, rfl, rfl, ?_, ?_⟩
    · simp
    · simp; omega
  | case3 a b =>
    intro _
    have := b.toNat_lt
    refine ⟨[b64Char (a / 4), b64Char (a % 4 * 16 + b / 16)], [61], b % 16 * 4, rfl, rfl, ?_, ?_⟩
    · simp
    · simp; omega
  | case4 a b c rest ih =>
    intro h
    obtain ⟨body, pad, v, h1, h2, h3⟩ := ih (by simp only [List.length_cons] at h; omega)
    refine ⟨_ :: _ :: _ :: _ :: body, pad, v, ?_, by rw [b64Encode, h2]; rfl, h3⟩
    rw [h1]
    congr 2
    simp only [List.length_cons]
    omega

/-- C54: exactly which bytes have a single text without line breaks: those whose number is a multiple of
three. For all others a changed last character is not noticed. -/
theorem C54_single_text_iff (x : Bytes) :
    (∀ s, b64Decode s = some x → withoutBreaks s = s → s = b64Encode x) ↔ x.length % 3 = 0 := by
  constructor
  · intro h
    by_contra hx
    obtain ⟨body, pad, v, h1, h2, h3, h4⟩ := b64_tail x hx
    have hp : 1 ≤ pad.length := by rw [h1, List.length_replicate]; omega
    have h4' : 4 ≤ 4 ^ pad.length := le_trans (by norm_num) (Nat.pow_le_pow_right (by norm_num) hp)
    have hd : v.toNat % 4 = 0 := by
      have hn : (4 : Nat) ∣ 4 ^ pad.length := dvd_pow_self _ (by omega)
      exact Nat.mod_eq_zero_of_dvd (hn.trans (Nat.dvd_of_mod_eq_zero h3))
    have hv : (v + 1).toNat = v.toNat + 1 := by simp; omega
    have hu : UpToSpareBits x (body ++ b64Char (v + 1) :: pad) :=
      .inr ⟨body, pad, v, 1, h1, h2, rfl, by simp; omega, h3, h4⟩
    have hw : withoutBreaks (body ++ b64Char (v + 1) :: pad) = body ++ b64Char (v + 1) :: pad := by
      have hb := no_breaks x
      rw [h2] at hb
      unfold withoutBreaks at hb ⊢
      rw [List.filter_eq_self] at hb ⊢
      intro c hc
      rcases List.mem_append.mp hc with hc | hc
      · exact hb c (by simp [hc])
      · rcases List.mem_cons.mp hc with rfl | hc
        · have : ∀ w : UInt8, isB64 (b64Char w) = true → b64Char w ≠ 10 ∧ b64Char w ≠ 13 := by
            apply UInt8.forall_of_fin; decide +kernel
          simpa using this _ (isB64_char _)
        · exact hb c (by simp [hc])
    have e := h _ ((C54_accepted_texts_exact _ _).mpr (by rwa [hw])) hw
    rw [h2] at e
    have e := (List.cons.inj (List.append_cancel_left e)).1
    have := b64Char_inj (v := v + 1) (w := v) (by rw [UInt8.lt_iff_toNat_lt, hv]; simp; omega) h4 e
    have := congrArg UInt8.toNat this
    omega
  · intro hx s hs hw
    rw [C54_accepted_texts_exact, hw] at hs
    rcases hs with h | ⟨body, pad, v, k, h1, h2, h3, h4, -⟩
    · exact h
    · have hp : pad = [] := by rw [h1, hx]; rfl
      subst hp
      have : k = 0 := by rw [← UInt8.toNat_inj]; simpa using h4
      subst this
      rw [h3, UInt8.add_zero, h2]

/-- C102: exactly which texts are read as a private key: those of the bytes that are, up to line breaks and
spare bits. -/
theorem C102_private_text_exact (s : Bytes) (k : RsaKey) :
    rsaKeyFromEncoded s = .ok k ↔ ∃ b, rsaKeyFromBytes b = .ok k ∧ UpToSpareBits b (withoutBreaks s) := by
  simp only [← C54_accepted_texts_exact]
  unfold rsaKeyFromEncoded
  cases b64Decode s <;> simp

/-- C104, exactly which texts, of less than 2 GiB, are read as a given public key: the key has to be one that
can be used, the bytes are its encoding with any bytes behind the exponent, and the text is that of these
bytes up to line breaks and spare bits. -/
theorem C104_accepted_texts_exact {s : Bytes} (hs : s.length < 2 ^ 31) (k : RsaPub) :
    rsaPubFromEncoded s = .ok k ↔ 0 < k.n ∧ 0 < k.e ∧ k.e < 2 ^ 31 ∧
      ∃ extra, UpToSpareBits (tlv tagSequence (derField k.n ++ (derField k.e ++ extra))) (withoutBreaks s) := by
  simp only [← C54_accepted_texts_exact]
  unfold rsaPubFromEncoded
  cases h : b64Decode s with
  | none => simp
  | some b =>
    have hl : b.length < 2 ^ 31 := by
      rw [C54_accepted_texts_exact] at h
      have e : (b64Encode b).length ≤ s.length := by
        have hf : (withoutBreaks s).length ≤ s.length := List.length_filter_le _ _
        rcases h with h | ⟨body, pad, v, k, -, h2, h3, -⟩
        · rwa [← h]
        · rw [h2]
          rw [h3] at hf
          simpa using hf
      rw [b64Encode_length] at e
      omega
    rw [C104_accepted_encodings_exact hl]
    simp

/-- C104: the expectation fails for texts: a key whose encoding is not a multiple of three bytes long has
another text, also without line breaks. -/
theorem C104_spare_bits_neg {k : RsaPub} (hn : 0 < k.n) (he0 : 0 < k.e) (he : k.e < 2 ^ 31)
    (hl : (rsaPubToBytes k).length < 2 ^ 31) (h3 : (rsaPubToBytes k).length % 3 ≠ 0) :
    ∃ s, s ≠ rsaPubToEncoded k ∧ withoutBreaks s = s ∧ rsaPubFromEncoded s = .ok k := by
  have h := mt (C54_single_text_iff _).mp h3
  push Not at h
  obtain ⟨s, h1, h2, h3⟩ := h
  refine ⟨s, h3, h2, ?_⟩
  unfold rsaPubFromEncoded
  rw [h1]
  exact (C102_public_round_trip hn he0 he hl).1

section examples

/-- C54: one byte has sixteen texts, here two of them, three bytes have one. -/
example : b64Decode (ascii "TQ==") = some [77] ∧ b64Decode (ascii "TR==") = some [77] ∧
    b64Decode (ascii "TWFu") = some [77, 97, 110] ∧ b64Decode (ascii "TWFv") = some [77, 97, 111] := by
  refine ⟨?_, ?_, ?_, ?_⟩ <;> decide +kernel

/-- C104: the encoding of the key with modulus 15 and exponent 3 has eight bytes. -/
example : rsaPubFromEncoded (ascii "MAYCAQ8CAQM=") = .ok ⟨15, 3⟩ ∧
    rsaPubFromEncoded (ascii "MAYCAQ8CAQP=") = .ok ⟨15, 3⟩ := by
  constructor <;> decide +kernel

end examples

end Verif
