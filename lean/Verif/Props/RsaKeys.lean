import Verif.Props.Rsa
import Verif.Spec.RsaKeys

/-!
# Exactly which bytes are read as a private key: C102
-/

namespace Verif

theorem derIntVal_isSome (w : Bytes) : (∃ v, derIntVal w = some v) ↔ IntegerOctets w := by
  cases w with
  | nil => simp [derIntVal, IntegerOctets]
  | cons x t =>
    unfold derIntVal IntegerOctets
    cases t with
    | nil =>
      simp
      split <;> simp
    | cons y t =>
      simp only [List.headD_cons, ne_eq, reduceCtorEq, not_false_eq_true, true_and]
      constructor
      · rintro ⟨v, h⟩ a b r e
        simp only [List.cons.injEq] at e
        obtain ⟨rfl, rfl, rfl⟩ := e
        split at h
        · simp at h
        · rename_i hn
          exact ⟨fun hh => hn (.inl hh), fun hh => hn (.inr hh)⟩
      · intro h
        have := h x y t rfl
        rw [if_neg (by tauto)]
        split <;> exact ⟨_, rfl⟩

theorem lenLoop_lt : ∀ {k acc n : Nat} {b rest : Bytes}, lenLoop k acc b = some (n, rest) → acc < 2 ^ 31 →
    n < 2 ^ 31
  | 0, acc, n, b, rest, h, ha => by
    simp only [lenLoop, Option.some.injEq, Prod.mk.injEq] at h
    omega
  | k + 1, acc, n, [], rest, h, ha => by simp [lenLoop] at h
  | k + 1, acc, n, x :: b, rest, h, ha => by
    simp only [lenLoop] at h
    split at h
    · simp at h
    · split at h
      · simp at h
      · have := x.toNat_lt
        exact lenLoop_lt h (by omega)

theorem derLenOk_iff (b : Bytes) : derLenOk b = true ↔ ∃ n r, n < 2 ^ 31 ∧ b = derLen n ++ r := by
  constructor
  · intro h
    unfold derLenOk at h
    split at h
    · simp at h
    rename_i l rest
    split at h
    · rename_i hl
      refine ⟨l.toNat, rest, by have := l.toNat_lt; omega, ?_⟩
      unfold derLen
      rw [if_pos (by rw [UInt8.lt_iff_toNat_lt] at hl; exact hl)]
      simp
    split at h
    · simp at h
    rename_i hl1 hl2
    split at h
    · simp at h
    rename_i n rest' hloop
    have hn : 128 ≤ n := by simpa using h
    obtain ⟨p, hp, rfl, hpn, hp0⟩ := lenLoop_eq_some hloop
    have hl : 128 < l.toNat := by
      have h1 : 128 ≤ l.toNat := by
        rw [UInt8.lt_iff_toNat_lt] at hl1; simpa using hl1
      have h2 : l.toNat ≠ 128 := fun e => hl2 (UInt8.toNat_inj.mp (by simpa using e))
      omega
    have hb : beBytes n = p := by
      rw [hpn]
      have h0 := hp0 (by omega) rfl
      cases p with
      | nil => simp at hp; omega
      | cons x p =>
        simp only [Nat.zero_mul, Nat.zero_add]
        exact beBytes_beNat (by simpa using h0)
    have hlen : UInt8.ofNat (128 + p.length) = l := by
      apply UInt8.toNat_inj.mp
      have := l.toNat_lt
      rw [UInt8.toNat_ofNat']
      omega
    refine ⟨n, rest', lenLoop_lt hloop (by omega), ?_⟩
    unfold derLen
    rw [if_neg (by omega), hb, hlen]
    simp
  · rintro ⟨n, r, hn, rfl⟩
    unfold derLen
    split
    · rename_i h1
      have h2 : (UInt8.ofNat n).toNat = n := by simp; omega
      simp only [List.cons_append, List.nil_append, derLenOk]
      rw [if_pos (by rw [UInt8.lt_iff_toNat_lt, h2]; exact h1)]
    · rename_i h1
      have h4 := beBytes_length_of_lt hn
      obtain ⟨x, t, e, hx⟩ := beBytes_head (n := n) (by omega)
      have h2 : (UInt8.ofNat (128 + (beBytes n).length)).toNat = 128 + (beBytes n).length := by
        rw [UInt8.toNat_ofNat']; omega
      have h3 : 0 < (beBytes n).length := by rw [e]; simp
      simp only [List.cons_append, derLenOk]
      rw [if_neg (by rw [UInt8.lt_iff_toNat_lt, h2]; simp),
        if_neg (by
          intro e'
          have h5 : (128 : UInt8).toNat = 128 := rfl
          rw [← e', h2] at h5
          omega),
        h2, Nat.add_sub_cancel_left,
        lenLoop_append _ _ _ (by rw [beNat_beBytes]; omega) (Or.inr (by rw [e]; simpa using hx))]
      simp only [beNat_beBytes, Nat.zero_mul, Nat.zero_add]
      simpa using h1

private def f128 (n : Nat) (x : UInt8) : Nat := n * 128 + x.toNat % 128

theorem base128Loop_iff : ∀ (k acc : Nat) (b : Bytes) (n : Nat) (rest : Bytes),
    base128Loop k acc b = some (n, rest) ↔
      ∃ hi lo, b = hi ++ lo :: rest ∧ hi.length < k ∧ (∀ y ∈ hi, 128 ≤ y) ∧ lo < 128 ∧ n < 2 ^ 31 ∧
        n = (hi ++ [lo]).foldl f128 acc
  | k, acc, [], n, rest => by cases k <;> simp [base128Loop]
  | 0, acc, x :: b, n, rest => by simp [base128Loop]
  | k + 1, acc, x :: b, n, rest => by
    have hx := x.toNat_lt
    simp only [base128Loop]
    by_cases h : x < 128
    · have h' : x.toNat < 128 := by rw [UInt8.lt_iff_toNat_lt] at h; simpa using h
      rw [if_pos h]
      constructor
      · intro e
        split at e
        · simp at e
        · simp only [Option.some.injEq, Prod.mk.injEq] at e
          obtain ⟨rfl, rfl⟩ := e
          refine ⟨[], x, rfl, by simp, by simp, h, by omega, ?_⟩
          simp only [List.nil_append, List.foldl_cons, List.foldl_nil, f128]
          omega
      · rintro ⟨hi, lo, e, h1, h2, h3, h4, h5⟩
        cases hi with
        | nil =>
          simp only [List.nil_append, List.cons.injEq] at e
          obtain ⟨rfl, rfl⟩ := e
          simp only [List.nil_append, List.foldl_cons, List.foldl_nil, f128] at h5
          rw [if_neg (by omega)]
          simp only [Option.some.injEq, Prod.mk.injEq, and_true]
          omega
        | cons y hi =>
          simp only [List.cons_append, List.cons.injEq] at e
          exact absurd h (UInt8.not_lt.mpr (e.1 ▸ h2 y (by simp)))
    · have h' : 128 ≤ x.toNat := by rw [UInt8.lt_iff_toNat_lt] at h; simpa using h
      have hf : f128 acc x = acc * 128 + (x.toNat - 128) := by
        simp only [f128]
        omega
      rw [if_neg h, base128Loop_iff k]
      constructor
      · rintro ⟨hi, lo, rfl, h1, h2, h3, h4, h5⟩
        refine ⟨x :: hi, lo, rfl, by simpa using h1, ?_, h3, h4, ?_⟩
        · intro y hy
          rcases List.mem_cons.mp hy with rfl | hy
          · exact UInt8.not_lt.mp h
          · exact h2 y hy
        · rw [h5, List.cons_append, List.foldl_cons]
          rw [hf]
      · rintro ⟨hi, lo, e, h1, h2, h3, h4, h5⟩
        cases hi with
        | nil =>
          simp only [List.nil_append, List.cons.injEq] at e
          exact absurd (e.1 ▸ h3) h
        | cons y hi =>
          simp only [List.cons_append, List.cons.injEq] at e
          obtain ⟨rfl, rfl⟩ := e
          refine ⟨hi, lo, rfl, by simpa using h1, fun y hy => h2 y (by simp [hy]), h3, h4, ?_⟩
          rw [h5, List.cons_append, List.foldl_cons]
          rw [hf]

theorem derTag_iff (b r : Bytes) : derTag b = some r ↔ ∃ t, TagOctets t ∧ b = t ++ r := by
  cases b with
  | nil =>
    simp only [derTag, reduceCtorEq, false_iff]
    rintro ⟨t, h, e⟩
    rcases h with ⟨x, rfl, -⟩ | ⟨x, hi, lo, rfl, -⟩ <;> simp at e
  | cons x b =>
    simp only [derTag]
    split
    · rename_i hx
      constructor
      · intro h
        split at h
        · simp at h
        rename_i n rest hl
        split at h
        · simp at h
        cases h
        rename_i hn
        obtain ⟨hi, lo, rfl, h1, h2, h3, h4, h5⟩ := (base128Loop_iff ..).mp hl
        refine ⟨x :: (hi ++ [lo]), .inr ⟨x, hi, lo, rfl, hx, by omega, h2, h3, ?_, ?_⟩, by simp⟩
        · rw [h5] at hn; exact not_lt.mp hn
        · rw [h5] at h4; exact h4
      · rintro ⟨t, ht | ⟨x', hi, lo, rfl, h0, h1, h2, h3, h4, h5⟩, e⟩
        · obtain ⟨y, rfl, hy⟩ := ht
          simp only [List.cons_append, List.nil_append, List.cons.injEq] at e
          exact absurd (e.1 ▸ hx) hy
        · simp only [List.cons_append, List.cons.injEq, List.append_assoc, List.nil_append] at e
          obtain ⟨rfl, rfl⟩ := e
          have := (base128Loop_iff 5 0 (hi ++ lo :: r) (base128 (hi ++ [lo])) r).mpr
            ⟨hi, lo, rfl, by omega, h2, h3, h5, rfl⟩
          rw [this]
          simp only
          rw [if_neg (by omega)]
    · rename_i hx
      constructor
      · intro h
        cases h
        exact ⟨[x], .inl ⟨x, rfl, hx⟩, rfl⟩
      · rintro ⟨t, ⟨y, rfl, hy⟩ | ⟨x', hi, lo, rfl, h0, -⟩, e⟩
        · simp only [List.cons_append, List.nil_append, List.cons.injEq] at e
          rw [e.2]
        · simp only [List.cons_append, List.cons.injEq] at e
          exact absurd (e.1 ▸ h0) hx

theorem derHeader_iff (b : Bytes) : derHeader b = true ↔ Headed b := by
  unfold derHeader Headed
  constructor
  · intro h
    split at h
    · simp at h
    · rename_i r hr
      obtain ⟨t, ht, rfl⟩ := (derTag_iff _ _).mp hr
      obtain ⟨n, r', hn, rfl⟩ := (derLenOk_iff _).mp h
      exact ⟨t, n, r', ht, hn, rfl⟩
  · rintro ⟨t, n, r, ht, hn, rfl⟩
    rw [(derTag_iff _ (derLen n ++ r)).mpr ⟨t, ht, rfl⟩]
    exact (derLenOk_iff _).mpr ⟨n, r, hn, rfl⟩

theorem derInt_iff {b r : Bytes} (hb : b.length < 2 ^ 31) :
    (∃ v, derInt b = some (v, r)) ↔ ∃ w, IntegerOctets w ∧ b = tlv tagInteger w ++ r := by
  constructor
  · rintro ⟨v, h⟩
    unfold derInt at h
    split at h
    · simp at h
    · rename_i c rest hc
      split at h
      · simp at h
      · rename_i v' hv
        cases h
        exact ⟨c, (derIntVal_isSome c).mp ⟨_, hv⟩, derCut_eq_some hc⟩
  · rintro ⟨w, hw, rfl⟩
    obtain ⟨v, hv⟩ := (derIntVal_isSome w).mpr hw
    have := tlv_length_lt tagInteger w
    rw [List.length_append] at hb
    exact ⟨v, by simp only [derInt, derCut_tlv _ _ _ (show w.length < 2 ^ 31 by omega), hv]⟩

/-- The optional fields at the end, `n` integers at most. -/
private def behindOpt : Nat → Bytes → Option Unit
  | 0, b => derNoPrimes b
  | n + 1, b => (derOptInt b).bind (behindOpt n)

private theorem headed_noPrimes (r : Bytes) : Headed (tagSequence :: 0 :: r) :=
  ⟨[tagSequence], 0, r, .inl ⟨_, rfl, by decide⟩, by decide, rfl⟩

private theorem derNoPrimes_iff {b : Bytes} : derNoPrimes b = some () ↔ Behind 0 b := by
  cases b with
  | nil => simp [derNoPrimes, Behind.nil]
  | cons t r =>
    simp only [derNoPrimes]
    split
    · rename_i ht
      subst ht
      constructor
      · intro h
        split at h
        · rename_i rest hc
          have := derCut_eq_some hc
          rw [this]
          exact .noPrimes 0 _
        · simp at h
      · intro h
        cases h with
        | noPrimes _ r =>
          have := derCut_tlv tagSequence [] r (by simp)
          rw [show tlv tagSequence [] ++ r = tagSequence :: 0 :: r from rfl] at this
          rw [this]
        | other h1 h2 => exact absurd rfl h2
    · rename_i ht
      rw [show ((if derHeader (t :: r) = true then some () else none) = some ()) ↔ derHeader (t :: r) = true by
        split <;> simp_all, derHeader_iff]
      constructor
      · intro h
        by_cases h2 : t = tagInteger
        · subst h2; exact .spare h
        · exact .other h2 ht h
      · intro h
        cases h with
        | noPrimes => exact absurd rfl ht
        | other _ _ h => exact h
        | spare h => exact h

private theorem behindOpt_iff : ∀ (n : Nat) {b : Bytes}, b.length < 2 ^ 31 →
    (behindOpt n b = some () ↔ Behind n b)
  | 0, b, _ => derNoPrimes_iff
  | n + 1, [], hb => by
    simp only [behindOpt, derOptInt, Option.bind_some, behindOpt_iff n (b := []) hb]
    exact ⟨fun _ => .nil _, fun _ => .nil _⟩
  | n + 1, t :: r, hb => by
    simp only [behindOpt, derOptInt]
    split
    · rename_i ht
      subst ht
      rw [Option.bind_eq_some_iff]
      constructor
      · rintro ⟨r', h, h'⟩
        obtain ⟨⟨v, r''⟩, hd, e⟩ := Option.map_eq_some_iff.mp h
        simp only at e
        subst e
        obtain ⟨w, hw, e⟩ := (derInt_iff hb).mp ⟨v, hd⟩
        rw [e] at hb ⊢
        rw [List.length_append] at hb
        exact .int hw ((behindOpt_iff n (by omega)).mp h')
      · intro h
        generalize hgen : tagInteger :: r = bb at h hb
        cases h with
        | nil => cases hgen
        | noPrimes => cases hgen
        | other h1 => cases hgen; exact absurd rfl h1
        | int hw h =>
          obtain ⟨v, hv⟩ := (derInt_iff hb).mpr ⟨_, hw, rfl⟩
          refine ⟨_, ?_, (behindOpt_iff n ?_).mpr h⟩
          · rw [hv]; rfl
          · rw [List.length_append] at hb; omega
    · rename_i ht
      have key : Behind (n + 1) (t :: r) ↔ Headed (t :: r) ∧ Behind n (t :: r) := by
        constructor
        · intro h
          generalize hgen : t :: r = bb at h
          cases h with
          | nil => cases hgen
          | int => simp only [tlv, List.cons_append, List.cons.injEq] at hgen; exact absurd hgen.1 ht
          | noPrimes => exact ⟨headed_noPrimes _, .noPrimes _ _⟩
          | other h1 h2 h3 => exact ⟨h3, .other h1 h2 h3⟩
        · rintro ⟨h0, h⟩
          generalize hgen : t :: r = bb at h h0
          cases h with
          | nil => cases hgen
          | int => simp only [tlv, List.cons_append, List.cons.injEq] at hgen; exact absurd hgen.1 ht
          | noPrimes => exact .noPrimes _ _
          | other h1 h2 h3 => exact .other h1 h2 h3
          | spare => simp only [List.cons.injEq] at hgen; exact absurd hgen.1 ht
      rw [key, ← behindOpt_iff n hb, ← derHeader_iff]
      split <;> simp_all

private theorem versionOctets_iff {v : Bytes} :
    (v.length ≤ 8 ∧ ∃ i, derIntVal v = some i ∧ i ≤ 1) ↔ VersionOctets v := by
  constructor
  · rintro ⟨hl, i, hi, h1⟩
    rcases lt_or_ge i 0 with hn | hn
    · refine .inr (.inr ⟨(derIntVal_isSome v).mp ⟨i, hi⟩, hl, ?_⟩)
      cases v with
      | nil => simp [derIntVal] at hi
      | cons x r =>
        refine ⟨x, r, rfl, ?_⟩
        simp only [derIntVal] at hi
        split at hi
        · simp at hi
        · split at hi
          · assumption
          · simp only [Option.some.injEq] at hi; omega
    · obtain rfl | rfl : i = 0 ∨ i = 1 := by omega
      · exact .inl (derIntVal_eq_some (n := 0) hi)
      · exact .inr (.inl (derIntVal_eq_some (n := 1) hi))
  · rintro (rfl | rfl | ⟨h1, h2, x, r, rfl, hx⟩)
    · exact ⟨by simp, 0, by decide, by decide⟩
    · exact ⟨by simp, 1, by decide, by decide⟩
    · refine ⟨h2, ?_⟩
      obtain ⟨i, hi⟩ := (derIntVal_isSome _).mpr h1
      refine ⟨i, hi, ?_⟩
      simp only [derIntVal] at hi
      split at hi
      · simp at hi
      · simp only [Option.some.injEq] at hi
        omega

/-- C102: exactly which bytes, of less than 2 GiB, are read as a given private key: the numbers have to satisfy
the equations of the library, and behind them are up to three integers, which are not looked at, and anything
that has a header. -/
theorem C102_private_encodings_exact {b : Bytes} (hb : b.length < 2 ^ 31) (k : RsaKey) :
    rsaKeyFromBytes b = .ok k ↔
      (k.pre = true ∧ 0 < k.d ∧ k.pub.n = k.p * k.q ∧ 2 < k.p ∧ 2 < k.q ∧ 2 ≤ k.pub.e ∧ k.pub.e < 2 ^ 31 ∧
        k.pub.e * k.d ≡ 1 [MOD k.p - 1] ∧ k.pub.e * k.d ≡ 1 [MOD k.q - 1]) ∧
      ∃ version behind, VersionOctets version ∧ Behind 3 behind ∧
        b = tlv tagSequence (tlv tagInteger version ++ (derField k.pub.n ++ (derField k.pub.e ++
          (derField k.d ++ (derField k.p ++ (derField k.q ++ behind)))))) := by
  constructor
  · intro h
    have hc := C102_imported_checked h
    unfold rsaKeyFromBytes at h
    split at h
    · simp at h
    rename_i version n e d p q hp
    split at h
    · simp at h
    rename_i hver
    split at h
    · simp at h
    rename_i hpos
    split at h
    · simp at h
    rename_i he
    obtain ⟨_, hv, h⟩ := Outcome.bind_eq_ok.mp h
    simp only [rsaKeyNow, rsaPubNow, Outcome.require_some, Outcome.bind_ok, Outcome.ok.injEq] at h
    subst h
    simp only at hc ⊢
    refine ⟨⟨hc.1, by omega, hc.2⟩, ?_⟩
    unfold parseRsaKey at hp
    simp only [Option.bind_eq_bind, Option.bind_eq_some_iff] at hp
    obtain ⟨⟨seq, rest⟩, hseq, hp⟩ := hp
    simp only [] at hp
    split at hp
    · simp at hp
    rename_i hr
    have hr : rest = [] := by simpa using hr
    subst hr
    simp only [Option.bind_eq_some_iff] at hp
    obtain ⟨⟨v, b₁⟩, h1, ⟨n', b₂⟩, h2, ⟨e', b₃⟩, h3, ⟨d', b₄⟩, h4, ⟨p', b₅⟩, h5, ⟨q', b₆⟩, h6, b₇, h7, b₈, h8,
      b₉, h9, _, h10, he⟩ := hp
    simp only [Option.some.injEq, Prod.mk.injEq] at he h2 h3 h4 h5 h6 h7
    obtain ⟨rfl, rfl, rfl, rfl, rfl, rfl⟩ := he
    obtain ⟨hn0, hd0, hp0, hq0⟩ : 0 < n' ∧ 0 < d' ∧ 0 < p' ∧ 0 < q' := by omega
    have en : n' = ((n'.toNat : Nat) : Int) := by omega
    have ee : e' = ((e'.toNat : Nat) : Int) := by omega
    have ed : d' = ((d'.toNat : Nat) : Int) := by omega
    have ep : p' = ((p'.toNat : Nat) : Int) := by omega
    have eq : q' = ((q'.toNat : Nat) : Int) := by omega
    rw [en] at h2
    rw [ee] at h3
    rw [ed] at h4
    rw [ep] at h5
    rw [eq] at h6
    have hbs := derCut_eq_some hseq
    rw [List.append_nil] at hbs
    unfold derSmallInt at h1
    split at h1
    · simp at h1
    rename_i c rest' hcut
    split at h1
    · simp at h1
    rename_i hlen
    split at h1
    · simp at h1
    rename_i v' hv'
    cases h1
    have es := derCut_eq_some hcut
    have e2 := derInt_eq_some h2
    have e3 := derSmallInt_eq_some h3
    have e4 := derInt_eq_some h4
    have e5 := derInt_eq_some h5
    have e6 := derInt_eq_some h6
    refine ⟨c, b₆, versionOctets_iff.mp ⟨by omega, v, hv', by omega⟩, ?_, ?_⟩
    · rw [← behindOpt_iff 3 ?_]
      · simp only [behindOpt, h7, h8, h9, Option.bind_some, h10]
      · have l0 := tlv_length_lt tagSequence seq
        rw [← hbs, es, e2, e3, e4, e5, e6] at l0
        simp only [List.length_append] at l0
        omega
    · rw [hbs, es, e2, e3, e4, e5, e6]
      rfl
  · rintro ⟨⟨hpre, hd, hn, hp, hq, he, he', hip, hiq⟩, version, behind, hver, hbeh, rfl⟩
    obtain ⟨hvl, i, hi, hi1⟩ := versionOctets_iff.mpr hver
    have h0 := tlv_length_lt tagSequence (tlv tagInteger version ++ (derField k.pub.n ++ (derField k.pub.e ++
          (derField k.d ++ (derField k.p ++ (derField k.q ++ behind))))))
    have l0 := lt_trans h0 hb
    have l1 : (derField k.pub.n ++ (derField k.pub.e ++ (derField k.d ++ (derField k.p ++ (derField k.q ++
        behind))))).length < 2 ^ 31 := by
      rw [List.length_append] at l0; omega
    have l2 := derNat_length_lt l1
    have l3 := derNat_length_lt l2.2
    have l4 := derNat_length_lt l3.2
    have l5 := derNat_length_lt l4.2
    have l6 := derNat_length_lt l5.2
    have hparse : parseRsaKey (tlv tagSequence (tlv tagInteger version ++ (derField k.pub.n ++
        (derField k.pub.e ++ (derField k.d ++ (derField k.p ++ (derField k.q ++ behind)))))))
        = some (i, (k.pub.n : Int), (k.pub.e : Int), (k.d : Int), (k.p : Int), (k.q : Int)) := by
      unfold parseRsaKey
      have e := derCut_tlv tagSequence (tlv tagInteger version ++ (derField k.pub.n ++
        (derField k.pub.e ++ (derField k.d ++ (derField k.p ++ (derField k.q ++ behind)))))) [] l0
      rw [List.append_nil] at e
      have f : ∀ (n : Nat) (rest : Bytes), (derNat n).length < 2 ^ 31 →
          derInt (derField n ++ rest) = some ((n : Int), rest) := fun n rest h => derInt_tlv h
      have hv : ∀ rest : Bytes, derSmallInt (tlv tagInteger version ++ rest) = some (i, rest) := by
        intro rest
        unfold derSmallInt
        rw [derCut_tlv _ _ _ (by omega)]
        simp only
        rw [if_neg (by omega), hi]
      have ht := (behindOpt_iff 3 l6.2).mpr hbeh
      simp only [behindOpt, Option.bind_eq_some_iff] at ht
      obtain ⟨b₇, h7, b₈, h8, b₉, h9, h10⟩ := ht
      rw [e]
      simp only [Option.bind_eq_bind, Option.bind_some, ne_eq, not_true_eq_false, if_false]
      rw [hv]
      simp only [Option.bind_some]
      rw [f _ _ l2.1]
      simp only [Option.bind_some]
      rw [derSmallInt_tlv he']
      simp only [Option.bind_some]
      rw [f _ _ l4.1]
      simp only [Option.bind_some]
      rw [f _ _ l5.1]
      simp only [Option.bind_some]
      rw [f _ _ l6.1]
      simp only [Option.bind_some, h7, h8, h9, h10]
    unfold rsaKeyFromBytes
    rw [hparse]
    have hn0 : 0 < k.pub.n := by rw [hn]; exact Nat.mul_pos (by omega) (by omega)
    simp only []
    rw [if_neg (by omega), if_neg (by omega), if_neg (by omega)]
    have hmod : ∀ m, 2 < m → k.pub.e * k.d ≡ 1 [MOD m - 1] → k.pub.e * k.d % (m - 1) = 1 := by
      intro m hm h
      rw [h, Nat.mod_eq_of_lt (by omega)]
    have hv' : rsaValidate ⟨⟨(k.pub.n : Int).toNat, (k.pub.e : Int).toNat⟩, (k.d : Int).toNat,
        (k.p : Int).toNat, (k.q : Int).toNat, true⟩ = .ok () := by
      rw [rsaValidate_eq_ok]
      simp only [Int.toNat_natCast]
      exact ⟨⟨he, he'⟩, ⟨by omega, by omega⟩, hn.symm, hmod _ hp hip, hmod _ hq hiq⟩
    rw [hv']
    simp only [Outcome.bind_ok, rsaKeyNow, rsaPubNow, Outcome.require_some, Int.toNat_natCast]
    obtain ⟨⟨n, e⟩, d, p, q, pre⟩ := k
    simp only at hpre
    subst hpre
    rfl

section examples

/-- C102: a key file with a negative version, the wrong number behind the primes, and some text at the end. -/
example : rsaKeyFromBytes (tlv tagSequence (tlv tagInteger [255] ++ (derField toyRsa.pub.n ++
    (derField toyRsa.pub.e ++ (derField toyRsa.d ++ (derField toyRsa.p ++ (derField toyRsa.q ++
      (tlv tagInteger [7] ++ [12, 1, 65])))))))) = .ok toyRsa := by
  refine (C102_private_encodings_exact ?_ toyRsa).mpr ⟨⟨rfl, toyRsa_proper.d_pos, toyRsa_proper.modulus,
    toyRsa_proper.p_odd, toyRsa_proper.q_odd, toyRsa_proper.e_low, toyRsa_proper.e_high, toyRsa_proper.inv_p,
    toyRsa_proper.inv_q⟩, _, _, .inr (.inr ⟨⟨by simp, by simp⟩, by simp, _, _, rfl, by decide⟩),
    .int ⟨by simp, by simp⟩ (.other (by decide) (by decide) ⟨[12], 1, [65], .inl ⟨_, rfl, by decide⟩,
      by decide, rfl⟩), rfl⟩
  have h1 := toyRsa_n_length
  have h2 := toyRsa_e_length
  have h3 := derField_length (n := toyRsa.d) (m := 99) (by decide +kernel) (by decide)
  have h4 := derField_length (n := toyRsa.p) (m := 99) (by decide +kernel) (by decide)
  have h5 := derField_length (n := toyRsa.q) (m := 99) (by decide +kernel) (by decide)
  have h6 : (tlv tagInteger [255]).length = 3 := rfl
  have h7 : (tlv tagInteger [7]).length = 3 := rfl
  exact tlv_length_le (by simp only [List.length_append, List.length_cons, List.length_nil]; omega)

end examples

end Verif
