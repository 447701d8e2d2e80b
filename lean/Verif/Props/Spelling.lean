import Verif.Props.Text
import Verif.Props.Objects
import Verif.Spec.Literals

/-!
# Other spellings of the same file

C126 (members that no structure has are skipped) and C130 (a string has many literals, and all of
them are read as that string).
-/

namespace Verif

theorem hexVal_digitOf {c : UInt8} {v : Nat} (h : DigitOf c v) :
    hexVal c = some (UInt8.ofNat v) ∧ isHexChar c = true ∧ v < 16 := by
  have hv : v < 16 := by unfold DigitOf at h; omega
  have := UInt8.forall_of_fin (P := fun c => ∀ v < 16, DigitOf c v →
    hexVal c = some (UInt8.ofNat v) ∧ isHexChar c = true) (by decide +kernel) c v hv h
  exact ⟨this.1, this.2, hv⟩

theorem FourDigits.hex4 {d : Bytes} {n : Nat} (h : FourDigits d n) (r : Bytes) :
    hex4 (d ++ r) = some (n, r) := by
  obtain ⟨a, b, c, e, w, x, y, z, rfl, ha, hb, hc, he, rfl⟩ := h
  obtain ⟨a1, -, a2⟩ := hexVal_digitOf ha
  obtain ⟨b1, -, b2⟩ := hexVal_digitOf hb
  obtain ⟨c1, -, c2⟩ := hexVal_digitOf hc
  obtain ⟨e1, -, e2⟩ := hexVal_digitOf he
  simp only [List.cons_append, List.nil_append, Verif.hex4, a1, b1, c1, e1, UInt8.toNat_ofNat',
    Option.some.injEq, Prod.mk.injEq, and_true]
  omega

theorem FourDigits.prefixable {d : Bytes} {n : Nat} (h : FourDigits d n) :
    Prefixable ([92, 117] ++ d) := by
  obtain ⟨a, b, c, e, w, x, y, z, rfl, ha, hb, hc, he, rfl⟩ := h
  intro r
  simp only [List.cons_append, List.nil_append]
  exact strLit_u (by simp [(hexVal_digitOf ha).2.1, (hexVal_digitOf hb).2.1,
    (hexVal_digitOf hc).2.1, (hexVal_digitOf he).2.1]) r

theorem prefixable_short {e c : UInt8} (h : (e, c) ∈ shortEscapes) : Prefixable [92, e] := by
  intro r
  refine strLit_esc ?_ r
  simp only [shortEscapes, List.mem_cons, Prod.mk.injEq, List.not_mem_nil, or_false] at h
  rcases h with h | h | h | h | h | h | h | h <;> rw [h.1] <;> rfl

theorem utf8_ascii {n : Nat} (h : n < 0x80) : utf8 n = [UInt8.ofNat n] := by simp [utf8, h]

theorem prefixable_utf8 {n : Nat} (h : IsChar n) (h0 : 32 ≤ n) (h1 : n ≠ 34) (h2 : n ≠ 92) :
    Prefixable (utf8 n) := by
  by_cases hn : n < 0x80
  · rw [utf8_ascii hn]
    have e : (UInt8.ofNat n).toNat = n := by rw [UInt8.toNat_ofNat']; omega
    refine prefixable_plain ?_ ?_ ?_
    · rw [UInt8.lt_iff_toNat_lt, e]; simp; omega
    · intro h; rw [h] at e; simp at e; omega
    · intro h; rw [h] at e; simp at e; omega
  · exact prefixable_high (utf8_high h (by omega))

theorem unq_plain {n : Nat} (h : IsChar n) (h2 : n ≠ 92) (m : Nat) (s : Bytes) :
    unq (m + 1) (utf8 n ++ s) = utf8 n ++ unq m s := by
  by_cases hn : n < 0x80
  · have hs := runeSize_utf8 n h s
    rw [utf8_ascii hn] at hs ⊢
    have e : (UInt8.ofNat n).toNat = n := by rw [UInt8.toNat_ofNat']; omega
    have h92 : UInt8.ofNat n ≠ 92 := by intro h; rw [h] at e; simp at e; omega
    simp only [List.cons_append, List.nil_append] at hs ⊢
    rw [unq.eq_5 _ _ _ (by intro s h; exact absurd h h92) (by intro e s h; exact absurd h h92), hs]
    simp
  · exact unq_utf8 h (by omega) m s

theorem Spelled.prefixable {l v : Bytes} (h : Spelled l v) : Prefixable l := by
  induction h with
  | nil => exact prefixable_nil
  | plain n h1 h2 h3 h4 _ ih => exact (prefixable_utf8 h1 h2 h3 h4).append ih
  | short e c h1 _ ih => exact (prefixable_short h1).append ih
  | number d n h1 h2 _ ih => exact h1.prefixable.append ih
  | pair d d' n h1 h2 h3 h4 _ ih =>
    have := h3.prefixable.append (h4.prefixable.append ih)
    simpa using this

theorem Spelled.unq {l v : Bytes} (h : Spelled l v) : ∀ m, l.length ≤ m → unq m l = v := by
  induction h with
  | nil => intro m _; cases m <;> rfl
  | plain n h1 h2 h3 h4 _ ih =>
    intro m hm
    have := List.length_pos_iff.mpr (utf8_ne_nil n)
    simp only [List.length_append] at hm
    obtain ⟨m, rfl⟩ : ∃ k, m = k + 1 := ⟨m - 1, by omega⟩
    rw [unq_plain h1 h4, ih m (by omega)]
  | short e c h1 _ ih =>
    intro m hm
    simp only [List.length_cons] at hm
    obtain ⟨m, rfl⟩ : ∃ k, m = k + 1 := ⟨m - 1, by omega⟩
    simp only [shortEscapes, List.mem_cons, Prod.mk.injEq, List.not_mem_nil, or_false] at h1
    rcases h1 with h | h | h | h | h | h | h | h <;> obtain ⟨rfl, rfl⟩ := h <;>
      rw [unq.eq_4 _ _ _ (by decide), ih m (by omega)] <;> rfl
  | number d n h1 h2 _ ih =>
    intro m hm
    simp only [List.length_append, List.length_cons, List.length_nil] at hm
    obtain ⟨m, rfl⟩ : ∃ k, m = k + 1 := ⟨m - 1, by omega⟩
    simp only [List.cons_append, List.nil_append]
    have e : ∀ r, unU (d ++ r) = (utf8 n, r) := by
      intro r
      unfold unU IsChar at *
      rw [h1.hex4]
      simp only
      rw [if_neg (by omega)]
    rw [unq.eq_3, e]
    simp only
    rw [ih m (by omega)]
  | pair d d' n h1 h2 h3 h4 _ ih =>
    intro m hm
    simp only [List.length_append, List.length_cons, List.length_nil] at hm
    obtain ⟨m, rfl⟩ : ∃ k, m = k + 1 := ⟨m - 1, by omega⟩
    simp only [List.append_assoc, List.cons_append, List.nil_append]
    have e : ∀ r, unU (d ++ 92 :: 117 :: (d' ++ r)) = (utf8 n, r) := by
      intro r
      unfold unU
      rw [h3.hex4]
      simp only
      rw [if_pos (by omega), h4.hex4]
      simp only
      rw [if_pos (by omega)]
      congr 2
      omega
    rw [unq.eq_3, e]
    simp only
    rw [ih m (by omega)]

/-- C130: every literal that spells a string is accepted where a string is expected, up to its
closing quote and whatever follows it, and is read as that string. -/
theorem C130_spellings_read {l v : Bytes} (h : Spelled l v) :
    (∀ r, strLit (l ++ 34 :: r) = some (l, r)) ∧ unquote l = v ∧
    strC.read (34 :: (l ++ [34])) = some v := by
  have hl := h.prefixable.isStrLit
  refine ⟨fun r => ?_, h.unq _ le_rfl, ?_⟩
  · have := hl.append r
    simpa using this
  · have : (34 :: (l ++ [34]) : Bytes) = (Json.str l).render := by simp [Json.render]
    unfold Codec.read
    rw [this, parseJson_render (by exact hl)]
    simp [strC, unquote, h.unq _ le_rfl]

/-- C130: every string of characters has a spelling in ASCII alone, by the numbers of its
characters. -/
theorem C130_ascii_spelling {v : Bytes} (h : Utf8 v) : ∃ l, Spelled l v ∧ ∀ c ∈ l, c.toNat < 0x80 := by
  obtain ⟨cs, hc, rfl⟩ := h
  have digit : ∀ n < 16, DigitOf (hexDigit (UInt8.ofNat n)) n ∧ (hexDigit (UInt8.ofNat n)).toNat < 0x80 := by
    decide +kernel
  have four : ∀ n < 0x10000, ∃ d, FourDigits d n ∧ ∀ c ∈ d, c.toNat < 0x80 := by
    intro n hn
    have h1 := digit (n / 4096) (by omega)
    have h2 := digit (n / 256 % 16) (by omega)
    have h3 := digit (n / 16 % 16) (by omega)
    have h4 := digit (n % 16) (by omega)
    refine ⟨_, ⟨_, _, _, _, _, _, _, _, rfl, h1.1, h2.1, h3.1, h4.1, by omega⟩, ?_⟩
    simp [h1.2, h2.2, h3.2, h4.2]
  induction cs with
  | nil => exact ⟨[], .nil, by simp⟩
  | cons n cs ih =>
    obtain ⟨l, h1, h2⟩ := ih fun c hc' => hc c (by simp [hc'])
    have hn := hc n (by simp)
    by_cases hb : n < 0x10000
    · obtain ⟨d, h3, h4⟩ := four n hb
      refine ⟨_, .number d n h3 hn h1, ?_⟩
      intro c hc
      simp only [List.mem_append, List.mem_cons, List.not_mem_nil, or_false] at hc
      rcases hc with ((rfl | rfl) | hc) | hc
      · decide
      · decide
      · exact h4 c hc
      · exact h2 c hc
    · have hn' : n < 0x110000 := by unfold IsChar at hn; omega
      obtain ⟨d, h3, h4⟩ := four (0xD800 + (n - 0x10000) / 0x400) (by omega)
      obtain ⟨d', h5, h6⟩ := four (0xDC00 + (n - 0x10000) % 0x400) (by omega)
      refine ⟨_, .pair d d' n (by omega) hn' h3 h5 h1, ?_⟩
      intro c hc
      simp only [List.mem_append, List.mem_cons, List.not_mem_nil, or_false] at hc
      rcases hc with ((((rfl | rfl) | hc) | rfl | rfl) | hc) | hc
      · decide
      · decide
      · exact h4 c hc
      · decide
      · decide
      · exact h6 c hc
      · exact h2 c hc

/-- C130 (negation for times): a time is taken from the bytes between the quotes as they are, so a
literal that spells the same text with an escape in front is refused where a time is expected. -/
theorem C130_escaped_time_refused_neg {l v : Bytes} (h : Spelled (92 :: l) v) :
    strC.read (34 :: 92 :: (l ++ [34])) = some v ∧ timeC.read (34 :: 92 :: (l ++ [34])) = none := by
  refine ⟨(C130_spellings_read h).2.2, ?_⟩
  have : (34 :: 92 :: (l ++ [34]) : Bytes) = (Json.str (92 :: l)).render := by simp [Json.render]
  unfold Codec.read
  rw [this, parseJson_render (by exact h.prefixable.isStrLit)]
  change parseTime (92 :: l) = none
  unfold parseTime
  split
  · rename_i heq
    simp only [List.cons.injEq] at heq
    rw [← heq.1]
    have : ∀ c, num2 92 c = none := fun c => by
      have : dig 92 = none := rfl
      simp [num2, this]
    simp [this]
  · rfl

theorem atoi2_two {n : Nat} (h : n < 100) :
    atoi2 (UInt8.ofNat (48 + n / 10 % 10)) (UInt8.ofNat (48 + n % 10)) = some (n : Int) := by
  have h1 : ∀ k < 10, (UInt8.ofNat (48 + k) == 45) = false ∧ (UInt8.ofNat (48 + k) == 43) = false := by
    decide
  obtain ⟨h2, h3⟩ := h1 (n / 10 % 10) (by omega)
  unfold atoi2
  rw [h2, h3, num2_two h]
  rfl

/-- C130: a time is written with a `Z` at the end; the same digits with the offset of another zone are
read as the instant that has these digits there. Any two digits are accepted as hours and minutes of
the offset. -/
theorem C130_times_in_zones {t : Int} {b : Bytes} (h : fmtTime t = some b) : ∃ w, b = w ++ [90] ∧
    ∀ hh mm : Nat, hh < 100 → mm < 100 →
      timeC.read (34 :: (w ++ 43 :: (two hh ++ 58 :: two mm) ++ [34])) =
        some (t - (60 * hh + mm) * (60 * 10 ^ 9)) ∧
      timeC.read (34 :: (w ++ 45 :: (two hh ++ 58 :: two mm) ++ [34])) =
        some (t + (60 * hh + mm) * (60 * 10 ^ 9)) := by
  obtain ⟨w, rfl, h1⟩ := parseTime_zone h
  refine ⟨w, rfl, fun hh mm h2 h3 => ?_⟩
  have hb := fmtTime_bytes h
  have key : ∀ g : UInt8, (g = 43 ∨ g = 45) → ∀ o, parseZone (g :: (two hh ++ 58 :: two mm)) = some o →
      timeC.read (34 :: (w ++ g :: (two hh ++ 58 :: two mm) ++ [34])) = some (t - o * (60 * 10 ^ 9)) := by
    intro g hg o ho
    have hl : IsStrLit (w ++ g :: (two hh ++ 58 :: two mm)) := by
      refine (prefixable_clock _ fun c hc => ?_).isStrLit
      simp only [List.mem_append, List.mem_cons] at hc
      rcases hc with hc | rfl | hc | rfl | hc
      · exact hb c (by simp [hc])
      · rcases hg with rfl | rfl <;> simp
      · exact .inl (two_digits _ c hc)
      · simp
      · exact .inl (two_digits _ c hc)
    have hr : (34 :: (w ++ g :: (two hh ++ 58 :: two mm) ++ [34]) : Bytes) =
        (Json.str (w ++ g :: (two hh ++ 58 :: two mm))).render := by simp [Json.render]
    unfold Codec.read
    rw [hr, parseJson_render (by exact hl)]
    exact h1 _ _ ho
  have z1 : parseZone (43 :: (two hh ++ 58 :: two mm)) = some ((hh : Int) * 60 + mm) := by
    simp only [two, List.cons_append, List.nil_append, parseZone, atoi2_two h2, atoi2_two h3,
      Option.bind_eq_bind, Option.bind_some]
    rfl
  have z2 : parseZone (45 :: (two hh ++ 58 :: two mm)) = some (-((hh : Int) * 60 + mm)) := by
    simp only [two, List.cons_append, List.nil_append, parseZone, atoi2_two h2, atoi2_two h3,
      Option.bind_eq_bind, Option.bind_some]
    rfl
  refine ⟨(key 43 (.inl rfl) _ z1).trans (congrArg some ?_),
    (key 45 (.inr rfl) _ z2).trans (congrArg some ?_)⟩ <;> ring

/-- C130: in the file of a bill, the names of the first two members and their values can be spelled
in any way; the file is read as the same bill. -/
theorem C130_respelled_bill (x : TrBill) {t k1 v1 k2 v2 : Bytes} (h : jTrBillC.text x.toJSON = some t)
    (hk1 : Spelled k1 (ascii "hash")) (hv1 : Spelled v1 x.hash.str)
    (hk2 : Spelled k2 (ascii "lock")) (hv2 : Spelled v2 x.lock.str) :
    ∃ u, t = ascii "{\"hash\":\"" ++ x.hash.str ++ ascii "\",\"lock\":\"" ++ x.lock.str ++ u ∧
      jTrBillC.read (ascii "{\"" ++ k1 ++ ascii "\":\"" ++ v1 ++ ascii "\",\"" ++ k2 ++ ascii "\":\"" ++
        v2 ++ u) = some x.toJSON := by
  have hg := jTrBillC_good x.toJSON
  obtain ⟨j, h1, rfl⟩ : ∃ j, jTrBillC.enc x.toJSON = some j ∧ j.render = t := by
    simpa [Codec.text, Option.map_eq_some_iff] using h
  obtain ⟨hp, hd⟩ := hg j h1
  simp only [jTrBillC, structC, Option.map_eq_some_iff] at h1
  obtain ⟨ms, h2, rfl⟩ := h1
  simp only [List.mapM_cons, List.mapM_nil, Option.pure_def, Option.bind_eq_bind,
    Option.bind_eq_some_iff, Option.some.injEq] at h2
  obtain ⟨m1, e1, _, ⟨m2, e2, _, ⟨m3, e3, _, ⟨m4, e4, _, rfl, rfl⟩, rfl⟩, rfl⟩, rfl⟩ := h2
  have f1 : m1 = (ascii "hash", .str x.hash.str) := by
    simp only [writeMember, fld, strC, Option.map_some, Option.some.injEq] at e1
    rw [← e1]
    exact congrArg (fun b => (ascii "hash", Json.str b)) (jsonEsc_hexEncode _)
  have f2 : m2 = (ascii "lock", .str x.lock.str) := by
    simp only [writeMember, fld, strC, Option.map_some, Option.some.injEq] at e2
    rw [← e2]
    exact congrArg (fun b => (ascii "lock", Json.str b)) (jsonEsc_hexEncode _)
  subst f1 f2
  refine ⟨34 :: renderMembers [m3, m4], ?_, ?_⟩
  · simp [Json.render, renderMembers, ascii]
  have hp' : (Json.obj [(k1, .str v1), (k2, .str v2), m3, m4]).Proper :=
    ⟨hk1.prefixable.isStrLit, hv1.prefixable.isStrLit, hk2.prefixable.isStrLit,
      hv2.prefixable.isStrLit, hp.2.2.2.2⟩
  have hr : ascii "{\"" ++ k1 ++ ascii "\":\"" ++ v1 ++ ascii "\",\"" ++ k2 ++ ascii "\":\"" ++ v2 ++
      34 :: renderMembers [m3, m4] = (Json.obj [(k1, .str v1), (k2, .str v2), m3, m4]).render := by
    simp [Json.render, renderMembers, ascii]
  have hu : ∀ h : Hash, unquote h.str = h.str := fun h => by
    have := unquote_jsonEsc h.str
    rw [jsonText_hash] at this
    rwa [Hash.str, jsonEsc_hexEncode] at this
  unfold Codec.read
  rw [hr, parseJson_render hp']
  refine Eq.trans ?_ ((hd jTrBillC.zero).trans (congrArg some (jTrBillC_norm x)))
  have q1 : unquote k1 = unquote (ascii "hash") := by
    rw [(C130_spellings_read hk1).2.1, unquote_tag (by decide +kernel)]
  have q2 : unquote k2 = unquote (ascii "lock") := by
    rw [(C130_spellings_read hk2).2.1, unquote_tag (by decide +kernel)]
  have w1 : unquote v1 = unquote x.hash.str := by rw [(C130_spellings_read hv1).2.1, hu]
  have w2 : unquote v2 = unquote x.lock.str := by rw [(C130_spellings_read hv2).2.1, hu]
  have r1 : ∀ (fs : List (Fld JTrBill)) s f, pickField fs (unquote (ascii "hash")) = some f →
      (∀ o, f.codec.dec (.str v1) o = f.codec.dec (.str x.hash.str) o) →
      readMember fs s (k1, .str v1) = readMember fs s (ascii "hash", .str x.hash.str) := by
    intro fs s f h1 h2
    simp only [readMember, q1, h1, h2]
  have r2 : ∀ (fs : List (Fld JTrBill)) s f, pickField fs (unquote (ascii "lock")) = some f →
      (∀ o, f.codec.dec (.str v2) o = f.codec.dec (.str x.lock.str) o) →
      readMember fs s (k2, .str v2) = readMember fs s (ascii "lock", .str x.lock.str) := by
    intro fs s f h1 h2
    simp only [readMember, q2, h1, h2]
  simp only [Option.bind_eq_bind, Option.bind_some]
  simp only [jTrBillC, structC, List.foldlM_cons]
  rw [r1 _ _ (fld "hash" strC JTrBill.hash fun a s => { s with hash := a }) (by
    rw [unquote_tag (by decide +kernel)]; rfl) (fun o => by simp only [fld, strC, w1])]
  refine congrArg _ ?_
  funext s
  rw [r2 _ _ (fld "lock" strC JTrBill.lock fun a s => { s with lock := a }) (by
    rw [unquote_tag (by decide +kernel)]; rfl) (fun o => by simp only [fld, strC, w2])]

/-! ## Members without a field -/

/-- The names of the members of the stored objects. -/
def memberNames : List String :=
  ["additional", "address", "amount", "bill", "block", "block_difficulty_base",
   "block_difficulty_increase_per_trx", "bucket", "chain", "created_on", "fees", "from",
   "genesis", "hash", "head", "height", "index", "link", "link_difficulty", "lock", "mining",
   "next", "previous", "previous_link", "pubkeys", "remaining", "root", "signatures", "to",
   "total", "transactions"]

theorem pickField_none {σ : Type} {fs : List (Fld σ)} {k : Bytes}
    (h : ∀ f ∈ fs, foldName f.name ≠ foldName k) : pickField fs k = none := by
  unfold pickField
  rw [List.find?_eq_none.mpr (fun f hf => by
    simp only [beq_iff_eq]; rintro rfl; exact h f hf rfl)]
  simp only
  rw [List.find?_eq_none.mpr (fun f hf => by simp only [beq_iff_eq]; exact h f hf)]

theorem structC_unknown {σ : Type} {zero s : σ} {fs : List (Fld σ)} (hg : (structC zero fs).Good s)
    (hf : fs ≠ []) {b k : Bytes} {v : Json} (h : (structC zero fs).text s = some (b ++ [125]))
    (hk : ∀ c ∈ k, isTagByte c = true) (hn : ∀ n ∈ memberNames, k.map lowerByte ≠ ascii n)
    (hv : v.Proper) (hm : ∀ f ∈ fs, ∃ n ∈ memberNames, foldName f.name = ascii n) :
    cellOf (structC zero fs) (b ++ 44 :: 34 :: (k ++ 34 :: 58 :: (v.render ++ [125]))) =
      cellOf (structC zero fs) (b ++ [125]) := by
  unfold cellOf
  rw [structC_trailing hg hf h (prefixable_tag hk).isStrLit hv, hg.read h]
  unfold readMember
  rw [unquote_tag hk, pickField_none]
  intro f hf e
  obtain ⟨n, h1, h2⟩ := hm f hf
  exact hn n h1 (by rw [← foldName_tag hk, ← e, h2])

/-- The names of a structure, in lower case, are among the member names. -/
def namesKnown (l : List Bytes) : Bool :=
  l.all fun m => memberNames.any fun n => foldName m == ascii n

theorem namesKnown_spec {σ : Type} {fs : List (Fld σ)} (h : namesKnown (fs.map Fld.name) = true) :
    ∀ f ∈ fs, ∃ n ∈ memberNames, foldName f.name = ascii n := by
  simpa [namesKnown] using h

section
variable [C : Curve] [FloatText]

/-- C126 (negation): behind the members of a written object of any kind, a member can be added under
a name that no object has, with any value: the file is read as before. -/
theorem C126_unknown_member_neg {op : PutOp} (hr : op.Real) {b k : Bytes} {v : Json}
    (h : op.text = some (b ++ [125])) (hk : ∀ c ∈ k, isTagByte c = true)
    (hn : ∀ n ∈ memberNames, k.map lowerByte ≠ ascii n) (hv : v.Proper) (δ : Drive) :
    (op.put (b ++ ascii ",\"" ++ k ++ ascii "\":" ++ v.render ++ ascii "}") δ).store =
      (op.put (b ++ ascii "}") δ).store := by
  have e : b ++ ascii ",\"" ++ k ++ ascii "\":" ++ v.render ++ ascii "}" =
      b ++ 44 :: 34 :: (k ++ 34 :: 58 :: (v.render ++ [125])) := by simp [ascii]
  have e' : b ++ ascii "}" = b ++ [125] := by simp [ascii]
  rw [e, e']
  cases op with
  | lock x =>
    have := structC_unknown (jTrLockC_good _) (by simp) h hk hn hv
      (namesKnown_spec (by simp only [List.map, fld]; decide +kernel))
    simp only [PutOp.put, Drive.store, map_putFile]
    rw [show cellOf jTrLockC _ = cellOf jTrLockC _ from this]
  | bill x =>
    have := structC_unknown (jTrBillC_good _) (by simp) h hk hn hv
      (namesKnown_spec (by simp only [List.map, fld]; decide +kernel))
    simp only [PutOp.put, Drive.store, map_putFile]
    rw [show cellOf jTrBillC _ = cellOf jTrBillC _ from this]
  | expense x =>
    have := structC_unknown (jTrExpenseC_good _) (by simp) h hk hn hv
      (namesKnown_spec (by simp only [List.map, fld]; decide +kernel))
    simp only [PutOp.put, Drive.store, map_putFile]
    rw [show cellOf jTrExpenseC _ = cellOf jTrExpenseC _ from this]
  | genesis x =>
    have := structC_unknown (jTrGenesisC_good x.goJSON hr) (by simp) h hk hn hv
      (namesKnown_spec (by simp only [List.map, fld]; decide +kernel))
    simp only [PutOp.put, Drive.store, Option.map_some]
    rw [show cellOf jTrGenesisC _ = cellOf jTrGenesisC _ from this]
  | trx x =>
    have := structC_unknown (jTrTransactionC_good _) (by simp) h hk hn hv
      (namesKnown_spec (by simp only [List.map, fld]; decide +kernel))
    simp only [PutOp.put, Drive.store, map_putFile]
    rw [show cellOf jTrTransactionC _ = cellOf jTrTransactionC _ from this]
  | block x =>
    have := structC_unknown (jTrBlockC_good _) (by simp) h hk hn hv
      (namesKnown_spec (by simp only [List.map, fld]; decide +kernel))
    simp only [PutOp.put, Drive.store, map_putFile]
    rw [show cellOf jTrBlockC _ = cellOf jTrBlockC _ from this]
  | minedBlock x =>
    have := structC_unknown (jTrMinedBlockC_good _) (by simp) h hk hn hv
      (namesKnown_spec (by simp only [List.map, fld]; decide +kernel))
    simp only [PutOp.put, Drive.store, map_putFile]
    rw [show cellOf jTrMinedBlockC _ = cellOf jTrMinedBlockC _ from this]
  | link x =>
    have := structC_unknown (jTrLinkC_good _) (by simp) h hk hn hv
      (namesKnown_spec (by simp only [List.map, fld]; decide +kernel))
    simp only [PutOp.put, Drive.store, map_putFile]
    rw [show cellOf jTrLinkC _ = cellOf jTrLinkC _ from this]
  | minedLink x =>
    have := structC_unknown (jTrMinedLinkC_good _) (by simp) h hk hn hv
      (namesKnown_spec (by simp only [List.map, fld]; decide +kernel))
    simp only [PutOp.put, Drive.store, map_putFile]
    rw [show cellOf jTrMinedLinkC _ = cellOf jTrMinedLinkC _ from this]
  | chain x =>
    have := structC_unknown (jTrChainC_good _) (by simp) h hk hn hv
      (namesKnown_spec (by simp only [List.map, fld]; decide +kernel))
    simp only [PutOp.put, Drive.store, Option.map_some]
    rw [show cellOf jTrChainC _ = cellOf jTrChainC _ from this]
  | state x =>
    have := structC_unknown (jTrStateC_good _) (by simp) h hk hn hv
      (namesKnown_spec (by simp only [List.map, fld]; decide +kernel))
    simp only [PutOp.put, Drive.store, map_putFile]
    rw [show cellOf jTrStateC _ = cellOf jTrStateC _ from this]

end

section examples

attribute [local instance] toyCurve toySha FloatText.decimal

/-- C130: `\\ud83D\\uDE00/\\n` spells a face, a slash and a line feed. -/
example : Spelled (ascii "\\ud83D\\uDE00/\\n") ([0xF0, 0x9F, 0x98, 0x80] ++ [47, 10]) := by
  have h4 : Spelled (ascii "\\n") [10] := .short 110 10 (by decide) .nil
  have h3 : Spelled (ascii "/\\n") [47, 10] :=
    .plain 47 (by unfold IsChar; omega) (by omega) (by omega) (by omega) h4
  have h1 : FourDigits (ascii "d83D") (0xD800 + (0x1F600 - 0x10000) / 0x400) :=
    ⟨100, 56, 51, 68, 13, 8, 3, 13, by decide +kernel, by decide, by decide, by decide, by decide, by decide⟩
  have h2 : FourDigits (ascii "DE00") (0xDC00 + (0x1F600 - 0x10000) % 0x400) :=
    ⟨68, 69, 48, 48, 13, 14, 0, 0, by decide +kernel, by decide, by decide, by decide, by decide, by decide⟩
  have h5 := Spelled.pair _ _ 0x1F600 (by omega) (by omega) h1 h2 h3
  exact cast (by congr 1) h5

/-- C130: a written bill, and spellings of its names and values in which every character is a
number. -/
example : ∃ t u, jTrBillC.text (TrBill.mk (toyHash 1) (toyHash 2) 7 0).toJSON = some t ∧ t ≠ u ∧
    jTrBillC.read u = some (TrBill.mk (toyHash 1) (toyHash 2) 7 0).toJSON := by
  obtain ⟨t, ht⟩ := (C123_written_iff.2.1 (TrBill.mk (toyHash 1) (toyHash 2) 7 0)).mpr (by decide)
  have hs : ∀ h : Hash, Spelled h.str h.str := by
    intro h
    have key : ∀ b : Bytes, (∀ c ∈ b, isLowerHex c = true) → Spelled b b := by
      intro b
      induction b with
      | nil => exact fun _ => .nil
      | cons c b ih =>
        intro hb
        have h1 := UInt8.forall_of_fin (P := fun c => isLowerHex c = true →
          utf8 c.toNat = [c] ∧ IsChar c.toNat ∧ 32 ≤ c.toNat ∧ c.toNat ≠ 34 ∧ c.toNat ≠ 92)
          (by unfold IsChar; decide +kernel) c (hb c (by simp))
        have := Spelled.plain c.toNat h1.2.1 h1.2.2.1 h1.2.2.2.1 h1.2.2.2.2 (ih fun x hx => hb x (by simp [hx]))
        rwa [h1.1] at this
    exact key _ (hexEncode_alphabet _)
  obtain ⟨k1, hk1, -⟩ := C130_ascii_spelling (v := ascii "lock") (utf8_of_ascii (by decide +kernel))
  have hk : Spelled (ascii "\\u0068ash") (ascii "hash") := by
    have : ∀ n : Nat, 97 ≤ n → n < 128 → IsChar n := fun n _ _ => by unfold IsChar; omega
    have h1 : Spelled (ascii "ash") (ascii "ash") :=
      .plain 97 (this _ (by omega) (by omega)) (by omega) (by omega) (by omega)
        (.plain 115 (this _ (by omega) (by omega)) (by omega) (by omega) (by omega)
          (.plain 104 (this _ (by omega) (by omega)) (by omega) (by omega) (by omega) .nil))
    have h2 : FourDigits (ascii "0068") 0x68 :=
      ⟨48, 48, 54, 56, 0, 0, 6, 8, by decide +kernel, by decide, by decide, by decide, by decide, by decide⟩
    exact Spelled.number _ _ h2 (this _ (by omega) (by omega)) h1
  obtain ⟨u, h1, h2⟩ := C130_respelled_bill _ ht hk (hs _) hk1 (hs _)
  refine ⟨t, _, ht, ?_, h2⟩
  rw [h1]
  simp [ascii]

/-- C130: the first instant of the year 1, as it is written and in two other zones. -/
example : fmtTime 0 = some (ascii "0001-01-01T00:00:00Z") ∧
    timeC.read (ascii "\"0001-01-01T02:30:00+02:30\"") = some 0 ∧
    timeC.read (ascii "\"0001-01-05T04:39:00+99:99\"") = some 0 := by decide +kernel

/-- C126: a name that no stored object has. -/
example : (∀ c ∈ ascii "note", isTagByte c = true) ∧
    ∀ n ∈ memberNames, (ascii "note").map lowerByte ≠ ascii n := by decide +kernel

end examples

end Verif
