import Verif.Spec.Wire
import Verif.Props.Panics
import Verif.Props.Json
import Verif.Model.Json.Objects

/-!
# Which texts of other nodes bring the process down: C147
-/

namespace Verif

section
variable [Sha512]

omit [Sha512] in
theorem mapO_first {α β : Type} {f : α → Outcome β} {bad : α → Prop} {c : Crash}
    (h : ∀ x, f x = .crash c ↔ bad x) {l : List α} :
    mapO f l = .crash c ↔ FirstBad (CanRead f) bad l := by
  rw [mapO_eq_crash]
  simp only [FirstBad, CanRead, h]

omit [Sha512] in
theorem mapO_reads {α β : Type} {f : α → Outcome β} {l : List α} :
    (∃ ys, mapO f l = .ok ys) ↔ ∀ x ∈ l, CanRead f x := by
  constructor
  · rintro ⟨ys, h⟩ x hx
    obtain ⟨y, -, hy⟩ := mapO_mem_left h x hx
    exact ⟨y, hy⟩
  · intro h
    induction l with
    | nil => exact ⟨[], rfl⟩
    | cons x l ih =>
      obtain ⟨y, hy⟩ := h x (by simp)
      obtain ⟨ys, hys⟩ := ih fun z hz => h z (by simp [hz])
      exact ⟨y :: ys, by simp [mapO, hy, hys]⟩

theorem lockFromJSON_crash {j : Option JSONLock} {c : Crash} :
    lockFromJSON j = .crash c ↔ j = none ∧ c = .nilDeref := by
  cases j with
  | none => simp [lockFromJSON, Outcome.deref, eq_comm]
  | some j =>
    simp only [lockFromJSON, Outcome.deref, Outcome.bind_ok, reduceCtorEq, false_and, iff_false]
    exact ((Outcome.Calm.mapO fun _ _ => fromString_calm _).bind fun _ _ => lockNow_calm) c

theorem billFromJSON_crash {j : Option JSONBill} {c : Crash} :
    billFromJSON j = .crash c ↔ BillGap j ∧ c = .nilDeref := by
  cases j with
  | none => simp [billFromJSON, Outcome.deref, BillGap, eq_comm]
  | some j =>
    simp only [billFromJSON, Outcome.deref, Outcome.bind_ok, BillGap]
    rw [bind_eq_crash, lockFromJSON_crash]
    constructor
    · rintro (h | ⟨l, -, h⟩)
      · exact h
      · exact absurd h (billNow_calm c)
    · exact .inl

theorem genesisNow_calm {base : UInt64} {incr : Flt} {link : UInt64} {b : Option Bill} {t : Time} :
    (genesisNow base incr link b t).Calm := by
  unfold genesisNow
  repeat' split
  all_goals first | exact .err _ | exact .ok _

theorem genesisFromJSON_crash {j : Option JSONGenesis} {c : Crash} :
    genesisFromJSON j = .crash c ↔ GenesisGap j ∧ c = .nilDeref := by
  cases j with
  | none => simp [genesisFromJSON, Outcome.deref, GenesisGap, eq_comm]
  | some j =>
    simp only [genesisFromJSON, Outcome.deref, Outcome.bind_ok, GenesisGap]
    rw [bind_eq_crash, billFromJSON_crash]
    constructor
    · rintro (h | ⟨l, -, h⟩)
      · exact h
      · exact absurd h (genesisNow_calm c)
    · exact .inl

theorem contentFromJSON_crash {j : Option JSONContent} {c : Crash} :
    contentFromJSON j = .crash c ↔ ContentGap j ∧ c = .nilDeref := by
  cases j with
  | none => simp [contentFromJSON, Outcome.deref, ContentGap, eq_comm]
  | some j =>
    have hr : ∀ r : Option JSONBill, optO (fun r => billFromJSON (some r)) r = .crash c ↔
        (∃ x, r = some x ∧ x.lock = none) ∧ c = .nilDeref := by
      intro r
      cases r with
      | none => simp [optO]
      | some r =>
        have := billFromJSON_crash (j := some r) (c := c)
        simp only [BillGap] at this
        simp only [optO]
        cases hb : billFromJSON (some r) <;> simp_all
    simp only [contentFromJSON, Outcome.deref, Outcome.bind_ok, ContentGap]
    rw [bind_eq_crash, mapO_first (fun x => billFromJSON_crash (j := x))]
    constructor
    · rintro (⟨pre, x, post, h1, h2, h3, rfl⟩ | ⟨src, h1, h⟩)
      · exact ⟨.inl ⟨pre, x, post, h1, h2, h3⟩, rfl⟩
      · have h1 := mapO_reads.mp ⟨src, h1⟩
        rcases bind_eq_crash.mp h with h | ⟨d, h2, h⟩
        · obtain ⟨hg, rfl⟩ := billFromJSON_crash.mp h
          exact ⟨.inr ⟨h1, .inl hg⟩, rfl⟩
        · rcases bind_eq_crash.mp h with h | ⟨r, h3, h⟩
          · obtain ⟨hg, rfl⟩ := (hr _).mp h
            exact ⟨.inr ⟨h1, .inr ⟨⟨d, h2⟩, hg⟩⟩, rfl⟩
          · exact absurd h (contentNow_calm c)
    · rintro ⟨⟨pre, x, post, h1, h2, h3⟩ | ⟨h1, h⟩, rfl⟩
      · exact .inl ⟨pre, x, post, h1, h2, h3, rfl⟩
      · obtain ⟨src, h1⟩ := mapO_reads.mpr h1
        refine .inr ⟨src, h1, bind_eq_crash.mpr ?_⟩
        rcases h with h | ⟨⟨d, h2⟩, h⟩
        · exact .inl (billFromJSON_crash.mpr ⟨h, rfl⟩)
        · exact .inr ⟨d, h2, bind_eq_crash.mpr (.inl ((hr _).mpr ⟨h, rfl⟩))⟩

variable [C : Curve]

theorem unlock_short {l : Lock} {sig : RingSignature} {c : Crash} :
    l.unlock sig = .crash c ↔ Short l sig ∧ c = .indexOutOfRange := by
  rw [unlock_crash]
  have : ∀ k, k ∈ (sig.ring.map fun p => fromBytes (hexEncode (C.enc p))) ↔
      ∃ p ∈ sig.ring, ringKey p = k := fun k => List.mem_map
  simp only [Short, this]
  tauto

/-- C147: reading the structure of an expense panics exactly as `ExpenseBreaks` says. -/
theorem C147_expense_panics_iff (j : Option JSONExpense) (c : Crash) :
    expenseFromJSON j = .crash c ↔ ExpenseBreaks j c := by
  cases j with
  | none =>
    constructor
    · intro h
      simp only [expenseFromJSON, Outcome.deref, Outcome.bind_crash, Outcome.crash.injEq] at h
      exact h ▸ .missing
    · rintro ⟨⟩
      rfl
  | some j =>
    simp only [expenseFromJSON, Outcome.deref, Outcome.bind_ok]
    constructor
    · intro h
      rcases bind_eq_crash.mp h with h | ⟨cn, h1, h⟩
      · obtain ⟨hg, rfl⟩ := contentFromJSON_crash.mp h
        exact .gap hg
      · obtain ⟨sigs, h2, h⟩ :=
          (calm_bind_crash (Outcome.Calm.mapO fun _ _ => C17_parsing_total _)).mp h
        obtain ⟨h3, h⟩ := expenseNow_crash.mp h
        obtain ⟨pre, b, post, pre', s, post', e1, rfl, h4, h5⟩ := (unlockAll_crash h3).mp h
        obtain ⟨h6, rfl⟩ := unlock_short.mp h5
        refine .short h1 e1 (mapO_eq_ok.mp h2) (by rw [h3, e1]) ?_ h6
        exact h4.imp fun b s hu => (C20_unlock_exact _ _).mp hu
    · intro h
      cases h with
      | gap h => exact bind_eq_crash.mpr (.inl (contentFromJSON_crash.mpr ⟨h, rfl⟩))
      | short h1 e1 h2 h3 h4 h5 =>
        refine bind_eq_crash.mpr (.inr ⟨_, h1, bind_eq_crash.mpr (.inr ⟨_, mapO_eq_ok.mpr h2,
          expenseNow_crash.mpr ⟨by rw [h3, e1], (unlockAll_crash (by rw [h3, e1])).mpr
          ⟨_, _, _, _, _, _, e1, rfl, ?_, unlock_short.mpr ⟨h5, rfl⟩⟩⟩⟩)⟩)
        exact h4.imp fun b s ho => (C20_unlock_exact _ _).mpr ho

omit C in
theorem addressFromJSON_calm (j : JSONAddress) : (addressFromJSON (some j)).Calm := by
  simp only [addressFromJSON, Outcome.deref, Outcome.bind_ok]
  refine (optFromString_calm _).bind fun _ _ => (Outcome.Calm.mapO fun _ _ => fromString_calm _).bind
    fun _ _ => (optFromString_calm _).bind fun _ _ => ?_
  unfold addressNow
  split
  · exact .err _
  · exact .ok _

omit C in
theorem optFromString_reads {b : Bytes} :
    (∃ x, optFromString b = .ok x) ↔ b = [] ∨ CanRead fromString b := by
  unfold optFromString
  by_cases h : b = []
  · simp [h, optO]
  · simp only [h, if_false, optO, false_or, CanRead]
    cases fromString b <;> simp

/-- C147: reading the structure of a transaction panics exactly as `TrxBreaks` says. -/
theorem C147_trx_panics_iff (j : Option JSONTransaction) (c : Crash) :
    trxFromJSON j = .crash c ↔ TrxBreaks j c := by
  cases j with
  | none =>
    constructor
    · intro h
      simp only [trxFromJSON, Outcome.deref, Outcome.bind_crash, Outcome.crash.injEq] at h
      exact h ▸ .missing
    · rintro ⟨⟩
      rfl
  | some j =>
    simp only [trxFromJSON, Outcome.deref, Outcome.bind_ok]
    constructor
    · intro h
      obtain ⟨b, h1, h⟩ := (calm_bind_crash (optFromString_calm _)).mp h
      rcases bind_eq_crash.mp h with h | ⟨fees, h2, h⟩
      · exact .fee (optFromString_reads.mp ⟨b, h1⟩) ((mapO_first fun x => C147_expense_panics_iff x c).mp h)
      · exfalso
        rcases bind_eq_crash.mp h with h | ⟨a, h3, h⟩
        · cases ha : j.address with
          | none => simp [ha, optO] at h
          | some a =>
            simp only [ha, optO] at h
            cases hx : addressFromJSON (some a) with
            | ok y => simp [hx] at h
            | err m => simp [hx] at h
            | crash d => exact addressFromJSON_calm a d hx
        · unfold trxNow at h
          dsimp only at h
          split at h <;> cases h
    · intro h
      cases h with
      | fee h1 h2 =>
        obtain ⟨b, h1⟩ := optFromString_reads.mpr h1
        exact bind_eq_crash.mpr (.inr ⟨b, h1, bind_eq_crash.mpr
          (.inl ((mapO_first fun x => C147_expense_panics_iff x c).mpr h2))⟩)

theorem blockNow_calm {g : Option Genesis} {a : UInt64} {x : Option (List Transaction)} {t : Time} :
    (blockNow g a x t).Calm := by
  unfold blockNow
  repeat' split
  all_goals first | exact .err _ | exact .ok _

/-- C147: reading the structure of a block panics exactly as `BlockBreaks` says. -/
theorem C147_block_panics_iff (j : Option JSONBlock) (c : Crash) :
    blockFromJSON j = .crash c ↔ BlockBreaks j c := by
  cases j with
  | none =>
    constructor
    · intro h
      simp only [blockFromJSON, Outcome.deref, Outcome.bind_crash, Outcome.crash.injEq] at h
      exact h ▸ .missing
    · rintro ⟨⟩
      rfl
  | some j =>
    simp only [blockFromJSON, Outcome.deref, Outcome.bind_ok]
    constructor
    · intro h
      rcases bind_eq_crash.mp h with h | ⟨x, h1, h⟩
      · exact .trx ((mapO_first fun x => C147_trx_panics_iff x c).mp h)
      · rcases bind_eq_crash.mp h with h | ⟨g, h2, h⟩
        · obtain ⟨hg, rfl⟩ := genesisFromJSON_crash.mp h
          exact .genesis (mapO_reads.mp ⟨x, h1⟩) hg
        · exact absurd h (blockNow_calm c)
    · intro h
      cases h with
      | trx h => exact bind_eq_crash.mpr (.inl ((mapO_first fun x => C147_trx_panics_iff x c).mpr h))
      | genesis h1 h2 =>
        obtain ⟨x, h1⟩ := mapO_reads.mpr h1
        exact bind_eq_crash.mpr (.inr ⟨x, h1, bind_eq_crash.mpr
          (.inl (genesisFromJSON_crash.mpr ⟨h2, rfl⟩))⟩)

/-- C147: reading the structure of a link panics exactly as `LinkBreaks` says. -/
theorem C147_link_panics_iff (j : Option JSONLink) (c : Crash) :
    linkFromJSON j = .crash c ↔ LinkBreaks j c := by
  cases j with
  | none =>
    constructor
    · intro h
      simp only [linkFromJSON, Outcome.deref, Outcome.bind_crash, Outcome.crash.injEq] at h
      exact h ▸ .missing
    · rintro ⟨⟩
      rfl
  | some j =>
    simp only [linkFromJSON, Outcome.deref, Outcome.bind_ok]
    constructor
    · intro h
      obtain ⟨p, h1, h⟩ := (calm_bind_crash (fromString_calm _)).mp h
      rcases bind_eq_crash.mp h with h | ⟨x, h1, h⟩
      · exact .block ⟨p, h1⟩ ((C147_block_panics_iff _ c).mp h)
      · simp [linkNow] at h
    · intro h
      cases h with
      | block h1 h2 =>
        obtain ⟨p, h1⟩ := h1
        exact bind_eq_crash.mpr (.inr ⟨p, h1, bind_eq_crash.mpr (.inl ((C147_block_panics_iff _ c).mpr h2))⟩)

variable [FloatText]

/-- C147: decoding a text panics exactly when it is base64 of JSON of the right shape, and the link in
it is missing or panics as `LinkBreaks` says. -/
theorem C147_decode_panics_iff (text : Bytes) (c : Crash) :
    decodeMinedLink text = .crash c ↔
      ∃ js j, b64Decode text = some js ∧ jMinedLinkC.read js = some j ∧ LinkBreaks j.link c := by
  have key : ∀ j : JSONMinedLink, minedLinkFromJSON (some j) = .crash c ↔ LinkBreaks j.link c := by
    intro j
    simp only [minedLinkFromJSON, Outcome.deref, Outcome.bind_ok]
    rw [bind_eq_crash, C147_link_panics_iff]
    constructor
    · rintro (h | ⟨l, -, h⟩)
      · exact h
      · simp [minedLinkNow] at h
    · exact .inl
  unfold decodeMinedLink
  cases h1 : b64Decode text with
  | none => simp
  | some js =>
    cases h2 : jMinedLinkC.read js with
    | none => simp [h2]
    | some j =>
      have hk := key j
      constructor
      · intro h
        refine ⟨js, j, rfl, h2, hk.mp ?_⟩
        cases hm : minedLinkFromJSON (some j) <;> simp_all
      · rintro ⟨_, _, e1, e2, h⟩
        cases e1
        rw [h2] at e2
        cases e2
        simp [h2, hk.mpr h]

omit [Sha512] [FloatText] C in
theorem unmarshal_crash {α β : Type} {co : Codec α} {f : α → Outcome β} {js : Bytes} {c : Crash} :
    unmarshal co f js = .crash c ↔ ∃ j, co.read js = some j ∧ f j = .crash c := by
  unfold unmarshal
  cases co.read js <;> simp

/-- C147: the texts themselves, for every kind of object: texts of locks and addresses never panic; those of
bills, contents and geneses exactly when they have a gap; and those of expenses, transactions, blocks and
links exactly when they have the right shape and the structure in them panics. -/
theorem C147_texts_panic_iff (js : Bytes) (c : Crash) :
    lockFromText js ≠ .crash c ∧ addressFromText js ≠ .crash c ∧
    (billFromText js = .crash c ↔ c = .nilDeref ∧ ∃ j, jBillC.read js = some j ∧ BillGap (some j)) ∧
    (contentFromText js = .crash c ↔
      c = .nilDeref ∧ ∃ j, jContentC.read js = some j ∧ ContentGap (some j)) ∧
    (genesisFromText js = .crash c ↔
      c = .nilDeref ∧ ∃ j, jGenesisC.read js = some j ∧ GenesisGap (some j)) ∧
    (expenseFromText js = .crash c ↔ ∃ j, jExpenseC.read js = some j ∧ ExpenseBreaks (some j) c) ∧
    (trxFromText js = .crash c ↔ ∃ j, jTransactionC.read js = some j ∧ TrxBreaks (some j) c) ∧
    (blockFromText js = .crash c ↔ ∃ j, jBlockC.read js = some j ∧ BlockBreaks (some j) c) ∧
    (linkFromText js = .crash c ↔ ∃ j, jLinkC.read js = some j ∧ LinkBreaks (some j) c) := by
  refine ⟨?_, ?_, ?_, ?_, ?_, ?_, ?_, ?_, ?_⟩
  · intro h
    obtain ⟨j, -, h⟩ := unmarshal_crash.mp h
    simp [lockFromJSON_crash] at h
  · intro h
    obtain ⟨j, -, h⟩ := unmarshal_crash.mp h
    exact addressFromJSON_calm j c h
  · refine unmarshal_crash.trans ?_
    simp only [billFromJSON_crash]
    exact ⟨fun ⟨j, h1, h2, h3⟩ => ⟨h3, j, h1, h2⟩, fun ⟨h3, j, h1, h2⟩ => ⟨j, h1, h2, h3⟩⟩
  · refine unmarshal_crash.trans ?_
    simp only [contentFromJSON_crash]
    exact ⟨fun ⟨j, h1, h2, h3⟩ => ⟨h3, j, h1, h2⟩, fun ⟨h3, j, h1, h2⟩ => ⟨j, h1, h2, h3⟩⟩
  · refine unmarshal_crash.trans ?_
    simp only [genesisFromJSON_crash]
    exact ⟨fun ⟨j, h1, h2, h3⟩ => ⟨h3, j, h1, h2⟩, fun ⟨h3, j, h1, h2⟩ => ⟨j, h1, h2, h3⟩⟩
  · exact unmarshal_crash.trans (by simp only [C147_expense_panics_iff])
  · exact unmarshal_crash.trans (by simp only [C147_trx_panics_iff])
  · exact unmarshal_crash.trans (by simp only [C147_block_panics_iff])
  · exact unmarshal_crash.trans (by simp only [C147_link_panics_iff])

/-! ## Whole structures -/

omit [Sha512] [FloatText] C in
theorem WholeOpt.bill {j : Option JSONBill} (h : WholeOpt JSONBill.Whole j) : ¬ BillGap j := by
  obtain ⟨x, rfl, hx⟩ := h
  exact hx

omit [FloatText] C in
theorem WholeOpt.content {j : Option JSONContent} (h : WholeOpt JSONContent.Whole j) : ¬ ContentGap j := by
  obtain ⟨x, rfl, h1, h2, h3⟩ := h
  rintro (⟨pre, b, post, e, -, hb⟩ | ⟨-, hb | ⟨-, r, hr, hl⟩⟩)
  · exact (h1 b (by rw [e]; simp)).bill hb
  · exact h2.bill hb
  · exact h3 r hr hl

omit [FloatText] in
theorem WholeOpt.expense {j : Option JSONExpense} (h : WholeOpt JSONExpense.Whole j) (c : Crash) :
    ¬ ExpenseBreaks j c := by
  obtain ⟨x, rfl, h1, h2⟩ := h
  intro hb
  cases hb with
  | gap h => exact h1.content h
  | @short _ _ _ _ _ pre' post' s _ _ h3 _ _ h5 =>
    obtain ⟨t, ht, hts⟩ := mapO_mem_right (mapO_eq_ok.mpr h3) s (by simp)
    have := h2 t ht s hts
    have := h5.2
    omega

omit [FloatText] in
theorem WholeOpt.trx {j : Option JSONTransaction} (h : WholeOpt JSONTransaction.Whole j) (c : Crash) :
    ¬ TrxBreaks j c := by
  obtain ⟨x, rfl, h1⟩ := h
  intro hb
  cases hb with
  | fee _ h =>
    obtain ⟨pre, e, post, he, -, hb⟩ := h
    exact (h1 e (by rw [he]; simp)).expense c hb

omit [FloatText] in
theorem WholeOpt.block {j : Option JSONBlock} (h : WholeOpt JSONBlock.Whole j) (c : Crash) :
    ¬ BlockBreaks j c := by
  obtain ⟨x, rfl, h1, g, hg, h2⟩ := h
  intro hb
  cases hb with
  | trx h =>
    obtain ⟨pre, e, post, he, -, hb⟩ := h
    exact (h1 e (by rw [he]; simp)).trx c hb
  | genesis _ h =>
    rw [hg] at h
    exact h2.bill h

omit [FloatText] in
/-- C147: a structure in which no part is missing, except those that may be, and in which the signatures
have a scalar for every ring member is read without a panic, whatever else is wrong with it. -/
theorem C147_whole_structures_never_panic (c : Crash) :
    (∀ j : JSONExpense, j.Whole → expenseFromJSON (some j) ≠ .crash c) ∧
    (∀ j : JSONTransaction, j.Whole → trxFromJSON (some j) ≠ .crash c) ∧
    (∀ j : JSONBlock, j.Whole → blockFromJSON (some j) ≠ .crash c) ∧
    (∀ j : JSONLink, j.Whole → linkFromJSON (some j) ≠ .crash c) := by
  refine ⟨fun j h hc => ?_, fun j h hc => ?_, fun j h hc => ?_, fun j h hc => ?_⟩
  · exact WholeOpt.expense ⟨j, rfl, h⟩ c ((C147_expense_panics_iff _ c).mp hc)
  · exact WholeOpt.trx ⟨j, rfl, h⟩ c ((C147_trx_panics_iff _ c).mp hc)
  · exact WholeOpt.block ⟨j, rfl, h⟩ c ((C147_block_panics_iff _ c).mp hc)
  · cases (C147_link_panics_iff _ c).mp hc with
    | block _ hb => exact WholeOpt.block h c hb

/-- C147: so is a text with such a structure. -/
theorem C147_whole_texts_never_panic (text js : Bytes) (j : JSONMinedLink)
    (h1 : b64Decode text = some js) (h2 : jMinedLinkC.read js = some j) (h3 : j.Whole) (c : Crash) :
    decodeMinedLink text ≠ .crash c := by
  intro h
  obtain ⟨_, _, e1, e2, hb⟩ := (C147_decode_panics_iff text c).mp h
  rw [h1] at e1
  cases e1
  rw [h2] at e2
  cases e2
  obtain ⟨l, hl, h3⟩ := h3
  rw [hl] at hb
  cases hb with
  | block _ hb => exact WholeOpt.block h3 c hb

omit [Sha512] [FloatText] C in
theorem Bill.toJSON_whole (b : Bill) : WholeOpt JSONBill.Whole (some b.toJSON) :=
  ⟨_, rfl, by simp [JSONBill.Whole, Bill.toJSON]⟩

omit [FloatText] in
theorem MinedLink.toJSON_whole {l : MinedLink} (hl : l.Built) : l.toJSON.Whole := by
  refine ⟨_, rfl, _, rfl, ?_, ⟨_, rfl, Bill.toJSON_whole _⟩⟩
  intro x hx
  obtain ⟨t, ht, rfl⟩ := List.mem_map.mp hx
  refine ⟨_, rfl, ?_⟩
  intro y hy
  obtain ⟨f, hf, rfl⟩ := List.mem_map.mp hy
  refine ⟨_, rfl, ⟨_, rfl, ?_, Bill.toJSON_whole _, ?_⟩, ?_⟩
  · intro z hz
    obtain ⟨b, -, rfl⟩ := List.mem_map.mp hz
    exact Bill.toJSON_whole _
  · intro r hr
    obtain ⟨b, -, rfl⟩ := Option.map_eq_some_iff.mp hr
    simp [JSONBill.Whole, Bill.toJSON]
  · intro text htext sig hsig
    obtain ⟨s, hs, rfl⟩ := List.mem_map.mp htext
    rw [toRingSignature_str] at hsig
    cases hsig
    simpa using expense_rings ((hl.1.1.2.1 t ht).2.1 f hf) hs

/-- C147: what a node encodes, another one decodes without a panic: whatever mined link came out of the
builders. -/
theorem C147_own_texts_never_panic (l : MinedLink) (hl : l.Built)
    (hq : l.link.next.genesis.blockIncrease.IsFloat) (text : Bytes)
    (h : encodeMinedLink l = .ok text) (c : Crash) : decodeMinedLink text ≠ .crash c := by
  have he := (encode_eq l).1
  rw [Codec.writes_iff] at he
  by_cases hw : ∃ js, jMinedLinkC.text l.toJSON = some js
  · obtain ⟨js, hj⟩ := hw
    have hg : jMinedLinkC.Good l.toJSON := by
      refine jMinedLinkC_good _ ?_
      rintro k ⟨⟩ b ⟨⟩ g ⟨⟩
      exact hq
    have hu : jMinedLinkC.norm l.toJSON = l.toJSON := by
      rw [jMinedLinkC_norm, jsonText_of_utf8 hl.2.1]
      rfl
    have hr := hg.read hj
    rw [hu] at hr
    rw [(encode_eq l).2 js hj] at h
    have e : text = b64Encode js := (Outcome.ok.inj h).symm
    rw [e]
    exact C147_whole_texts_never_panic _ js _ (b64Decode_encode js) hr (MinedLink.toJSON_whole hl) c
  · rw [he.mpr hw] at h
    have e : text = [] := (Outcome.ok.inj h).symm
    rw [e, (C67_encode_drops_errors_neg l).2]
    simp

end

section examples

attribute [local instance] toyCurve toySha FloatText.decimal

/-- C147: base64 of `{}` is enough to bring a node down. -/
example : decodeMinedLink (b64Encode (ascii "{}")) = .crash .nilDeref :=
  (C147_decode_panics_iff _ _).mpr ⟨_, ⟨none, [], 0⟩, b64Decode_encode _, by rfl, .missing⟩

/-- C147: a payment whose source is `null`; one where the text of the bill before it is no hash is refused
with an error. -/
example (t : Time) :
    expenseFromJSON (some ⟨some ⟨[some (toyBill 1 5).toJSON, none], none, none, t⟩, []⟩) =
      .crash .nilDeref ∧
    ∃ m, expenseFromJSON (some ⟨some ⟨[some ⟨some ⟨[[0]], t⟩, 5, t⟩, none], none, none, t⟩, []⟩) = .err m := by
  refine ⟨(C147_expense_panics_iff _ _).mpr (.gap (.inl ⟨[some (toyBill 1 5).toJSON], none, [], rfl, ?_,
    trivial⟩)), _, rfl⟩
  intro x hx
  obtain rfl := List.mem_singleton.mp hx
  exact ⟨_, C29_bill_round_trip _ (toyBill_built 1 5 (by decide))⟩

/-- C147: a signature with a ring member and no scalar. -/
example : ∃ j : JSONExpense, expenseFromJSON (some j) = .crash .indexOutOfRange := by
  obtain ⟨l, hl⟩ : ∃ l, lockNow (some [ringKey (2 : ZMod 5)]) 0 = .ok l :=
    ⟨_, lockNow_eq_ok.mpr ⟨_, rfl, by simp, by simp, rfl⟩⟩
  have hk : l.pubKeys = [ringKey (2 : ZMod 5)] := by
    obtain ⟨_, h, -, -, rfl⟩ := lockNow_eq_ok.mp hl
    cases h
    rfl
  obtain ⟨b, hb⟩ : ∃ b, billNow (some l) 5 0 = .ok b :=
    ⟨_, billNow_eq_ok.mpr ⟨_, rfl, by decide, rfl⟩⟩
  have hbl : b.lock = l ∧ b.amount = 5 := by
    obtain ⟨_, h, -, rfl⟩ := billNow_eq_ok.mp hb
    cases h
    exact ⟨rfl, rfl⟩
  have hr : billFromJSON (some b.toJSON) = .ok b := C29_bill_round_trip b ⟨hbl.1 ▸ ⟨_, _, hl⟩, _, _, _, hb⟩
  let sig : RingSignature := ⟨[(2 : ZMod 5)], [], toySc 1⟩
  obtain ⟨cn, hcn⟩ : ∃ cn, contentNow b.amount (some [b]) (some b.lock) none 0 = .ok cn :=
    ⟨_, contentNow_eq_ok.mpr ⟨_, _, rfl, rfl, by rw [hbl.2]; decide, by simp [sourceTotal],
      by simp [sourceTotal], rfl⟩⟩
  refine ⟨⟨some ⟨[some b.toJSON], some b.toJSON, none, 0⟩, [sig.str]⟩, (C147_expense_panics_iff _ _).mpr
    (.short (cn := cn) (pre := []) (b := b) (post := []) (pre' := [])
      (s := ⟨[(2 : ZMod 5)], [], normSc (toySc 1)⟩) (post' := []) ?_ (contentNow_source hcn)
      (.cons ?_ .nil) rfl .nil ⟨?_, by simp⟩)⟩
  · simp [contentFromJSON, mapO, hr, optO, hcn]
  · simp [toRingSignature_str, sig]
  · intro k
    rw [hbl.1, hk]
    rfl

/-- C147: the toy link is encoded; its text does no harm. -/
example (text : Bytes) (h : encodeMinedLink toyMinedLink = .ok text) (c : Crash) :
    decodeMinedLink text ≠ .crash c := by
  refine C147_own_texts_never_panic _ toyMinedLink_built ⟨⟨1, -1, by norm_num, by norm_num, ?_⟩, ?_⟩ text h c
  · norm_num
  · rw [abs_of_pos (by norm_num)]
    exact lt_of_lt_of_le (by norm_num) (one_le_pow₀ (n := 1024) (by norm_num : (1 : ℚ) ≤ 2))

end examples

end Verif
