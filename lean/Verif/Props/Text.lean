import Mathlib.Data.List.TakeWhile
import Verif.Model.Json.Identities
import Verif.Model.Json.Runs
import Verif.Base.Json.FloatText
import Verif.Props.Store

/-!
# Texts and files of bytes: C123 – C127
-/

namespace Verif

/-! ## C123 -/

/-- C123: there is a way to write all float64 values as the library promises it, so that what is said about
files of geneses is not said about nothing. -/
theorem C123_float_texts_exist : Nonempty FloatText := ⟨FloatText.decimal⟩

/-- C123: how a difficulty of a file is read, whoever wrote it: the number `± n / 10^k`, in scientific notation,
is read as it is when it is a float64. Otherwise it is rounded, without a float64 in between; from `2^1024` on
it is refused. -/
theorem C123_decimal_numbers_read [FloatText] (neg : Bool) (n k : Nat) {v : ℚ}
    (hv : v = (if neg then -1 else 1) * ((n : ℚ) / 10 ^ k)) :
    (IsFloat v → fltC.read (sciText neg n k) = some (.fin v)) ∧
    (2 ^ 1024 ≤ |v| → fltC.read (sciText neg n k) = none) ∧
    ∀ x, fltC.read (sciText neg n k) = some x → ∃ r, x = .fin r ∧ IsFloat r ∧
      ∀ f, IsFloat f → (f ≤ v → f ≤ r) ∧ (v ≤ f → r ≤ f) := by
  have hn : numVal (sciText neg n k) = v := by rw [numVal_sci, hv]
  have hp : parseJson (sciText neg n k) = some (.num (sciText neg n k)) :=
    parseJson_render (v := .num (sciText neg n k)) (isNumLit_sci neg n k)
  have hr : fltC.read (sciText neg n k) = (parseFloat (sciText neg n k)).map .fin := by
    simp [Codec.read, hp, fltC]
  rw [hr]
  refine ⟨fun h => by rw [parseFloat_of_numVal h hn]; rfl, fun h => ?_, fun x hx => ?_⟩
  · have key : ∀ a : ℚ, 2 ^ 1024 ≤ a → 2 ^ 1024 ≤ rnd64 a := by
      intro a ha
      have := rnd64_mono ha
      rwa [rnd64_of_isF64 ⟨1, 1024, by norm_num, by norm_num, by norm_num⟩] at this
    have : ¬ |rnd64 v| < 2 ^ 1024 := by
      rw [not_lt]
      rcases le_total 0 v with h0 | h0
      · rw [abs_of_nonneg h0] at h
        exact (key v h).trans (le_abs_self _)
      · rw [abs_of_nonpos h0] at h
        have h1 := key _ h
        rw [rnd64_neg] at h1
        exact h1.trans (neg_le_abs _)
    simp only [parseFloat, hn, this, if_false, Option.map_none]
  · unfold parseFloat at hx
    simp only [hn] at hx
    split at hx
    · rename_i hb
      cases hx
      refine ⟨_, rfl, ⟨rnd64_isF64 v, hb⟩, fun f hf => ⟨fun h => ?_, fun h => ?_⟩⟩
      · have := rnd64_mono h
        rwa [rnd64_of_isF64 hf.1] at this
      · have := rnd64_mono h
        rwa [rnd64_of_isF64 hf.1] at this
    · cases hx

section
variable [C : Curve] [FloatText]

omit C [FloatText] in
theorem read_back {α : Type} {c : Codec α} {a a' : α} (h : c.Good a) (hn : c.norm a = a') {b : Bytes}
    (hb : c.text a = some b) : c.read b = some a' := hn ▸ h.read hb

/-- C123: for every kind of object of the store, reading the text that was written for an object gives
exactly the structure that was marshalled. -/
theorem C123_files_read_back :
    (∀ (x : TrLock) b, jTrLockC.text x.toJSON = some b → jTrLockC.read b = some x.toJSON) ∧
    (∀ (x : TrBill) b, jTrBillC.text x.toJSON = some b → jTrBillC.read b = some x.toJSON) ∧
    (∀ (x : TrExpense) b, jTrExpenseC.text x.toJSON = some b →
      jTrExpenseC.read b = some x.toJSON) ∧
    (∀ (x : TrGenesis) b, x.blockIncrease.IsFloat → jTrGenesisC.text x.goJSON = some b →
      jTrGenesisC.read b = some x.goJSON) ∧
    (∀ (x : TrTransaction) b, jTrTransactionC.text x.toJSON = some b →
      jTrTransactionC.read b = some x.toJSON) ∧
    (∀ (x : TrBlock) b, jTrBlockC.text x.toJSON = some b → jTrBlockC.read b = some x.toJSON) ∧
    (∀ (x : TrLink) b, jTrLinkC.text x.toJSON = some b → jTrLinkC.read b = some x.toJSON) ∧
    (∀ (x : TrChain) b, jTrChainC.text x.toJSON = some b → jTrChainC.read b = some x.toJSON) ∧
    (∀ (x : TrState) b, jTrStateC.text x.toJSON = some b → jTrStateC.read b = some x.toJSON) ∧
    (∀ (x : TrMined) b, Utf8 x.mining → jTrMinedBlockC.text x.goJSON = some b →
      jTrMinedBlockC.read b = some x.goJSON) ∧
    (∀ (x : TrMined) b, Utf8 x.mining → jTrMinedLinkC.text x.goJSON = some b →
      jTrMinedLinkC.read b = some x.goJSON) := by
  have hu : ∀ x : TrMined, Utf8 x.mining → x.toJSON = x.goJSON := fun x h => by
    simp [TrMined.toJSON, TrMined.goJSON, jsonText_of_utf8 h]
  exact ⟨fun x _ => read_back (jTrLockC_good _) (jTrLockC_norm x),
    fun x _ => read_back (jTrBillC_good _) (jTrBillC_norm x),
    fun x _ => read_back (jTrExpenseC_good _) (jTrExpenseC_norm x),
    fun x _ h => read_back (jTrGenesisC_good x.goJSON h) (jTrGenesisC_norm x),
    fun x _ => read_back (jTrTransactionC_good _) (jTrTransactionC_norm x),
    fun x _ => read_back (jTrBlockC_good _) (jTrBlockC_norm x),
    fun x _ => read_back (jTrLinkC_good _) (jTrLinkC_norm x),
    fun x _ => read_back (jTrChainC_good _) (jTrChainC_norm x),
    fun x _ => read_back (jTrStateC_good _) (jTrStateC_norm x),
    fun x _ h => read_back (jTrMinedBlockC_good _) ((jTrMinedBlockC_norm x).trans (hu x h)),
    fun x _ h => read_back (jTrMinedLinkC_good _) ((jTrMinedLinkC_norm x).trans (hu x h))⟩

/-- C123: a text is written for exactly the objects whose creation time is in the years 0 to 9999; a
genesis also needs a finite difficulty. -/
theorem C123_written_iff :
    (∀ x : TrLock, (∃ b, jTrLockC.text x.toJSON = some b) ↔ Dated x.createdOn) ∧
    (∀ x : TrBill, (∃ b, jTrBillC.text x.toJSON = some b) ↔ Dated x.createdOn) ∧
    (∀ x : TrExpense, (∃ b, jTrExpenseC.text x.toJSON = some b) ↔ Dated x.createdOn) ∧
    (∀ x : TrGenesis, (∃ b, jTrGenesisC.text x.goJSON = some b) ↔
      x.blockIncrease.marshals = true ∧ Dated x.createdOn) ∧
    (∀ x : TrTransaction, (∃ b, jTrTransactionC.text x.toJSON = some b) ↔ Dated x.createdOn) ∧
    (∀ x : TrBlock, (∃ b, jTrBlockC.text x.toJSON = some b) ↔ Dated x.createdOn) ∧
    (∀ x : TrLink, (∃ b, jTrLinkC.text x.toJSON = some b) ↔ Dated x.createdOn) ∧
    (∀ x : TrChain, (∃ b, jTrChainC.text x.toJSON = some b) ↔ Dated x.createdOn) ∧
    (∀ x : TrState, (∃ b, jTrStateC.text x.toJSON = some b) ↔ Dated x.createdOn) ∧
    (∀ x : TrMined, (∃ b, jTrMinedBlockC.text x.goJSON = some b) ↔ Dated x.createdOn) ∧
    (∀ x : TrMined, (∃ b, jTrMinedLinkC.text x.goJSON = some b) ↔ Dated x.createdOn) :=
  ⟨fun _ => Codec.writes_iff.symm.trans (jTrLockC_writes _),
    fun _ => Codec.writes_iff.symm.trans (jTrBillC_writes _),
    fun _ => Codec.writes_iff.symm.trans (jTrExpenseC_writes _),
    fun _ => Codec.writes_iff.symm.trans (jTrGenesisC_writes _),
    fun _ => Codec.writes_iff.symm.trans (jTrTransactionC_writes _),
    fun _ => Codec.writes_iff.symm.trans (jTrBlockC_writes _),
    fun _ => Codec.writes_iff.symm.trans (jTrLinkC_writes _),
    fun _ => Codec.writes_iff.symm.trans (jTrChainC_writes _),
    fun _ => Codec.writes_iff.symm.trans (jTrStateC_writes _),
    fun _ => Codec.writes_iff.symm.trans (jTrMinedBlockC_writes _),
    fun _ => Codec.writes_iff.symm.trans (jTrMinedLinkC_writes _)⟩

omit [FloatText] in
/-- C123: the files of identities, wallets, statements, entries, wallet bills and cancels are read back
to the objects that the structures give. -/
theorem C123_identity_files_read_back [Sha512] :
    (∀ (x : TrIdentity) b, jTrIdentityC.text x.toJSON = some b → ∃ js, jTrIdentityC.read b = some js ∧
      ∀ t u, trIdentityFromJSON js t u = trIdentityFromJSON x.toJSON t u) ∧
    (∀ (x : TrWallet) b, jTrWalletC.text x.toJSON = some b → ∃ js, jTrWalletC.read b = some js ∧
      trWalletFromJSON js = trWalletFromJSON x.toJSON) ∧
    (∀ (x : TrStatement) b, jTrStatementC.text x.toJSON = some b →
      jTrStatementC.read b = some x.toJSON) ∧
    (∀ (x : TrEntry) b, jTrEntryC.text x.toJSON = some b → ∃ js, jTrEntryC.read b = some js ∧
      trEntryFromJSON js = trEntryFromJSON x.toJSON) ∧
    (∀ (x : TrWalletBill) b, jTrWalletBillC.text x.toJSON = some b →
      jTrWalletBillC.read b = some x.toJSON) ∧
    (∀ (x : TrCancel) b, jTrCancelC.text x.toJSON = some b →
      jTrCancelC.read b = some x.toJSON) := by
  have hj : ∀ b, jsonText (jsonText b) = jsonText b := fun b => jsonText_of_utf8 (jsonText_utf8 b)
  refine ⟨fun x b h => ⟨_, (jTrIdentityC_good _).read h, fun t u => ?_⟩,
    fun x b h => ⟨_, (jTrWalletC_good _).read h, ?_⟩,
    fun x b h => read_back (jTrStatementC_good _) ?_ h,
    fun x b h => ⟨_, (jTrEntryC_good _).read h, ?_⟩,
    fun x b h => read_back (jTrWalletBillC_good _) ?_ h,
    fun x b h => read_back (jTrCancelC_good _) ?_ h⟩
  · change trIdentityFromJSON ⟨jsonText x.hash.str, jsonText x.seed, jsonText x.name, jsonText x.root,
      ((x.wallets.getD []).map Hash.str).map jsonText, ((x.buckets.getD []).map Hash.str).map jsonText,
      x.createdOn⟩ t u = _
    simp only [trIdentityFromJSON, TrIdentity.toJSON, jsonText_hash, map_jsonText_hash, hj]
  · change trWalletFromJSON ⟨jsonText x.hash.str, jsonText x.name, jsonText x.description,
      jsonText x.statement.str, ((x.bills.getD []).map Hash.str).map jsonText, x.createdOn⟩ = _
    simp only [trWalletFromJSON, TrWallet.toJSON, jsonText_hash, map_jsonText_hash, hj]
  · change (⟨jsonText x.hash.str, ((x.incoming.getD []).map Hash.str).map jsonText,
      ((x.outgoing.getD []).map Hash.str).map jsonText, x.createdOn⟩ : JTrStatement) = _
    simp only [TrStatement.toJSON, jsonText_hash, map_jsonText_hash]
  · change trEntryFromJSON ⟨jsonText x.hash.str, jsonText x.name, (x.trx.map Hash.str).map jsonText,
      jsonText x.description, x.createdOn⟩ = _
    simp only [trEntryFromJSON, TrEntry.toJSON, jsonText_hash, map_jsonText_hash, hj]
  · change (⟨jsonText x.hash.str, jsonText x.bill.str, (x.pks.map scStr).map jsonText,
      x.createdOn⟩ : JTrWalletBill) = _
    simp only [TrWalletBill.toJSON, jsonText_hash, List.map_map, Function.comp_def, jsonText_scStr]
  · change (⟨jsonText x.hash.str, jsonText x.expense.str, jsonText x.lock.str,
      (x.signatures.map RingSignature.str).map jsonText, x.createdOn⟩ : JTrCancel) = _
    simp only [TrCancel.toJSON, jsonText_hash, map_jsonText_sig]

/-! ## C124 -/

/-- What is written for an object is the text of a JSON object. -/
theorem PutOp.text_obj {op : PutOp} (hr : op.Real) {b : Bytes} (h : op.text = some b) :
    ∃ ms, (Json.obj ms).Proper ∧ b = (Json.obj ms).render := by
  have key {α : Type} {zero s : α} {fs : List (Fld α)} (hg : (structC zero fs).Good s)
      (ht : (structC zero fs).text s = some b) :
      ∃ ms, (Json.obj ms).Proper ∧ b = (Json.obj ms).render := by
    unfold Codec.text at ht
    simp only [Option.map_eq_some_iff] at ht
    obtain ⟨j, h1, rfl⟩ := ht
    obtain ⟨h2, -⟩ := hg j h1
    simp only [structC, Option.map_eq_some_iff] at h1
    obtain ⟨ms, -, rfl⟩ := h1
    exact ⟨ms, h2, rfl⟩
  cases op with
  | lock x => exact key (jTrLockC_good x.toJSON) h
  | bill x => exact key (jTrBillC_good x.toJSON) h
  | expense x => exact key (jTrExpenseC_good x.toJSON) h
  | genesis x => exact key (jTrGenesisC_good x.goJSON hr) h
  | trx x => exact key (jTrTransactionC_good x.toJSON) h
  | block x => exact key (jTrBlockC_good x.toJSON) h
  | minedBlock x => exact key (jTrMinedBlockC_good x.goJSON) h
  | link x => exact key (jTrLinkC_good x.toJSON) h
  | minedLink x => exact key (jTrMinedLinkC_good x.goJSON) h
  | chain x => exact key (jTrChainC_good x.toJSON) h
  | state x => exact key (jTrStateC_good x.toJSON) h

/-- C124: a file that contains a strict prefix of the text of an object, as a write that was cut
leaves it, is no JSON text: no kind of object is read from it. -/
theorem C124_cut_file_unreadable {op : PutOp} (hr : op.Real) {p q : Bytes}
    (h : op.text = some (p ++ q)) (hq : q ≠ []) :
    parseJson p = none ∧ ∀ {α : Type} (c : Codec α), c.read p = none := by
  obtain ⟨ms, h1, h2⟩ := op.text_obj hr h
  have := parseJson_prefix h1 h2 hq
  exact ⟨this, fun c => by simp [Codec.read, this]⟩

/-- Only the four blanks of JSON: space, tab, line feed and carriage return. -/
def Blank (r : Bytes) : Prop := ∀ c ∈ r, c = 32 ∨ c = 9 ∨ c = 10 ∨ c = 13

omit C [FloatText] in
theorem skipWs_blank (r : Bytes) : skipWs r = [] ↔ Blank r := by
  unfold skipWs Blank
  rw [List.dropWhile_eq_nil_iff]
  simp [isWs, or_assoc]

omit C [FloatText] in
theorem parseJson_append {ms : List (Bytes × Json)} (h : (Json.obj ms).Proper) (r : Bytes) :
    parseJson ((Json.obj ms).render ++ r) = if skipWs r = [] then some (.obj ms) else none := by
  have h1 := reads _ h ((Json.obj ms).render.length) [] numStop_nil le_rfl
  rw [List.append_nil] at h1
  have h2 := (parse_append _).1 _ _ _ r h1 (by simp)
  have h3 := parseVal_mono (m := ((Json.obj ms).render ++ r).length + 1) (by simp; omega) h2
  unfold parseJson
  rw [h3]
  rfl

/-- C124: the text of an object is also not read when anything but white space follows it, as when a
longer file is overwritten without being truncated. -/
theorem C124_tail_unreadable {op : PutOp} (hr : op.Real) {b r : Bytes} (h : op.text = some b) :
    (¬ Blank r → parseJson (b ++ r) = none ∧ ∀ {α : Type} (c : Codec α), c.read (b ++ r) = none) ∧
    (Blank r → ∀ {α : Type} (c : Codec α), c.read (b ++ r) = c.read b) := by
  rw [← skipWs_blank]
  obtain ⟨ms, h1, rfl⟩ := op.text_obj hr h
  refine ⟨fun hn => ?_, fun he α c => ?_⟩
  · have := parseJson_append h1 r
    rw [if_neg hn] at this
    exact ⟨this, fun c => by simp [Codec.read, this]⟩
  · have := parseJson_append h1 r
    rw [if_pos he] at this
    simp [Codec.read, this, parseJson_render h1]

/-! ## C125 -/

variable [Sha512] {W : World} {e : Time → Time}

/-- C125: on files of bytes, with any faults: everything retrievable before an operation is
retrievable with the same value after. -/
theorem C125_bytes_never_damaged {δ δ' : Drive} (h : RawLater δ δ') : Preserved δ.store δ'.store :=
  C32_histories_never_damage h.later

/-- C125: on files of bytes, after any history with any faults: when an operation returns nil, the
saved object can be retrieved by its hash, up to times and the encoding of scalars. -/
theorem C125_saved_bytes_retrievable (G : W.Good e) {op : Op} {δ δ' : Drive} (H : RawHistory W δ)
    (hop : op.In W) (O : op.NeedsGenesis → W.OneGenesis e)
    (hg : op.NeedsGenesis → ∃ g, retrGenesis δ.store = .ok g)
    (h : RawRun op.prog δ (some (.ok ())) δ') : op.Found e δ'.store :=
  C31_saved_is_retrievable G H.history hop O hg h.run

/-- C125, exactly: in a world without clashing times, what is retrieved is the object itself. -/
theorem C125_saved_bytes_come_back (G : W.Good id) {op : Op} {δ δ' : Drive} (H : RawHistory W δ)
    (hop : op.In W) (hc : op.Canonical) (O : op.NeedsGenesis → W.OneGenesis id)
    (hg : op.NeedsGenesis → ∃ g, retrGenesis δ.store = .ok g)
    (h : RawRun op.prog δ (some (.ok ())) δ') : op.Exactly δ'.store :=
  C31_saved_comes_back G H.history hop hc O hg h.run

/-- C125: after any interrupted save of an object whose times can be written, repeating the save
without faults returns nil and leaves bytes from which the object is retrieved. -/
theorem C125_interrupted_bytes_resume (G : W.Good e) {op : Op} {δ δ' : Drive}
    {r : Option (Outcome Unit)} (H : RawHistory W δ) (hop : op.In W) (hs : op.Saves)
    (O : op.NeedsGenesis → W.OneGenesis e)
    (hg : op.NeedsGenesis → ∃ g, retrGenesis δ.store = .ok g) (h : RawRun op.prog δ r δ')
    (hn : ∀ x, op = .genesis x → ∃ m, retrGenesis δ'.store = .err m)
    (hf : op.Real) (ht : ∀ t ∈ op.fileTimes, Dated t) :
    ∃ δ'', RawRun op.prog δ' (some (.ok ())) δ'' ∧ op.Found e δ''.store := by
  obtain ⟨σ, h1, h2⟩ := C34_interrupted_save_resumes G H.history hop hs O hg h.run hn
  obtain ⟨δ'', h3, h4⟩ := (Op.puts hf ht).exec δ'
  rw [h1] at h3 h4
  exact ⟨δ'', h3, h4 ▸ h2⟩

/-- C125 (negation of "every built object can be saved"): the builder of locks accepts any creation
time, but a lock whose time is not in the years 0 to 9999 is never saved: unless a lock with that hash
is already stored, every run of `Save` that returns returns an error, and it writes nothing. -/
theorem C125_undated_lock_never_saved_neg {x : Lock} (hx : ¬ Dated x.createdOn) {δ δ' : Drive}
    {r : Option (Outcome Unit)} {m : String} (hr : retrLock δ.store x.hash = .err m)
    (h : RawRun (saveLock x) δ r δ') : δ' = δ ∧ ∀ o, r = some o → ∃ m, o = .err m := by
  have ht : ∀ op : PutOp, ∀ b, op.done = (PutOp.lock (C := C) ⟨x.hash, x.pubKeys, x.createdOn⟩).done →
      op.text ≠ some b := by
    intro op b hop htx
    have h0 := congrArg (fun σ : Store => σ.locks x.hash.str) (congrFun hop Drive.empty.store)
    cases op with
    | lock y =>
      simp only [PutOp.done, setFile] at h0
      split at h0
      · simp only [↓reduceIte, Option.some.injEq, Cell.json.injEq] at h0
        have h2 := (jTrLockC_writes _).mp (Codec.writes_iff.mpr ⟨b, htx⟩)
        rw [h0] at h2
        exact hx h2
      · simp [Drive.store, Drive.empty] at h0
    | _ => simp [PutOp.done, Drive.store, Drive.empty] at h0
  have hw : ∀ {p : Prog Unit} {δ₁ δ₂ : Drive} {s : Option (Outcome Unit)}, RawRun p δ₁ s δ₂ →
      p = .save (PutOp.lock (C := C) ⟨x.hash, x.pubKeys, x.createdOn⟩).done
        (PutOp.lock (C := C) ⟨x.hash, x.pubKeys, x.createdOn⟩).torn →
      δ₂ = δ₁ ∧ ∀ o, s = some o → ∃ m, o = .err m := by
    intro p δ₁ δ₂ s h hp
    unfold Prog.save at hp
    cases h with
    | ret o δ => cases hp
    | killed p δ => exact ⟨rfl, fun o h => by cases h⟩
    | look _ => cases hp
    | written _ h1 _ =>
      simp only [Prog.write.injEq] at hp
      exact absurd h1 (ht _ _ hp.1)
    | tornWrite _ h1 _ _ =>
      simp only [Prog.write.injEq] at hp
      exact absurd h1 (ht _ _ hp.1)
    | unwritable _ h2 =>
      simp only [Prog.write.injEq] at hp
      rw [hp.2.2] at h2
      cases h2 with
      | ret o δ => exact ⟨rfl, fun o h => by cases h; exact ⟨_, rfl⟩⟩
      | killed p δ => exact ⟨rfl, fun o h => by cases h⟩
    | failed h2 =>
      simp only [Prog.write.injEq] at hp
      rw [hp.2.2] at h2
      cases h2 with
      | ret o δ => exact ⟨rfl, fun o h => by cases h; exact ⟨_, rfl⟩⟩
      | killed p δ => exact ⟨rfl, fun o h => by cases h⟩
  unfold saveLock unlessFound at h
  cases h with
  | killed p δ => exact ⟨rfl, fun o h => by cases h⟩
  | look h =>
    simp only [hr] at h
    exact hw h rfl

end

/-! ## C126 -/

theorem renderMembers_snoc (k : Bytes) (v : Json) : ∀ ms : List (Bytes × Json), ∃ c,
    renderMembers ms = c ++ [125] ∧
    renderMembers (ms ++ [(k, v)]) = c ++ 44 :: 34 :: (k ++ 34 :: 58 :: (v.render ++ [125]))
  | [] => ⟨[], rfl, rfl⟩
  | (k', v') :: ms => by
    obtain ⟨c, h1, h2⟩ := renderMembers_snoc k v ms
    exact ⟨44 :: 34 :: (k' ++ 34 :: 58 :: (v'.render ++ c)), by simp [renderMembers, h1],
      by simp [renderMembers, h2]⟩

theorem render_snoc {ms : List (Bytes × Json)} (hne : ms ≠ []) (k : Bytes) (v : Json) {b : Bytes}
    (h : (Json.obj ms).render = b ++ [125]) :
    (Json.obj (ms ++ [(k, v)])).render = b ++ 44 :: 34 :: (k ++ 34 :: 58 :: (v.render ++ [125])) := by
  obtain ⟨⟨k', v'⟩, ms, rfl⟩ := List.exists_cons_of_ne_nil hne
  obtain ⟨c, h1, h2⟩ := renderMembers_snoc k v ms
  simp only [Json.render, h1] at h
  have h' : b = 123 :: 34 :: (k' ++ 34 :: 58 :: (v'.render ++ c)) := by
    have : (123 :: 34 :: (k' ++ 34 :: 58 :: (v'.render ++ c))) ++ [125] = b ++ [125] := by
      rw [← h]; simp
    exact (List.append_cancel_right this).symm
  simp [Json.render, h2, h']

theorem properMembers_append {a b : List (Bytes × Json)} (ha : properMembers a)
    (hb : properMembers b) : properMembers (a ++ b) := by
  induction a with
  | nil => exact hb
  | cons m a ih => exact ⟨ha.1, ha.2.1, ih ha.2.2⟩

/-- What is written for a structure with fields. -/
theorem structC_text {σ : Type} {zero s : σ} {fs : List (Fld σ)} (hg : (structC zero fs).Good s)
    (hf : fs ≠ []) {b : Bytes} (h : (structC zero fs).text s = some b) :
    ∃ ms, ms ≠ [] ∧ properMembers ms ∧ b = (Json.obj ms).render ∧
      ∀ old, ms.foldlM (readMember fs) old = some ((structC zero fs).norm s) := by
  unfold Codec.text at h
  simp only [Option.map_eq_some_iff] at h
  obtain ⟨j, h1, rfl⟩ := h
  obtain ⟨h2, h3⟩ := hg j h1
  simp only [structC, Option.map_eq_some_iff] at h1
  obtain ⟨ms, h4, rfl⟩ := h1
  refine ⟨ms, ?_, h2, rfl, h3⟩
  rintro rfl
  obtain ⟨f, fs, rfl⟩ := List.exists_cons_of_ne_nil hf
  simp [List.mapM_cons, Option.bind_eq_some_iff] at h4

/-- A member in front of the members of a written structure is overwritten or ignored. -/
theorem structC_leading {σ : Type} {zero s s' : σ} {fs : List (Fld σ)} (hg : (structC zero fs).Good s)
    (hf : fs ≠ []) {b k : Bytes} {v : Json} (h : (structC zero fs).text s = some (123 :: b))
    (hk : IsStrLit k) (hv : v.Proper) (hm : readMember fs zero (k, v) = some s') :
    (structC zero fs).read (123 :: 34 :: (k ++ 34 :: 58 :: (v.render ++ 44 :: b))) =
      some ((structC zero fs).norm s) := by
  obtain ⟨ms, h1, h2, h3, h4⟩ := structC_text hg hf h
  obtain ⟨⟨k', v'⟩, ms, rfl⟩ := List.exists_cons_of_ne_nil h1
  simp only [Json.render, List.cons.injEq, true_and] at h3
  have : (123 :: 34 :: (k ++ 34 :: 58 :: (v.render ++ 44 :: b)) : Bytes) =
      (Json.obj ((k, v) :: (k', v') :: ms)).render := by
    simp [Json.render, renderMembers, h3]
  unfold Codec.read
  rw [this, parseJson_render (by exact ⟨hk, hv, h2⟩)]
  change ((k, v) :: (k', v') :: ms).foldlM (readMember fs) zero = _
  rw [List.foldlM_cons, hm]
  exact h4 s'

/-- A member behind the members of a written structure is read last. -/
theorem structC_trailing {σ : Type} {zero s : σ} {fs : List (Fld σ)} (hg : (structC zero fs).Good s)
    (hf : fs ≠ []) {b k : Bytes} {v : Json} (h : (structC zero fs).text s = some (b ++ [125]))
    (hk : IsStrLit k) (hv : v.Proper) :
    (structC zero fs).read (b ++ 44 :: 34 :: (k ++ 34 :: 58 :: (v.render ++ [125]))) =
      readMember fs ((structC zero fs).norm s) (k, v) := by
  obtain ⟨ms, h1, h2, h3, h4⟩ := structC_text hg hf h
  have := render_snoc h1 k v h3.symm
  unfold Codec.read
  rw [← this, parseJson_render (by exact properMembers_append h2 ⟨hk, hv, trivial⟩)]
  change (ms ++ [(k, v)]).foldlM (readMember fs) zero = _
  rw [List.foldlM_append, h4]
  simp

theorem foldName_tag : ∀ {k : Bytes}, (∀ c ∈ k, isTagByte c = true) → foldName k = k.map lowerByte
  | [], _ => rfl
  | c :: k, h => by
    obtain ⟨h1, -⟩ := tagByte_range (h c (by simp))
    rw [foldName.eq_3 _ _ (by rintro r rfl; simp at h1) (by rintro r rfl; simp at h1),
      foldName_tag fun x hx => h x (by simp [hx])]
    rfl

/-- A member with the name of a field up to letter case is read into that field. -/
theorem pickField_fold {σ : Type} {fs : List (Fld σ)} (hn : (fs.map fun f => foldName f.name).Nodup)
    {f : Fld σ} (hf : f ∈ fs) {k : Bytes} (hk : foldName k = foldName f.name) :
    pickField fs k = some f := by
  have key : ∀ g ∈ fs, foldName g.name = foldName f.name → g = f := fun g hg e =>
    List.inj_on_of_nodup_map hn hg hf e
  unfold pickField
  split
  · rename_i g hg
    have h1 := List.mem_of_find?_eq_some hg
    have h2 := List.find?_some hg
    simp only [beq_iff_eq] at h2
    rw [key g h1 (by rw [h2, hk])]
  · cases hx : fs.find? fun g => foldName g.name == foldName k with
    | none =>
      have := List.find?_eq_none.mp hx f hf
      simp [hk] at this
    | some g =>
      have h1 := List.mem_of_find?_eq_some hx
      have h2 := List.find?_some hx
      simp only [beq_iff_eq] at h2
      rw [key g h1 (by rw [h2, hk])]

theorem tag_of_amount {k : Bytes} (hk : k.map lowerByte = ascii "amount") :
    ∀ c ∈ k, isTagByte c = true := by
  intro c hc
  have h1 : lowerByte c ∈ ascii "amount" := hk ▸ List.mem_map_of_mem hc
  revert h1
  exact UInt8.forall_of_fin (P := fun c => lowerByte c ∈ ascii "amount" → isTagByte c = true)
    (by decide +kernel) c

theorem readMember_amount {k : Bytes} (hk : k.map lowerByte = ascii "amount") (n : UInt64)
    (s : JTrBill) :
    readMember [fld "hash" strC JTrBill.hash fun a s => { s with hash := a },
     fld "lock" strC JTrBill.lock fun a s => { s with lock := a },
     fld "amount" uintC JTrBill.amount fun a s => { s with amount := a },
     fld "created_on" timeC JTrBill.createdOn fun a s => { s with createdOn := a }] s
     (k, .num (natDec n.toNat)) = some { s with amount := n } := by
  have h1 := tag_of_amount hk
  have h2 : foldName k = foldName (ascii "amount") := by
    rw [foldName_tag h1, hk]
    decide +kernel
  have h3 := pickField_fold (fs := [fld "hash" strC JTrBill.hash fun a s => { s with hash := a },
     fld "lock" strC JTrBill.lock fun a s => { s with lock := a },
     fld "amount" uintC JTrBill.amount fun a s => { s with amount := a },
     fld "created_on" timeC JTrBill.createdOn fun a s => { s with createdOn := a }])
     (f := fld "amount" uintC JTrBill.amount fun a s => { s with amount := a }) (k := k)
     (by simp only [List.map_cons, fld]; decide +kernel) (by simp) h2
  unfold readMember
  rw [unquote_tag h1, h3]
  simp [fld, uintC, parseUint_natDec]

/-- C126 (negation of "a file has one reading only for the bytes that were written"): behind the
members of a written bill another amount can be inserted, under the name `amount` with any letter
case: the file is read without an error, with the inserted amount. -/
theorem C126_last_amount_wins_neg (x : TrBill) {b k : Bytes} (h : jTrBillC.text x.toJSON = some (b ++ [125]))
    (hk : k.map lowerByte = ascii "amount") (n : UInt64) :
    jTrBillC.read (b ++ ascii ",\"" ++ k ++ ascii "\":" ++ natDec n.toNat ++ ascii "}") =
      some { x.toJSON with amount := n } := by
  have h1 := structC_trailing (jTrBillC_good x.toJSON) (by simp) h
    (prefixable_tag (tag_of_amount hk)).isStrLit (v := .num (natDec n.toNat)) (isNumLit_natDec _)
  refine Eq.trans (congrArg jTrBillC.read ?_) (h1.trans ?_)
  · simp [ascii, Json.render]
  · rw [readMember_amount hk]
    exact congrArg (fun j : JTrBill => some { j with amount := n }) (jTrBillC_norm x)

/-- C126 (negation, the other end): in front of the members the inserted amount has no effect. -/
theorem C126_first_amount_ignored_neg (x : TrBill) {b k : Bytes}
    (h : jTrBillC.text x.toJSON = some (123 :: b)) (hk : k.map lowerByte = ascii "amount")
    (n : UInt64) :
    jTrBillC.read (ascii "{\"" ++ k ++ ascii "\":" ++ natDec n.toNat ++ ascii "," ++ b) =
      some x.toJSON := by
  have h1 := structC_leading (jTrBillC_good x.toJSON) (by simp) h
    (prefixable_tag (tag_of_amount hk)).isStrLit (v := .num (natDec n.toNat)) (isNumLit_natDec _)
    (readMember_amount hk n _)
  refine Eq.trans (congrArg jTrBillC.read ?_) (h1.trans ?_)
  · simp [ascii, Json.render]
  · exact congrArg some (jTrBillC_norm x)

/-- C126 (negation): the creation time at the end of a written lock can be removed; the file is read
without an error, with the first instant of the year 1. -/
theorem C126_missing_time_neg (x : TrLock) {t : Bytes} (h : jTrLockC.text x.toJSON = some t) :
    ∃ b u, t = b ++ ascii ",\"created_on\":" ++ u ++ [125] ∧
      jTrLockC.read (b ++ [125]) = some { x.toJSON with createdOn := 0 } := by
  obtain ⟨j, h1, rfl⟩ : ∃ j, jTrLockC.enc x.toJSON = some j ∧ j.render = t := by
    simpa [Codec.text, Option.map_eq_some_iff] using h
  simp only [jTrLockC, structC, Option.map_eq_some_iff] at h1
  obtain ⟨ms, h2, rfl⟩ := h1
  rw [show [fld "hash" strC JTrLock.hash fun a s => { s with hash := a },
     fld "pubkeys" (listC strC) JTrLock.pubKeys fun a s => { s with pubKeys := a },
     fld "created_on" timeC JTrLock.createdOn fun a s => { s with createdOn := a }] =
     [fld "hash" strC JTrLock.hash fun a s => { s with hash := a },
     fld "pubkeys" (listC strC) JTrLock.pubKeys fun a s => { s with pubKeys := a }] ++
     [fld "created_on" timeC JTrLock.createdOn fun a s => { s with createdOn := a }] from rfl,
     List.mapM_append] at h2
  simp only [Option.bind_eq_bind, Option.bind_eq_some_iff] at h2
  obtain ⟨ms1, h3, ms2, h4, h5⟩ := h2
  simp only [List.mapM_cons, List.mapM_nil, Option.pure_def, Option.bind_eq_bind,
    Option.bind_eq_some_iff, Option.some.injEq] at h4 h5
  obtain ⟨m, h6, _, rfl, rfl⟩ := h4
  subst h5
  unfold writeMember at h6
  simp only [Option.map_eq_some_iff] at h6
  obtain ⟨u, -, rfl⟩ := h6
  have hne : ms1 ≠ [] := by
    rintro rfl
    simp [List.mapM_cons, Option.bind_eq_some_iff] at h3
  obtain ⟨h7, h8⟩ := readMembers_write (fs := [fld "hash" strC JTrLock.hash fun a s => { s with hash := a },
     fld "pubkeys" (listC strC) JTrLock.pubKeys fun a s => { s with pubKeys := a },
     fld "created_on" timeC JTrLock.createdOn fun a s => { s with createdOn := a }])
     (by simp only [List.map_cons, fld]; decide +kernel)
     (by
      intro f hf
      simp only [List.mem_cons, List.not_mem_nil, or_false] at hf
      rcases hf with rfl | rfl | rfl <;> simp only [fld] <;> decide +kernel) _ ms1
     (by
      intro g hg
      simp only [List.mem_cons, List.not_mem_nil, or_false] at hg ⊢
      rcases hg with rfl | rfl <;> simp)
     (by
      intro g hg
      simp only [List.mem_cons, List.not_mem_nil, or_false] at hg
      rcases hg with rfl | rfl
      · exact strC_good _
      · exact listC_good fun a _ => strC_good a) h3
  obtain ⟨b, hb⟩ : ∃ b, (Json.obj ms1).render = b ++ [125] := by
    obtain ⟨⟨k', v'⟩, ms, rfl⟩ := List.exists_cons_of_ne_nil hne
    obtain ⟨c, h1, -⟩ := renderMembers_snoc [] .null ms
    exact ⟨123 :: 34 :: (k' ++ 34 :: 58 :: (v'.render ++ c)), by simp [Json.render, h1]⟩
  refine ⟨b, u.render, ?_, ?_⟩
  · rw [render_snoc hne _ u hb]
    simp [ascii, fld]
  · rw [← hb]
    unfold Codec.read
    rw [parseJson_render (by exact h7)]
    refine (h8 _).trans (congrArg some ?_)
    change (⟨jsonText x.hash.str, (x.pubKeys.map Hash.str).map jsonText, 0⟩ : JTrLock) = _
    rw [jsonText_hash, map_jsonText_hash]
    rfl

theorem decElems_nulls : ∀ (k : Nat) (l : List Bytes), k ≤ l.length →
    decElems strC (List.replicate k .null) l = some (l.take k)
  | 0, l, _ => by simp [decElems]
  | k + 1, [], h => by simp at h
  | k + 1, a :: l, h => by
    simp only [List.replicate_succ, decElems, List.head?_cons, Option.getD_some, List.tail_cons]
    rw [decElems_nulls k l (by simpa using h)]
    simp [strC]

/-- C126 (negation): behind the members of a written lock, a second list of keys made of `null`s can be
inserted: the file is read without an error, with the first so many keys only. -/
theorem C126_nulls_cut_keys_neg (x : TrLock) {b : Bytes} (h : jTrLockC.text x.toJSON = some (b ++ [125]))
    (k : Nat) (hk : k ≤ x.pubKeys.length) :
    jTrLockC.read (b ++ ascii ",\"pubkeys\":" ++ (Json.arr (List.replicate k .null)).render ++
      ascii "}") = some { x.toJSON with pubKeys := (x.pubKeys.take k).map Hash.str } := by
  have hp : ∀ k, properElems (List.replicate k .null) := by
    intro k
    induction k with
    | zero => trivial
    | succ k ih => exact ⟨trivial, ih⟩
  have h1 := structC_trailing (jTrLockC_good x.toJSON) (by simp) h
    (k := ascii "pubkeys") (prefixable_tag (by decide +kernel)).isStrLit
    (v := .arr (List.replicate k .null)) (hp k)
  refine Eq.trans (congrArg jTrLockC.read ?_) (h1.trans ?_)
  · simp [ascii]
  · have hn : unquote (ascii "pubkeys") = ascii "pubkeys" := unquote_tag (by decide +kernel)
    unfold readMember
    simp only [hn]
    have hpick : pickField [fld "hash" strC JTrLock.hash fun a s => { s with hash := a },
        fld "pubkeys" (listC strC) JTrLock.pubKeys fun a s => { s with pubKeys := a },
        fld "created_on" timeC JTrLock.createdOn fun a s => { s with createdOn := a }] (ascii "pubkeys") =
        some (fld "pubkeys" (listC strC) JTrLock.pubKeys fun a s => { s with pubKeys := a }) := rfl
    rw [hpick]
    change ((decElems strC (List.replicate k .null) (jTrLockC.norm x.toJSON).pubKeys).map
      fun a => { jTrLockC.norm x.toJSON with pubKeys := a }) = _
    rw [jTrLockC_norm, decElems_nulls _ _ (by simpa [TrLock.toJSON] using hk)]
    simp [TrLock.toJSON, List.map_take]

/-- C126 (negation): white space before and behind the text changes nothing, for every kind of object
and every reader. -/
theorem C126_white_space_neg [Curve] [FloatText] {op : PutOp} (hr : op.Real) {b w r : Bytes}
    (h : op.text = some b) (hw : Blank w) (hs : Blank r) {α : Type} (c : Codec α) :
    c.read (w ++ b ++ r) = c.read b := by
  rw [← skipWs_blank] at hw hs
  have h1 : parseJson (w ++ b ++ r) = parseJson b := by
    obtain ⟨ms, h1, rfl⟩ := op.text_obj hr h
    have h2 := reads _ h1 ((Json.obj ms).render.length) [] numStop_nil le_rfl
    rw [List.append_nil] at h2
    have h3 := (parse_append _).1 _ _ _ r h2 (by simp)
    have h4 := parseVal_mono (m := (w ++ (Json.obj ms).render ++ r).length + 1) (by simp; omega) h3
    have h5 : skipWs (w ++ (Json.obj ms).render ++ r) = skipWs ((Json.obj ms).render ++ r) := by
      rw [List.append_assoc]
      unfold skipWs at hw ⊢
      rw [List.dropWhile_append_of_pos]
      exact List.dropWhile_eq_nil_iff.mp hw
    have h6 : parseVal ((w ++ (Json.obj ms).render ++ r).length + 1) (w ++ (Json.obj ms).render ++ r) =
        parseVal ((w ++ (Json.obj ms).render ++ r).length + 1) ((Json.obj ms).render ++ r) := by
      rw [parseVal, parseVal, h5]
    rw [parseJson_render h1]
    unfold parseJson
    rw [h6, h4]
    simp [hs]
  unfold Codec.read
  rw [h1]

section examples

attribute [local instance] toyCurve toySha FloatText.decimal

theorem half_isFloat : Flt.IsFloat (.fin (1 / 2)) := by
  refine ⟨⟨1, -1, by norm_num, by norm_num, ?_⟩, ?_⟩
  · norm_num
  · rw [abs_of_pos (by norm_num)]
    exact lt_of_lt_of_le (by norm_num) (one_le_pow₀ (n := 1024) (by norm_num : (1 : ℚ) ≤ 2))

/-- C123: one half is a float64, written as `5e-1`; `-10^400` is too large for one. -/
example : IsFloat (1 / 2) ∧ (1 / 2 : ℚ) = (if false then -1 else 1) * (((5 : Nat) : ℚ) / 10 ^ 1) ∧
    (2 : ℚ) ^ 1024 ≤ |(if true then -1 else 1) * (((10 ^ 400 : Nat) : ℚ) / 10 ^ 0)| :=
  ⟨⟨⟨1, -1, by norm_num, by norm_num, by norm_num⟩, by
    rw [abs_of_pos (by norm_num)]
    exact lt_of_lt_of_le (by norm_num : (1 / 2 : ℚ) < 1) (one_le_pow₀ (by norm_num))⟩, by norm_num, by
    have : (2 : Nat) ^ 1024 ≤ 10 ^ 400 := by decide +kernel
    have h : (2 : ℚ) ^ 1024 ≤ 10 ^ 400 := by exact_mod_cast this
    simpa [abs_neg, abs_of_pos] using h⟩

/-- C123, C124, C126: texts of a lock and of a bill. -/
example : (∃ b, jTrLockC.text (TrLock.mk (toyHash 1) [toyHash 2, toyHash 3] 0).toJSON = some b) ∧
    (∃ b, jTrBillC.text (TrBill.mk (toyHash 1) (toyHash 2) 7 0).toJSON = some b) ∧
    ¬ ∃ b, jTrBillC.text (TrBill.mk (toyHash 1) (toyHash 2) 7 (10000 * 366 * dayNs)).toJSON = some b := by
  refine ⟨(C123_written_iff.1 _).mpr (by decide), (C123_written_iff.2.1 _).mpr (by decide), ?_⟩
  rw [C123_written_iff.2.1]
  decide

/-- C123: a genesis with a difficulty that is read back. -/
example : ∃ b, jTrGenesisC.text (TrGenesis.mk (toyHash 1) (toyHash 2) 1 (.fin (1 / 2)) 3 0).goJSON = some b ∧
    jTrGenesisC.read b = some (TrGenesis.mk (toyHash 1) (toyHash 2) 1 (.fin (1 / 2)) 3 0).goJSON := by
  obtain ⟨b, hb⟩ := (C123_written_iff.2.2.2.1
    (TrGenesis.mk (toyHash 1) (toyHash 2) 1 (.fin (1 / 2)) 3 0)).mpr ⟨rfl, by decide⟩
  exact ⟨b, hb, C123_files_read_back.2.2.2.1 _ _ half_isFloat hb⟩

/-- C126: names that differ in letter case. -/
example : ("AMOUNT".toList.map fun c => UInt8.ofNat c.toNat).map lowerByte = ascii "amount" := by decide +kernel

/-- C126: a bill of 7 that is read as a bill of 1000. -/
example : ∃ b c, jTrBillC.text (TrBill.mk (toyHash 1) (toyHash 2) 7 0).toJSON = some (b ++ [125]) ∧
    jTrBillC.read (b ++ c) = some (TrBill.mk (toyHash 1) (toyHash 2) 1000 0).toJSON := by
  obtain ⟨t, ht⟩ := (C123_written_iff.2.1 (TrBill.mk (toyHash 1) (toyHash 2) 7 0)).mpr (by decide)
  obtain ⟨ms, h1, -, rfl, -⟩ := structC_text (jTrBillC_good _) (by simp) ht
  obtain ⟨⟨k', v'⟩, ms, rfl⟩ := List.exists_cons_of_ne_nil h1
  obtain ⟨c, h2, -⟩ := renderMembers_snoc [] .null ms
  have h3 : (Json.obj ((k', v') :: ms)).render = (123 :: 34 :: (k' ++ 34 :: 58 :: (v'.render ++ c))) ++ [125] := by
    simp [Json.render, h2]
  rw [h3] at ht
  have := C126_last_amount_wins_neg _ ht (k := ascii "AMOUNT") (by decide +kernel) 1000
  rw [List.append_assoc, List.append_assoc, List.append_assoc, List.append_assoc] at this
  exact ⟨_, _, ht, this⟩

/-- C126: a lock of two keys that is read as a lock of the first one. -/
example : ∃ b c, jTrLockC.text (TrLock.mk (toyHash 1) [toyHash 2, toyHash 3] 0).toJSON = some (b ++ [125]) ∧
    jTrLockC.read (b ++ c) = some (TrLock.mk (toyHash 1) [toyHash 2] 0).toJSON := by
  obtain ⟨t, ht⟩ := (C123_written_iff.1 (TrLock.mk (toyHash 1) [toyHash 2, toyHash 3] 0)).mpr (by decide)
  obtain ⟨ms, h1, -, rfl, -⟩ := structC_text (jTrLockC_good _) (by simp) ht
  obtain ⟨⟨k', v'⟩, ms, rfl⟩ := List.exists_cons_of_ne_nil h1
  obtain ⟨c, h2, -⟩ := renderMembers_snoc [] .null ms
  have h3 : (Json.obj ((k', v') :: ms)).render = (123 :: 34 :: (k' ++ 34 :: 58 :: (v'.render ++ c))) ++ [125] := by
    simp [Json.render, h2]
  rw [h3] at ht
  have := C126_nulls_cut_keys_neg _ ht 1 (by simp)
  rw [List.append_assoc, List.append_assoc] at this
  exact ⟨_, _, ht, this⟩

/-- C125: a genesis and a mined block saved on files of bytes come back. -/
example : ∃ (W : World) (r : MinedBlock) (δ δ' : Drive), W.Good id ∧ W.OneGenesis id ∧
    RawHistory W δ ∧ (Op.minedBlock r).In W ∧ (∃ g, retrGenesis δ.store = .ok g) ∧
    RawRun (Op.minedBlock r).prog δ (some (.ok ())) δ' ∧ retrMinedBlock δ'.store r.hash = .ok r := by
  obtain ⟨W, x, t, b, r, k, G, O, hx, ht, hg, hb, hr, hk, hcan, e1, e2, e3, e4, e5, e6, e7, e8, e9, e10,
    e11, t1, t2⟩ := toy_world
  have d0 : Dated 0 := by decide
  have hn : ∃ m, retrGenesis Drive.empty.store = .err m := ⟨_, rfl⟩
  have h1 := saveGenesis_exec G (Honest.empty W) hg hn
  obtain ⟨δ, r1, -⟩ := (Op.puts (op := .genesis b.genesis) (by rw [Op.Real, e6]; exact half_isFloat)
    (fun u hu => by rw [t1 u hu]; exact d0)).exec Drive.empty
  have r1' : RawRun (Op.genesis b.genesis).prog Drive.empty (some (.ok ())) δ := by
    have : ((Op.genesis b.genesis).prog.exec Drive.empty.store).1 = .ok () := by
      change ((saveGenesis b.genesis).exec Store.empty).1 = _
      rw [h1]
    rw [← this]
    exact r1
  have H1 : RawHistory W δ := RawHistory.empty.step (op := .genesis b.genesis) hg r1'
  obtain ⟨g, hg1, -⟩ := C125_saved_bytes_retrievable G .empty (op := .genesis b.genesis) hg
    (fun h => h.elim) (fun h => h.elim) r1'
  have h2 := saveMinedBlock_exec G O (H1.history.honest G) hr
  obtain ⟨δ', r2, -⟩ := (Op.puts (op := .minedBlock r) trivial
    (fun u hu => by rw [t2 u hu]; exact d0)).exec δ
  have r2' : RawRun (Op.minedBlock r).prog δ (some (.ok ())) δ' := by
    have : ((Op.minedBlock r).prog.exec δ.store).1 = .ok () := by
      change ((saveMinedBlock r).exec δ.store).1 = _
      rw [h2]
    rw [← this]
    exact r2
  refine ⟨W, r, δ, δ', G, O, H1, hr, ⟨g, hg1⟩, r2', ?_⟩
  refine C125_saved_bytes_come_back G H1 (op := .minedBlock r) hr ?_ (fun _ => O) (fun _ => ⟨g, hg1⟩) r2'
  simpa [Op.Canonical, Block.Canonical, e3, e2, Transaction.Canonical, e1] using hcan

/-- C125: a lock with a time that cannot be written. -/
example : ∃ x : Lock, x.Built ∧ ¬ Dated x.createdOn ∧
    ∃ m, retrLock Drive.empty.store x.hash = .err m := by
  obtain ⟨l, sig, h1, hs, h3⟩ := C21_unlock_complete_partial [publicKey (toySc 1),
    publicKey (toySc 2)] (by decide) (toySc 2) (by decide) (by simp) (10000 * 366 * dayNs)
  refine ⟨l, ⟨_, _, h1⟩, ?_, _, rfl⟩
  obtain ⟨_, -, -, -, rfl⟩ := lockNow_eq_ok.mp h1
  have : ¬ Dated (10000 * 366 * dayNs) := by decide
  exact this

end examples

end Verif
