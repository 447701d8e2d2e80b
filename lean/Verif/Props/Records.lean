import Verif.Spec.Records
import Verif.Props.Files
import Verif.Props.Identities
import Verif.Props.Text

/-!
# Entries, statements, wallet bills and cancels on the disk: C139, C58
-/

namespace Verif

theorem Hash.str_proper (h : Hash) : ProperName h.str := by
  obtain ⟨hl, hs⟩ := C01_string_shape h
  refine ⟨?_, ?_, ?_, fun hm => ?_⟩
  · intro e; rw [e] at hl; cases hl
  · intro e; rw [e] at hl; cases hl
  · intro e; rw [e] at hl; cases hl
  · rcases hs _ hm with ⟨h1, -⟩ | ⟨h1, -⟩
    · exact absurd h1 (by decide)
    · exact absurd h1 (by decide)

/-- Hashes name different files. -/
theorem resolve_hash_inj (w : Place) {h h' : Hash} (e : w.resolve h.str = w.resolve h'.str) :
    h = h' := by
  have key : ∀ x : Hash, w.resolve x.str = w.resolve [] ++ [x.str] := fun x => by
    rw [← resolve_child w [] x.str_proper]
    simp [joinText]
  rw [key, key] at e
  exact Hash.str_injective (by simpa using e)

variable {α : Type}

/-- What one call does to the contents of the files that are named by hashes. -/
theorem Records.save_content (k : Records α) (w : Place) {d : Disk} (hd : d.Sound) (x : α) :
    (k.save w d x).2.Sound ∧ ∀ h : Hash, (k.save w d x).2.content (w.resolve h.str) =
      if k.hash x = h ∧ (k.save w d x).1 = .ok () then k.text x
      else d.content (w.resolve h.str) := by
  unfold Records.save
  cases ht : k.text x with
  | none => exact ⟨hd, fun h => by simp⟩
  | some b =>
    obtain ⟨h1, h2⟩ := diskStep_content w hd (.save (k.hash x).str b)
    refine ⟨h1, fun h => (h2 (w.resolve h.str)).trans ?_⟩
    have he : w.resolve (k.hash x).str = w.resolve h.str ↔ k.hash x = h :=
      ⟨resolve_hash_inj w, fun e => by rw [e]⟩
    simp only [FileOp.rel, he]
    rfl

theorem Records.delete_content (k : Records α) (w : Place) {d : Disk} (hd : d.Sound) (x : α) :
    (k.delete w d x).2.Sound ∧ ∀ h : Hash, (k.delete w d x).2.content (w.resolve h.str) =
      if k.hash x = h ∧ (k.delete w d x).1 = .ok () then none
      else d.content (w.resolve h.str) := by
  obtain ⟨h1, h2⟩ := diskStep_content w hd (.delete (k.hash x).str)
  refine ⟨h1, fun h => (h2 (w.resolve h.str)).trans ?_⟩
  have he : w.resolve (k.hash x).str = w.resolve h.str ↔ k.hash x = h :=
    ⟨resolve_hash_inj w, fun e => by rw [e]⟩
  simp only [FileOp.rel, he]
  rfl

theorem Records.save_ok {k : Records α} {w : Place} {d : Disk} {x : α}
    (h : (k.save w d x).1 = .ok ()) : ∃ b, k.text x = some b := by
  unfold Records.save at h
  cases ht : k.text x with
  | none => rw [ht] at h; cases h
  | some b => exact ⟨b, rfl⟩

theorem lastRecord_hit {hash : α → Hash} {h : Hash} {op : RecordOp α} {r : Outcome Unit}
    {rest : List (RecordOp α × Outcome Unit)} (hl : lastRecord hash h rest = .nothing)
    (hc : hash op.record = h ∧ r = .ok ()) :
    lastRecord hash h ((op, r) :: rest) =
      match op with
      | .save x => .saved x
      | .delete _ => .deleted := by
  unfold lastRecord
  rw [hl]
  simp only
  rw [if_pos hc]
  cases op <;> rfl

theorem lastRecord_single {k : Records α} {w : Place} {d : Disk} {x : α}
    (h : (k.save w d x).1 = .ok ()) :
    lastRecord k.hash (k.hash x) (([.save x] : List (RecordOp α)).zip
      (runRecords k w d [.save x]).1) = .saved x :=
  lastRecord_hit (op := .save x) (rest := []) rfl ⟨rfl, h⟩

theorem lastRecord_miss {hash : α → Hash} {h : Hash} {op : RecordOp α} {r : Outcome Unit}
    {rest : List (RecordOp α × Outcome Unit)} (hc : ¬ (hash op.record = h ∧ r = .ok ())) :
    lastRecord hash h ((op, r) :: rest) = lastRecord hash h rest := by
  conv_lhs => unfold lastRecord
  cases hl : lastRecord hash h rest with
  | nothing => simp only; rw [if_neg hc]
  | deleted => rfl
  | saved x => rfl

theorem lastRecord_later {hash : α → Hash} {h : Hash} {op : RecordOp α} {r : Outcome Unit}
    {rest : List (RecordOp α × Outcome Unit)} (hl : lastRecord hash h rest ≠ .nothing) :
    lastRecord hash h ((op, r) :: rest) = lastRecord hash h rest := by
  conv_lhs => unfold lastRecord
  cases h' : lastRecord hash h rest with
  | nothing => exact absurd h' hl
  | deleted => rfl
  | saved x => rfl

/-- The file of a hash after a history. -/
theorem runRecords_content (k : Records α) (w : Place) (h : Hash) (ops : List (RecordOp α)) :
    ∀ {d : Disk}, d.Sound → (runRecords k w d ops).2.Sound ∧
      match lastRecord k.hash h (ops.zip (runRecords k w d ops).1) with
      | .nothing => (runRecords k w d ops).2.content (w.resolve h.str) = d.content (w.resolve h.str)
      | .deleted => (runRecords k w d ops).2.content (w.resolve h.str) = none
      | .saved x => k.hash x = h ∧ ∃ b, k.text x = some b ∧
          (runRecords k w d ops).2.content (w.resolve h.str) = some b := by
  induction ops with
  | nil => intro d hd; exact ⟨hd, rfl⟩
  | cons op ops ih =>
    intro d hd
    cases op with
    | save x =>
      obtain ⟨s1, s2⟩ := k.save_content w hd x
      obtain ⟨i1, i2⟩ := ih s1
      refine ⟨i1, ?_⟩
      simp only [runRecords, List.zip_cons_cons]
      by_cases hl : lastRecord k.hash h (ops.zip (runRecords k w (k.save w d x).2 ops).1) = .nothing
      · rw [hl] at i2
        simp only [s2 h] at i2
        by_cases hc : k.hash x = h ∧ (k.save w d x).1 = .ok ()
        · obtain ⟨b, hb⟩ := Records.save_ok hc.2
          rw [lastRecord_hit (op := .save x) hl hc]
          rw [if_pos hc] at i2
          exact ⟨hc.1, b, hb, i2.trans hb⟩
        · rw [lastRecord_miss (op := .save x) hc, hl]
          rw [if_neg hc] at i2
          exact i2
      · rw [lastRecord_later hl]
        generalize lastRecord k.hash h (ops.zip (runRecords k w (k.save w d x).2 ops).1) = l at hl i2
        cases l with
        | nothing => exact absurd rfl hl
        | deleted => exact i2
        | saved y => exact i2
    | delete x =>
      obtain ⟨s1, s2⟩ := k.delete_content w hd x
      obtain ⟨i1, i2⟩ := ih s1
      refine ⟨i1, ?_⟩
      simp only [runRecords, List.zip_cons_cons]
      by_cases hl : lastRecord k.hash h (ops.zip (runRecords k w (k.delete w d x).2 ops).1) = .nothing
      · rw [hl] at i2
        simp only [s2 h] at i2
        by_cases hc : k.hash x = h ∧ (k.delete w d x).1 = .ok ()
        · rw [lastRecord_hit (op := .delete x) hl hc]
          rw [if_pos hc] at i2
          exact i2
        · rw [lastRecord_miss (op := .delete x) hc, hl]
          rw [if_neg hc] at i2
          exact i2
      · rw [lastRecord_later hl]
        generalize lastRecord k.hash h (ops.zip (runRecords k w (k.delete w d x).2 ops).1) = l at hl i2
        cases l with
        | nothing => exact absurd rfl hl
        | deleted => exact i2
        | saved y => exact i2

theorem Records.retrieve_of_content {k : Records α} {w : Place} {d : Disk} {h : Hash} {b : Bytes}
    (hc : d.content (w.resolve h.str) = some b) : k.retrieve w d h = k.parse b := by
  simp only [Records.retrieve, diskRetrieve_iff.mpr hc, Outcome.bind_ok]

theorem Records.retrieve_saved {k : Records α} {w : Place} {d : Disk} (hd : d.Sound)
    {ops : List (RecordOp α)} {h : Hash} {x : α}
    (hl : lastRecord k.hash h (ops.zip (runRecords k w d ops).1) = .saved x) :
    k.hash x = h ∧ ∃ b, k.text x = some b ∧
      k.retrieve w (runRecords k w d ops).2 h = k.parse b := by
  have := (runRecords_content k w h ops hd).2
  rw [hl] at this
  obtain ⟨h1, b, h2, h3⟩ := this
  exact ⟨h1, b, h2, Records.retrieve_of_content h3⟩

/-! ## C139 -/

section
variable [Sha512] [C : Curve]

/-- C139: after any history of saves and deletions of entries, successful or not, in any file system,
the entry that was last saved under a hash is retrieved whole, if its texts are valid UTF-8. -/
theorem C139_entry_comes_back (w : Place) {d : Disk} (hd : d.Sound) (ops : List (RecordOp TrEntry))
    (h : Hash) (e : TrEntry) {h' : Option Hash} {n : Bytes} {x : Option (List Hash)} {s : Bytes}
    {t : Time} (he : trEntryNow h' n x s t = .ok e) (hn : Utf8 e.name) (hs : Utf8 e.description)
    (hl : lastRecord TrEntry.hash h (ops.zip (runRecords entryRecords w d ops).1) = .saved e) :
    entryRecords.retrieve w (runRecords entryRecords w d ops).2 h = .ok e ∧ e.hash = h := by
  obtain ⟨h1, b, h2, h3⟩ := Records.retrieve_saved (k := entryRecords) hd hl
  refine ⟨?_, h1⟩
  obtain ⟨js, h4, h5⟩ := C123_identity_files_read_back.2.2.2.1 e b h2
  rw [h3]
  simp only [entryRecords, h4, h5]
  exact C88_entry_survives he hn hs

/-- C139: the same for statements, without a condition on texts. -/
theorem C139_statement_comes_back (w : Place) {d : Disk} (hd : d.Sound)
    (ops : List (RecordOp TrStatement)) (h : Hash) (s : TrStatement) {h' : Option Hash}
    {i o : Option (List Hash)} {t : Time} (he : trStatementNow h' i o t = .ok s)
    (hl : lastRecord TrStatement.hash h (ops.zip (runRecords statementRecords w d ops).1) = .saved s) :
    statementRecords.retrieve w (runRecords statementRecords w d ops).2 h = .ok s ∧ s.hash = h := by
  obtain ⟨h1, b, h2, h3⟩ := Records.retrieve_saved (k := statementRecords) hd hl
  refine ⟨?_, h1⟩
  have h4 := C123_identity_files_read_back.2.2.1 s b h2
  rw [h3]
  simp only [statementRecords, h4]
  exact C88_statement_survives he

/-- C139: the same for the bills of wallets: the private keys come back as the same numbers, and up to
`largestFactor` with the same public keys. -/
theorem C139_wallet_bill_comes_back (w : Place) {d : Disk} (hd : d.Sound)
    (ops : List (RecordOp TrWalletBill)) (h : Hash) (b : TrWalletBill) {h' l : Option Hash}
    {p : Option (List Scalar)} {t : Time} (hb : trWalletBillNow h' l p t = .ok b)
    (hl : lastRecord TrWalletBill.hash h (ops.zip (runRecords walletBillRecords w d ops).1) = .saved b) :
    ∃ b', walletBillRecords.retrieve w (runRecords walletBillRecords w d ops).2 h = .ok b' ∧
      b'.hash = h ∧ b'.bill = b.bill ∧ b'.createdOn = b.createdOn ∧
      b'.pks.map C.val = b.pks.map C.val ∧
      ((∀ x ∈ b.pks, x.Fits) → b'.pks.map publicKey = b.pks.map publicKey) := by
  obtain ⟨h1, tx, h2, h3⟩ := Records.retrieve_saved (k := walletBillRecords) hd hl
  have h4 := C123_identity_files_read_back.2.2.2.2.1 b tx h2
  obtain ⟨b', h5, h6, h7⟩ := C88_wallet_bill_survives_partial hb
  refine ⟨b', ?_, h6.trans h1, h7⟩
  rw [h3]
  simp only [walletBillRecords, h4]
  exact h5

/-- C139: the same for cancels, up to the encoding of the scalars in the signatures. -/
theorem C139_cancel_comes_back (w : Place) {d : Disk} (hd : d.Sound)
    (ops : List (RecordOp TrCancel)) (h : Hash) (c : TrCancel) {h' e l : Option Hash}
    {s : Option (List RingSignature)} {t : Time} (hc : trCancelNow h' e l s t = .ok c)
    (hl : lastRecord TrCancel.hash h (ops.zip (runRecords cancelRecords w d ops).1) = .saved c) :
    cancelRecords.retrieve w (runRecords cancelRecords w d ops).2 h =
      .ok ⟨h, c.expense, c.lock, c.signatures.map RingSignature.reduced, c.createdOn⟩ := by
  obtain ⟨h1, tx, h2, h3⟩ := Records.retrieve_saved (k := cancelRecords) hd hl
  have h4 := C123_identity_files_read_back.2.2.2.2.2 c tx h2
  rw [h3]
  simp only [cancelRecords, h4]
  rw [C88_cancel_survives hc]
  show _ = Outcome.ok (⟨h, _, _, _, _⟩ : TrCancel)
  rw [← h1]
  rfl

omit [Sha512] C in
/-- C139: for every kind of record: under a hash whose record was last deleted nothing is retrieved,
and for a hash on which no call succeeded the answer is that of the start. -/
theorem C139_nothing_else (k : Records α) (w : Place) {d : Disk} (hd : d.Sound)
    (ops : List (RecordOp α)) (h : Hash) :
    (lastRecord k.hash h (ops.zip (runRecords k w d ops).1) = .deleted →
      ∃ m, k.retrieve w (runRecords k w d ops).2 h = .err m) ∧
    (lastRecord k.hash h (ops.zip (runRecords k w d ops).1) = .nothing → ∀ x,
      k.retrieve w (runRecords k w d ops).2 h = .ok x ↔ k.retrieve w d h = .ok x) := by
  obtain ⟨h1, h2⟩ := runRecords_content k w h ops hd
  constructor
  · intro hl
    rw [hl] at h2
    simp only at h2
    have hp := (C55_no_panic w h1 (.delete []) h.str).2.1
    cases hr : diskRetrieve w (runRecords k w d ops).2 h.str with
    | ok b =>
      rw [diskRetrieve_iff.mp hr] at h2
      cases h2
    | err m => exact ⟨m, by simp only [Records.retrieve, hr, Outcome.bind_err]⟩
    | crash c => exact absurd hr (hp c)
  · intro hl x
    rw [hl] at h2
    simp only at h2
    simp only [Records.retrieve, Outcome.bind_eq_ok, diskRetrieve_iff, h2]

omit [Sha512] C in
/-- C139: a record is saved exactly when its text can be written and the file can: the path is not a
directory and no element above it is a regular file. A save that fails changes nothing. -/
theorem C139_save_succeeds_iff (k : Records α) (w : Place) {d : Disk} (hd : d.Sound) (x : α) :
    ((k.save w d x).1 = .ok () ↔ (∃ b, k.text x = some b) ∧
      d.at? (w.resolve (k.hash x).str) ≠ some .dir ∧
      ∀ j < (w.resolve (k.hash x).str).length, ∀ c,
        d.at? ((w.resolve (k.hash x).str).take j) ≠ some (.file c)) ∧
    ((k.save w d x).1 ≠ .ok () → (k.save w d x).2 = d) := by
  unfold Records.save
  cases ht : k.text x with
  | none => simp
  | some b =>
    obtain ⟨h1, h2⟩ := C55_save_succeeds_iff w hd (k.hash x).str b
    exact ⟨h1.trans ⟨fun h => ⟨⟨b, rfl⟩, h⟩, fun h => h.2⟩, h2⟩

/-- C139: the text of a record of the four kinds can be written exactly in the years 0 to 9999. -/
theorem C139_written_iff :
    (∀ e : TrEntry, (∃ b, entryRecords.text e = some b) ↔ Dated e.createdOn) ∧
    (∀ s : TrStatement, (∃ b, statementRecords.text s = some b) ↔ Dated s.createdOn) ∧
    (∀ b : TrWalletBill, (∃ t, walletBillRecords.text b = some t) ↔ Dated b.createdOn) ∧
    (∀ c : TrCancel, (∃ b, cancelRecords.text c = some b) ↔ Dated c.createdOn) := by
  refine ⟨fun e => Codec.writes_iff.symm.trans ?_, fun e => Codec.writes_iff.symm.trans ?_,
    fun e => Codec.writes_iff.symm.trans ?_, fun e => Codec.writes_iff.symm.trans ?_⟩
  · exact (show jTrEntryC.Writes e.toJSON ↔ Dated e.toJSON.createdOn by struct_writes)
  · exact (show jTrStatementC.Writes e.toJSON ↔ Dated e.toJSON.createdOn by struct_writes)
  · exact (show jTrWalletBillC.Writes e.toJSON ↔ Dated e.toJSON.createdOn by struct_writes)
  · exact (show jTrCancelC.Writes e.toJSON ↔ Dated e.toJSON.createdOn by struct_writes)

omit C in
/-- C58 refuted: whatever the files contain, no wallet is retrieved. -/
theorem C58_no_wallet_retrieved_neg (w : Place) (d : Disk) (h : Hash) (x : TrWallet) :
    walletRecords.retrieve w d h ≠ .ok x := by
  simp only [Records.retrieve, ne_eq, Outcome.bind_eq_ok, not_exists, not_and, walletRecords]
  intro b _ hb
  split at hb
  · cases hb
  · exact C58_no_stored_wallet_neg _ _ hb

end

section examples

attribute [local instance] toyCurve toySha

theorem empty_sound : Disk.Sound [] := by
  intro p hp h
  simp [Disk.at?, hp] at h

/-- A directory of records. -/
def toyPlace : Place := ⟨[ascii "node"], ascii "records"⟩

theorem toy_save (k : Records α) (x : α) (h : ∃ b, k.text x = some b) :
    (k.save toyPlace [] x).1 = .ok () := by
  have hr : toyPlace.resolve (k.hash x).str ≠ [] := by
    have := resolve_child toyPlace [] (k.hash x).str_proper
    simp only [joinText, if_true] at this
    rw [this]
    simp
  exact (C139_save_succeeds_iff k toyPlace empty_sound _).1.mpr
    ⟨h, by simp [Disk.at?, hr], by intro j hj c; simp [Disk.at?]⟩

/-- C139: an entry is saved, replaced by another one with the same hash, and a third one is saved and
deleted: the second one is there, the third one is not, and all calls succeed. -/
example : ∃ e₁ e₂ e₃ : TrEntry, e₁ ≠ e₂ ∧ e₁.hash = e₂.hash ∧
    entryRecords.retrieve toyPlace (runRecords entryRecords toyPlace []
      [.save e₁, .save e₃, .save e₂, .delete e₃]).2 e₂.hash = .ok e₂ ∧
    ∃ m, entryRecords.retrieve toyPlace (runRecords entryRecords toyPlace []
      [.save e₁, .save e₃, .save e₂, .delete e₃]).2 e₃.hash = .err m := by
  refine ⟨⟨toyHash 1, ascii "rent", [toyHash 2], [], 0⟩, ⟨toyHash 1, ascii "food", [toyHash 3], [], 0⟩,
    ⟨toyHash 4, ascii "salt", [toyHash 5], [], 0⟩, by decide +kernel, rfl, ?_, ?_⟩
  · exact (C139_entry_comes_back toyPlace (d := []) empty_sound _ _ _
      (C88_entry_exact.mpr ⟨rfl, rfl, by decide, rfl, by simp, rfl, rfl⟩)
      (utf8_ascii_of (by decide)) (utf8_ascii_of (by decide)) (by decide +kernel)).1
  · exact (C139_nothing_else entryRecords toyPlace (d := []) empty_sound _ _).1
      (by decide +kernel)

/-- C139: a statement, a bill of a wallet and a cancel are saved and come back. -/
example : (∃ s : TrStatement, s.incoming = some [toyHash 2] ∧
      statementRecords.retrieve toyPlace (runRecords statementRecords toyPlace [] [.save s]).2 s.hash =
        .ok s) ∧
    (∃ b b' : TrWalletBill, b.pks = [toySc 3] ∧
      walletBillRecords.retrieve toyPlace (runRecords walletBillRecords toyPlace [] [.save b]).2 b.hash =
        .ok b' ∧ b'.pks.map toyCurve.val = b.pks.map toyCurve.val) ∧
    (∃ c c' : TrCancel, c.signatures ≠ [] ∧
      cancelRecords.retrieve toyPlace (runRecords cancelRecords toyPlace [] [.save c]).2 c.hash =
        .ok c' ∧ c'.lock = c.lock) := by
  refine ⟨⟨⟨toyHash 1, some [toyHash 2], none, 0⟩, rfl, ?_⟩, ?_, ?_⟩
  · exact (C139_statement_comes_back toyPlace (d := []) empty_sound _ _ _
      (h' := some (toyHash 1)) (i := some [toyHash 2]) (o := none) (t := 0) rfl (by decide +kernel)).1
  · obtain ⟨x, hx⟩ : ∃ x : TrWalletBill, x = ⟨toyHash 1, toyHash 2, [toySc 3], 0⟩ := ⟨_, rfl⟩
    have hb : trWalletBillNow (some (toyHash 1)) (some (toyHash 2)) (some [toySc 3]) 0 = .ok x := by
      rw [hx]; rfl
    have hk := toy_save walletBillRecords x
      ((C139_written_iff.2.2.1 _).mpr (by rw [hx]; exact (by decide : Dated 0)))
    obtain ⟨b', h1, -, -, -, h2, -⟩ := C139_wallet_bill_comes_back toyPlace (d := []) empty_sound
      [.save x] x.hash _ hb (lastRecord_single hk)
    exact ⟨x, b', by rw [hx], h1, h2⟩
  · obtain ⟨l, sig, -, -⟩ := toy_openable
    obtain ⟨x, hx⟩ : ∃ x : TrCancel, x = ⟨toyHash 1, toyHash 2, toyHash 3, [sig], 0⟩ := ⟨_, rfl⟩
    have hc : trCancelNow (some (toyHash 1)) (some (toyHash 2)) (some (toyHash 3)) (some [sig]) 0 =
        .ok x := by rw [hx]; rfl
    have hk := toy_save cancelRecords x
      ((C139_written_iff.2.2.2 _).mpr (by rw [hx]; exact (by decide : Dated 0)))
    exact ⟨x, _, by rw [hx]; simp, C139_cancel_comes_back toyPlace (d := []) empty_sound
      [.save x] x.hash _ hc (lastRecord_single hk), rfl⟩

end examples

end Verif
