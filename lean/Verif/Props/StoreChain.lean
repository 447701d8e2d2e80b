import Verif.Props.Store

/-!
# Persistence: C36 – C42, C78, C79
-/

namespace Verif

section
variable [Sha512] [C : Curve]

/-! ## C36 -/

/-- C36: once a genesis is retrievable, after any sequence of operations with any faults it still is,
unchanged, and every further save of a genesis writes nothing and returns an error. -/
theorem C36_genesis_written_once {σ σ' : Store} {g : Genesis} (hg : retrGenesis σ = .ok g)
    (h : Later σ σ') : retrGenesis σ' = .ok g ∧
      ∀ g' r σ'', Run (saveGenesis g') σ' r σ'' → σ'' = σ' ∧ (r = none ∨ ∃ m, r = some (.err m)) := by
  have hg' := (C32_histories_never_damage h).genesis g hg
  refine ⟨hg', fun g' r σ'' hr => ?_⟩
  have := hr.quiet (by simp only [saveGenesis, Prog.Quiet, hg'])
  simp only [saveGenesis, Prog.exec, hg'] at this
  exact ⟨this.1, this.2.imp id fun h => ⟨_, h⟩⟩

omit [Sha512] C in
/-- First one program, then the other. -/
theorem Interleaved.sequential {α β : Type} : ∀ (p : Prog α) (q : Prog β) (σ : Store),
    Interleaved p q σ (p.exec σ).1 (q.exec (p.exec σ).2).1 (q.exec (p.exec σ).2).2 := by
  intro p q
  induction p with
  | ret a =>
    induction q with
    | ret b => intro σ; exact .done a b σ
    | look f ih => intro σ; exact .lookR (ih σ σ)
    | write d t k ih => intro σ; exact .writeR (ih true (d σ))
  | look f ih => intro σ; exact .lookL (ih σ σ)
  | write d t k ih => intro σ; exact .writeL (ih true (d σ))

variable {W : World} {e : Time → Time}

/-- C36: two saves at the same time: on every store of a history without retrievable genesis, both
saves can return nil, and in the end the second genesis is stored, whatever the first one was. -/
theorem C36_concurrent_saves_neg (G : W.Good e) {σ : Store} (H : History W σ)
    (hn : ∃ m, retrGenesis σ = .err m) {g₁ g₂ : Genesis} (h₁ : W.genesis g₁) (h₂ : W.genesis g₂) :
    ∃ σ' y, Interleaved (saveGenesis g₁) (saveGenesis g₂) σ (.ok ()) (.ok ()) σ' ∧
      retrGenesis σ' = .ok y ∧ y.timed e = g₂.timed e := by
  obtain ⟨m, hm⟩ := hn
  have e₁ := saveGenesis_exec G (H.honest G) h₁ ⟨m, hm⟩
  have H₁ : Honest W ((saveGenesis g₁).exec σ).2 := (saveGenesis_honest G (H.honest G) h₁).exec.1
  generalize hσ₁ : ((saveGenesis g₁).exec σ).2 = σ₁ at H₁
  obtain ⟨tr, js, ht, hj, hf⟩ : ∃ tr js, g₂.toTransfer = .ok tr ∧ tr.toJSON = .ok js ∧
      g₂.file = .ok js := by
    have hm := G.genesis_marshals g₂ h₂
    obtain ⟨-, base, incr, link, b, t, h⟩ := G.genesis_built g₂ h₂
    obtain ⟨b, rfl, h1, h2, h3, rfl⟩ := genesisNow_eq_ok.mp h
    have ht : Genesis.toTransfer ⟨fromBytes (itoaU base ++ (fmtF12 incr ++ (itoaU link ++
      b.hash.bytes))), b, base, incr, link, t⟩ = .ok _ := trGenesisNow_eq_ok.mpr ⟨h1, h2, h3, rfl⟩
    have hj : TrGenesis.toJSON ⟨fromBytes (itoaU base ++ (fmtF12 incr ++ (itoaU link ++
      b.hash.bytes))), b.hash, base, incr, link, t⟩ = .ok _ := if_pos hm
    exact ⟨_, _, ht, hj, by simp only [Genesis.file, ht, Outcome.bind_ok, hj]⟩
  have e₂ := saveBill_exec G H₁ (G.genesis_bill g₂ h₂)
  have f₂ := (saveBill_honest G H₁ (G.genesis_bill g₂ h₂)).exec.2 () e₂
  generalize hσ₂ : ((saveBill g₂.bill).exec σ₁).2 = σ₂ at f₂
  have key : Interleaved (saveGenesis g₁) (saveGenesis g₂) σ (.ok ()) (.ok ())
      { σ₂ with genesis := some (.json js) } := by
    refine Interleaved.lookR ?_
    simp only [hm]
    have hq : ((saveBill g₂.bill).bind fun _ => (Prog.lift g₂.toTransfer).bind fun tr =>
        (Prog.lift tr.toJSON).bind fun js => Prog.save
          (fun σ => { σ with genesis := some (.json js) })
          (fun σ => { σ with genesis := some .torn })).exec σ₁ =
        (.ok (), { σ₂ with genesis := some (.json js) }) := by
      rw [exec_bind_ok e₂, hσ₂, ht]
      simp only [Prog.lift, Prog.bind, hj]
      rfl
    have := Interleaved.sequential (saveGenesis g₁) ((saveBill g₂.bill).bind fun _ =>
      (Prog.lift g₂.toTransfer).bind fun tr => (Prog.lift tr.toJSON).bind fun js =>
        Prog.save (fun σ => { σ with genesis := some (.json js) })
          (fun σ => { σ with genesis := some .torn })) σ
    rw [hσ₁, hq, e₁] at this
    exact this
  have hfetch : Fetch False (retrGenesis { σ₂ with genesis := some (.json js) }) (Genesis.timed e)
      (g₂.timed e) := retrGenesis_file (G.genesis_built g₂ h₂) hf rfl f₂
  obtain ⟨y, hy, hy'⟩ := hfetch.exists
  exact ⟨_, y, key, hy, hy'⟩

/-! ## C37 -/

/-- C37: in every history of operations with any faults, what is retrieved by a hash has that hash;
for blocks and what contains them, when there is one genesis. -/
theorem C37_honest_hash_partial (G : W.Good e) {σ : Store} (H : History W σ) (h : Hash) :
    (∀ x, retrLock σ h = .ok x → x.hash = h) ∧ (∀ x, retrBill σ h = .ok x → x.hash = h) ∧
    (∀ x, retrExpense σ h = .ok x → x.hash = h) ∧ (∀ x, retrTrx σ h = .ok x → x.hash = h) ∧
    (W.OneGenesis e → (∀ x, retrBlock σ h = .ok x → x.hash = h) ∧
      (∀ x, retrMinedBlock σ h = .ok x → x.hash = h) ∧ (∀ x, retrLink σ h = .ok x → x.hash = h) ∧
      (∀ x, retrMinedLink σ h = .ok x → x.hash = h)) := by
  have S := H.honest G
  have hc {α β : Type} {c : Option (Cell α)} {f : α → Outcome β} {x : β}
      (hx : (readCell c >>= f) = .ok x) : ∃ js, c = some (.json js) := by
    obtain ⟨js, hjs, -⟩ := Outcome.bind_eq_ok.mp hx
    exact ⟨js, readCell_eq_ok.mp hjs⟩
  have hx {α β : Type} {o : Outcome α} {n : α → β} {z : β} {x : α} (hf : Fetch True o n z)
      (hx : o = .ok x) : n x = z := by
    obtain ⟨y, hy, hz⟩ := (hf.found hx).exists
    rw [hx] at hy
    cases hy
    exact hz
  refine ⟨fun x he => ?_, fun x he => ?_, fun x he => ?_, fun x he => ?_, fun O =>
    ⟨fun x he => ?_, fun x he => ?_, fun x he => ?_, fun x he => ?_⟩⟩ <;> obtain ⟨js, hjs⟩ := hc he
  · obtain ⟨y, hy, hp, -⟩ := S.locks _ _ hjs
    cases Hash.str_injective hp
    exact (congrArg Lock.hash (hx (S.lock G hy) he) :)
  · obtain ⟨y, hy, hp, -⟩ := S.bills _ _ hjs
    cases Hash.str_injective hp
    exact (congrArg Bill.hash (hx (S.bill G hy) he) :)
  · obtain ⟨y, hy, hp, -⟩ := S.expenses _ _ hjs
    cases Hash.str_injective hp
    exact (congrArg Expense.hash (hx (S.expense G hy) he) :)
  · obtain ⟨y, hy, hp, -⟩ := S.trxs _ _ hjs
    cases Hash.str_injective hp
    exact (congrArg Transaction.hash (hx (S.trx G hy) he) :)
  · obtain ⟨y, hy, hp, -⟩ := S.blocks _ _ hjs
    cases Hash.str_injective hp
    exact (congrArg Block.hash (hx (S.block G O hy) he) :)
  · obtain ⟨y, hy, hp, -⟩ := S.minedBlocks _ _ hjs
    cases Hash.str_injective hp
    exact (congrArg MinedBlock.hash (hx (S.minedBlock G O hy) he) :)
  · obtain ⟨y, hy, hp, -⟩ := S.links _ _ hjs
    cases Hash.str_injective hp
    exact (congrArg Link.hash (hx (S.link G O hy) he) :)
  · obtain ⟨y, hy, hp, -⟩ := S.minedLinks _ _ hjs
    cases Hash.str_injective hp
    exact (congrArg MinedLink.hash (hx (S.minedLink G O hy) he) :)

omit [Sha512] C in
/-- The directory with the file `p` copied over the file `q`. -/
def copyFile {α : Type} (d : Bytes → Option (Cell α)) (p q : Bytes) : Bytes → Option (Cell α) :=
  fun r => if r = q then d p else d r

/-- C37: the hash of what was retrieved is not compared with the hash asked for: when the file of one
object is copied over the file name of another hash, the retrieval of that other hash returns the
first object. Kind by kind. -/
theorem C37_copied_file_neg (σ : Store) (h h' : Hash) (hne : h ≠ h') :
    (∀ x, retrLock σ h' = .ok x → x.hash = h' →
      ∃ σ', σ' = { σ with locks := copyFile σ.locks h'.str h.str } ∧
        retrLock σ' h = .ok x ∧ x.hash ≠ h) ∧
    (∀ x, retrBill σ h' = .ok x → x.hash = h' →
      ∃ σ', σ' = { σ with bills := copyFile σ.bills h'.str h.str } ∧
        retrBill σ' h = .ok x ∧ x.hash ≠ h) ∧
    (∀ x, retrExpense σ h' = .ok x → x.hash = h' →
      ∃ σ', σ' = { σ with expenses := copyFile σ.expenses h'.str h.str } ∧
        retrExpense σ' h = .ok x ∧ x.hash ≠ h) ∧
    (∀ x, retrTrx σ h' = .ok x → x.hash = h' →
      ∃ σ', σ' = { σ with trxs := copyFile σ.trxs h'.str h.str } ∧
        retrTrx σ' h = .ok x ∧ x.hash ≠ h) ∧
    (∀ x, retrBlock σ h' = .ok x → x.hash = h' →
      ∃ σ', σ' = { σ with blocks := copyFile σ.blocks h'.str h.str } ∧
        retrBlock σ' h = .ok x ∧ x.hash ≠ h) ∧
    (∀ x, retrMinedBlock σ h' = .ok x → x.hash = h' →
      ∃ σ', σ' = { σ with minedBlocks := copyFile σ.minedBlocks h'.str h.str } ∧
        retrMinedBlock σ' h = .ok x ∧ x.hash ≠ h) ∧
    (∀ x, retrLink σ h' = .ok x → x.hash = h' →
      ∃ σ', σ' = { σ with links := copyFile σ.links h'.str h.str } ∧
        retrLink σ' h = .ok x ∧ x.hash ≠ h) ∧
    (∀ x, retrMinedLink σ h' = .ok x → x.hash = h' →
      ∃ σ', σ' = { σ with minedLinks := copyFile σ.minedLinks h'.str h.str } ∧
        retrMinedLink σ' h = .ok x ∧ x.hash ≠ h) := by
  have hc {α : Type} (d : Bytes → Option (Cell α)) : copyFile d h'.str h.str h.str = d h'.str := by
    simp [copyFile]
  refine ⟨?_, ?_, ?_, ?_, ?_, ?_, ?_, ?_⟩ <;>
    refine fun x hx hxh => ⟨_, rfl, ?_, fun h0 => hne (h0.symm.trans hxh)⟩
  · unfold retrLock at hx ⊢; simp only [hc]; exact hx
  · unfold retrBill at hx ⊢; simp only [hc]; exact hx
  · unfold retrExpense at hx ⊢; simp only [hc]; exact hx
  · unfold retrTrx at hx ⊢; simp only [hc]; exact hx
  · unfold retrBlock at hx ⊢; simp only [hc]; exact hx
  · unfold retrMinedBlock at hx ⊢; simp only [hc]; exact hx
  · unfold retrLink at hx ⊢; simp only [hc]; exact hx
  · unfold retrMinedLink at hx ⊢; simp only [hc]; exact hx

/-- The file of a block after a save that found nothing, and its transactions. -/
theorem saveBlock_file (G : W.Good e) {σ : Store} (H : Honest W σ) {x : Block} (hx : W.block x)
    (hn : ∃ m, retrBlock σ x.hash = .err m) :
    Spec (saveBlock x) σ (fun _ => True) (fun _ σ' => (∃ js, σ'.blocks x.hash.str = some (.json js) ∧
      x.file = .ok js) ∧ ∀ t ∈ x.trx,
        Fetch False (retrTrx σ' t.hash) (Transaction.timed e) (t.reduced.timed e)) := by
  obtain ⟨m, hn⟩ := hn
  refine Spec.unlessFound trivial (fun _ h => by simp [hn] at h) fun _ => ?_
  refine Spec.bind ((forEach_honest (I := Honest W) (D := fun (b : Transaction) σ' =>
    Fetch False (retrTrx σ' b.hash) (Transaction.timed e) (b.reduced.timed e)) saveTrx_keep
    (fun _ _ _ k h => h.mapStore fun _ => k.retrTrx) (fun b hb σ H =>
    saveTrx_honest G H (G.block_trx x hx b hb)) H).mono (fun _ _ => trivial) fun _ _ _ h => h)
    fun _ σ₁ _ hs => ?_
  refine Spec.lift trivial fun tr htr => ?_
  have hf : x.file = .ok tr.toJSON := by simp [Block.file, htr]
  have hh : tr.hash = x.hash := by
    obtain ⟨t, ht1, ht2⟩ := Outcome.bind_eq_ok.mp htr
    obtain ⟨-, rfl⟩ := trBlockNow_eq_ok.mp ht2
    rfl
  exact Spec.save trivial trivial trivial ⟨⟨_, by simp [hh], hf⟩, hs⟩

/-- C37: also without tampering: a block of another genesis than the stored one is saved without
error, and retrieving it by its hash returns a block with the stored genesis, which has another hash
(or shows a collision of SHA-512). -/
theorem C37_other_genesis_neg (G : W.Good e) {σ : Store} (H : History W σ) {b : Block}
    (hb : W.block b) (hc : σ.blocks b.hash.str = none) {g : Genesis} (hg : retrGenesis σ = .ok g)
    (hne : g.hash ≠ b.genesis.hash) : ∃ σ' y, (saveBlock b).exec σ = (.ok (), σ') ∧
      retrBlock σ' b.hash = .ok y ∧ y.genesis = g ∧
      (y.hash ≠ b.hash ∨ ShaCollision
        (g.hash.bytes ++ (itoaU y.additional ++ hashesBytes (y.trx.map Transaction.hash)))
        (b.genesis.hash.bytes ++
          (itoaU b.additional ++ hashesBytes (b.trx.map Transaction.hash)))) := by
  have hn : retrBlock σ b.hash = .err "no such file or directory" := by simp [retrBlock, hc, readCell]
  have he := saveBlock_exec' G (H.honest G) hb (by simp [hn])
  have hs := (saveBlock_file G (H.honest G) hb ⟨_, hn⟩).exec.2 () he
  have hg' := ((saveBlock_keep b σ).exec.1).retrGenesis hg
  generalize hσ' : ((saveBlock b).exec σ).2 = σ' at hs hg'
  obtain ⟨⟨js, hjs, hf⟩, ht⟩ := hs
  obtain ⟨y, hy, hyg⟩ : ∃ y, retrBlock σ' b.hash = .ok y ∧ y.genesis = g ∧
      ∃ x t, blockNow (some g) b.additional (some x) t = .ok y := by
    obtain ⟨t, htr, h0, rfl⟩ := block_file_eq hf
    obtain ⟨c, hc1, rfl, -, -, hc2⟩ := C09_compact_round_trip htr
    have hb' : trBlockNow b.hash t (UInt64.ofNat b.trx.length) b.additional b.createdOn =
        .ok ⟨b.hash, t, UInt64.ofNat b.trx.length, b.additional, b.createdOn⟩ :=
      trBlockNow_eq_ok.mpr ⟨h0, rfl⟩
    obtain ⟨x, hx, hx'⟩ := (Fetch.mapO (k := Transaction.hash) ht).exists
    have hxne : x ≠ [] := by
      rintro rfl
      have : b.trx = [] := by simpa using hx'.symm
      rw [this] at h0
      simp at h0
    have hbn := blockNow_eq_ok (t := b.createdOn) (n := b.additional).mpr ⟨g, x, rfl, rfl, hxne, rfl⟩
    refine ⟨_, ?_, ?_, x, _, hbn⟩
    · simp only [retrBlock, hjs, readCell, Outcome.bind_ok, trBlockFromJSON, fromString_str,
        Outcome.deref_some, hc1, hc2, hb', hg', takeLeaves_tree (G.block_length b hb) htr, hx, hbn]
    · rfl
  refine ⟨σ', y, Prod.ext he hσ', hy, hyg.1, ?_⟩
  obtain ⟨hyg, x, t, hbn⟩ := hyg
  obtain ⟨-, -, g', a', x', t', hb'⟩ := G.block_built b hb
  by_cases hh : y.hash = b.hash
  · rcases C44_block_hash_binds _ _ _ _ _ _ _ _ _ _ hbn hb' hh with h | h
    · exact absurd (hyg ▸ h.1) hne
    · exact .inr (hyg ▸ h)
  · exact .inl hh

/-! ## C38 -/

/-- C38: no retrieval ever returns a transaction with an address. -/
theorem C38_retrieved_without_address_neg (σ : Store) (h : Hash) (x : Transaction)
    (hx : retrTrx σ h = .ok x) : x.address = none := by
  simp only [retrTrx, Outcome.bind_eq_ok] at hx
  obtain ⟨_, -, _, -, _, -, hx⟩ := hx
  obtain ⟨-, rfl⟩ := trxNow_eq_ok.mp hx
  rfl

/-- C38: a transaction with only an address is never saved: unless a transaction is already stored
under its hash, every save leaves the store unchanged and does not return nil. -/
theorem C38_address_only_neg (x : Transaction) (hb : x.bucket = none) (hf : x.fees = []) {σ σ' : Store}
    {r : Option (Outcome Unit)} (hn : ∀ y, retrTrx σ x.hash ≠ .ok y)
    (h : Run (saveTrx x) σ r σ') : σ' = σ ∧ r ≠ some (.ok ()) := by
  have ht : ∃ m, x.toTransfer = .err m := by
    simp [Transaction.toTransfer, trTransactionNow, hb, hf]
  obtain ⟨m, ht⟩ := ht
  have hq : (saveTrx x).Quiet σ := by
    simp only [saveTrx, unlessFound, Prog.Quiet]
    cases hr : retrTrx σ x.hash with
    | ok y => exact absurd hr (hn y)
    | err m => simp [hf, Prog.forEach, Prog.bind, Prog.lift, ht, Prog.Quiet]
    | crash c => trivial
  obtain ⟨h1, h2⟩ := h.quiet hq
  refine ⟨h1, ?_⟩
  rcases h2 with h2 | h2
  · simp [h2]
  · rw [h2]
    simp only [saveTrx, unlessFound, Prog.exec]
    cases hr : retrTrx σ x.hash with
    | ok y => exact absurd hr (hn y)
    | err m => simp [hf, Prog.forEach, Prog.bind, Prog.lift, ht, Prog.exec]
    | crash c => simp [Prog.exec]

/-- The file of a transaction after a save that found nothing, and its fees. -/
theorem saveTrx_file (G : W.Good e) {σ : Store} (H : Honest W σ) {x : Transaction}
    (hx : ∀ f ∈ x.fees, W.expense f) (hn : ∃ m, retrTrx σ x.hash = .err m) :
    Spec (saveTrx x) σ (fun _ => True) (fun _ σ' => (∃ js, σ'.trxs x.hash.str = some (.json js) ∧
      x.file = .ok js) ∧ ∀ t ∈ x.fees,
        Fetch False (retrExpense σ' t.hash) (Expense.timed e) (t.reduced.timed e)) := by
  obtain ⟨m, hn⟩ := hn
  refine Spec.unlessFound trivial (fun _ h => by simp [hn] at h) fun _ => ?_
  refine Spec.bind ((forEach_honest (I := Honest W) (D := fun (b : Expense) σ' =>
    Fetch False (retrExpense σ' b.hash) (Expense.timed e) (b.reduced.timed e)) saveExpense_keep
    (fun _ _ _ k h => h.mapStore fun _ => k.retrExpense) (fun b hb σ H =>
    saveExpense_honest G H (hx b hb)) H).mono (fun _ _ => trivial) fun _ _ _ h => h)
    fun _ σ₁ _ hs => ?_
  refine Spec.lift trivial fun tr htr => ?_
  have hf : x.file = .ok tr.toJSON := by simp [Transaction.file, htr]
  obtain ⟨-, rfl⟩ := trTransactionNow_eq_ok.mp htr
  exact Spec.save trivial trivial trivial ⟨⟨_, by simp, hf⟩, hs⟩

/-- C38: a transaction with an address and also a bucket or fees is saved without error, and
retrieving it by its hash returns a transaction without address, whose hash is computed without the
address: it is another hash, or it shows a collision of SHA-512. -/
theorem C38_address_dropped_neg (G : W.Good e) {σ : Store} (H : History W σ) {x : Transaction}
    (hxb : x.Built) (hfees : ∀ f ∈ x.fees, W.expense f) {a : Address} (ha : x.address = some a)
    (hne : x.bucket ≠ none ∨ x.fees ≠ []) (hc : σ.trxs x.hash.str = none) :
    ∃ σ' y, (saveTrx x).exec σ = (.ok (), σ') ∧ retrTrx σ' x.hash = .ok y ∧ y.address = none ∧
      y.bucket = x.bucket ∧ y.fees.map (Expense.timed e) = x.fees.map (fun f => f.reduced.timed e) ∧
      y.hash = fromBytes (hashesBytes (x.bucket.toList ++ x.fees.map Expense.hash)) ∧
      x.hash = fromBytes (hashesBytes (a.hash :: (x.bucket.toList ++ x.fees.map Expense.hash))) := by
  have hn : retrTrx σ x.hash = .err "no such file or directory" := by simp [retrTrx, hc, readCell]
  have hlist : x.bucket.toList ++ x.fees.map Expense.hash ≠ [] := by
    intro h0
    rw [List.append_eq_nil_iff] at h0
    rcases hne with h | h
    · exact h (by simpa using h0.1)
    · exact h (by simpa using h0.2)
  have htt : x.toTransfer = .ok ⟨x.hash, none, x.bucket, x.fees.map Expense.hash, x.createdOn⟩ :=
    trTransactionNow_eq_ok.mpr ⟨by simpa using hlist, rfl⟩
  have he : ((saveTrx x).exec σ).1 = .ok () := by
    refine exec_unlessFound (by simp [hn]) ?_
    obtain ⟨h1, H1⟩ := exec_forEach (f := saveExpense) (xs := x.fees) (fun b h σ H =>
      ⟨saveExpense_exec G H (hfees b h), (saveExpense_honest G H (hfees b h)).exec.1⟩) (H.honest G)
    rw [exec_bind_ok h1, htt]
    rfl
  have hs := (saveTrx_file G (H.honest G) hfees ⟨_, hn⟩).exec.2 () he
  generalize hσ' : ((saveTrx x).exec σ).2 = σ' at hs
  obtain ⟨⟨js, hjs, hf⟩, ht⟩ := hs
  rw [trx_file_eq hf] at hjs
  obtain ⟨fees, hfx, hfx'⟩ := (Fetch.mapO (k := Expense.hash) ht).exists
  have hfh : fees.map Expense.hash = x.fees.map Expense.hash := by
    have := congrArg (List.map Expense.hash) hfx'
    simpa [Function.comp_def, Expense.timed, Expense.reduced] using this
  have hnow := trxNow_eq_ok (a := none) (b := x.bucket) (f := fees) (t := x.createdOn).mpr
    ⟨by simpa [hfh] using hlist, rfl⟩
  have htr : trTransactionNow x.hash none x.bucket (x.fees.map Expense.hash) x.createdOn = .ok _ := htt
  have hnone : optFromString (optStr none) = .ok none := optFromString_optStr none
  refine ⟨σ', ⟨fromBytes (hashesBytes (x.bucket.toList ++ x.fees.map Expense.hash)), none, x.bucket,
    fees, x.createdOn⟩, Prod.ext he hσ', ?_⟩
  · refine ⟨?_, rfl, rfl, hfx', rfl, ?_⟩
    · simp only [retrTrx, hjs, readCell, Outcome.bind_ok, trTransactionFromJSON, fromString_str,
        mapO_fromString, optFromString_optStr, hnone, htr, hfx, hnow]
      simp [hfh]
    · obtain ⟨-, -, a', b', f', t', h'⟩ := hxb
      obtain ⟨-, rfl⟩ := trxNow_eq_ok.mp h'
      simp only at ha
      subst ha
      rfl

/-! ## C39 -/

/-- C39: when the chain file names the stored genesis, the chain cannot be retrieved. -/
theorem C39_own_genesis_rejected_neg {σ : Store} {js : JTrChain} {g : Genesis}
    (hc : σ.chain = some (.json js)) (hg : retrGenesis σ = .ok g) (h : js.genesis = g.hash.str)
    (c : Chain) : retrChain σ ≠ .ok c := by
  intro hr
  simp only [retrChain, hc, readCell, Outcome.bind_ok, hg, Outcome.bind_eq_ok, trChainFromJSON, h,
    fromString_str] at hr
  obtain ⟨tr, ⟨_, -, _, -, _, -, htr⟩, u, hu, -⟩ := hr
  obtain ⟨-, rfl⟩ := trChainNow_eq_ok.mp htr
  simp [Hash.compare, Outcome.guardNot] at hu

/-- C39: after every insert of a chain that found no chain and returned nil, under all fault
schedules, the chain cannot be retrieved. -/
theorem C39_inserted_chain_lost_neg (G : W.Good e) {σ σ' : Store} (H : History W σ) {c : Chain}
    (hc : (Op.insert c).In W) (hn : ∀ y, retrChain σ ≠ .ok y)
    (h : Run (insertChain c) σ (some (.ok ())) σ') : ∀ y, retrChain σ' ≠ .ok y := by
  have key : Spec (insertChain c) σ (Honest W) (fun _ σ' =>
      (∃ js, σ'.chain = some (.json js) ∧ js.genesis = c.genesis.hash.str) ∧
      Fetch False (retrGenesis σ') (Genesis.timed e) (c.genesis.timed e)) := by
    have hD : ∀ {σ₁ σ₂ : Store}, Keep σ₁ σ₂ →
        Fetch False (retrGenesis σ₁) (Genesis.timed e) (c.genesis.timed e) →
        Fetch False (retrGenesis σ₂) (Genesis.timed e) (c.genesis.timed e) :=
      fun k h => h.mapStore fun _ => k.retrGenesis
    refine Spec.unlessFound (H.honest G) (fun y hy => absurd hy (hn y)) fun _ => ?_
    refine Spec.bind (saveGenesis_honest G (H.honest G) hc.1) fun _ σ₁ H₁ hg => ?_
    refine Spec.bind ((saveMinedBlock_stays G H₁ hc.2.1).carry (saveMinedBlock_keep _ _)
      fun σ' k => hD k hg) fun _ σ₂ H₂ hg => ?_
    refine Spec.bind ((saveMinedLink_stays G H₂ hc.2.2).carry (saveMinedLink_keep _ _)
      fun σ' k => hD k hg.2) fun _ σ₃ H₃ hg => ?_
    refine Spec.lift H₃ fun tr htr => ?_
    obtain ⟨-, rfl⟩ := trChainNow_eq_ok.mp htr
    exact Spec.save H₃ { H₃ with } { H₃ with } ⟨⟨_, rfl, rfl⟩, hD ⟨fun _ _ _ => rfl, fun _ _ _ => rfl,
      fun _ _ _ => rfl, fun _ _ => rfl, fun _ _ _ => rfl, fun _ _ _ => rfl, fun _ _ _ => rfl,
      fun _ _ _ => rfl, fun _ _ _ => rfl⟩ hg.2⟩
  obtain ⟨⟨js, h1, h2⟩, hg⟩ := (key _ _ h).2 () rfl
  obtain ⟨g, hg, hg'⟩ := hg.exists
  have hh : g.hash = c.genesis.hash := (congrArg Genesis.hash hg' :)
  exact C39_own_genesis_rejected_neg h1 hg (h2.trans (by rw [hh]))

/-- C39: what a successful retrieval returns: a chain with the stored genesis although the chain file
names another one. -/
theorem C39_retrieved_genesis_differs_neg {σ : Store} {c : Chain} (h : retrChain σ = .ok c) :
    ∃ js, σ.chain = some (.json js) ∧ retrGenesis σ = .ok c.genesis ∧
      fromString js.genesis ≠ .ok c.genesis.hash := by
  have h0 := h
  simp only [retrChain, Outcome.bind_eq_ok] at h
  obtain ⟨js, h1, tr, h2, g, h3, u, h4, r, h5, d, h6, h7⟩ := h
  obtain ⟨_, _, _, e1, e2, e3, -, rfl⟩ := chainNow_eq_ok.mp h7
  cases e1
  refine ⟨js, readCell_eq_ok.mp h1, h3, fun hj => ?_⟩
  simp only [trChainFromJSON, hj, Outcome.bind_ok, Outcome.bind_eq_ok] at h2
  obtain ⟨_, -, _, -, _, -, htr⟩ := h2
  obtain ⟨-, rfl⟩ := trChainNow_eq_ok.mp htr
  simp [Hash.compare, Outcome.guardNot] at h4

/-! ## C40 -/

/-- C40: an update of a chain that shares its genesis or its root with the original writes nothing
and is an error; an update that returns nil shares neither. -/
theorem C40_update_inverted_neg (original updated : Chain) (σ σ' : Store)
    (r : Option (Outcome Unit)) (h : Run (updateChain original updated) σ r σ') :
    ((original.genesis.hash = updated.genesis.hash ∨ original.root.hash = updated.root.hash) →
      σ' = σ ∧ (r = none ∨ ∃ m, r = some (.err m))) ∧
    (r = some (.ok ()) → original.genesis.hash ≠ updated.genesis.hash ∧
      original.root.hash ≠ updated.root.hash) := by
  have key : (original.genesis.hash = updated.genesis.hash ∨
      original.root.hash = updated.root.hash) → σ' = σ ∧ (r = none ∨ ∃ m, r = some (.err m)) := by
    intro hs
    have hq : (updateChain original updated).Quiet σ ∧
        ∃ m, ((updateChain original updated).exec σ).1 = .err m := by
      by_cases h1 : original.genesis.hash = updated.genesis.hash
      · have h1' : original.genesis.hash.compare updated.genesis.hash = true := Hash.compare_iff.mpr h1
        simp [updateChain, Prog.lift, h1', Outcome.guardNot, Prog.bind, Prog.Quiet, Prog.exec]
      · have h2 := hs.resolve_left h1
        have h1' : original.genesis.hash.compare updated.genesis.hash = false :=
          Hash.compare_false_iff.mpr h1
        have h2' : original.root.hash.compare updated.root.hash = true := Hash.compare_iff.mpr h2
        simp [updateChain, Prog.lift, h1', h2', Outcome.guardNot, Prog.bind, Prog.Quiet, Prog.exec]
    obtain ⟨m, hm⟩ := hq.2
    obtain ⟨h1, h2⟩ := h.quiet hq.1
    exact ⟨h1, h2.imp id fun h => ⟨m, by rw [h, hm]⟩⟩
  refine ⟨key, fun hr => ⟨fun h1 => ?_, fun h1 => ?_⟩⟩
  · rcases (key (.inl h1)).2 with h | ⟨m, h⟩ <;> simp [h] at hr
  · rcases (key (.inr h1)).2 with h | ⟨m, h⟩ <;> simp [h] at hr

/-- The number of transactions of a chain of the world is at least one. -/
theorem chain_total_pos (G : W.Good e) {c : Chain} (hu : c.Built) (hr : W.minedBlock c.root)
    (hd : W.minedLink c.head) : 0 < c.total.toNat := by
  have l1 := G.block_length _ (G.minedBlock_block _ hr)
  have l2 := G.block_length _ (G.link_next _ (G.minedLink_link _ hd))
  have b1 : c.root.block.trx ≠ [] := by
    obtain ⟨-, -, g, a, f, t, h⟩ := G.block_built _ (G.minedBlock_block _ hr)
    obtain ⟨g, f, rfl, rfl, hne, h⟩ := blockNow_eq_ok.mp h
    rw [h]; exact hne
  obtain ⟨-, -, -, g, r, hd, n, t, h⟩ := hu
  obtain ⟨g, r, hd, rfl, rfl, rfl, hle, rfl⟩ := chainNow_eq_ok.mp h
  simp only at *
  have := List.length_pos_iff.mpr b1
  rw [Nat.mod_eq_of_lt (by omega)] at hle
  omega

/-- An update between chains of different genesis and root saves the updated chain. -/
theorem updateChain_eq {original updated : Chain}
    (hg : original.genesis.hash ≠ updated.genesis.hash)
    (hrt : original.root.hash ≠ updated.root.hash) :
    updateChain original updated = saveChain updated := by
  have h1 : original.genesis.hash.compare updated.genesis.hash = false :=
    Hash.compare_false_iff.mpr hg
  have h2 : original.root.hash.compare updated.root.hash = false := Hash.compare_false_iff.mpr hrt
  simp only [updateChain, Prog.lift, h1, h2, Outcome.guardNot_false, Prog.bind]

/-- C40: an update to a chain with another genesis and another root is stored. -/
theorem C40_unrelated_update_stored_neg (G : W.Good e) (O : W.OneGenesis e) {σ : Store}
    (H : History W σ) {original updated : Chain} (hu : updated.Built) (hr : W.minedBlock updated.root)
    (hd : W.minedLink updated.head)
    (hg : original.genesis.hash ≠ updated.genesis.hash)
    (hrt : original.root.hash ≠ updated.root.hash) :
    ∃ σ' js, (updateChain original updated).exec σ = (.ok (), σ') ∧
      σ'.chain = some (.json js) ∧ js.hash = updated.hash.str ∧
      js.genesis = updated.genesis.hash.str ∧ js.root = updated.root.hash.str ∧
      js.head = updated.head.hash.str := by
  have he := saveMinedLink_exec G O (H.honest G) hd
  have ht := chain_total_pos G hu hr hd
  refine ⟨{ ((saveMinedLink updated.head).exec σ).2 with
      chain := some (.json ⟨updated.hash.str, updated.genesis.hash.str, updated.root.hash.str,
        updated.head.hash.str, updated.total, updated.createdOn⟩) },
    ⟨updated.hash.str, updated.genesis.hash.str, updated.root.hash.str,
        updated.head.hash.str, updated.total, updated.createdOn⟩, ?_, rfl, rfl, rfl, rfl, rfl⟩
  rw [updateChain_eq hg hrt, saveChain, exec_bind_ok he]
  have : updated.toTransfer = .ok ⟨updated.hash, updated.genesis.hash, updated.root.hash,
    updated.head.hash, updated.total, updated.createdOn⟩ := trChainNow_eq_ok.mpr ⟨ht, rfl⟩
  rw [this]
  rfl

/-! ## C78 -/

omit [Sha512] C in
/-- Runs compose. -/
theorem Run.bind {α β : Type} {p : Prog α} {f : α → Prog β} {σ σ₁ σ' : Store} {a : α}
    {r : Option (Outcome β)} (h : Run p σ (some (.ok a)) σ₁) (h' : Run (f a) σ₁ r σ') :
    Run (p.bind f) σ r σ' := by
  generalize hr : some (Outcome.ok a) = r' at h
  induction h with
  | ret o σ => cases hr; exact h'
  | killed p σ => cases hr
  | look _ ih => exact .look (ih h' hr)
  | written _ ih => exact .written (ih h' hr)
  | failed _ ih => exact .failed (ih h' hr)
  | tornWrite _ ih => exact .tornWrite (ih h' hr)

omit [Sha512] C in
/-- A run that is killed in its first part. -/
theorem Run.bind_killed {α β : Type} {p : Prog α} {f : α → Prog β} {σ σ' : Store}
    (h : Run p σ none σ') : Run (p.bind f) σ none σ' := by
  generalize hr : (none : Option (Outcome α)) = r' at h
  induction h with
  | ret o σ => cases hr
  | killed p σ => exact .killed _ _
  | look _ ih => exact .look (ih hr)
  | written _ ih => exact .written (ih hr)
  | failed _ ih => exact .failed (ih hr)
  | tornWrite _ ih => exact .tornWrite (ih hr)

/-- C78: the update of the chain file is not atomic: every update that would be stored can be
interrupted so that afterwards no chain can be retrieved, whatever was stored before. -/
theorem C78_torn_update_loses_chain_neg (G : W.Good e) (O : W.OneGenesis e) {σ : Store}
    (H : History W σ) {original updated : Chain} (hu : updated.Built) (hr : W.minedBlock updated.root)
    (hd : W.minedLink updated.head)
    (hg : original.genesis.hash ≠ updated.genesis.hash)
    (hrt : original.root.hash ≠ updated.root.hash) :
    ∃ σ', Run (updateChain original updated) σ none σ' ∧ ∃ m, retrChain σ' = .err m := by
  have he := saveMinedLink_exec G O (H.honest G) hd
  have ht := chain_total_pos G hu hr hd
  have hr := Run.of_exec (saveMinedLink updated.head) σ
  rw [he] at hr
  refine ⟨{ ((saveMinedLink updated.head).exec σ).2 with chain := some .torn }, ?_, ?_⟩
  · rw [updateChain_eq hg hrt, saveChain]
    refine hr.bind ?_
    have : updated.toTransfer = .ok ⟨updated.hash, updated.genesis.hash, updated.root.hash,
      updated.head.hash, updated.total, updated.createdOn⟩ := trChainNow_eq_ok.mpr ⟨ht, rfl⟩
    rw [this]
    exact .tornWrite (.killed _ _)
  · exact ⟨_, rfl⟩

/-! ## C41 -/

/-- C41: saving a state never writes; it returns nil only when a state with at least as many
transactions is already stored. -/
theorem C41_states_never_saved_neg (s : State) (σ σ' : Store) (r : Option (Outcome Unit))
    (h : Run (saveState s) σ r σ') : σ' = σ ∧ (r = some (.ok ()) →
      ∃ y, retrState σ s.chain s.height = .ok y ∧ s.trx.length ≤ y.trx.length) := by
  obtain ⟨h1, h2⟩ := h.quiet (saveState_quiet s σ)
  refine ⟨h1, fun hr => ?_⟩
  rcases h2 with h2 | h2
  · simp [h2] at hr
  · rw [hr] at h2
    have hno : ∀ (k : TrState → Prog Unit) σ,
        (((Prog.lift s.toTransfer).bind k).exec σ).1 ≠ .ok () := by
      intro k σ
      cases ht : s.toTransfer with
      | ok tr => exact absurd ht (state_toTransfer s tr)
      | err m => simp [Prog.lift, Prog.bind, Prog.exec]
      | crash c => simp [Prog.lift, Prog.bind, Prog.exec]
    simp only [saveState, Prog.exec] at h2
    cases hx : retrState σ s.chain s.height with
    | ok y =>
      rw [hx] at h2
      simp only at h2
      split at h2
      · exact ⟨y, rfl, by assumption⟩
      · exact absurd (Option.some.inj h2).symm (hno _ σ)
    | err m => rw [hx] at h2; exact absurd (Option.some.inj h2).symm (hno _ σ)
    | crash c => rw [hx] at h2; simp [Prog.exec] at h2

theorem Later.states {σ σ' : Store} (h : Later σ σ') : σ'.states = σ.states := by
  induction h with
  | refl => rfl
  | step _ hr ih => exact ((op_frame _ _ _ _ hr).1.states (by omega)).trans ih

/-- C41: after any sequence of operations from the empty store no state can be retrieved, and no save
of a state ever returns nil. -/
theorem C41_no_state_ever_stored_neg {σ : Store} (h : Later .empty σ) :
    (∀ c n y, retrState σ c n ≠ .ok y) ∧
    ∀ s r σ', Run (saveState s) σ r σ' → σ' = σ ∧ r ≠ some (.ok ()) := by
  have hs : ∀ c n y, retrState σ c n ≠ .ok y := by
    intro c n y
    simp [retrState, h.states, Store.empty, readCell]
  refine ⟨hs, fun s r σ' hr => ?_⟩
  obtain ⟨h1, h2⟩ := C41_states_never_saved_neg s σ σ' r hr
  refine ⟨h1, fun hr => ?_⟩
  obtain ⟨y, hy, -⟩ := h2 hr
  exact hs _ _ _ hy

/-! ## C79 -/

theorem saveExpense_genesis (x : Expense) (σ : Store) :
    Spec (saveExpense x) σ (fun σ' => σ'.genesis = σ.genesis) (fun _ _ => True) := by
  have hb : ∀ (xs : List Bill) {σ₁ : Store}, σ₁.genesis = σ.genesis →
      Spec (Prog.forEach saveBill xs) σ₁ (fun σ' => σ'.genesis = σ.genesis) (fun _ _ => True) :=
    fun xs _ h => Spec.forEach_inv h fun x _ σ₂ h₂ => (saveBill_frame x σ₂).mono
      (fun _ f => (f.genesis (by omega)).trans h₂) fun _ _ _ h => h
  refine Spec.unlessFound rfl (fun _ _ => trivial) fun _ => ?_
  refine Spec.bind (hb _ rfl) fun _ σ₁ h _ => ?_
  refine Spec.bind ((saveBill_frame _ σ₁).mono (fun _ f => (f.genesis (by omega)).trans h)
    fun _ _ _ h => h) fun _ σ₂ h _ => ?_
  refine Spec.bind (hb _ h) fun _ σ₃ h _ => ?_
  exact Spec.lift h fun tr _ => Spec.save h h h trivial

theorem saveTrx_genesis (x : Transaction) (σ : Store) :
    Spec (saveTrx x) σ (fun σ' => σ'.genesis = σ.genesis) (fun _ _ => True) := by
  refine Spec.unlessFound rfl (fun _ _ => trivial) fun _ => ?_
  refine Spec.bind (Spec.forEach_inv rfl fun x _ σ₂ h₂ => (saveExpense_genesis x σ₂).mono
    (fun _ f => f.trans h₂) fun _ _ _ h => h) fun _ σ₁ h _ => ?_
  exact Spec.lift h fun tr _ => Spec.save h h h trivial

theorem saveBlock_genesis (x : Block) (σ : Store) :
    Spec (saveBlock x) σ (fun σ' => σ'.genesis = σ.genesis) (fun _ _ => True) := by
  refine Spec.unlessFound rfl (fun _ _ => trivial) fun _ => ?_
  refine Spec.bind (Spec.forEach_inv rfl fun x _ σ₂ h₂ => (saveTrx_genesis x σ₂).mono
    (fun _ f => f.trans h₂) fun _ _ _ h => h) fun _ σ₁ h _ => ?_
  exact Spec.lift h fun tr _ => Spec.save h h h trivial

/-- C79: as long as no genesis is stored, saving the same mined block twice is harmful: the first
save returns nil and leaves complete files of the mined block and of its block; the second save can
be interrupted so that the block file is torn while the file of the mined block is still complete. -/
theorem C79_resave_without_genesis_neg (G : W.Good e) (O : W.OneGenesis e) {σ : Store}
    (H : History W σ) (hg : σ.genesis = none) {x : MinedBlock} (hx : W.minedBlock x) :
    ∃ σ₁ σ₂, (saveMinedBlock x).exec σ = (.ok (), σ₁) ∧ Readable (σ₁.minedBlocks x.hash.str) ∧
      Readable (σ₁.blocks x.block.hash.str) ∧ Run (saveMinedBlock x) σ₁ none σ₂ ∧
      Readable (σ₂.minedBlocks x.hash.str) ∧ ¬ Readable (σ₂.blocks x.block.hash.str) := by
  have hxb := G.minedBlock_block x hx
  have noB : ∀ σ : Store, Honest W σ → σ.genesis = none → ∃ m, retrBlock σ x.block.hash = .err m := by
    intro σ H hg
    cases h : retrBlock σ x.block.hash with
    | err m => exact ⟨m, rfl⟩
    | crash c => exact absurd h ((H.block G O hxb).not_crash c)
    | ok y =>
      simp only [retrBlock, Outcome.bind_eq_ok] at h
      obtain ⟨_, -, _, -, g, h, -⟩ := h
      simp [retrGenesis, hg, readCell] at h
  have noM : ∀ σ : Store, Honest W σ → σ.genesis = none → ∃ m, retrMinedBlock σ x.hash = .err m := by
    intro σ H hg
    cases h : retrMinedBlock σ x.hash with
    | err m => exact ⟨m, rfl⟩
    | crash c => exact absurd h ((H.minedBlock G O hx).not_crash c)
    | ok y =>
      simp only [retrMinedBlock, retrBlock, Outcome.bind_eq_ok] at h
      obtain ⟨_, -, _, -, _, ⟨_, -, _, -, g, h, -⟩, -⟩ := h
      simp [retrGenesis, hg, readCell] at h
  have H₀ := H.honest G
  obtain ⟨m, hm⟩ := noM σ H₀ hg
  have e₁ := saveBlock_exec G O H₀ hxb
  have f₁ := (saveBlock_file G H₀ hxb (noB σ H₀ hg)).exec.2 () e₁
  have g₁ := (saveBlock_genesis x.block σ).exec.1
  have hex : (saveMinedBlock x).exec σ = (.ok (), { ((saveBlock x.block).exec σ).2 with
      minedBlocks := setFile ((saveBlock x.block).exec σ).2.minedBlocks x.hash.str
        (.json ⟨x.hash.str, x.block.hash.str, jsonText x.mining, x.createdOn⟩) }) := by
    simp only [saveMinedBlock, unlessFound, Prog.exec, hm]
    rw [exec_bind_ok e₁]
    rfl
  have H₁ := (saveMinedBlock_stays G H₀ hx).exec.1
  generalize ((saveBlock x.block).exec σ).2 = τ at f₁ g₁ hex
  rw [hex] at H₁
  generalize hσ₁ : ({ τ with
      minedBlocks := setFile τ.minedBlocks x.hash.str
        (.json ⟨x.hash.str, x.block.hash.str, jsonText x.mining, x.createdOn⟩) } : Store) = σ₁ at hex H₁
  have hg₁ : σ₁.genesis = none := by rw [← hσ₁]; exact g₁.trans hg
  have hb₁ : Readable (σ₁.blocks x.block.hash.str) := by
    rw [← hσ₁]; exact f₁.1.imp fun _ h => h.1
  have hm₁ : Readable (σ₁.minedBlocks x.hash.str) :=
    ⟨⟨x.hash.str, x.block.hash.str, jsonText x.mining, x.createdOn⟩, by rw [← hσ₁]; simp⟩
  obtain ⟨m', hm'⟩ := noM σ₁ H₁ hg₁
  obtain ⟨m'', hm''⟩ := noB σ₁ H₁ hg₁
  obtain ⟨ht, -⟩ := exec_forEach (f := saveTrx) (xs := x.block.trx) (fun b h σ H =>
    ⟨saveTrx_exec G H (G.block_trx _ hxb b h),
      (saveTrx_honest G H (G.block_trx _ hxb b h)).exec.1⟩) H₁
  have fr := (forEach_frame saveTrx_frame x.block.trx (Frame.refl 3 σ₁) (by omega)).exec.1
  have hrun := Run.of_exec (Prog.forEach saveTrx x.block.trx) σ₁
  rw [ht] at hrun
  generalize ((Prog.forEach saveTrx x.block.trx).exec σ₁).2 = υ at fr hrun
  obtain ⟨tr, htr⟩ := block_toTransfer (G.block_built _ hxb) (G.block_length _ hxb)
  have hh : tr.hash = x.block.hash := by
    obtain ⟨t, ht1, ht2⟩ := Outcome.bind_eq_ok.mp htr
    obtain ⟨-, rfl⟩ := trBlockNow_eq_ok.mp ht2
    rfl
  refine ⟨σ₁, { υ with blocks := setFile υ.blocks x.block.hash.str .torn }, hex, hm₁, hb₁, ?_, ?_, ?_⟩
  · refine .look ?_
    simp only [hm']
    have hsb : Run (saveBlock x.block) σ₁ none
        { υ with blocks := setFile υ.blocks x.block.hash.str .torn } := by
      refine .look ?_
      simp only [hm'']
      refine hrun.bind ?_
      rw [htr]
      exact hh ▸ .tornWrite (.killed _ _)
    exact hsb.bind_killed
  · simpa [fr.minedBlocks (by omega)] using hm₁
  · rintro ⟨a, h⟩
    simp at h

end

/-! ## C42 -/

/-- C42: heights 46 and 47 share their file, and so do all heights that are surrogates or beyond the
last code point, together with the height 65533. -/
theorem C42_heights_clash_neg (chain : Hash) :
    statePath chain 46 = statePath chain 47 ∧
    ∀ n m : UInt64, (0xD800 ≤ n.toNat ∧ n.toNat < 0xE000) ∨ 0x110000 ≤ n.toNat →
      (0xD800 ≤ m.toNat ∧ m.toNat < 0xE000) ∨ 0x110000 ≤ m.toNat →
      statePath chain n = statePath chain m ∧ statePath chain n = statePath chain 65533 := by
  refine ⟨by simp [statePath], fun n m hn hm => ?_⟩
  have key : ∀ n : UInt64, (0xD800 ≤ n.toNat ∧ n.toNat < 0xE000) ∨ 0x110000 ≤ n.toNat →
      statePath chain n = chain.str ++ 47 :: [0xEF, 0xBF, 0xBD] := by
    intro n hn
    have h1 : ¬ (n.toNat = 46 ∨ n.toNat = 47) := by omega
    simp only [statePath, runeText, if_neg h1, if_pos hn]
  refine ⟨(key n hn).trans (key m hm).symm, (key n hn).trans ?_⟩
  simp [statePath, runeText, utf8]

theorem ofNat8_inj {a b : Nat} (ha : a < 256) (hb : b < 256)
    (h : UInt8.ofNat a = UInt8.ofNat b) : a = b := by
  have := congrArg UInt8.toNat h
  simp only [UInt8.toNat_ofNat'] at this
  omega

/-- `runeText` is injective on code points. -/
theorem runeText_injective {a b : Nat} (ha : ¬ ((0xD800 ≤ a ∧ a < 0xE000) ∨ 0x110000 ≤ a))
    (hb : ¬ ((0xD800 ≤ b ∧ b < 0xE000) ∨ 0x110000 ≤ b)) (h : runeText a = runeText b) : a = b := by
  unfold runeText at h
  rw [if_neg ha, if_neg hb] at h
  unfold utf8 at h
  have inj := @ofNat8_inj
  split at h <;> [skip; split at h <;> [skip; split at h]] <;>
    (split at h <;> [skip; split at h <;> [skip; split at h]]) <;>
    simp only [List.cons.injEq, and_true, reduceCtorEq, and_false] at h
  · exact inj (by omega) (by omega) h
  · have h1 := inj (by omega) (by omega) h.1
    have h2 := inj (by omega) (by omega) h.2
    omega
  · have h1 := inj (by omega) (by omega) h.1
    have h2 := inj (by omega) (by omega) h.2.1
    have h3 := inj (by omega) (by omega) h.2.2
    omega
  · have h1 := inj (by omega) (by omega) h.1
    have h2 := inj (by omega) (by omega) h.2.1
    have h3 := inj (by omega) (by omega) h.2.2.1
    have h4 := inj (by omega) (by omega) h.2.2.2
    omega

/-- C42: heights that are code points other than 46 and 47 never clash, also between chains. -/
theorem C42_code_points_injective_partial (c₁ c₂ : Hash) (n m : UInt64)
    (hn : ¬ ((0xD800 ≤ n.toNat ∧ n.toNat < 0xE000) ∨ 0x110000 ≤ n.toNat))
    (hm : ¬ ((0xD800 ≤ m.toNat ∧ m.toNat < 0xE000) ∨ 0x110000 ≤ m.toNat))
    (hn' : n.toNat ≠ 46 ∧ n.toNat ≠ 47) (hm' : m.toNat ≠ 46 ∧ m.toNat ≠ 47)
    (h : statePath c₁ n = statePath c₂ m) : c₁ = c₂ ∧ n = m := by
  unfold statePath at h
  rw [if_neg (by omega), if_neg (by omega)] at h
  obtain ⟨h1, h2⟩ := List.append_inj h (by rw [Hash.str_length, Hash.str_length])
  exact ⟨Hash.str_injective h1, UInt64.toNat_inj.mp (runeText_injective hn hm (List.cons.inj h2).2)⟩

/-- C42: exactly when two states share their file: same chain, and the heights are equal, or both are
46 or 47, or both are surrogates, beyond the last code point or 65533. -/
theorem C42_same_file_iff_partial (c₁ c₂ : Hash) (n m : UInt64) :
    statePath c₁ n = statePath c₂ m ↔ c₁ = c₂ ∧ (n = m ∨
      ((n.toNat = 46 ∨ n.toNat = 47) ∧ (m.toNat = 46 ∨ m.toNat = 47)) ∨
      (((0xD800 ≤ n.toNat ∧ n.toNat < 0xE000) ∨ 0x110000 ≤ n.toNat ∨ n.toNat = 65533) ∧
        ((0xD800 ≤ m.toNat ∧ m.toNat < 0xE000) ∨ 0x110000 ≤ m.toNat ∨ m.toNat = 65533))) := by
  have l₁ := Hash.str_length c₁
  have l₂ := Hash.str_length c₂
  have key : ∀ c : Hash, ∀ n : UInt64, ((0xD800 ≤ n.toNat ∧ n.toNat < 0xE000) ∨
      0x110000 ≤ n.toNat ∨ n.toNat = 65533) → statePath c n = statePath c 65533 := by
    rintro c n hn
    by_cases h : (0xD800 ≤ n.toNat ∧ n.toNat < 0xE000) ∨ 0x110000 ≤ n.toNat
    · exact ((C42_heights_clash_neg c).2 n n h h).2
    · have : n.toNat = 65533 := by omega
      rw [show n = 65533 from UInt64.toNat_inj.mp (by rw [this]; rfl)]
  have dot : ∀ c : Hash, ∀ n : UInt64, (n.toNat = 46 ∨ n.toNat = 47) → statePath c n = c.str := by
    intro c n hn
    simp only [statePath, if_pos hn]
  have len : ∀ c : Hash, ∀ n : UInt64, ¬ (n.toNat = 46 ∨ n.toNat = 47) →
      c.str.length < (statePath c n).length := by
    intro c n hn
    simp [statePath, if_neg hn]
  constructor
  · intro h
    by_cases hn : n.toNat = 46 ∨ n.toNat = 47
    · by_cases hm : m.toNat = 46 ∨ m.toNat = 47
      · rw [dot _ _ hn, dot _ _ hm] at h
        exact ⟨Hash.str_injective h, .inr (.inl ⟨hn, hm⟩)⟩
      · have := len c₂ m hm
        rw [← h, dot _ _ hn] at this
        omega
    · by_cases hm : m.toNat = 46 ∨ m.toNat = 47
      · have := len c₁ n hn
        rw [h, dot _ _ hm] at this
        omega
      · -- replace a height without a code point by 65533
        have rep : ∀ c : Hash, ∀ n : UInt64, ¬ (n.toNat = 46 ∨ n.toNat = 47) →
            ∃ n' : UInt64, statePath c n = statePath c n' ∧
              ¬ ((0xD800 ≤ n'.toNat ∧ n'.toNat < 0xE000) ∨ 0x110000 ≤ n'.toNat) ∧
              (n'.toNat ≠ 46 ∧ n'.toNat ≠ 47) ∧ (n' = n ∨ n' = 65533 ∧
                ((0xD800 ≤ n.toNat ∧ n.toNat < 0xE000) ∨ 0x110000 ≤ n.toNat ∨ n.toNat = 65533)) := by
          intro c n hn
          by_cases hb : (0xD800 ≤ n.toNat ∧ n.toNat < 0xE000) ∨ 0x110000 ≤ n.toNat
          · have hb' : (0xD800 ≤ n.toNat ∧ n.toNat < 0xE000) ∨ 0x110000 ≤ n.toNat ∨
              n.toNat = 65533 := by omega
            exact ⟨65533, key c n hb', by decide, by decide, .inr ⟨rfl, hb'⟩⟩
          · exact ⟨n, rfl, hb, by omega, .inl rfl⟩
        obtain ⟨n', hn1, hn2, hn3, hn4⟩ := rep c₁ n hn
        obtain ⟨m', hm1, hm2, hm3, hm4⟩ := rep c₂ m hm
        obtain ⟨hc, he⟩ := C42_code_points_injective_partial c₁ c₂ n' m' hn2 hm2 hn3 hm3
          (hn1.symm.trans (h.trans hm1))
        refine ⟨hc, ?_⟩
        have e5 : (65533 : UInt64).toNat = 65533 := rfl
        rcases hn4 with rfl | ⟨rfl, hn4⟩ <;> rcases hm4 with rfl | ⟨rfl, hm4⟩
        · exact .inl he
        · exact .inr (.inr ⟨by rw [he]; exact .inr (.inr e5), hm4⟩)
        · exact .inr (.inr ⟨hn4, by rw [← he]; exact .inr (.inr e5)⟩)
        · exact .inr (.inr ⟨hn4, hm4⟩)
  · rintro ⟨rfl, rfl | ⟨hn, hm⟩ | ⟨hn, hm⟩⟩
    · rfl
    · rw [dot _ _ hn, dot _ _ hm]
    · rw [key _ _ hn, key _ _ hm]

section examples

attribute [local instance] toyCurve toySha

theorem toy_head (a : UInt8) (l : Bytes) : (fromBytes (a :: l)).bytes.head? = some a := by
  unfold fromBytes
  split
  · rfl
  · simp [Sha512.sum]

/-- A second genesis with the same bill and another hash. -/
theorem toy_other_genesis (g : Genesis) (hg : g.Built) :
    ∃ g' : Genesis, g'.Built ∧ g'.bill = g.bill ∧ g'.blockIncrease.marshals = true ∧
      g'.hash ≠ g.hash := by
  have mk : ∀ n : UInt64, 0 < n.toNat → ∃ g' : Genesis, g'.Built ∧ g'.bill = g.bill ∧
      g'.blockIncrease.marshals = true ∧ g'.hash = fromBytes (itoaU n ++ (fmtF12 (.fin (1 / 2)) ++
        (itoaU 3 ++ g.bill.hash.bytes))) := by
    intro n hn
    have h := genesisNow_eq_ok (base := n) (incr := .fin (1 / 2)) (link := 3) (bill := some g.bill)
      (t := 0).mpr ⟨g.bill, rfl, hn, by simp [Flt.le0], by decide, rfl⟩
    exact ⟨⟨_, g.bill, n, .fin (1 / 2), 3, 0⟩, ⟨hg.1, n, .fin (1 / 2), 3, some g.bill, 0, h⟩, rfl, by simp [Flt.marshals], rfl⟩
  obtain ⟨a, a1, a2, a3, a4⟩ := mk 1 (by decide)
  obtain ⟨b, b1, b2, b3, b4⟩ := mk 2 (by decide)
  by_cases h : a.hash = g.hash
  · refine ⟨b, b1, b2, b3, fun h' => ?_⟩
    have := h.trans h'.symm
    rw [a4, b4] at this
    have e1 : itoaU 1 = [49] := by decide
    have e2 : itoaU 2 = [50] := by decide
    rw [e1, e2] at this
    have := congrArg (fun h : Hash => h.bytes.head?) this
    simp only [List.cons_append, toy_head] at this
    simp at this
  · exact ⟨a, a1, a2, a3, h⟩

/-- A world stays good when a genesis is added. -/
theorem World.Good.addGenesis {W : World} {e : Time → Time} (G : W.Good e) {g : Genesis}
    (hb : g.Built) (hbill : W.bill g.bill) (hm : g.blockIncrease.marshals = true) :
    ({ W with genesis := fun x => W.genesis x ∨ x = g } : World).Good e :=
  { G with
    genesis_built := fun x hx => hx.elim (G.genesis_built x) fun h => h ▸ hb
    genesis_bill := fun x hx => hx.elim (G.genesis_bill x) fun h => h ▸ hbill
    genesis_marshals := fun x hx => hx.elim (G.genesis_marshals x) fun h => h ▸ hm
    block_genesis := fun x hx => .inl (G.block_genesis x hx) }

/-- C36, C37: a world with two geneses; a history that stores one of them; a block of the other
one that is not stored yet. -/
example : ∃ (W : World) (g₁ g₂ g : Genesis) (b : Block) (σ : Store), W.Good id ∧ W.genesis g₁ ∧
    W.genesis g₂ ∧ (∃ m, retrGenesis Store.empty = .err m) ∧ History W .empty ∧ History W σ ∧
    W.block b ∧ σ.blocks b.hash.str = none ∧ retrGenesis σ = .ok g ∧ g.hash ≠ b.genesis.hash ∧
    Later .empty σ := by
  obtain ⟨W, x, t, b, r, k, G, O, hx, ht, hg, hb, hr, hk, hcan, e1, e2, e3, e4, -⟩ := toy_world
  obtain ⟨g', c1, c2, c3, c4⟩ := toy_other_genesis b.genesis (G.genesis_built _ hg)
  have G' := G.addGenesis c1 (c2 ▸ G.genesis_bill _ hg) c3
  have h1 := saveGenesis_exec G' (Honest.empty _) (.inr rfl) ⟨_, rfl⟩
  have r1 := Run.of_exec (saveGenesis g') .empty
  rw [h1] at r1
  have H1 := History.empty.step (W := { W with genesis := fun x => W.genesis x ∨ x = g' })
    (op := .genesis g') (.inr rfl) r1
  obtain ⟨y, hy, hy'⟩ := ((saveGenesis_honest G' (Honest.empty _) (.inr rfl)).exec.2 () h1).exists
  refine ⟨_, b.genesis, g', y, b, _, G', .inl hg, .inr rfl, ⟨_, rfl⟩, .empty, H1, hb, ?_, hy, ?_, ?_⟩
  · rw [(saveGenesis_frame g' .empty).exec.1.blocks (by omega)]
    rfl
  · have : y.hash = g'.hash := (congrArg Genesis.hash hy' :)
    rw [this]
    exact c4
  · exact (Later.refl _).step (op := .genesis g') r1

/-- C37, copied files: a store from which a lock is retrieved by its hash. -/
example : ∃ (σ : Store) (x : Lock) (h : Hash), retrLock σ x.hash = .ok x ∧ h ≠ x.hash := by
  obtain ⟨W, x, t, b, r, k, G, O, hx, ht, hg, hb, hr, hk, hcan, e1, e2, e3, e4, -⟩ := toy_world
  have hl := G.bill_lock _ (G.genesis_bill _ hg)
  have h1 := saveLock_exec G (Honest.empty _) hl
  obtain ⟨y, hy, hy'⟩ := ((saveLock_honest G (Honest.empty _) hl).exec.2 () h1).exists
  have : y.hash = b.genesis.bill.lock.hash := (congrArg Lock.hash hy' :)
  rw [← this] at hy
  by_cases hh : toyHash 1 = y.hash
  · exact ⟨_, y, toyHash 2, hy, fun h => toyHash_ne (by decide) (hh.trans h.symm)⟩
  · exact ⟨_, y, toyHash 1, hy, hh⟩

/-- C38: a transaction with an address only, and one with an address, a bucket and a fee. -/
example : ∃ (W : World) (x y : Transaction) (a : Address), W.Good id ∧ History W .empty ∧ x.Built ∧
    y.Built ∧ x.bucket = none ∧ x.fees = [] ∧ x.address = some a ∧ y.address = some a ∧
    y.bucket ≠ none ∧ y.fees ≠ [] ∧ (∀ f ∈ y.fees, W.expense f) ∧
    Store.empty.trxs y.hash.str = none ∧ ∀ z, retrTrx .empty x.hash ≠ .ok z := by
  obtain ⟨W, x, t, b, r, k, G, O, hx, ht, hg, hb, hr, hk, hcan, e1, e2, e3, e4, -⟩ := toy_world
  obtain ⟨a, ha⟩ : ∃ a, addressNow (some (toyHash 1)) [] none 0 = .ok a :=
    ⟨_, addressNow_eq_ok.mpr ⟨by simp, rfl⟩⟩
  have haB : a.Built := ⟨_, _, _, _, ha⟩
  obtain ⟨y, hy⟩ : ∃ y, trxNow (some a) none [] 0 = .ok y := ⟨_, trxNow_eq_ok.mpr ⟨by simp, rfl⟩⟩
  obtain ⟨z, hz⟩ : ∃ z, trxNow (some a) (some (toyHash 1)) [x] 0 = .ok z :=
    ⟨_, trxNow_eq_ok.mpr ⟨by simp, rfl⟩⟩
  obtain ⟨-, hy'⟩ := trxNow_eq_ok.mp hy
  obtain ⟨-, hz'⟩ := trxNow_eq_ok.mp hz
  refine ⟨W, y, z, a, G, .empty, ⟨?_, ?_, _, _, _, _, hy⟩, ⟨?_, ?_, _, _, _, _, hz⟩, ?_⟩
  · simp [hy', haB]
  · simp [hy']
  · simp [hz', haB]
  · simpa [hz'] using G.expense_built x hx
  · refine ⟨by rw [hy'], by rw [hy'], by rw [hy'], by rw [hz'], by simp [hz'], by simp [hz'],
      by simpa [hz'] using hx, rfl, fun z h => ?_⟩
    simp [retrTrx, Store.empty, readCell] at h

/-- C39, C40, C78, C79: two chains, the second one of the world, with different genesis and root;
the insert of the second one into the empty store returns nil; a save of its root starts without
genesis. -/
example : ∃ (W : World) (c c' : Chain) (σ' : Store), W.Good id ∧ W.OneGenesis id ∧ History W .empty ∧
    c.Built ∧ c'.Built ∧ (Op.insert c').In W ∧ W.minedBlock c'.root ∧ W.minedLink c'.head ∧
    c.genesis.hash ≠ c'.genesis.hash ∧ c.root.hash ≠ c'.root.hash ∧
    (∀ y, retrChain .empty ≠ .ok y) ∧ Store.empty.genesis = none ∧
    Run (insertChain c') .empty (some (.ok ())) σ' := by
  obtain ⟨W, x, t, b, r, k, G, O, hx, ht, hg, hb, hr, hk, hcan, e1, e2, e3, e4, -⟩ := toy_world
  obtain ⟨g', c1, c2, c3, c4⟩ := toy_other_genesis b.genesis (G.genesis_built _ hg)
  have htB := G.trx_built _ ht
  obtain ⟨b₂, hb₂⟩ : ∃ y, blockNow (some g') 4 (some [t, t]) 0 = .ok y :=
    ⟨_, blockNow_eq_ok.mpr ⟨_, _, rfl, rfl, by simp, rfl⟩⟩
  obtain ⟨_, _, i1, i2, -, hb₂'⟩ := blockNow_eq_ok.mp hb₂
  cases i1; cases i2
  have hb₂B : b₂.Built := ⟨by rw [hb₂']; exact c1, by simpa [hb₂'] using htB, _, _, _, _, hb₂⟩
  obtain ⟨r₂, hr₂⟩ : ∃ y, minedBlockNow (some b₂) [48] 0 = .ok y :=
    ⟨_, minedBlockNow_eq_ok.mpr ⟨_, rfl, rfl⟩⟩
  obtain ⟨_, i1, hr₂'⟩ := minedBlockNow_eq_ok.mp hr₂
  cases i1
  have hr₂B : r₂.Built := ⟨by rw [hr₂']; exact hb₂B, by rw [hr₂']; exact utf8_of_ascii (by simp), _, _, _, hr₂⟩
  obtain ⟨l₂, hl₂⟩ : ∃ y, linkNow (some r₂.hash) (some b₂) 7 0 = .ok y :=
    ⟨_, linkNow_eq_ok.mpr ⟨_, _, rfl, rfl, rfl⟩⟩
  obtain ⟨_, _, i1, i2, hl₂'⟩ := linkNow_eq_ok.mp hl₂
  cases i1; cases i2
  have hl₂B : l₂.Built := ⟨by rw [hl₂']; exact hb₂B, _, _, _, _, hl₂⟩
  obtain ⟨k₂, hk₂⟩ : ∃ y, minedLinkNow (some l₂) [48, 49] 0 = .ok y :=
    ⟨_, minedLinkNow_eq_ok.mpr ⟨_, rfl, rfl⟩⟩
  obtain ⟨_, i1, hk₂'⟩ := minedLinkNow_eq_ok.mp hk₂
  cases i1
  have hk₂B : k₂.Built := ⟨by rw [hk₂']; exact hl₂B, by rw [hk₂']; exact utf8_of_ascii (by simp), _, _, _, hk₂⟩
  obtain ⟨c, hc⟩ : ∃ y, chainNow (some g') (some r₂) (some k₂) 4 0 = .ok y :=
    ⟨_, chainNow_eq_ok.mpr ⟨_, _, _, rfl, rfl, rfl, by simp [hr₂', hk₂', hl₂', hb₂'], rfl⟩⟩
  obtain ⟨_, _, _, i1, i2, i3, -, hc'⟩ := chainNow_eq_ok.mp hc
  cases i1; cases i2; cases i3
  obtain ⟨d, hd⟩ : ∃ y, chainNow (some b.genesis) (some r) (some k) 4 0 = .ok y :=
    ⟨_, chainNow_eq_ok.mpr ⟨_, _, _, rfl, rfl, rfl, by simp [e3, e4, e2], rfl⟩⟩
  obtain ⟨_, _, _, i1, i2, i3, -, hd'⟩ := chainNow_eq_ok.mp hd
  cases i1; cases i2; cases i3
  have hdB : d.Built := ⟨by rw [hd']; exact G.genesis_built _ hg, by rw [hd']; exact G.minedBlock_built _ hr,
    by rw [hd']; exact G.minedLink_built _ hk, _, _, _, _, _, hd⟩
  have hin : (Op.insert d).In W := by
    rw [hd']
    exact ⟨hg, hr, hk⟩
  have trunc : ∀ (h : Hash) (l : Bytes), fromBytes (h.bytes ++ l) = h := by
    intro h l
    apply Hash.ext
    have hl := h.len
    unfold fromBytes
    split
    · rename_i h0
      have : l = [] := by
        rw [List.length_append, hl] at h0
        exact List.length_eq_zero_iff.mp (by omega)
      simp [this]
    · simp [Sha512.sum, hl]
  have hrun := Run.of_exec (insertChain d) .empty
  have hex : ((insertChain d).exec .empty).1 = .ok () := by
    refine exec_unlessFound (by simp [retrChain, Store.empty, readCell]) ?_
    have s1 := saveGenesis_exec G (Honest.empty W) hin.1 ⟨_, rfl⟩
    have H1 := (saveGenesis_honest G (Honest.empty W) hin.1).exec.1
    rw [exec_bind_ok s1]
    have s2 := saveMinedBlock_exec G O H1 hin.2.1
    have H2 := (saveMinedBlock_stays G H1 hin.2.1).exec.1
    rw [exec_bind_ok s2, saveChain, exec_bind_ok (saveMinedLink_exec G O H2 hin.2.2)]
    have : d.toTransfer = .ok ⟨d.hash, d.genesis.hash, d.root.hash, d.head.hash, d.total,
      d.createdOn⟩ := trChainNow_eq_ok.mpr ⟨chain_total_pos G hdB hin.2.1 hin.2.2, rfl⟩
    rw [this]
    rfl
  rw [hex] at hrun
  refine ⟨W, c, d, _, G, O, .empty, ⟨by rw [hc']; exact c1, by rw [hc']; exact hr₂B,
    by rw [hc']; exact hk₂B, _, _, _, _, _, hc⟩, hdB, hin, hin.2.1, hin.2.2, ?_, ?_, ?_, rfl, hrun⟩
  · rw [hc', hd']; exact c4
  · obtain ⟨-, -, m, mi, t', hm⟩ := G.minedBlock_built _ hr
    obtain ⟨b', rfl, hm'⟩ := minedBlockNow_eq_ok.mp hm
    have hbb' : b' = b := by rw [hm'] at e3; exact e3
    have q1 : r.hash = b.genesis.hash := by
      obtain ⟨-, -, g, a, f, t'', h⟩ := G.block_built _ hb
      obtain ⟨g, f, rfl, rfl, -, hbl⟩ := blockNow_eq_ok.mp h
      rw [hm']
      simp only [hbb', trunc]
      rw [hbl]
      simp only [trunc]
    have q2 : r₂.hash = g'.hash := by
      rw [hr₂', hb₂']
      simp only [trunc]
    rw [hc', hd']
    simp only [q1, q2]
    exact c4
  · simp [retrChain, Store.empty, readCell]

/-- C41: a state. -/
example : ∃ (s : State), stateNow (some (toyHash 1)) (some (toyHash 2)) 1 (some [toyTrx 1]) 0 =
    .ok s ∧ Later .empty .empty := ⟨_, stateNow_eq_ok.mpr ⟨_, _, _, rfl, rfl, rfl, by decide, by simp,
      rfl⟩, .refl _⟩

/-- C42: two heights beyond the code points, and two code points. -/
example : 0x110000 ≤ (1114112 : UInt64).toNat ∧ 0x110000 ≤ (1114113 : UInt64).toNat ∧
    ¬ ((0xD800 ≤ (1 : UInt64).toNat ∧ (1 : UInt64).toNat < 0xE000) ∨
      0x110000 ≤ (1 : UInt64).toNat) := by decide

end examples

end Verif
