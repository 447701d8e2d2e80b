import Verif.Model.Store.Honest

/-!
# The services on stores that were written by the services only
-/

namespace Verif

section
variable [Sha512] [C : Curve]

omit [Sha512] C in
theorem setFile_all {α : Type} {d : Bytes → Option (Cell α)} {P : Bytes → α → Prop}
    (h : ∀ p js, d p = some (.json js) → P p js) (q : Bytes) (c : Cell α)
    (hc : ∀ js, c = .json js → P q js) :
    ∀ p js, setFile d q c p = some (.json js) → P p js := by
  intro p js hp
  unfold setFile at hp
  split at hp
  · rename_i e
    subst e
    exact hc js (by simpa using hp)
  · exact h p js hp

omit [Sha512] C in
/-- The cases of the content of a file. -/
theorem cell_cases {α β γ : Type} {n : β → γ} {z : γ} {c : Option (Cell α)} {o : Outcome β}
    (hn : ∀ m, readCell c = .err m → ∃ m, o = .err m)
    (hj : ∀ js, c = some (.json js) → Fetch True o n z) : Fetch True o n z := by
  rcases c with _ | (_ | js)
  · exact .inr ⟨trivial, hn _ rfl⟩
  · exact .inr ⟨trivial, hn _ rfl⟩
  · exact hj js rfl

section
variable {W : World} {e : Time → Time} {σ : Store}

/-! ## Retrieval is sound on honest stores -/

theorem Honest.lock (G : W.Good e) (H : Honest W σ) {y : Lock} (hy : W.lock y) :
    Fetch True (retrLock σ y.hash) (Lock.timed e) (y.timed e) := by
  refine cell_cases (c := σ.locks y.hash.str) (fun m hm => ⟨m, by simp [retrLock, hm]⟩) fun js hc => ?_
  obtain ⟨z, hz, hp, hf⟩ := H.locks _ _ hc
  have hh := Hash.str_injective hp
  rw [G.lock_hash y z hy hz hh, hh]
  exact retrLock_file (G.lock_built z hz) hf (hh ▸ hc)

theorem Honest.bill (G : W.Good e) (H : Honest W σ) {y : Bill} (hy : W.bill y) :
    Fetch True (retrBill σ y.hash) (Bill.timed e) (y.timed e) := by
  refine cell_cases (c := σ.bills y.hash.str) (fun m hm => ⟨m, by simp [retrBill, hm]⟩) fun js hc => ?_
  obtain ⟨z, hz, hp, hf⟩ := H.bills _ _ hc
  have hh := Hash.str_injective hp
  rw [G.bill_hash y z hy hz hh, hh]
  exact retrBill_file (G.bill_built z hz) hf (hh ▸ hc) (H.lock G (G.bill_lock z hz))

theorem Honest.expense (G : W.Good e) (H : Honest W σ) {y : Expense} (hy : W.expense y) :
    Fetch True (retrExpense σ y.hash) (Expense.timed e) (y.reduced.timed e) := by
  refine cell_cases (c := σ.expenses y.hash.str) (fun m hm => ⟨m, by simp [retrExpense, hm]⟩)
    fun js hc => ?_
  obtain ⟨z, hz, hp, hf⟩ := H.expenses _ _ hc
  have hh := Hash.str_injective hp
  rw [G.expense_hash y z hy hz hh, hh]
  exact retrExpense_file (G.expense_built z hz) (G.expense_fits z hz) hf (hh ▸ hc)
    (fun b hb => H.bill G (G.expense_source z hz b hb)) (H.bill G (G.expense_dest z hz))
    fun b hb => H.bill G (G.expense_remaining z hz b hb)

/-- The stored genesis is one of the world. -/
theorem Honest.genesis_some (G : W.Good e) (H : Honest W σ) :
    (∃ y x, W.genesis y ∧ retrGenesis σ = .ok x ∧ x.timed e = y.timed e) ∨
      ∃ m, retrGenesis σ = .err m := by
  rcases hc : σ.genesis with _ | (_ | js)
  · exact .inr ⟨_, by simp only [retrGenesis, hc, readCell]; rfl⟩
  · exact .inr ⟨_, by simp only [retrGenesis, hc, readCell]; rfl⟩
  · obtain ⟨z, hz, hf⟩ := H.genesis _ hc
    rcases retrGenesis_file (p := True) (G.genesis_built z hz) hf hc
      (H.bill G (G.genesis_bill z hz)) with ⟨x, hx, hx'⟩ | ⟨-, m, hm⟩
    · exact .inl ⟨z, x, hz, hx, hx'⟩
    · exact .inr ⟨m, hm⟩

theorem Honest.genesis' (G : W.Good e) (O : W.OneGenesis e) (H : Honest W σ) {y : Genesis}
    (hy : W.genesis y) : Fetch True (retrGenesis σ) (Genesis.timed e) (y.timed e) := by
  rcases H.genesis_some G with ⟨z, x, hz, hx, hx'⟩ | ⟨m, hm⟩
  · exact .inl ⟨x, hx, hx'.trans (O z y hz hy)⟩
  · exact .inr ⟨trivial, m, hm⟩

theorem Honest.trx (G : W.Good e) (H : Honest W σ) {y : Transaction} (hy : W.trx y) :
    Fetch True (retrTrx σ y.hash) (Transaction.timed e) (y.reduced.timed e) := by
  refine cell_cases (c := σ.trxs y.hash.str) (fun m hm => ⟨m, by simp [retrTrx, hm]⟩) fun js hc => ?_
  obtain ⟨z, hz, hp, hf⟩ := H.trxs _ _ hc
  have hh := Hash.str_injective hp
  rw [G.trx_hash y z hy hz hh, hh]
  exact retrTrx_file (G.trx_built z hz) (G.trx_address z hz) hf (hh ▸ hc)
    fun b hb => H.expense G (G.trx_fees z hz b hb)

theorem Honest.block (G : W.Good e) (O : W.OneGenesis e) (H : Honest W σ) {y : Block}
    (hy : W.block y) : Fetch True (retrBlock σ y.hash) (Block.timed e) (y.reduced.timed e) := by
  refine cell_cases (c := σ.blocks y.hash.str) (fun m hm => ⟨m, by simp [retrBlock, hm]⟩)
    fun js hc => ?_
  obtain ⟨z, hz, hp, hf⟩ := H.blocks _ _ hc
  have hh := Hash.str_injective hp
  rw [G.block_hash y z hy hz hh, hh]
  exact retrBlock_file (G.block_built z hz) (G.block_length z hz) hf (hh ▸ hc)
    (H.genesis' G O (G.block_genesis z hz)) fun b hb => H.trx G (G.block_trx z hz b hb)

theorem Honest.minedBlock (G : W.Good e) (O : W.OneGenesis e) (H : Honest W σ) {y : MinedBlock}
    (hy : W.minedBlock y) :
    Fetch True (retrMinedBlock σ y.hash) (MinedBlock.timed e) (y.reduced.timed e) := by
  refine cell_cases (c := σ.minedBlocks y.hash.str) (fun m hm => ⟨m, by simp [retrMinedBlock, hm]⟩)
    fun js hc => ?_
  obtain ⟨z, hz, hp, hf⟩ := H.minedBlocks _ _ hc
  have hh := Hash.str_injective hp
  rw [G.minedBlock_hash y z hy hz hh, hh]
  exact retrMinedBlock_file (G.minedBlock_built z hz) hf (hh ▸ hc)
    (H.block G O (G.minedBlock_block z hz))

theorem Honest.link (G : W.Good e) (O : W.OneGenesis e) (H : Honest W σ) {y : Link}
    (hy : W.link y) : Fetch True (retrLink σ y.hash) (Link.timed e) (y.reduced.timed e) := by
  refine cell_cases (c := σ.links y.hash.str) (fun m hm => ⟨m, by simp [retrLink, hm]⟩) fun js hc => ?_
  obtain ⟨z, hz, hp, hf⟩ := H.links _ _ hc
  have hh := Hash.str_injective hp
  rw [G.link_hash y z hy hz hh, hh]
  exact retrLink_file (G.link_built z hz) hf (hh ▸ hc) (H.block G O (G.link_next z hz))

theorem Honest.minedLink (G : W.Good e) (O : W.OneGenesis e) (H : Honest W σ) {y : MinedLink}
    (hy : W.minedLink y) :
    Fetch True (retrMinedLink σ y.hash) (MinedLink.timed e) (y.reduced.timed e) := by
  refine cell_cases (c := σ.minedLinks y.hash.str) (fun m hm => ⟨m, by simp [retrMinedLink, hm]⟩)
    fun js hc => ?_
  obtain ⟨z, hz, hp, hf⟩ := H.minedLinks _ _ hc
  have hh := Hash.str_injective hp
  rw [G.minedLink_hash y z hy hz hh, hh]
  exact retrMinedLink_file (G.minedLink_built z hz) hf (hh ▸ hc)
    (H.link G O (G.minedLink_link z hz))

/-! ## Writing keeps a store honest -/

theorem Honest.setLock (H : Honest W σ) {y : Lock} (hy : W.lock y) (c : Cell JTrLock)
    (hc : ∀ js, c = .json js → y.file = .ok js) :
    Honest W { σ with locks := setFile σ.locks y.hash.str c } :=
  { H with locks := setFile_all H.locks _ _ fun js e => ⟨y, hy, rfl, hc js e⟩ }

theorem Honest.setBill (H : Honest W σ) {y : Bill} (hy : W.bill y) (c : Cell JTrBill)
    (hc : ∀ js, c = .json js → y.file = .ok js) :
    Honest W { σ with bills := setFile σ.bills y.hash.str c } :=
  { H with bills := setFile_all H.bills _ _ fun js e => ⟨y, hy, rfl, hc js e⟩ }

theorem Honest.setExpense (H : Honest W σ) {y : Expense} (hy : W.expense y) (c : Cell JTrExpense)
    (hc : ∀ js, c = .json js → y.file = .ok js) :
    Honest W { σ with expenses := setFile σ.expenses y.hash.str c } :=
  { H with expenses := setFile_all H.expenses _ _ fun js e => ⟨y, hy, rfl, hc js e⟩ }

theorem Honest.setGenesis (H : Honest W σ) {y : Genesis} (hy : W.genesis y) (c : Cell JTrGenesis)
    (hc : ∀ js, c = .json js → y.file = .ok js) :
    Honest W { σ with genesis := some c } :=
  { H with genesis := fun js e => ⟨y, hy, hc js (by simpa using e)⟩ }

theorem Honest.setTrx (H : Honest W σ) {y : Transaction} (hy : W.trx y) (c : Cell JTrTransaction)
    (hc : ∀ js, c = .json js → y.file = .ok js) :
    Honest W { σ with trxs := setFile σ.trxs y.hash.str c } :=
  { H with trxs := setFile_all H.trxs _ _ fun js e => ⟨y, hy, rfl, hc js e⟩ }

theorem Honest.setBlock (H : Honest W σ) {y : Block} (hy : W.block y) (c : Cell JTrBlock)
    (hc : ∀ js, c = .json js → y.file = .ok js) :
    Honest W { σ with blocks := setFile σ.blocks y.hash.str c } :=
  { H with blocks := setFile_all H.blocks _ _ fun js e => ⟨y, hy, rfl, hc js e⟩ }

theorem Honest.setMinedBlock (H : Honest W σ) {y : MinedBlock} (hy : W.minedBlock y)
    (c : Cell JTrMined) (hc : ∀ js, c = .json js → y.file = .ok js) :
    Honest W { σ with minedBlocks := setFile σ.minedBlocks y.hash.str c } :=
  { H with minedBlocks := setFile_all H.minedBlocks _ _ fun js e => ⟨y, hy, rfl, hc js e⟩ }

theorem Honest.setLink (H : Honest W σ) {y : Link} (hy : W.link y) (c : Cell JTrLink)
    (hc : ∀ js, c = .json js → y.file = .ok js) :
    Honest W { σ with links := setFile σ.links y.hash.str c } :=
  { H with links := setFile_all H.links _ _ fun js e => ⟨y, hy, rfl, hc js e⟩ }

theorem Honest.setMinedLink (H : Honest W σ) {y : MinedLink} (hy : W.minedLink y)
    (c : Cell JTrMined) (hc : ∀ js, c = .json js → y.file = .ok js) :
    Honest W { σ with minedLinks := setFile σ.minedLinks y.hash.str c } :=
  { H with minedLinks := setFile_all H.minedLinks _ _ fun js e => ⟨y, hy, rfl, hc js e⟩ }

omit [Sha512] C in
theorem Fetch.found {α β : Type} {o : Outcome α} {n : α → β} {z : β} (h : Fetch True o n z) {x : α}
    (hx : o = .ok x) : Fetch False o n z := by
  rcases h with h | ⟨-, m, hm⟩
  · exact .inl h
  · rw [hm] at hx; cases hx

omit [Sha512] C in
theorem Fetch.mapStore {α β : Type} {o o' : Outcome α} {n : α → β} {z : β} (h : Fetch False o n z)
    (ho : ∀ x, o = .ok x → o' = .ok x) : Fetch False o' n z := by
  rcases h with ⟨x, hx, hz⟩ | ⟨h, -⟩
  · exact .inl ⟨x, ho x hx, hz⟩
  · exact h.elim

theorem Spec.carry {α : Type} {p : Prog α} {I : Store → Prop} {P : α → Store → Prop}
    {D : Store → Prop} (h : Spec p σ I P) (hk : Spec p σ (Keep σ) (fun _ _ => True))
    (hD : ∀ σ', Keep σ σ' → D σ') : Spec p σ I (fun a σ' => P a σ' ∧ D σ') :=
  (h.and hk).mono (fun _ h => h.1) fun _ _ h h' => ⟨h'.1, hD _ h.2⟩

theorem forEach_honest {γ : Type} {f : γ → Prog Unit} {I : Store → Prop} {D : γ → Store → Prop}
    (hk : ∀ x σ, Spec (f x) σ (Keep σ) (fun _ _ => True))
    (hD : ∀ x σ σ', Keep σ σ' → D x σ → D x σ') : ∀ {xs : List γ} {σ : Store},
      (∀ x ∈ xs, ∀ σ, I σ → Spec (f x) σ I (fun _ => D x)) → I σ →
      Spec (Prog.forEach f xs) σ I (fun _ σ' => ∀ x ∈ xs, D x σ')
  | [], σ, _, H => Spec.ret H fun _ _ => by simp
  | x :: xs, σ, h, H => by
    refine Spec.bind (h x (by simp) σ H) fun _ σ₁ H₁ hx => ?_
    refine ((forEach_honest hk hD (fun y hy => h y (by simp [hy])) H₁).carry
      (forEach_keep hk xs (Keep.refl σ₁)) (D := D x) fun σ' k => hD x _ _ k hx).mono
      (fun _ h => h) fun _ σ' _ h' => ?_
    intro y hy
    rcases List.mem_cons.mp hy with rfl | hy
    · exact h'.2
    · exact h'.1 y hy

/-! ## Saving -/

theorem saveLock_honest (G : W.Good e) (H : Honest W σ) {x : Lock} (hx : W.lock x) :
    Spec (saveLock x) σ (Honest W)
      (fun _ σ' => Fetch False (retrLock σ' x.hash) (Lock.timed e) (x.timed e)) := by
  refine Spec.unlessFound H (fun _ h => (H.lock G hx).found h) fun hn => ?_
  refine Spec.lift H fun tr htr => ?_
  have hf : x.file = .ok tr.toJSON := by simp [Lock.file, htr]
  cases htr
  refine Spec.save H (H.setLock hx _ fun js e => ?_) (H.setLock hx _ fun js e => by cases e) ?_
  · cases e; exact hf
  · exact retrLock_file (G.lock_built x hx) hf (by simp)

theorem saveBill_honest (G : W.Good e) (H : Honest W σ) {x : Bill} (hx : W.bill x) :
    Spec (saveBill x) σ (Honest W)
      (fun _ σ' => Fetch False (retrBill σ' x.hash) (Bill.timed e) (x.timed e)) := by
  refine Spec.unlessFound H (fun _ h => (H.bill G hx).found h) fun hn => ?_
  refine Spec.bind (saveLock_honest G H (G.bill_lock x hx)) fun _ σ₁ H hl => ?_
  refine Spec.lift H fun tr htr => ?_
  have hf : x.file = .ok tr.toJSON := by simp [Bill.file, htr]
  obtain ⟨-, rfl⟩ := trBillNow_eq_ok.mp htr
  refine Spec.save H (H.setBill hx _ fun js e => ?_) (H.setBill hx _ fun js e => by cases e) ?_
  · cases e; exact hf
  · exact retrBill_file (G.bill_built x hx) hf (by simp) hl

theorem saveExpense_honest (G : W.Good e) (H : Honest W σ) {x : Expense} (hx : W.expense x) :
    Spec (saveExpense x) σ (Honest W)
      (fun _ σ' => Fetch False (retrExpense σ' x.hash) (Expense.timed e) (x.reduced.timed e)) := by
  have hD : ∀ (x : Bill) σ σ', Keep σ σ' →
      Fetch False (retrBill σ x.hash) (Bill.timed e) (x.timed e) →
      Fetch False (retrBill σ' x.hash) (Bill.timed e) (x.timed e) :=
    fun _ _ _ k h => h.mapStore fun _ => k.retrBill
  refine Spec.unlessFound H (fun _ h => (H.expense G hx).found h) fun hn => ?_
  refine Spec.bind (forEach_honest saveBill_keep hD (fun b hb σ H =>
    saveBill_honest G H (G.expense_source x hx b hb)) H) fun _ σ₁ H hs => ?_
  refine Spec.bind ((saveBill_honest G H (G.expense_dest x hx)).carry (saveBill_keep _ _)
    fun _ k b hb => hD b _ _ k (hs b hb)) fun _ σ₂ H h₂ => ?_
  obtain ⟨hd, hs⟩ := h₂
  refine Spec.bind ((forEach_honest saveBill_keep hD (fun b hb σ H =>
    saveBill_honest G H (G.expense_remaining x hx b (by simpa using hb))) H).carry
      (forEach_keep saveBill_keep _ (Keep.refl _))
    (D := fun σ' => (∀ b ∈ x.content.source, Fetch False (retrBill σ' b.hash) (Bill.timed e)
      (b.timed e)) ∧ Fetch False (retrBill σ' x.content.dest.hash) (Bill.timed e)
        (x.content.dest.timed e))
    fun _ k => ⟨fun b hb => hD b _ _ k (hs b hb), hD _ _ _ k hd⟩) fun _ σ₃ H h₃ => ?_
  obtain ⟨hr, hs, hd⟩ := h₃
  refine Spec.lift H fun tr htr => ?_
  have hf : x.file = .ok tr.toJSON := by simp [Expense.file, htr]
  obtain ⟨-, -, rfl⟩ := trExpenseNow_eq_ok.mp htr
  refine Spec.save H (H.setExpense hx _ fun js e => ?_)
    (H.setExpense hx _ fun js e => by cases e) ?_
  · cases e; exact hf
  · exact retrExpense_file (G.expense_built x hx) (G.expense_fits x hx) hf (by simp) hs hd
      fun b hb => hr b (by simp [hb])

theorem saveGenesis_honest (G : W.Good e) (H : Honest W σ) {x : Genesis} (hx : W.genesis x) :
    Spec (saveGenesis x) σ (Honest W)
      (fun _ σ' => Fetch False (retrGenesis σ') (Genesis.timed e) (x.timed e)) := by
  refine Spec.look H ?_
  cases hn : retrGenesis σ with
  | ok y => exact Spec.ret H fun a h => by cases h
  | crash c => exact Spec.ret H fun a h => by cases h
  | err m =>
    refine Spec.bind (saveBill_honest G H (G.genesis_bill x hx)) fun _ σ₁ H hb => ?_
    refine Spec.lift H fun tr htr => Spec.lift H fun js hjs => ?_
    have hf : x.file = .ok js := by simp [Genesis.file, htr, hjs]
    refine Spec.save H (H.setGenesis hx _ fun js e => ?_)
      (H.setGenesis hx _ fun js e => by cases e) ?_
    · cases e; exact hf
    · exact retrGenesis_file (G.genesis_built x hx) hf rfl hb

theorem saveTrx_honest (G : W.Good e) (H : Honest W σ) {x : Transaction} (hx : W.trx x) :
    Spec (saveTrx x) σ (Honest W)
      (fun _ σ' => Fetch False (retrTrx σ' x.hash) (Transaction.timed e) (x.reduced.timed e)) := by
  refine Spec.unlessFound H (fun _ h => (H.trx G hx).found h) fun hn => ?_
  refine Spec.bind (forEach_honest (I := Honest W) (D := fun (b : Expense) σ' => Fetch False (retrExpense σ' b.hash)
    (Expense.timed e) (b.reduced.timed e)) saveExpense_keep
    (fun _ _ _ k h => h.mapStore fun _ => k.retrExpense) (fun b hb σ H =>
    saveExpense_honest G H (G.trx_fees x hx b hb)) H) fun _ σ₁ H hs => ?_
  refine Spec.lift H fun tr htr => ?_
  have hf : x.file = .ok tr.toJSON := by simp [Transaction.file, htr]
  obtain ⟨-, rfl⟩ := trTransactionNow_eq_ok.mp htr
  refine Spec.save H (H.setTrx hx _ fun js e => ?_) (H.setTrx hx _ fun js e => by cases e) ?_
  · cases e; exact hf
  · exact retrTrx_file (G.trx_built x hx) (G.trx_address x hx) hf (by simp) hs

/-- Saving a block keeps the store honest whatever genesis is stored. -/
theorem saveBlock_stays (G : W.Good e) (H : Honest W σ) {x : Block} (hx : W.block x) :
    Spec (saveBlock x) σ (Honest W) (fun _ _ => True) := by
  refine Spec.unlessFound H (fun _ h => trivial) fun hn => ?_
  refine Spec.bind (P := fun _ _ => True) (Spec.forEach_inv H fun b hb σ H =>
    (saveTrx_honest G H (G.block_trx x hx b hb)).mono (fun _ h => h) fun _ _ _ _ => trivial)
    fun _ σ₁ H _ => ?_
  refine Spec.lift H fun tr htr => ?_
  have hf : x.file = .ok tr.toJSON := by simp [Block.file, htr]
  have hh : tr.hash = x.hash := by
    obtain ⟨t, ht1, ht2⟩ := Outcome.bind_eq_ok.mp htr
    obtain ⟨-, rfl⟩ := trBlockNow_eq_ok.mp ht2
    rfl
  rw [hh]
  refine Spec.save H (H.setBlock hx _ fun js e => ?_) (H.setBlock hx _ fun js e => by cases e)
    trivial
  cases e; exact hf

theorem saveBlock_honest (G : W.Good e) (O : W.OneGenesis e) (H : Honest W σ) {x : Block}
    (hx : W.block x) (hg : Fetch False (retrGenesis σ) (Genesis.timed e) (x.genesis.timed e)) :
    Spec (saveBlock x) σ (Honest W)
      (fun _ σ' => Fetch False (retrBlock σ' x.hash) (Block.timed e) (x.reduced.timed e)) := by
  refine Spec.unlessFound H (fun _ h => (H.block G O hx).found h) fun hn => ?_
  refine Spec.bind ((forEach_honest (I := Honest W) (D := fun (b : Transaction) σ' => Fetch False (retrTrx σ' b.hash)
    (Transaction.timed e) (b.reduced.timed e)) saveTrx_keep
    (fun _ _ _ k h => h.mapStore fun _ => k.retrTrx) (fun b hb σ H =>
    saveTrx_honest G H (G.block_trx x hx b hb)) H).carry
      (forEach_keep saveTrx_keep _ (Keep.refl _)) fun _ k => hg.mapStore fun _ => k.retrGenesis)
    fun _ σ₁ H hs => ?_
  obtain ⟨hs, hg⟩ := hs
  refine Spec.lift H fun tr htr => ?_
  have hf : x.file = .ok tr.toJSON := by simp [Block.file, htr]
  have hh : tr.hash = x.hash := by
    obtain ⟨t, ht1, ht2⟩ := Outcome.bind_eq_ok.mp htr
    obtain ⟨-, rfl⟩ := trBlockNow_eq_ok.mp ht2
    rfl
  rw [hh]
  refine Spec.save H (H.setBlock hx _ fun js e => ?_) (H.setBlock hx _ fun js e => by cases e) ?_
  · cases e; exact hf
  · exact retrBlock_file (G.block_built x hx) (G.block_length x hx) hf (by simp) hg hs

theorem saveMinedBlock_stays (G : W.Good e) (H : Honest W σ) {x : MinedBlock}
    (hx : W.minedBlock x) : Spec (saveMinedBlock x) σ (Honest W) (fun _ _ => True) := by
  refine Spec.unlessFound H (fun _ h => trivial) fun hn => ?_
  refine Spec.bind (saveBlock_stays G H (G.minedBlock_block x hx)) fun _ σ₁ H hb => ?_
  refine Spec.lift H fun tr htr => ?_
  have hf : x.file = .ok tr.toJSON := by simp [MinedBlock.file, htr]
  cases htr
  refine Spec.save H (H.setMinedBlock hx _ fun js e => ?_)
    (H.setMinedBlock hx _ fun js e => by cases e) trivial
  cases e; exact hf

theorem saveMinedBlock_honest (G : W.Good e) (O : W.OneGenesis e) (H : Honest W σ) {x : MinedBlock}
    (hx : W.minedBlock x)
    (hg : Fetch False (retrGenesis σ) (Genesis.timed e) (x.block.genesis.timed e)) :
    Spec (saveMinedBlock x) σ (Honest W)
      (fun _ σ' =>
        Fetch False (retrMinedBlock σ' x.hash) (MinedBlock.timed e) (x.reduced.timed e)) := by
  refine Spec.unlessFound H (fun _ h => (H.minedBlock G O hx).found h) fun hn => ?_
  refine Spec.bind (saveBlock_honest G O H (G.minedBlock_block x hx) hg) fun _ σ₁ H hb => ?_
  refine Spec.lift H fun tr htr => ?_
  have hf : x.file = .ok tr.toJSON := by simp [MinedBlock.file, htr]
  cases htr
  refine Spec.save H (H.setMinedBlock hx _ fun js e => ?_)
    (H.setMinedBlock hx _ fun js e => by cases e) ?_
  · cases e; exact hf
  · exact retrMinedBlock_file (G.minedBlock_built x hx) hf (by simp) hb

theorem saveLink_stays (G : W.Good e) (H : Honest W σ) {x : Link} (hx : W.link x) :
    Spec (saveLink x) σ (Honest W) (fun _ _ => True) := by
  refine Spec.unlessFound H (fun _ h => trivial) fun hn => ?_
  refine Spec.bind (saveBlock_stays G H (G.link_next x hx)) fun _ σ₁ H hb => ?_
  refine Spec.lift H fun tr htr => ?_
  have hf : x.file = .ok tr.toJSON := by simp [Link.file, htr]
  cases htr
  refine Spec.save H (H.setLink hx _ fun js e => ?_)
    (H.setLink hx _ fun js e => by cases e) trivial
  cases e; exact hf

theorem saveLink_honest (G : W.Good e) (O : W.OneGenesis e) (H : Honest W σ) {x : Link}
    (hx : W.link x)
    (hg : Fetch False (retrGenesis σ) (Genesis.timed e) (x.next.genesis.timed e)) :
    Spec (saveLink x) σ (Honest W)
      (fun _ σ' => Fetch False (retrLink σ' x.hash) (Link.timed e) (x.reduced.timed e)) := by
  refine Spec.unlessFound H (fun _ h => (H.link G O hx).found h) fun hn => ?_
  refine Spec.bind (saveBlock_honest G O H (G.link_next x hx) hg) fun _ σ₁ H hb => ?_
  refine Spec.lift H fun tr htr => ?_
  have hf : x.file = .ok tr.toJSON := by simp [Link.file, htr]
  cases htr
  refine Spec.save H (H.setLink hx _ fun js e => ?_) (H.setLink hx _ fun js e => by cases e) ?_
  · cases e; exact hf
  · exact retrLink_file (G.link_built x hx) hf (by simp) hb

theorem saveMinedLink_stays (G : W.Good e) (H : Honest W σ) {x : MinedLink}
    (hx : W.minedLink x) : Spec (saveMinedLink x) σ (Honest W) (fun _ _ => True) := by
  refine Spec.unlessFound H (fun _ h => trivial) fun hn => ?_
  refine Spec.bind (saveLink_stays G H (G.minedLink_link x hx)) fun _ σ₁ H hb => ?_
  refine Spec.lift H fun tr htr => ?_
  have hf : x.file = .ok tr.toJSON := by simp [MinedLink.file, htr]
  cases htr
  refine Spec.save H (H.setMinedLink hx _ fun js e => ?_)
    (H.setMinedLink hx _ fun js e => by cases e) trivial
  cases e; exact hf

theorem saveMinedLink_honest (G : W.Good e) (O : W.OneGenesis e) (H : Honest W σ) {x : MinedLink}
    (hx : W.minedLink x)
    (hg : Fetch False (retrGenesis σ) (Genesis.timed e) (x.link.next.genesis.timed e)) :
    Spec (saveMinedLink x) σ (Honest W)
      (fun _ σ' =>
        Fetch False (retrMinedLink σ' x.hash) (MinedLink.timed e) (x.reduced.timed e)) := by
  refine Spec.unlessFound H (fun _ h => (H.minedLink G O hx).found h) fun hn => ?_
  refine Spec.bind (saveLink_honest G O H (G.minedLink_link x hx) hg) fun _ σ₁ H hb => ?_
  refine Spec.lift H fun tr htr => ?_
  have hf : x.file = .ok tr.toJSON := by simp [MinedLink.file, htr]
  cases htr
  refine Spec.save H (H.setMinedLink hx _ fun js e => ?_)
    (H.setMinedLink hx _ fun js e => by cases e) ?_
  · cases e; exact hf
  · exact retrMinedLink_file (G.minedLink_built x hx) hf (by simp) hb

end

/-! ## Saving without faults succeeds -/

omit [Sha512] C in
theorem exec_forEach {γ : Type} {f : γ → Prog Unit} {I : Store → Prop} :
    ∀ {xs : List γ} {σ : Store}, (∀ x ∈ xs, ∀ σ, I σ → ((f x).exec σ).1 = .ok () ∧ I ((f x).exec σ).2) →
      I σ → ((Prog.forEach f xs).exec σ).1 = .ok () ∧ I ((Prog.forEach f xs).exec σ).2
  | [], σ, _, H => ⟨rfl, H⟩
  | x :: xs, σ, h, H => by
    obtain ⟨h1, h2⟩ := h x (by simp) σ H
    have := exec_forEach (xs := xs) (fun y hy => h y (by simp [hy])) h2
    simp only [Prog.forEach, exec_bind]
    rcases hx : (f x).exec σ with ⟨o, σ₁⟩
    rw [hx] at h1 h2 this
    simp only at h1
    subst h1
    exact this

omit [Sha512] C in
/-- Running `p` and then `f` without faults. -/
theorem exec_bind_ok {α β : Type} {p : Prog α} {f : α → Prog β} {σ : Store} {a : α}
    (h : (p.exec σ).1 = .ok a) : (p.bind f).exec σ = (f a).exec (p.exec σ).2 := by
  rw [exec_bind]
  rcases hx : p.exec σ with ⟨o, σ₁⟩
  rw [hx] at h
  simp only at h
  subst h
  rfl

omit [Sha512] C in
theorem exec_unlessFound {α : Type} {f : Store → Outcome α} {rest : Prog Unit} {σ : Store}
    (h : ∀ c, f σ ≠ .crash c) (hr : (rest.exec σ).1 = .ok ()) :
    ((unlessFound f rest).exec σ).1 = .ok () := by
  simp only [unlessFound, Prog.exec]
  cases hf : f σ with
  | ok x => rfl
  | err m => exact hr
  | crash c => exact absurd hf (h c)

omit [Sha512] C in
theorem Fetch.not_crash {α β : Type} {p : Prop} {o : Outcome α} {n : α → β} {z : β}
    (h : Fetch p o n z) (c : Crash) : o ≠ .crash c := by
  rcases h with ⟨x, hx, -⟩ | ⟨-, m, hm⟩
  · rw [hx]; simp
  · rw [hm]; simp

omit [Sha512] C in
theorem Spec.exec {α : Type} {p : Prog α} {σ : Store} {I : Store → Prop} {P : α → Store → Prop}
    (h : Spec p σ I P) : I (p.exec σ).2 ∧ ∀ a, (p.exec σ).1 = .ok a → P a (p.exec σ).2 := by
  have := h _ _ (Run.of_exec p σ)
  exact ⟨this.1, fun a ha => this.2 a (by rw [ha])⟩

section
variable {W : World} {e : Time → Time} {σ : Store}

theorem saveLock_exec (G : W.Good e) (H : Honest W σ) {x : Lock} (hx : W.lock x) :
    ((saveLock x).exec σ).1 = .ok () :=
  exec_unlessFound (H.lock G hx).not_crash rfl

theorem saveBill_exec (G : W.Good e) (H : Honest W σ) {x : Bill} (hx : W.bill x) :
    ((saveBill x).exec σ).1 = .ok () := by
  refine exec_unlessFound (H.bill G hx).not_crash ?_
  rw [exec_bind_ok (saveLock_exec G H (G.bill_lock x hx))]
  obtain ⟨-, l, a, t, h⟩ := G.bill_built x hx
  obtain ⟨l, rfl, h1, rfl⟩ := billNow_eq_ok.mp h
  have h0 : a ≠ 0 := by rintro rfl; simp at h1
  simp only [Bill.toTransfer, trBillNow, if_neg h0]
  rfl

theorem saveExpense_exec (G : W.Good e) (H : Honest W σ) {x : Expense} (hx : W.expense x) :
    ((saveExpense x).exec σ).1 = .ok () := by
  have hb : ∀ b, W.bill b → ∀ σ, Honest W σ → ((saveBill b).exec σ).1 = .ok () ∧
      Honest W ((saveBill b).exec σ).2 := fun b hb σ H =>
    ⟨saveBill_exec G H hb, (saveBill_honest G H hb).exec.1⟩
  refine exec_unlessFound (H.expense G hx).not_crash ?_
  obtain ⟨h1, H1⟩ := exec_forEach (fun b h => hb b (G.expense_source x hx b h)) H
  rw [exec_bind_ok h1]
  obtain ⟨h2, H2⟩ := hb _ (G.expense_dest x hx) _ H1
  rw [exec_bind_ok h2]
  obtain ⟨h3, H3⟩ := exec_forEach (xs := x.content.remaining.toList)
    (fun b h => hb b (G.expense_remaining x hx b (by simpa using h))) H2
  rw [exec_bind_ok h3]
  have htr : ∃ tr, x.toTransfer = .ok tr := by
    obtain ⟨hc, c, sg, h⟩ := G.expense_built x hx
    obtain ⟨c, sg, rfl, rfl, hf, rfl⟩ := expenseNow_eq_ok.mp h
    have hne : c.source ≠ [] := by
      obtain ⟨a, src, l, rem, t, h, -⟩ := hc
      obtain ⟨_, _, e1, -, h1, h2, -, rfl⟩ := contentNow_eq_ok.mp h
      cases e1
      rintro h0
      simp only at h0
      subst h0
      have h3 : (sourceTotal []).toNat = 0 := rfl
      omega
    refine ⟨_, trExpenseNow_eq_ok.mpr ⟨by simpa using hne, ?_, rfl⟩⟩
    rintro h0
    simp only at h0
    subst h0
    simp only [List.forall₂_nil_right_iff] at hf
    exact hne hf
  obtain ⟨tr, htr⟩ := htr
  rw [htr]
  rfl

theorem saveGenesis_exec (G : W.Good e) (H : Honest W σ) {x : Genesis} (hx : W.genesis x)
    (hn : ∃ m, retrGenesis σ = .err m) : ((saveGenesis x).exec σ).1 = .ok () := by
  obtain ⟨m, hn⟩ := hn
  simp only [saveGenesis, Prog.exec, hn]
  rw [exec_bind_ok (saveBill_exec G H (G.genesis_bill x hx))]
  have hm := G.genesis_marshals x hx
  obtain ⟨-, base, incr, link, b, t, h⟩ := G.genesis_built x hx
  obtain ⟨b, rfl, h1, h2, h3, rfl⟩ := genesisNow_eq_ok.mp h
  have htr : Genesis.toTransfer ⟨fromBytes (itoaU base ++ (fmtF12 incr ++ (itoaU link ++ b.hash.bytes))),
      b, base, incr, link, t⟩ = .ok _ := trGenesisNow_eq_ok.mpr ⟨h1, h2, h3, rfl⟩
  simp only at hm
  rw [htr]
  simp only [Prog.lift, Prog.bind, TrGenesis.toJSON, hm, if_true]
  rfl

theorem saveTrx_exec (G : W.Good e) (H : Honest W σ) {x : Transaction} (hx : W.trx x) :
    ((saveTrx x).exec σ).1 = .ok () := by
  refine exec_unlessFound (H.trx G hx).not_crash ?_
  obtain ⟨h1, H1⟩ := exec_forEach (f := saveExpense) (xs := x.fees) (fun b h σ H =>
    ⟨saveExpense_exec G H (G.trx_fees x hx b h),
      (saveExpense_honest G H (G.trx_fees x hx b h)).exec.1⟩) H
  rw [exec_bind_ok h1]
  have ha := G.trx_address x hx
  obtain ⟨-, -, a, b, f, t, h⟩ := G.trx_built x hx
  obtain ⟨hne, rfl⟩ := trxNow_eq_ok.mp h
  simp only at ha
  subst ha
  have htr : Transaction.toTransfer
      ⟨fromBytes (hashesBytes ((Option.map Address.hash none).toList ++ b.toList ++
        f.map Expense.hash)), none, b, f, t⟩ = .ok _ :=
    trTransactionNow_eq_ok.mpr ⟨by simpa using hne, rfl⟩
  rw [htr]
  rfl

theorem block_toTransfer {x : Block} (hx : x.Built) (hl : x.trx.length < 2 ^ 63) :
    ∃ tr, x.toTransfer = .ok tr := by
  obtain ⟨-, -, g, a, f, t, h⟩ := hx
  obtain ⟨g, f, rfl, rfl, hne, rfl⟩ := blockNow_eq_ok.mp h
  obtain ⟨tr, _, _, ht, -⟩ := C05_tree_shape (f.map fun x => x.hash.bytes) (by simpa using hne) none
  refine ⟨_, Outcome.bind_eq_ok.mpr ⟨tr, ht, trBlockNow_eq_ok.mpr ⟨?_, rfl⟩⟩⟩
  simp only at hl
  rw [UInt64.toNat_ofNat', Nat.mod_eq_of_lt (by simp only; omega)]
  exact List.length_pos_iff.mpr hne

theorem saveBlock_exec' (G : W.Good e) (H : Honest W σ) {x : Block} (hx : W.block x)
    (hn : ∀ c, retrBlock σ x.hash ≠ .crash c) : ((saveBlock x).exec σ).1 = .ok () := by
  refine exec_unlessFound hn ?_
  obtain ⟨h1, H1⟩ := exec_forEach (f := saveTrx) (xs := x.trx) (fun b h σ H =>
    ⟨saveTrx_exec G H (G.block_trx x hx b h),
      (saveTrx_honest G H (G.block_trx x hx b h)).exec.1⟩) H
  rw [exec_bind_ok h1]
  obtain ⟨tr, htr⟩ := block_toTransfer (G.block_built x hx) (G.block_length x hx)
  rw [htr]
  rfl

theorem saveBlock_exec (G : W.Good e) (O : W.OneGenesis e) (H : Honest W σ) {x : Block}
    (hx : W.block x) : ((saveBlock x).exec σ).1 = .ok () :=
  saveBlock_exec' G H hx (H.block G O hx).not_crash

theorem saveMinedBlock_exec (G : W.Good e) (O : W.OneGenesis e) (H : Honest W σ) {x : MinedBlock}
    (hx : W.minedBlock x) : ((saveMinedBlock x).exec σ).1 = .ok () := by
  refine exec_unlessFound (H.minedBlock G O hx).not_crash ?_
  rw [exec_bind_ok (saveBlock_exec G O H (G.minedBlock_block x hx))]
  rfl

theorem saveLink_exec (G : W.Good e) (O : W.OneGenesis e) (H : Honest W σ) {x : Link}
    (hx : W.link x) : ((saveLink x).exec σ).1 = .ok () := by
  refine exec_unlessFound (H.link G O hx).not_crash ?_
  rw [exec_bind_ok (saveBlock_exec G O H (G.link_next x hx))]
  rfl

theorem saveMinedLink_exec (G : W.Good e) (O : W.OneGenesis e) (H : Honest W σ) {x : MinedLink}
    (hx : W.minedLink x) : ((saveMinedLink x).exec σ).1 = .ok () := by
  refine exec_unlessFound (H.minedLink G O hx).not_crash ?_
  rw [exec_bind_ok (saveLink_exec G O H (G.minedLink_link x hx))]
  rfl

end

end

end Verif
