import Verif.Model.Store.Saves

/-!
# What a service may touch, and references between files
-/

namespace Verif

section
variable {α : Type}

/-- Which files differ: only those of kinds up to a rank (locks 0, bills 1, expenses and genesis 2,
transactions 3, blocks 4, mined blocks and links 5, mined links 6, chain 7). -/
structure Frame (n : Nat) (σ σ' : Store) : Prop where
  bills : n < 1 → σ'.bills = σ.bills
  expenses : n < 2 → σ'.expenses = σ.expenses
  genesis : n < 2 → σ'.genesis = σ.genesis
  trxs : n < 3 → σ'.trxs = σ.trxs
  blocks : n < 4 → σ'.blocks = σ.blocks
  minedBlocks : n < 5 → σ'.minedBlocks = σ.minedBlocks
  links : n < 5 → σ'.links = σ.links
  minedLinks : n < 6 → σ'.minedLinks = σ.minedLinks
  chain : n < 7 → σ'.chain = σ.chain
  states : n < 8 → σ'.states = σ.states

theorem Frame.refl (n : Nat) (σ : Store) : Frame n σ σ := by constructor <;> intros <;> rfl

theorem Frame.trans {n m : Nat} {σ σ₁ σ₂ : Store} (h : Frame n σ σ₁) (h' : Frame m σ₁ σ₂)
    (hn : n ≤ m) : Frame m σ σ₂ where
  bills h0 := (h'.bills h0).trans (h.bills (by omega))
  expenses h0 := (h'.expenses h0).trans (h.expenses (by omega))
  genesis h0 := (h'.genesis h0).trans (h.genesis (by omega))
  trxs h0 := (h'.trxs h0).trans (h.trxs (by omega))
  blocks h0 := (h'.blocks h0).trans (h.blocks (by omega))
  minedBlocks h0 := (h'.minedBlocks h0).trans (h.minedBlocks (by omega))
  links h0 := (h'.links h0).trans (h.links (by omega))
  minedLinks h0 := (h'.minedLinks h0).trans (h.minedLinks (by omega))
  chain h0 := (h'.chain h0).trans (h.chain (by omega))
  states h0 := (h'.states h0).trans (h.states (by omega))

theorem Frame.mono {n m : Nat} {σ σ' : Store} (h : Frame n σ σ') (hn : n ≤ m) : Frame m σ σ' :=
  h.trans (Frame.refl m σ') hn

theorem Spec.frame {p : Prog α} {n m : Nat} {σ σ₁ : Store} {P : α → Store → Prop}
    (h : Spec p σ₁ (Frame n σ₁) P) (h' : Frame m σ σ₁) (hn : n ≤ m) : Spec p σ₁ (Frame m σ) P :=
  h.mono (fun _ f => h'.trans (f.mono hn) (Nat.le_refl m)) fun _ _ _ h => h

theorem forEach_frame {γ : Type} {f : γ → Prog Unit} {n m : Nat}
    (h : ∀ x σ, Spec (f x) σ (Frame n σ) (fun _ _ => True)) (xs : List γ) {σ σ₁ : Store}
    (k : Frame m σ σ₁) (hn : n ≤ m) : Spec (Prog.forEach f xs) σ₁ (Frame m σ) (fun _ _ => True) :=
  Spec.forEach_inv k fun x _ σ₂ k₂ => (h x σ₂).frame k₂ hn

end

section
variable [Sha512] [C : Curve]

omit C in
theorem saveLock_frame (x : Lock) (σ : Store) : Spec (saveLock x) σ (Frame 0 σ) (fun _ _ => True) := by
  refine Spec.unlessFound (Frame.refl _ _) (fun _ _ => trivial) fun _ => ?_
  refine Spec.lift (Frame.refl _ _) fun tr _ => ?_
  exact Spec.save (Frame.refl _ _) { Frame.refl 0 σ with } { Frame.refl 0 σ with } trivial

omit C in
theorem saveBill_frame (x : Bill) (σ : Store) : Spec (saveBill x) σ (Frame 1 σ) (fun _ _ => True) := by
  refine Spec.unlessFound (Frame.refl _ _) (fun _ _ => trivial) fun _ => ?_
  refine Spec.bind ((saveLock_frame _ _).frame (Frame.refl 1 σ) (by omega)) fun _ σ₁ h _ => ?_
  refine Spec.lift h fun tr _ => ?_
  exact Spec.save h { h with bills := fun h => absurd h (by omega) }
    { h with bills := fun h => absurd h (by omega) } trivial

omit C in
theorem saveGenesis_frame (x : Genesis) (σ : Store) :
    Spec (saveGenesis x) σ (Frame 2 σ) (fun _ _ => True) := by
  refine Spec.look (Frame.refl _ _) ?_
  cases retrGenesis σ with
  | ok y => exact Spec.ret (Frame.refl _ _) fun _ _ => trivial
  | crash y => exact Spec.ret (Frame.refl _ _) fun _ _ => trivial
  | err m =>
    refine Spec.bind ((saveBill_frame _ _).frame (Frame.refl 2 σ) (by omega)) fun _ σ₁ h _ => ?_
    refine Spec.lift h fun tr _ => Spec.lift h fun js _ => ?_
    exact Spec.save h { h with genesis := fun h => absurd h (by omega) }
      { h with genesis := fun h => absurd h (by omega) } trivial

theorem saveExpense_frame (x : Expense) (σ : Store) :
    Spec (saveExpense x) σ (Frame 2 σ) (fun _ _ => True) := by
  refine Spec.unlessFound (Frame.refl _ _) (fun _ _ => trivial) fun _ => ?_
  refine Spec.bind (forEach_frame saveBill_frame _ (Frame.refl 2 σ) (by omega)) fun _ σ₁ h _ => ?_
  refine Spec.bind ((saveBill_frame _ _).frame h (by omega)) fun _ σ₂ h _ => ?_
  refine Spec.bind (forEach_frame saveBill_frame _ h (by omega)) fun _ σ₃ h _ => ?_
  refine Spec.lift h fun tr _ => ?_
  exact Spec.save h { h with expenses := fun h => absurd h (by omega) }
    { h with expenses := fun h => absurd h (by omega) } trivial

theorem saveTrx_frame (x : Transaction) (σ : Store) :
    Spec (saveTrx x) σ (Frame 3 σ) (fun _ _ => True) := by
  refine Spec.unlessFound (Frame.refl _ _) (fun _ _ => trivial) fun _ => ?_
  refine Spec.bind (forEach_frame saveExpense_frame _ (Frame.refl 3 σ) (by omega)) fun _ σ₁ h _ => ?_
  refine Spec.lift h fun tr _ => ?_
  exact Spec.save h { h with trxs := fun h => absurd h (by omega) }
    { h with trxs := fun h => absurd h (by omega) } trivial

theorem saveBlock_frame (x : Block) (σ : Store) :
    Spec (saveBlock x) σ (Frame 4 σ) (fun _ _ => True) := by
  refine Spec.unlessFound (Frame.refl _ _) (fun _ _ => trivial) fun _ => ?_
  refine Spec.bind (forEach_frame saveTrx_frame _ (Frame.refl 4 σ) (by omega)) fun _ σ₁ h _ => ?_
  refine Spec.lift h fun tr _ => ?_
  exact Spec.save h { h with blocks := fun h => absurd h (by omega) }
    { h with blocks := fun h => absurd h (by omega) } trivial

theorem saveMinedBlock_frame (x : MinedBlock) (σ : Store) :
    Spec (saveMinedBlock x) σ (Frame 5 σ) (fun _ _ => True) := by
  refine Spec.unlessFound (Frame.refl _ _) (fun _ _ => trivial) fun _ => ?_
  refine Spec.bind ((saveBlock_frame _ _).frame (Frame.refl 5 σ) (by omega)) fun _ σ₁ h _ => ?_
  refine Spec.lift h fun tr _ => ?_
  exact Spec.save h { h with minedBlocks := fun h => absurd h (by omega) }
    { h with minedBlocks := fun h => absurd h (by omega) } trivial

theorem saveLink_frame (x : Link) (σ : Store) :
    Spec (saveLink x) σ (Frame 5 σ) (fun _ _ => True) := by
  refine Spec.unlessFound (Frame.refl _ _) (fun _ _ => trivial) fun _ => ?_
  refine Spec.bind ((saveBlock_frame _ _).frame (Frame.refl 5 σ) (by omega)) fun _ σ₁ h _ => ?_
  refine Spec.lift h fun tr _ => ?_
  exact Spec.save h { h with links := fun h => absurd h (by omega) }
    { h with links := fun h => absurd h (by omega) } trivial

theorem saveMinedLink_frame (x : MinedLink) (σ : Store) :
    Spec (saveMinedLink x) σ (Frame 6 σ) (fun _ _ => True) := by
  refine Spec.unlessFound (Frame.refl _ _) (fun _ _ => trivial) fun _ => ?_
  refine Spec.bind ((saveLink_frame _ _).frame (Frame.refl 6 σ) (by omega)) fun _ σ₁ h _ => ?_
  refine Spec.lift h fun tr _ => ?_
  exact Spec.save h { h with minedLinks := fun h => absurd h (by omega) }
    { h with minedLinks := fun h => absurd h (by omega) } trivial

theorem saveChain_frame (x : Chain) (σ : Store) :
    Spec (saveChain x) σ (Frame 7 σ) (fun _ _ => True) := by
  refine Spec.bind ((saveMinedLink_frame _ _).frame (Frame.refl 7 σ) (by omega)) fun _ σ₁ h _ => ?_
  refine Spec.lift h fun tr _ => ?_
  exact Spec.save h { h with chain := fun h => absurd h (by omega) }
    { h with chain := fun h => absurd h (by omega) } trivial

theorem insertChain_frame (x : Chain) (σ : Store) :
    Spec (insertChain x) σ (Frame 7 σ) (fun _ _ => True) := by
  refine Spec.unlessFound (Frame.refl _ _) (fun _ _ => trivial) fun _ => ?_
  refine Spec.bind ((saveGenesis_frame _ _).frame (Frame.refl 7 σ) (by omega)) fun _ σ₁ h _ => ?_
  refine Spec.bind ((saveMinedBlock_frame _ _).frame h (by omega)) fun _ σ₁ h _ => ?_
  exact (saveChain_frame _ _).frame h (by omega)

theorem updateChain_frame (x y : Chain) (σ : Store) :
    Spec (updateChain x y) σ (Frame 7 σ) (fun _ _ => True) :=
  Spec.lift (Frame.refl _ _) fun _ _ => Spec.lift (Frame.refl _ _) fun _ _ => saveChain_frame _ _

/-! ## References -/

omit [Sha512] C in
theorem Readable.set {α : Type} {d : Bytes → Option (Cell α)} {p q : Bytes} {c : Cell α}
    (h : Readable (d p)) (hc : (∃ a, c = .json a) ∨ ¬ Readable (d q)) :
    Readable (setFile d q c p) := by
  by_cases e : p = q
  · subst e
    rcases hc with ⟨a, rfl⟩ | hc
    · exact ⟨a, by simp⟩
    · exact absurd h hc
  · rw [setFile_ne d c e]; exact h

namespace Closed
variable {σ : Store} (K : Closed σ)
include K

omit [Sha512] C in
theorem setLock {q : Bytes} {c : Cell JTrLock} (hc : (∃ a, c = .json a) ∨ ¬ Readable (σ.locks q)) :
    Closed { σ with locks := setFile σ.locks q c } :=
  { K with bills := fun p js h => (K.bills p js h).set hc }

omit [Sha512] C in
theorem setBill {q : Bytes} {c : Cell JTrBill} (hc : (∃ a, c = .json a) ∨ ¬ Readable (σ.bills q))
    (hr : ∀ js, c = .json js → Readable (σ.locks js.lock)) :
    Closed { σ with bills := setFile σ.bills q c } :=
  { K with
    bills := setFile_all K.bills _ _ hr
    genesis := fun js h => (K.genesis js h).set hc
    expenses := fun p js h =>
      have h' := K.expenses p js h
      ⟨fun s hs => (h'.1 s hs).set hc, h'.2.1.set hc, fun hn => (h'.2.2 hn).set hc⟩ }

omit [Sha512] C in
theorem setGenesis {c : Cell JTrGenesis} (hr : ∀ js, c = .json js → Readable (σ.bills js.bill)) :
    Closed { σ with genesis := some c } :=
  { K with genesis := fun js h => hr js (by simpa using h) }

omit [Sha512] C in
theorem setExpense {q : Bytes} {c : Cell JTrExpense}
    (hc : (∃ a, c = .json a) ∨ ¬ Readable (σ.expenses q))
    (hr : ∀ js, c = .json js → (∀ s ∈ js.source, Readable (σ.bills s)) ∧
      Readable (σ.bills js.dest) ∧ (js.remaining ≠ [] → Readable (σ.bills js.remaining))) :
    Closed { σ with expenses := setFile σ.expenses q c } :=
  { K with
    expenses := setFile_all K.expenses _ _ hr
    trxs := fun p js h f hf => (K.trxs p js h f hf).set hc }

omit [Sha512] C in
theorem setTrx {q : Bytes} {c : Cell JTrTransaction}
    (hc : (∃ a, c = .json a) ∨ ¬ Readable (σ.trxs q))
    (hr : ∀ js, c = .json js → ∀ f ∈ js.fees, Readable (σ.expenses f)) :
    Closed { σ with trxs := setFile σ.trxs q c } :=
  { K with
    trxs := setFile_all K.trxs _ _ hr
    blocks := fun p js h t ht l hl => (K.blocks p js h t ht l hl).set hc }

omit [Sha512] C in
theorem setBlock {q : Bytes} {c : Cell JTrBlock}
    (hc : (∃ a, c = .json a) ∨ ¬ Readable (σ.blocks q))
    (hr : ∀ js, c = .json js → ∀ t, js.trx = some t →
      ∀ l ∈ t.leaves.take js.amount.toNat, Readable (σ.trxs l.headText)) :
    Closed { σ with blocks := setFile σ.blocks q c } :=
  { K with
    blocks := setFile_all K.blocks _ _ hr
    minedBlocks := fun p js h => (K.minedBlocks p js h).set hc
    links := fun p js h => (K.links p js h).set hc }

omit [Sha512] C in
theorem setMinedBlock {q : Bytes} {c : Cell JTrMined}
    (hr : ∀ js, c = .json js → Readable (σ.blocks js.of)) :
    Closed { σ with minedBlocks := setFile σ.minedBlocks q c } :=
  { K with minedBlocks := setFile_all K.minedBlocks _ _ hr }

omit [Sha512] C in
theorem setLink {q : Bytes} {c : Cell JTrLink}
    (hc : (∃ a, c = .json a) ∨ ¬ Readable (σ.links q))
    (hr : ∀ js, c = .json js → Readable (σ.blocks js.next)) :
    Closed { σ with links := setFile σ.links q c } :=
  { K with
    links := setFile_all K.links _ _ hr
    minedLinks := fun p js h => (K.minedLinks p js h).set hc }

omit [Sha512] C in
theorem setMinedLink {q : Bytes} {c : Cell JTrMined}
    (hr : ∀ js, c = .json js → Readable (σ.links js.of)) :
    Closed { σ with minedLinks := setFile σ.minedLinks q c } :=
  { K with minedLinks := setFile_all K.minedLinks _ _ hr }

end Closed

omit [Sha512] C in
theorem Closed.empty : Closed .empty := by
  constructor <;> intros <;> simp_all [Store.empty]

/-! ## Complete files are retrievable -/

omit [Sha512] C in
theorem bill_file_eq {y : Bill} {js : JTrBill} (hf : y.file = .ok js) :
    js = ⟨y.hash.str, y.lock.hash.str, y.amount, y.createdOn⟩ := by
  obtain ⟨tr, ht, hjs⟩ := Outcome.bind_eq_ok.mp hf
  cases hjs
  obtain ⟨h0, rfl⟩ := trBillNow_eq_ok.mp ht
  rfl

omit [Sha512] C in
theorem genesis_file_eq {y : Genesis} {js : JTrGenesis} (hf : y.file = .ok js) :
    js = ⟨y.hash.str, y.bill.hash.str, y.blockBase, y.blockIncrease, y.link, y.createdOn⟩ := by
  obtain ⟨tr, ht, hjs⟩ := Outcome.bind_eq_ok.mp hf
  obtain ⟨-, -, -, rfl⟩ := trGenesisNow_eq_ok.mp ht
  unfold TrGenesis.toJSON at hjs
  split at hjs
  · cases hjs; rfl
  · cases hjs

omit [Sha512] in
theorem expense_file_eq {y : Expense} {js : JTrExpense} (hf : y.file = .ok js) :
    js = ⟨y.hash.str, (y.content.source.map Bill.hash).map Hash.str, y.content.dest.hash.str,
      y.signatures.map RingSignature.str, optStr (y.content.remaining.map Bill.hash),
      y.content.createdOn⟩ := by
  obtain ⟨tr, ht, hjs⟩ := Outcome.bind_eq_ok.mp hf
  cases hjs
  obtain ⟨-, -, rfl⟩ := trExpenseNow_eq_ok.mp ht
  rfl

omit [Sha512] in
theorem trx_file_eq {y : Transaction} {js : JTrTransaction} (hf : y.file = .ok js) :
    js = ⟨y.hash.str, optStr none, (y.fees.map Expense.hash).map Hash.str, optStr y.bucket,
      y.createdOn⟩ := by
  obtain ⟨tr, ht, hjs⟩ := Outcome.bind_eq_ok.mp hf
  cases hjs
  obtain ⟨-, rfl⟩ := trTransactionNow_eq_ok.mp ht
  rfl

omit [Sha512] C in
theorem Leaf.toJSON_headText (l : Leaf) : l.toJSON.headText = l.head.str := by
  cases l <;> rfl

/-- The leaves named by a block file are its transactions. -/
theorem block_file_leaves {y : Block} {js : JTrBlock} (hlen : y.trx.length < 2 ^ 63)
    (hf : y.file = .ok js) : ∃ t, js.trx = some t ∧
      (t.leaves.take js.amount.toNat).map JLeaf.headText =
        (y.trx.map Transaction.hash).map Hash.str := by
  obtain ⟨t, ht, h0, rfl⟩ := block_file_eq hf
  refine ⟨_, rfl, ?_⟩
  have h64 : (UInt64.ofNat y.trx.length).toNat = y.trx.length := by
    rw [UInt64.toNat_ofNat']
    exact Nat.mod_eq_of_lt (by omega)
  have hl := takeLeaves_tree hlen ht
  unfold takeLeaves at hl
  rw [toInt_of_lt (by rw [h64]; exact hlen)] at hl
  split at hl
  · simp only [Outcome.ok.injEq, Int.toNat_natCast] at hl
    rw [← hl]
    simp only [Compact.toJSON, HashTree.compact, ← List.map_take, List.map_map]
    congr 1
    funext l
    exact Leaf.toJSON_headText l
  · cases hl

section
variable {W : World} {e : Time → Time} {σ : Store}

/-- Honest and closed. -/
def Sane (W : World) (σ : Store) : Prop := Honest W σ ∧ Closed σ

theorem Sane.lock (G : W.Good e) (S : Sane W σ) {y : Lock} (hy : W.lock y)
    (hr : Readable (σ.locks y.hash.str)) :
    Fetch False (retrLock σ y.hash) (Lock.timed e) (y.timed e) := by
  obtain ⟨js, hc⟩ := hr
  obtain ⟨z, hz, hp, hf⟩ := S.1.locks _ _ hc
  have hh := Hash.str_injective hp
  rw [G.lock_hash y z hy hz hh, hh]
  exact retrLock_file (G.lock_built z hz) hf (hh ▸ hc)

theorem Sane.bill (G : W.Good e) (S : Sane W σ) {y : Bill} (hy : W.bill y)
    (hr : Readable (σ.bills y.hash.str)) :
    Fetch False (retrBill σ y.hash) (Bill.timed e) (y.timed e) := by
  obtain ⟨js, hc⟩ := hr
  obtain ⟨z, hz, hp, hf⟩ := S.1.bills _ _ hc
  have hh := Hash.str_injective hp
  rw [G.bill_hash y z hy hz hh, hh]
  refine retrBill_file (G.bill_built z hz) hf (hh ▸ hc) (S.lock G (G.bill_lock z hz) ?_)
  have := S.2.bills _ _ hc
  rw [bill_file_eq hf] at this
  exact this

theorem Sane.expense (G : W.Good e) (S : Sane W σ) {y : Expense} (hy : W.expense y)
    (hr : Readable (σ.expenses y.hash.str)) :
    Fetch False (retrExpense σ y.hash) (Expense.timed e) (y.reduced.timed e) := by
  obtain ⟨js, hc⟩ := hr
  obtain ⟨z, hz, hp, hf⟩ := S.1.expenses _ _ hc
  have hh := Hash.str_injective hp
  rw [G.expense_hash y z hy hz hh, hh]
  have := S.2.expenses _ _ hc
  rw [expense_file_eq hf] at this
  refine retrExpense_file (G.expense_built z hz) (G.expense_fits z hz) hf (hh ▸ hc)
    (fun b hb => S.bill G (G.expense_source z hz b hb) (this.1 _ ?_))
    (S.bill G (G.expense_dest z hz) this.2.1)
    fun b hb => S.bill G (G.expense_remaining z hz b hb) ?_
  · simp only [List.map_map, List.mem_map, Function.comp_apply]
    exact ⟨b, hb, rfl⟩
  · have h3 := this.2.2
    simp only [hb, Option.map_some, optStr] at h3
    refine h3 ?_
    intro h0
    have := Hash.str_length b.hash
    rw [h0] at this
    simp at this

theorem Sane.genesis (G : W.Good e) (S : Sane W σ) {y : Genesis} {js : JTrGenesis}
    (hc : σ.genesis = some (.json js)) (hy : W.genesis y) (hf : y.file = .ok js) :
    Fetch False (retrGenesis σ) (Genesis.timed e) (y.timed e) := by
  refine retrGenesis_file (G.genesis_built y hy) hf hc (S.bill G (G.genesis_bill y hy) ?_)
  have := S.2.genesis _ hc
  rw [genesis_file_eq hf] at this
  exact this

theorem Sane.trx (G : W.Good e) (S : Sane W σ) {y : Transaction} (hy : W.trx y)
    (hr : Readable (σ.trxs y.hash.str)) :
    Fetch False (retrTrx σ y.hash) (Transaction.timed e) (y.reduced.timed e) := by
  obtain ⟨js, hc⟩ := hr
  obtain ⟨z, hz, hp, hf⟩ := S.1.trxs _ _ hc
  have hh := Hash.str_injective hp
  rw [G.trx_hash y z hy hz hh, hh]
  have := S.2.trxs _ _ hc
  rw [trx_file_eq hf] at this
  refine retrTrx_file (G.trx_built z hz) (G.trx_address z hz) hf (hh ▸ hc)
    fun b hb => S.expense G (G.trx_fees z hz b hb) (this _ ?_)
  simp only [List.map_map, List.mem_map, Function.comp_apply]
  exact ⟨b, hb, rfl⟩

theorem Sane.block (G : W.Good e) (S : Sane W σ) {y : Block} (hy : W.block y)
    (O : W.OneGenesis e) (hg : Fetch False (retrGenesis σ) (Genesis.timed e) (y.genesis.timed e))
    (hr : Readable (σ.blocks y.hash.str)) :
    Fetch False (retrBlock σ y.hash) (Block.timed e) (y.reduced.timed e) := by
  obtain ⟨js, hc⟩ := hr
  obtain ⟨z, hz, hp, hf⟩ := S.1.blocks _ _ hc
  have hh := Hash.str_injective hp
  rw [G.block_hash y z hy hz hh, hh]
  rw [O _ _ (G.block_genesis y hy) (G.block_genesis z hz)] at hg
  obtain ⟨t, ht, hl⟩ := block_file_leaves (G.block_length z hz) hf
  have := S.2.blocks _ _ hc t ht
  refine retrBlock_file (G.block_built z hz) (G.block_length z hz) hf (hh ▸ hc) hg
    fun b hb => S.trx G (G.block_trx z hz b hb) ?_
  have hm : b.hash.str ∈ (t.leaves.take js.amount.toNat).map JLeaf.headText := by
    rw [hl]
    simp only [List.map_map, List.mem_map, Function.comp_apply]
    exact ⟨b, hb, rfl⟩
  obtain ⟨l, hl1, hl2⟩ := List.mem_map.mp hm
  rw [← hl2]
  exact this l hl1

theorem Sane.minedBlock (G : W.Good e) (S : Sane W σ) {y : MinedBlock} (hy : W.minedBlock y)
    (O : W.OneGenesis e)
    (hg : Fetch False (retrGenesis σ) (Genesis.timed e) (y.block.genesis.timed e))
    (hr : Readable (σ.minedBlocks y.hash.str)) :
    Fetch False (retrMinedBlock σ y.hash) (MinedBlock.timed e) (y.reduced.timed e) := by
  obtain ⟨js, hc⟩ := hr
  obtain ⟨z, hz, hp, hf⟩ := S.1.minedBlocks _ _ hc
  have hh := Hash.str_injective hp
  rw [G.minedBlock_hash y z hy hz hh, hh]
  have hb := G.minedBlock_block z hz
  rw [O _ _ (G.block_genesis _ (G.minedBlock_block y hy)) (G.block_genesis _ hb)] at hg
  have := S.2.minedBlocks _ _ hc
  have hf' := hf
  cases hf'
  exact retrMinedBlock_file (G.minedBlock_built z hz) hf (hh ▸ hc) (S.block G hb O hg this)

theorem Sane.link (G : W.Good e) (S : Sane W σ) {y : Link} (hy : W.link y)
    (O : W.OneGenesis e)
    (hg : Fetch False (retrGenesis σ) (Genesis.timed e) (y.next.genesis.timed e))
    (hr : Readable (σ.links y.hash.str)) :
    Fetch False (retrLink σ y.hash) (Link.timed e) (y.reduced.timed e) := by
  obtain ⟨js, hc⟩ := hr
  obtain ⟨z, hz, hp, hf⟩ := S.1.links _ _ hc
  have hh := Hash.str_injective hp
  rw [G.link_hash y z hy hz hh, hh]
  have hb := G.link_next z hz
  rw [O _ _ (G.block_genesis _ (G.link_next y hy)) (G.block_genesis _ hb)] at hg
  have := S.2.links _ _ hc
  have hf' := hf
  cases hf'
  exact retrLink_file (G.link_built z hz) hf (hh ▸ hc) (S.block G hb O hg this)

theorem Sane.minedLink (G : W.Good e) (S : Sane W σ) {y : MinedLink} (hy : W.minedLink y)
    (O : W.OneGenesis e)
    (hg : Fetch False (retrGenesis σ) (Genesis.timed e) (y.link.next.genesis.timed e))
    (hr : Readable (σ.minedLinks y.hash.str)) :
    Fetch False (retrMinedLink σ y.hash) (MinedLink.timed e) (y.reduced.timed e) := by
  obtain ⟨js, hc⟩ := hr
  obtain ⟨z, hz, hp, hf⟩ := S.1.minedLinks _ _ hc
  have hh := Hash.str_injective hp
  rw [G.minedLink_hash y z hy hz hh, hh]
  have hb := G.minedLink_link z hz
  rw [O _ _ (G.block_genesis _ (G.link_next _ (G.minedLink_link y hy)))
    (G.block_genesis _ (G.link_next _ hb))] at hg
  have := S.2.minedLinks _ _ hc
  have hf' := hf
  cases hf'
  exact retrMinedLink_file (G.minedLink_built z hz) hf (hh ▸ hc) (S.link G hb O hg this)

omit [Sha512] C in
/-- What could not be fetched was not complete. -/
theorem not_readable_of {α β γ : Type} {o : Outcome α} {n : α → β} {z : β} {c : Option (Cell γ)}
    (h : Readable c → Fetch False o n z) (hn : ∃ m, o = .err m) : ¬ Readable c := by
  intro hr
  obtain ⟨m, hm⟩ := hn
  rcases h hr with ⟨x, hx, -⟩ | ⟨h, -⟩
  · rw [hm] at hx; cases hx
  · exact h

omit C in
theorem readable_bill {h : Hash} {n : Bill → Bill} {z : Bill}
    (hx : Fetch False (retrBill σ h) n z) : Readable (σ.bills h.str) := by
  rcases hx with ⟨x, hx, -⟩ | ⟨h, -⟩
  · obtain ⟨js, hjs, -⟩ := Outcome.bind_eq_ok.mp hx
    exact ⟨js, readCell_eq_ok.mp hjs⟩
  · exact h.elim

omit C in
theorem readable_lock {h : Hash} {n : Lock → Lock} {z : Lock}
    (hx : Fetch False (retrLock σ h) n z) : Readable (σ.locks h.str) := by
  rcases hx with ⟨x, hx, -⟩ | ⟨h, -⟩
  · obtain ⟨js, hjs, -⟩ := Outcome.bind_eq_ok.mp hx
    exact ⟨js, readCell_eq_ok.mp hjs⟩
  · exact h.elim

theorem readable_expense {h : Hash} {n : Expense → Expense} {z : Expense}
    (hx : Fetch False (retrExpense σ h) n z) : Readable (σ.expenses h.str) := by
  rcases hx with ⟨x, hx, -⟩ | ⟨h, -⟩
  · obtain ⟨js, hjs, -⟩ := Outcome.bind_eq_ok.mp hx
    exact ⟨js, readCell_eq_ok.mp hjs⟩
  · exact h.elim

theorem readable_trx {h : Hash} {n : Transaction → Transaction} {z : Transaction}
    (hx : Fetch False (retrTrx σ h) n z) : Readable (σ.trxs h.str) := by
  rcases hx with ⟨x, hx, -⟩ | ⟨h, -⟩
  · obtain ⟨js, hjs, -⟩ := Outcome.bind_eq_ok.mp hx
    exact ⟨js, readCell_eq_ok.mp hjs⟩
  · exact h.elim

theorem readable_block {h : Hash} {n : Block → Block} {z : Block}
    (hx : Fetch False (retrBlock σ h) n z) : Readable (σ.blocks h.str) := by
  rcases hx with ⟨x, hx, -⟩ | ⟨h, -⟩
  · obtain ⟨js, hjs, -⟩ := Outcome.bind_eq_ok.mp hx
    exact ⟨js, readCell_eq_ok.mp hjs⟩
  · exact h.elim

theorem readable_link {h : Hash} {n : Link → Link} {z : Link}
    (hx : Fetch False (retrLink σ h) n z) : Readable (σ.links h.str) := by
  rcases hx with ⟨x, hx, -⟩ | ⟨h, -⟩
  · obtain ⟨js, hjs, -⟩ := Outcome.bind_eq_ok.mp hx
    exact ⟨js, readCell_eq_ok.mp hjs⟩
  · exact h.elim

/-! ## Saving keeps references intact -/

/-- The part of a specification about references, next to the one about honesty. -/
theorem Spec.sane {α : Type} {p : Prog α} {P : α → Store → Prop} (h : Spec p σ (Honest W) P)
    (hc : Spec p σ (Sane W) (fun _ _ => True)) : Spec p σ (Sane W) P :=
  (h.and hc).mono (fun _ h => h.2) fun _ _ _ h => h.1

theorem saveLock_sane (G : W.Good e) (S : Sane W σ) {x : Lock} (hx : W.lock x) :
    Spec (saveLock x) σ (Sane W)
      (fun _ σ' => Fetch False (retrLock σ' x.hash) (Lock.timed e) (x.timed e)) := by
  refine (saveLock_honest G S.1 hx).sane ?_
  refine Spec.unlessFound S (fun _ h => trivial) fun hn => ?_
  have hr := not_readable_of (S.lock G hx) hn
  refine Spec.lift S fun tr htr => ?_
  have hf : x.file = .ok tr.toJSON := by simp [Lock.file, htr]
  cases htr
  refine Spec.save S ⟨S.1.setLock hx _ fun js e => ?_, S.2.setLock (.inl ⟨_, rfl⟩)⟩
    ⟨S.1.setLock hx _ fun js e => (by cases e), S.2.setLock (.inr hr)⟩ trivial
  cases e; exact hf

theorem saveBill_sane (G : W.Good e) (S : Sane W σ) {x : Bill} (hx : W.bill x) :
    Spec (saveBill x) σ (Sane W)
      (fun _ σ' => Fetch False (retrBill σ' x.hash) (Bill.timed e) (x.timed e)) := by
  refine (saveBill_honest G S.1 hx).sane ?_
  refine Spec.unlessFound S (fun _ h => trivial) fun hn => ?_
  have hr := not_readable_of (S.bill G hx) hn
  refine Spec.bind ((saveLock_sane G S (G.bill_lock x hx)).and (saveLock_frame _ _) |>.mono
    (fun _ h => h.1) (Q := fun _ σ' => Fetch False (retrLock σ' x.lock.hash) (Lock.timed e)
      (x.lock.timed e) ∧ ¬ Readable (σ'.bills x.hash.str))
    fun _ σ' h h' => ⟨h'.1, by rw [h.2.bills (by omega)]; exact hr⟩) fun _ σ₁ S h => ?_
  obtain ⟨hl, hr⟩ := h
  refine Spec.lift S fun tr htr => ?_
  have hf : x.file = .ok tr.toJSON := by simp [Bill.file, htr]
  obtain ⟨-, rfl⟩ := trBillNow_eq_ok.mp htr
  refine Spec.save S ⟨S.1.setBill hx _ fun js e => ?_, S.2.setBill (.inl ⟨_, rfl⟩) ?_⟩
    ⟨S.1.setBill hx _ fun js e => (by cases e), S.2.setBill (.inr hr) fun js e => (by cases e)⟩ trivial
  · cases e; exact hf
  · intro js e
    cases e
    exact readable_lock hl

theorem forEach_sane {γ : Type} {f : γ → Prog Unit} {D : γ → Store → Prop} {n : Nat}
    (hk : ∀ x σ, Spec (f x) σ (Keep σ) (fun _ _ => True))
    (hfr : ∀ x σ, Spec (f x) σ (Frame n σ) (fun _ _ => True))
    (hD : ∀ x σ σ', Keep σ σ' → D x σ → D x σ') {xs : List γ} {σ : Store}
    (h : ∀ x ∈ xs, ∀ σ, Sane W σ → Spec (f x) σ (Sane W) (fun _ => D x)) (S : Sane W σ) :
      Spec (Prog.forEach f xs) σ (Sane W)
        (fun _ σ' => (∀ x ∈ xs, D x σ') ∧ Keep σ σ' ∧ Frame n σ σ') := by
  refine (((forEach_honest (I := Sane W) hk hD h S).and
    (forEach_keep hk xs (Keep.refl σ))).and (forEach_frame hfr xs (Frame.refl n σ) (Nat.le_refl n))).mono
    (fun _ h => h.1.1) fun _ σ' h h' => ⟨h'.1.1, h.1.2, h.2⟩

theorem saveExpense_sane (G : W.Good e) (S : Sane W σ) {x : Expense} (hx : W.expense x) :
    Spec (saveExpense x) σ (Sane W)
      (fun _ σ' => Fetch False (retrExpense σ' x.hash) (Expense.timed e) (x.reduced.timed e)) := by
  have hD : ∀ (x : Bill) σ σ', Keep σ σ' →
      Fetch False (retrBill σ x.hash) (Bill.timed e) (x.timed e) →
      Fetch False (retrBill σ' x.hash) (Bill.timed e) (x.timed e) :=
    fun _ _ _ k h => h.mapStore fun _ => k.retrBill
  refine (saveExpense_honest G S.1 hx).sane ?_
  refine Spec.unlessFound S (fun _ h => trivial) fun hn => ?_
  have hr := not_readable_of (S.expense G hx) hn
  refine Spec.bind (forEach_sane saveBill_keep saveBill_frame hD (fun b hb σ S =>
    saveBill_sane G S (G.expense_source x hx b hb)) S) fun _ σ₁ S h => ?_
  obtain ⟨hs, -, hfr⟩ := h
  rw [← hfr.expenses (by omega)] at hr
  refine Spec.bind (((saveBill_sane G S (G.expense_dest x hx)).and (saveBill_keep _ _)).and
    (saveBill_frame _ _) |>.mono (fun _ h => h.1.1) (Q := fun _ σ' =>
      Fetch False (retrBill σ' x.content.dest.hash) (Bill.timed e) (x.content.dest.timed e) ∧
      Keep σ₁ σ' ∧ Frame 1 σ₁ σ') fun _ σ' h h' => ⟨h'.1.1, h.1.2, h.2⟩) fun _ σ₂ S h => ?_
  obtain ⟨hd, hk, hfr⟩ := h
  rw [← hfr.expenses (by omega)] at hr
  have hs : ∀ b ∈ x.content.source, Fetch False (retrBill σ₂ b.hash) (Bill.timed e) (b.timed e) :=
    fun b hb => hD b _ _ hk (hs b hb)
  refine Spec.bind (forEach_sane saveBill_keep saveBill_frame hD
    (xs := x.content.remaining.toList) (fun b hb σ S =>
    saveBill_sane G S (G.expense_remaining x hx b (by simpa using hb))) S) fun _ σ₃ S h => ?_
  obtain ⟨hrem, hk, hfr⟩ := h
  rw [← hfr.expenses (by omega)] at hr
  have hs : ∀ b ∈ x.content.source, Fetch False (retrBill σ₃ b.hash) (Bill.timed e) (b.timed e) :=
    fun b hb => hD b _ _ hk (hs b hb)
  have hd := hD _ _ _ hk hd
  refine Spec.lift S fun tr htr => ?_
  have hf : x.file = .ok tr.toJSON := by simp [Expense.file, htr]
  obtain ⟨-, -, rfl⟩ := trExpenseNow_eq_ok.mp htr
  refine Spec.save S ⟨S.1.setExpense hx _ fun js e => ?_, S.2.setExpense (.inl ⟨_, rfl⟩) ?_⟩
    ⟨S.1.setExpense hx _ fun js e => (by cases e), S.2.setExpense (.inr hr) fun js e => (by cases e)⟩
    trivial
  · cases e; exact hf
  · intro js e
    cases e
    simp only [TrExpense.toJSON]
    refine ⟨fun s hs' => ?_, readable_bill hd, fun h0 => ?_⟩
    · simp only [List.map_map, List.mem_map, Function.comp_apply] at hs'
      obtain ⟨b, hb, rfl⟩ := hs'
      exact readable_bill (hs b hb)
    · cases hrm : x.content.remaining with
      | none => simp [hrm, optStr] at h0
      | some b => exact readable_bill (hrem b (by simp [hrm]))

theorem saveGenesis_sane (G : W.Good e) (S : Sane W σ) {x : Genesis} (hx : W.genesis x) :
    Spec (saveGenesis x) σ (Sane W)
      (fun _ σ' => Fetch False (retrGenesis σ') (Genesis.timed e) (x.timed e)) := by
  refine (saveGenesis_honest G S.1 hx).sane ?_
  refine Spec.look S ?_
  cases hn : retrGenesis σ with
  | ok y => exact Spec.ret S fun a h => by cases h
  | crash c => exact Spec.ret S fun a h => by cases h
  | err m =>
    refine Spec.bind (saveBill_sane G S (G.genesis_bill x hx)) fun _ σ₁ S hb => ?_
    refine Spec.lift S fun tr htr => Spec.lift S fun js hjs => ?_
    have hf : x.file = .ok js := by simp [Genesis.file, htr, hjs]
    refine Spec.save S ⟨S.1.setGenesis hx _ fun js e => ?_, S.2.setGenesis ?_⟩
      ⟨S.1.setGenesis hx _ fun js e => (by cases e), S.2.setGenesis fun js e => (by cases e)⟩ trivial
    · cases e; exact hf
    · intro js e
      cases e
      rw [genesis_file_eq hf]
      exact readable_bill hb

theorem saveTrx_sane (G : W.Good e) (S : Sane W σ) {x : Transaction} (hx : W.trx x) :
    Spec (saveTrx x) σ (Sane W)
      (fun _ σ' => Fetch False (retrTrx σ' x.hash) (Transaction.timed e) (x.reduced.timed e)) := by
  refine (saveTrx_honest G S.1 hx).sane ?_
  refine Spec.unlessFound S (fun _ h => trivial) fun hn => ?_
  have hr := not_readable_of (S.trx G hx) hn
  refine Spec.bind (forEach_sane (D := fun (b : Expense) σ' => Fetch False (retrExpense σ' b.hash)
    (Expense.timed e) (b.reduced.timed e)) saveExpense_keep saveExpense_frame
    (fun _ _ _ k h => h.mapStore fun _ => k.retrExpense) (fun b hb σ S =>
    saveExpense_sane G S (G.trx_fees x hx b hb)) S) fun _ σ₁ S h => ?_
  obtain ⟨hs, -, hfr⟩ := h
  rw [← hfr.trxs (by omega)] at hr
  refine Spec.lift S fun tr htr => ?_
  have hf : x.file = .ok tr.toJSON := by simp [Transaction.file, htr]
  obtain ⟨-, rfl⟩ := trTransactionNow_eq_ok.mp htr
  refine Spec.save S ⟨S.1.setTrx hx _ fun js e => ?_, S.2.setTrx (.inl ⟨_, rfl⟩) ?_⟩
    ⟨S.1.setTrx hx _ fun js e => (by cases e), S.2.setTrx (.inr hr) fun js e => (by cases e)⟩ trivial
  · cases e; exact hf
  · intro js e f hf'
    cases e
    simp only [TrTransaction.toJSON, List.map_map, List.mem_map, Function.comp_apply] at hf'
    obtain ⟨b, hb, rfl⟩ := hf'
    exact readable_expense (hs b hb)

theorem saveBlock_sane (G : W.Good e) (O : W.OneGenesis e) (S : Sane W σ) {x : Block}
    (hx : W.block x) (hg : Fetch False (retrGenesis σ) (Genesis.timed e) (x.genesis.timed e)) :
    Spec (saveBlock x) σ (Sane W)
      (fun _ σ' => Fetch False (retrBlock σ' x.hash) (Block.timed e) (x.reduced.timed e)) := by
  refine (saveBlock_honest G O S.1 hx hg).sane ?_
  refine Spec.unlessFound S (fun _ h => trivial) fun hn => ?_
  have hr := not_readable_of (S.block G hx O hg) hn
  refine Spec.bind (forEach_sane (D := fun (b : Transaction) σ' => Fetch False (retrTrx σ' b.hash)
    (Transaction.timed e) (b.reduced.timed e)) saveTrx_keep saveTrx_frame
    (fun _ _ _ k h => h.mapStore fun _ => k.retrTrx) (fun b hb σ S =>
    saveTrx_sane G S (G.block_trx x hx b hb)) S) fun _ σ₁ S h => ?_
  obtain ⟨hs, -, hfr⟩ := h
  rw [← hfr.blocks (by omega)] at hr
  refine Spec.lift S fun tr htr => ?_
  have hf : x.file = .ok tr.toJSON := by simp [Block.file, htr]
  have hh : tr.hash = x.hash := by
    obtain ⟨t, ht1, ht2⟩ := Outcome.bind_eq_ok.mp htr
    obtain ⟨-, rfl⟩ := trBlockNow_eq_ok.mp ht2
    rfl
  rw [hh]
  refine Spec.save S ⟨S.1.setBlock hx _ fun js e => ?_, S.2.setBlock (.inl ⟨_, rfl⟩) ?_⟩
    ⟨S.1.setBlock hx _ fun js e => (by cases e), S.2.setBlock (.inr hr) fun js e => (by cases e)⟩ trivial
  · cases e; exact hf
  · intro js e t ht l hl
    cases e
    obtain ⟨t', ht', hl'⟩ := block_file_leaves (G.block_length x hx) hf
    obtain rfl : t = t' := Option.some.inj (ht.symm.trans ht')
    have : l.headText ∈ (x.trx.map Transaction.hash).map Hash.str := by
      rw [← hl']
      exact List.mem_map.mpr ⟨l, hl, rfl⟩
    simp only [List.map_map, List.mem_map, Function.comp_apply] at this
    obtain ⟨b, hb, hb'⟩ := this
    rw [← hb']
    exact readable_trx (hs b hb)

theorem saveMinedBlock_sane (G : W.Good e) (O : W.OneGenesis e) (S : Sane W σ) {x : MinedBlock}
    (hx : W.minedBlock x)
    (hg : Fetch False (retrGenesis σ) (Genesis.timed e) (x.block.genesis.timed e)) :
    Spec (saveMinedBlock x) σ (Sane W)
      (fun _ σ' =>
        Fetch False (retrMinedBlock σ' x.hash) (MinedBlock.timed e) (x.reduced.timed e)) := by
  refine (saveMinedBlock_honest G O S.1 hx hg).sane ?_
  refine Spec.unlessFound S (fun _ h => trivial) fun hn => ?_
  refine Spec.bind (saveBlock_sane G O S (G.minedBlock_block x hx) hg) fun _ σ₁ S hb => ?_
  refine Spec.lift S fun tr htr => ?_
  have hf : x.file = .ok tr.toJSON := by simp [MinedBlock.file, htr]
  cases htr
  refine Spec.save S ⟨S.1.setMinedBlock hx _ fun js e => ?_, S.2.setMinedBlock ?_⟩
    ⟨S.1.setMinedBlock hx _ fun js e => (by cases e), S.2.setMinedBlock fun js e => (by cases e)⟩ trivial
  · cases e; exact hf
  · intro js e
    cases e
    exact readable_block hb

theorem saveLink_sane (G : W.Good e) (O : W.OneGenesis e) (S : Sane W σ) {x : Link}
    (hx : W.link x)
    (hg : Fetch False (retrGenesis σ) (Genesis.timed e) (x.next.genesis.timed e)) :
    Spec (saveLink x) σ (Sane W)
      (fun _ σ' => Fetch False (retrLink σ' x.hash) (Link.timed e) (x.reduced.timed e)) := by
  refine (saveLink_honest G O S.1 hx hg).sane ?_
  refine Spec.unlessFound S (fun _ h => trivial) fun hn => ?_
  have hr := not_readable_of (S.link G hx O hg) hn
  refine Spec.bind ((saveBlock_sane G O S (G.link_next x hx) hg).and (saveBlock_frame _ _) |>.mono
    (fun _ h => h.1) (Q := fun _ σ' => Fetch False (retrBlock σ' x.next.hash) (Block.timed e)
      (x.next.reduced.timed e) ∧ ¬ Readable (σ'.links x.hash.str))
    fun _ σ' h h' => ⟨h'.1, by rw [h.2.links (by omega)]; exact hr⟩) fun _ σ₁ S h => ?_
  obtain ⟨hb, hr⟩ := h
  refine Spec.lift S fun tr htr => ?_
  have hf : x.file = .ok tr.toJSON := by simp [Link.file, htr]
  cases htr
  refine Spec.save S ⟨S.1.setLink hx _ fun js e => ?_, S.2.setLink (.inl ⟨_, rfl⟩) ?_⟩
    ⟨S.1.setLink hx _ fun js e => (by cases e), S.2.setLink (.inr hr) fun js e => (by cases e)⟩ trivial
  · cases e; exact hf
  · intro js e
    cases e
    exact readable_block hb

theorem saveMinedLink_sane (G : W.Good e) (O : W.OneGenesis e) (S : Sane W σ) {x : MinedLink}
    (hx : W.minedLink x)
    (hg : Fetch False (retrGenesis σ) (Genesis.timed e) (x.link.next.genesis.timed e)) :
    Spec (saveMinedLink x) σ (Sane W)
      (fun _ σ' =>
        Fetch False (retrMinedLink σ' x.hash) (MinedLink.timed e) (x.reduced.timed e)) := by
  refine (saveMinedLink_honest G O S.1 hx hg).sane ?_
  refine Spec.unlessFound S (fun _ h => trivial) fun hn => ?_
  refine Spec.bind (saveLink_sane G O S (G.minedLink_link x hx) hg) fun _ σ₁ S hb => ?_
  refine Spec.lift S fun tr htr => ?_
  have hf : x.file = .ok tr.toJSON := by simp [MinedLink.file, htr]
  cases htr
  refine Spec.save S ⟨S.1.setMinedLink hx _ fun js e => ?_, S.2.setMinedLink ?_⟩
    ⟨S.1.setMinedLink hx _ fun js e => (by cases e), S.2.setMinedLink fun js e => (by cases e)⟩ trivial
  · cases e; exact hf
  · intro js e
    cases e
    exact readable_link hb

end

end

end Verif
