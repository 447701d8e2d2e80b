import Verif.Spec.Persistence
import Verif.Spec.Concurrent
import Verif.Model.Store.Closed
import Verif.Props.Entities
import Verif.Model.Json.Runs

/-!
# Persistence: C31 – C35
-/

namespace Verif

section
variable [Sha512] [C : Curve]

/-! ## States are never written -/

/-- The conversion of a state never succeeds. -/
theorem state_toTransfer (s : State) : ∀ tr, s.toTransfer ≠ .ok tr := by
  intro tr h
  obtain ⟨t, -, h⟩ := Outcome.bind_eq_ok.mp h
  simp only [trStateNow] at h
  split at h
  · cases h
  · simp at h

theorem saveState_quiet (s : State) (σ : Store) : (saveState s).Quiet σ := by
  have h : ((Prog.lift s.toTransfer).bind fun tr =>
      Prog.save (fun σ => { σ with
          states := setFile σ.states (statePath tr.chain tr.height) (.json tr.toJSON) })
        (fun σ => { σ with states := setFile σ.states (statePath tr.chain tr.height) .torn })).Quiet
      σ := by
    cases ht : s.toTransfer with
    | ok tr => exact absurd ht (state_toTransfer s tr)
    | err m => trivial
    | crash c => trivial
  simp only [saveState, Prog.Quiet]
  cases retrState σ s.chain s.height with
  | ok x =>
    simp only
    split
    · trivial
    · exact h
  | err m => exact h
  | crash c => trivial

/-! ## C32 -/

theorem op_keep (op : Op) (σ : Store) : Spec op.prog σ (Keep σ) (fun _ _ => True) := by
  cases op with
  | lock x => exact saveLock_keep x σ
  | bill x => exact saveBill_keep x σ
  | expense x => exact saveExpense_keep x σ
  | genesis x => exact saveGenesis_keep x σ
  | trx x => exact saveTrx_keep x σ
  | block x => exact saveBlock_keep x σ
  | minedBlock x => exact saveMinedBlock_keep x σ
  | link x => exact saveLink_keep x σ
  | minedLink x => exact saveMinedLink_keep x σ
  | insert c => exact insertChain_keep c σ
  | update a b => exact updateChain_keep a b σ
  | state s => exact saveState_keep s σ

/-- No operation touches the state files; only the chain operations touch the chain file. -/
theorem op_frame (op : Op) (σ : Store) : Spec op.prog σ (Frame 7 σ) (fun _ _ => True) := by
  have h {p : Prog Unit} {n : Nat} (hn : n ≤ 7) (h : Spec p σ (Frame n σ) (fun _ _ => True)) :
      Spec p σ (Frame 7 σ) (fun _ _ => True) := h.frame (Frame.refl 7 σ) hn
  cases op with
  | lock x => exact h (by omega) (saveLock_frame x σ)
  | bill x => exact h (by omega) (saveBill_frame x σ)
  | expense x => exact h (by omega) (saveExpense_frame x σ)
  | genesis x => exact h (by omega) (saveGenesis_frame x σ)
  | trx x => exact h (by omega) (saveTrx_frame x σ)
  | block x => exact h (by omega) (saveBlock_frame x σ)
  | minedBlock x => exact h (by omega) (saveMinedBlock_frame x σ)
  | link x => exact h (by omega) (saveLink_frame x σ)
  | minedLink x => exact h (by omega) (saveMinedLink_frame x σ)
  | insert c => exact h (by omega) (insertChain_frame c σ)
  | update a b => exact h (by omega) (updateChain_frame a b σ)
  | state s =>
    intro r σ' hr
    obtain ⟨rfl, -⟩ := hr.quiet (saveState_quiet s σ)
    exact ⟨Frame.refl 7 _, fun _ _ => trivial⟩

theorem Keep.preserved {σ σ' : Store} (k : Keep σ σ') (hs : σ'.states = σ.states) :
    Preserved σ σ' where
  locks _ _ := k.retrLock
  bills _ _ := k.retrBill
  expenses _ _ := k.retrExpense
  genesis _ := k.retrGenesis
  trxs _ _ := k.retrTrx
  blocks _ _ := k.retrBlock
  minedBlocks _ _ := k.retrMinedBlock
  links _ _ := k.retrLink
  minedLinks _ _ := k.retrMinedLink
  states c n x hx := by
    simp only [retrState, Outcome.bind_eq_ok, hs] at hx ⊢
    obtain ⟨js, h1, tr, h2, l, h3, y, h4, h5⟩ := hx
    exact ⟨js, h1, tr, h2, l, h3, y, mapO_mono (fun _ _ => k.retrTrx) h4, h5⟩

theorem Keep.chain {σ σ' : Store} (k : Keep σ σ') (hc : σ'.chain = σ.chain) {c : Chain}
    (h : retrChain σ = .ok c) : retrChain σ' = .ok c := by
  simp only [retrChain, Outcome.bind_eq_ok, hc] at h ⊢
  obtain ⟨js, h1, tr, h2, g, h3, u, h4, r, h5, d, h6, h7⟩ := h
  exact ⟨js, h1, tr, h2, g, k.retrGenesis h3, u, h4, r, k.retrMinedBlock h5, d,
    k.retrMinedLink h6, h7⟩

/-- C32: whatever operation is run on whatever store, and however its writes fail or are torn and
wherever the process is killed: everything retrievable before is retrievable with the same value
after. The chain also is, unless the operation is a chain update, which is meant to replace it. -/
theorem C32_saving_never_damages {op : Op} {σ σ' : Store} {r : Option (Outcome Unit)}
    (h : Run op.prog σ r σ') :
    Preserved σ σ' ∧ (¬ op.Updates → ∀ c, retrChain σ = .ok c → retrChain σ' = .ok c) := by
  have k := (op_keep op σ _ _ h).1
  refine ⟨k.preserved ((op_frame op σ _ _ h).1.states (by omega)), fun hu c hc => ?_⟩
  have h' {p : Prog Unit} {n : Nat} (hn : n < 7) (hs : Spec p σ (Frame n σ) (fun _ _ => True))
      (hr : Run p σ r σ') : retrChain σ' = .ok c := k.chain ((hs _ _ hr).1.chain hn) hc
  cases op with
  | lock x => exact h' (by omega) (saveLock_frame x σ) h
  | bill x => exact h' (by omega) (saveBill_frame x σ) h
  | expense x => exact h' (by omega) (saveExpense_frame x σ) h
  | genesis x => exact h' (by omega) (saveGenesis_frame x σ) h
  | trx x => exact h' (by omega) (saveTrx_frame x σ) h
  | block x => exact h' (by omega) (saveBlock_frame x σ) h
  | minedBlock x => exact h' (by omega) (saveMinedBlock_frame x σ) h
  | link x => exact h' (by omega) (saveLink_frame x σ) h
  | minedLink x => exact h' (by omega) (saveMinedLink_frame x σ) h
  | insert c' =>
    have hq : (insertChain c').Quiet σ := by
      simp only [insertChain, unlessFound, Prog.Quiet, hc]
    obtain ⟨rfl, -⟩ := h.quiet hq
    exact hc
  | update a b => exact absurd trivial hu
  | state s =>
    obtain ⟨rfl, -⟩ := h.quiet (saveState_quiet s σ)
    exact hc

theorem Preserved.trans {σ σ₁ σ₂ : Store} (h : Preserved σ σ₁) (h' : Preserved σ₁ σ₂) :
    Preserved σ σ₂ where
  locks a x hx := h'.locks a x (h.locks a x hx)
  bills a x hx := h'.bills a x (h.bills a x hx)
  expenses a x hx := h'.expenses a x (h.expenses a x hx)
  genesis x hx := h'.genesis x (h.genesis x hx)
  trxs a x hx := h'.trxs a x (h.trxs a x hx)
  blocks a x hx := h'.blocks a x (h.blocks a x hx)
  minedBlocks a x hx := h'.minedBlocks a x (h.minedBlocks a x hx)
  links a x hx := h'.links a x (h.links a x hx)
  minedLinks a x hx := h'.minedLinks a x (h.minedLinks a x hx)
  states c n x hx := h'.states c n x (h.states c n x hx)

/-- C32, over any sequence of operations. -/
theorem C32_histories_never_damage {σ σ' : Store} (h : Later σ σ') : Preserved σ σ' := by
  induction h with
  | refl => exact (Keep.refl _).preserved rfl
  | step _ hr ih => exact ih.trans (C32_saving_never_damages hr).1

/-! ## C33 -/

/-- C33: when something is already retrievable by the hash of the object, saving the object writes
nothing and returns nil (unless the process is killed). -/
theorem C33_save_is_idempotent {op : Op} {σ σ' : Store} {r : Option (Outcome Unit)}
    (hp : op.Present σ) (h : Run op.prog σ r σ') : σ' = σ ∧ (r = none ∨ r = some (.ok ())) := by
  have key {α : Type} {f : Store → Outcome α} {rest : Prog Unit} (hf : ∃ y, f σ = .ok y)
      (h : Run (unlessFound f rest) σ r σ') : σ' = σ ∧ (r = none ∨ r = some (.ok ())) := by
    obtain ⟨y, hy⟩ := hf
    have := h.quiet (by simp only [unlessFound, Prog.Quiet, hy])
    simpa only [unlessFound, Prog.exec, hy] using this
  cases op with
  | lock x => exact key (f := (retrLock · x.hash)) hp h
  | bill x => exact key (f := (retrBill · x.hash)) hp h
  | expense x => exact key (f := (retrExpense · x.hash)) hp h
  | genesis x => exact hp.elim
  | trx x => exact key (f := (retrTrx · x.hash)) hp h
  | block x => exact key (f := (retrBlock · x.hash)) hp h
  | minedBlock x => exact key (f := (retrMinedBlock · x.hash)) hp h
  | link x => exact key (f := (retrLink · x.hash)) hp h
  | minedLink x => exact key (f := (retrMinedLink · x.hash)) hp h
  | insert c => exact key hp h
  | update a b => exact hp.elim
  | state s => exact hp.elim

/-! ## Histories -/

variable {W : World} {e : Time → Time}

theorem saveChain_stays (G : W.Good e) {σ : Store} (H : Honest W σ) {c : Chain}
    (hc : W.minedLink c.head) : Spec (saveChain c) σ (Honest W) (fun _ _ => True) := by
  refine Spec.bind (saveMinedLink_stays G H hc) fun _ σ₁ H _ => ?_
  exact Spec.lift H fun tr _ => Spec.save H { H with } { H with } trivial

theorem op_honest (G : W.Good e) {σ : Store} (H : Honest W σ) {op : Op} (hop : op.In W) :
    Spec op.prog σ (Honest W) (fun _ _ => True) := by
  have h {p : Prog Unit} {P : Unit → Store → Prop} (h : Spec p σ (Honest W) P) :
      Spec p σ (Honest W) (fun _ _ => True) := h.mono (fun _ h => h) fun _ _ _ _ => trivial
  cases op with
  | lock x => exact h (saveLock_honest G H hop)
  | bill x => exact h (saveBill_honest G H hop)
  | expense x => exact h (saveExpense_honest G H hop)
  | genesis x => exact h (saveGenesis_honest G H hop)
  | trx x => exact h (saveTrx_honest G H hop)
  | block x => exact saveBlock_stays G H hop
  | minedBlock x => exact saveMinedBlock_stays G H hop
  | link x => exact saveLink_stays G H hop
  | minedLink x => exact saveMinedLink_stays G H hop
  | insert c =>
    refine Spec.unlessFound H (fun _ _ => trivial) fun _ => ?_
    refine Spec.bind (saveGenesis_honest G H hop.1) fun _ σ₁ H _ => ?_
    refine Spec.bind (saveMinedBlock_stays G H hop.2.1) fun _ σ₁ H _ => ?_
    exact saveChain_stays G H hop.2.2
  | update a b =>
    exact Spec.lift H fun _ _ => Spec.lift H fun _ _ => saveChain_stays G H hop
  | state s =>
    intro r σ' hr
    obtain ⟨rfl, -⟩ := hr.quiet (saveState_quiet s σ)
    exact ⟨H, fun _ _ => trivial⟩

theorem History.honest (G : W.Good e) {σ : Store} (h : History W σ) : Honest W σ := by
  induction h with
  | empty => exact Honest.empty W
  | step _ hop hr ih => exact (op_honest G ih hop _ _ hr).1

omit [Sha512] C in
theorem Fetch.exists {α β : Type} {o : Outcome α} {n : α → β} {z : β} (h : Fetch False o n z) :
    ∃ x, o = .ok x ∧ n x = z := h.elim id fun h => h.1.elim

theorem stored_genesis (G : W.Good e) (O : W.OneGenesis e) {σ : Store} (H : Honest W σ)
    (hg : ∃ g, retrGenesis σ = .ok g) {x : Genesis} (hx : W.genesis x) :
    Fetch False (retrGenesis σ) (Genesis.timed e) (x.timed e) := by
  obtain ⟨g, hg⟩ := hg
  exact (H.genesis' G O hx).found hg

theorem op_found (G : W.Good e) {op : Op} (O : op.NeedsGenesis → W.OneGenesis e) {σ : Store}
    (H : Honest W σ) (hop : op.In W)
    (hg : op.NeedsGenesis → ∃ g, retrGenesis σ = .ok g) :
    Spec op.prog σ (Honest W) (fun _ => op.Found e) := by
  have h {p : Prog Unit} {P Q : Unit → Store → Prop} (h : Spec p σ (Honest W) P)
      (hPQ : ∀ σ', P () σ' → Q () σ') : Spec p σ (Honest W) Q :=
    h.mono (fun _ h => h) fun _ σ' _ h => hPQ σ' h
  cases op with
  | lock x => exact h (saveLock_honest G H hop) fun _ h => h.exists
  | bill x => exact h (saveBill_honest G H hop) fun _ h => h.exists
  | expense x => exact h (saveExpense_honest G H hop) fun _ h => h.exists
  | genesis x => exact h (saveGenesis_honest G H hop) fun _ h => h.exists
  | trx x => exact h (saveTrx_honest G H hop) fun _ h => h.exists
  | block x =>
    exact h (saveBlock_honest G (O trivial) H hop (stored_genesis G (O trivial) H (hg trivial)
      (G.block_genesis _ hop))) fun _ h => h.exists
  | minedBlock x =>
    exact h (saveMinedBlock_honest G (O trivial) H hop (stored_genesis G (O trivial) H (hg trivial)
      (G.block_genesis _ (G.minedBlock_block _ hop)))) fun _ h => h.exists
  | link x =>
    exact h (saveLink_honest G (O trivial) H hop (stored_genesis G (O trivial) H (hg trivial)
      (G.block_genesis _ (G.link_next _ hop)))) fun _ h => h.exists
  | minedLink x =>
    exact h (saveMinedLink_honest G (O trivial) H hop (stored_genesis G (O trivial) H (hg trivial)
      (G.block_genesis _ (G.link_next _ (G.minedLink_link _ hop))))) fun _ h => h.exists
  | insert c => exact (op_honest G H hop)
  | update a b => exact (op_honest G H hop)
  | state s => exact (op_honest G H hop)

/-! ## C31 -/

/-- C31: on every store reached by a history of operations with any faults, when saving an object
returns nil, retrieval by its hash returns the object, up to times (which are not hashed) as far as
the world leaves them open, and up to the encoding of scalars. Blocks and what contains them need
their genesis to be stored. -/
theorem C31_saved_is_retrievable (G : W.Good e) {op : Op} {σ σ' : Store} (H : History W σ)
    (hop : op.In W) (O : op.NeedsGenesis → W.OneGenesis e)
    (hg : op.NeedsGenesis → ∃ g, retrGenesis σ = .ok g)
    (h : Run op.prog σ (some (.ok ())) σ') : op.Found e σ' :=
  (op_found G O (H.honest G) hop hg _ _ h).2 () rfl

/-! ### The exact version -/

omit [Sha512] C in
theorem Lock.timed_id (x : Lock) : x.timed id = x := rfl
omit [Sha512] C in
theorem Bill.timed_id (x : Bill) : x.timed id = x := rfl
omit [Sha512] C in
theorem Genesis.timed_id (x : Genesis) : x.timed id = x := rfl
omit [Sha512] C in
theorem Address.timed_id (x : Address) : x.timed id = x := rfl
omit [Sha512] C in
theorem timed_id_list {α : Type} {f : α → α} (h : ∀ x, f x = x) (l : List α) : l.map f = l := by
  simp [funext h]
omit [Sha512] C in
theorem timed_id_opt {α : Type} {f : α → α} (h : ∀ x, f x = x) (l : Option α) : l.map f = l := by
  cases l <;> simp [h]
omit [Sha512] C in
theorem Content.timed_id (x : Content) : x.timed id = x := by
  simp [Content.timed, timed_id_list Bill.timed_id, timed_id_opt Bill.timed_id, Bill.timed_id]
omit [Sha512] in
theorem Expense.timed_id (x : Expense) : x.timed id = x := by
  simp [Expense.timed, Content.timed_id]
omit [Sha512] in
theorem Transaction.timed_id (x : Transaction) : x.timed id = x := by
  simp [Transaction.timed, timed_id_list Expense.timed_id, timed_id_opt Address.timed_id]
omit [Sha512] in
theorem Block.timed_id (x : Block) : x.timed id = x := by
  simp [Block.timed, timed_id_list Transaction.timed_id, Genesis.timed_id]
omit [Sha512] in
theorem MinedBlock.timed_id (x : MinedBlock) : x.timed id = x := by
  simp [MinedBlock.timed, Block.timed_id]
omit [Sha512] in
theorem Link.timed_id (x : Link) : x.timed id = x := by simp [Link.timed, Block.timed_id]
omit [Sha512] in
theorem MinedLink.timed_id (x : MinedLink) : x.timed id = x := by
  simp [MinedLink.timed, Link.timed_id]

/-- C31: in a world where objects with equal hashes are equal and scalars are reduced, exactly the
saved object comes back. -/
theorem C31_saved_comes_back (G : W.Good id) {op : Op} {σ σ' : Store} (H : History W σ)
    (hop : op.In W) (hc : op.Canonical) (O : op.NeedsGenesis → W.OneGenesis id)
    (hg : op.NeedsGenesis → ∃ g, retrGenesis σ = .ok g)
    (h : Run op.prog σ (some (.ok ())) σ') : op.Exactly σ' := by
  have hf := C31_saved_is_retrievable G H hop O hg h
  cases op with
  | lock x => obtain ⟨y, h1, h2⟩ := hf; exact h1.trans (congrArg _ h2)
  | bill x => obtain ⟨y, h1, h2⟩ := hf; exact h1.trans (congrArg _ h2)
  | genesis x => obtain ⟨y, h1, h2⟩ := hf; exact h1.trans (congrArg _ h2)
  | expense x =>
    obtain ⟨y, h1, h2⟩ := hf
    rw [Expense.timed_id, Expense.timed_id, Expense.reduced_of_canonical hc] at h2
    exact h1.trans (congrArg _ h2)
  | trx x =>
    obtain ⟨y, h1, h2⟩ := hf
    rw [Transaction.timed_id, Transaction.timed_id, Transaction.reduced_of_canonical hc] at h2
    exact h1.trans (congrArg _ h2)
  | block x =>
    obtain ⟨y, h1, h2⟩ := hf
    rw [Block.timed_id, Block.timed_id, Block.reduced_of_canonical hc] at h2
    exact h1.trans (congrArg _ h2)
  | minedBlock x =>
    obtain ⟨y, h1, h2⟩ := hf
    rw [MinedBlock.timed_id, MinedBlock.timed_id, MinedBlock.reduced,
      Block.reduced_of_canonical hc] at h2
    exact h1.trans (congrArg _ h2)
  | link x =>
    obtain ⟨y, h1, h2⟩ := hf
    rw [Link.timed_id, Link.timed_id, Link.reduced, Block.reduced_of_canonical hc] at h2
    exact h1.trans (congrArg _ h2)
  | minedLink x =>
    obtain ⟨y, h1, h2⟩ := hf
    rw [MinedLink.timed_id, MinedLink.timed_id, MinedLink.reduced, Link.reduced,
      Block.reduced_of_canonical hc] at h2
    exact h1.trans (congrArg _ h2)
  | insert c => trivial
  | update a b => trivial
  | state s => trivial

/-- C33: in every history, saving an object a second time after a save that returned nil writes
nothing and returns nil. -/
theorem C33_second_save_is_quiet (G : W.Good e) {op : Op} {σ σ' σ'' : Store} (H : History W σ)
    (hop : op.In W) (hs : op.Saves) (hne : ∀ x, op ≠ .genesis x)
    (O : op.NeedsGenesis → W.OneGenesis e)
    (hg : op.NeedsGenesis → ∃ g, retrGenesis σ = .ok g)
    (h : Run op.prog σ (some (.ok ())) σ') {r : Option (Outcome Unit)}
    (h' : Run op.prog σ' r σ'') : σ'' = σ' ∧ (r = none ∨ r = some (.ok ())) := by
  have hf := C31_saved_is_retrievable G H hop O hg h
  refine C33_save_is_idempotent ?_ h'
  cases op with
  | genesis x => exact absurd rfl (hne x)
  | insert c => exact hs.elim
  | update a b => exact hs.elim
  | state s => exact hs.elim
  | _ => obtain ⟨y, h1, h2⟩ := hf; exact ⟨y, h1⟩

/-! ## C34 -/

theorem op_exec (G : W.Good e) {op : Op} {σ : Store} (H : Honest W σ) (hop : op.In W)
    (hs : op.Saves) (O : op.NeedsGenesis → W.OneGenesis e)
    (hn : ∀ x, op = .genesis x → ∃ m, retrGenesis σ = .err m) :
    (op.prog.exec σ).1 = .ok () := by
  cases op with
  | lock x => exact saveLock_exec G H hop
  | bill x => exact saveBill_exec G H hop
  | expense x => exact saveExpense_exec G H hop
  | genesis x => exact saveGenesis_exec G H hop (hn x rfl)
  | trx x => exact saveTrx_exec G H hop
  | block x => exact saveBlock_exec G (O trivial) H hop
  | minedBlock x => exact saveMinedBlock_exec G (O trivial) H hop
  | link x => exact saveLink_exec G (O trivial) H hop
  | minedLink x => exact saveMinedLink_exec G (O trivial) H hop
  | insert c => exact hs.elim
  | update a b => exact hs.elim
  | state s => exact hs.elim

/-- C34: wherever a save was cut (process killed, write failed or torn), and also after any further
operations with faults, the same save run again without faults returns nil and the object is
retrievable. The genesis is only saved again when none is retrievable, as otherwise its save reports
that there is one (C36). -/
theorem C34_interrupted_save_resumes (G : W.Good e) {op : Op} {σ σ' : Store}
    {r : Option (Outcome Unit)} (H : History W σ) (hop : op.In W) (hs : op.Saves)
    (O : op.NeedsGenesis → W.OneGenesis e)
    (hg : op.NeedsGenesis → ∃ g, retrGenesis σ = .ok g)
    (h : Run op.prog σ r σ') (hn : ∀ x, op = .genesis x → ∃ m, retrGenesis σ' = .err m) :
    ∃ σ'', op.prog.exec σ' = (.ok (), σ'') ∧ op.Found e σ'' := by
  have H' : History W σ' := H.step hop h
  have hg' : op.NeedsGenesis → ∃ g, retrGenesis σ' = .ok g := fun hnd => by
    obtain ⟨g, hg⟩ := hg hnd
    exact ⟨g, (C32_saving_never_damages h).1.genesis g hg⟩
  have he := op_exec G (H'.honest G) hop hs O hn
  refine ⟨_, Prod.ext he rfl, ?_⟩
  have hr := Run.of_exec op.prog σ'
  rw [he] at hr
  exact C31_saved_is_retrievable G H' hop O hg' hr

/-! ## C35 -/

theorem saveChain_sane (G : W.Good e) (O : W.OneGenesis e) {σ : Store} (S : Sane W σ) {c : Chain}
    (hc : W.minedLink c.head) (hg : ∃ g, retrGenesis σ = .ok g) :
    Spec (saveChain c) σ (Sane W) (fun _ _ => True) := by
  refine Spec.bind (saveMinedLink_sane G O S hc (stored_genesis G O S.1 hg
    (G.block_genesis _ (G.link_next _ (G.minedLink_link _ hc))))) fun _ σ₁ S _ => ?_
  have h : ∀ x, Sane W { σ₁ with chain := x } := fun x => ⟨{ S.1 with }, { S.2 with }⟩
  exact Spec.lift S fun tr _ => Spec.save S (h _) (h _) trivial

theorem op_sane (G : W.Good e) (O : (∃ b, W.block b) → W.OneGenesis e) {σ : Store} (S : Sane W σ)
    {op : Op} (hop : op.In W) (hg : op.NeedsGenesis → ∃ g, retrGenesis σ = .ok g) :
    Spec op.prog σ (Sane W) (fun _ _ => True) := by
  have h {p : Prog Unit} {P : Unit → Store → Prop} (h : Spec p σ (Sane W) P) :
      Spec p σ (Sane W) (fun _ _ => True) := h.mono (fun _ h => h) fun _ _ _ _ => trivial
  cases op with
  | lock x => exact h (saveLock_sane G S hop)
  | bill x => exact h (saveBill_sane G S hop)
  | expense x => exact h (saveExpense_sane G S hop)
  | genesis x => exact h (saveGenesis_sane G S hop)
  | trx x => exact h (saveTrx_sane G S hop)
  | block x =>
    have O := O ⟨_, hop⟩
    exact h (saveBlock_sane G O S hop (stored_genesis G O S.1 (hg trivial)
      (G.block_genesis _ hop)))
  | minedBlock x =>
    have O := O ⟨_, G.minedBlock_block _ hop⟩
    exact h (saveMinedBlock_sane G O S hop (stored_genesis G O S.1 (hg trivial)
      (G.block_genesis _ (G.minedBlock_block _ hop))))
  | link x =>
    have O := O ⟨_, G.link_next _ hop⟩
    exact h (saveLink_sane G O S hop (stored_genesis G O S.1 (hg trivial)
      (G.block_genesis _ (G.link_next _ hop))))
  | minedLink x =>
    have O := O ⟨_, G.link_next _ (G.minedLink_link _ hop)⟩
    exact h (saveMinedLink_sane G O S hop (stored_genesis G O S.1 (hg trivial)
      (G.block_genesis _ (G.link_next _ (G.minedLink_link _ hop)))))
  | insert c =>
    have O := O ⟨_, G.minedBlock_block _ hop.2.1⟩
    refine Spec.unlessFound S (fun _ _ => trivial) fun _ => ?_
    refine Spec.bind (saveGenesis_sane G S hop.1) fun _ σ₁ S hg => ?_
    have hg : ∃ g, retrGenesis σ₁ = .ok g := hg.exists.imp fun _ h => h.1
    refine Spec.bind ((saveMinedBlock_sane G O S hop.2.1 (stored_genesis G O S.1 hg
      (G.block_genesis _ (G.minedBlock_block _ hop.2.1)))).and (saveMinedBlock_keep _ _) |>.mono
      (fun _ h => h.1) (Q := fun _ σ' => ∃ g, retrGenesis σ' = .ok g)
      fun _ σ' h _ => hg.imp fun _ => h.2.retrGenesis) fun _ σ₂ S hg => ?_
    exact saveChain_sane G O S hop.2.2 hg
  | update a b =>
    have O := O ⟨_, G.link_next _ (G.minedLink_link _ hop)⟩
    exact Spec.lift S fun _ _ => Spec.lift S fun _ _ => saveChain_sane G O S hop (hg trivial)
  | state s =>
    intro r σ' hr
    obtain ⟨rfl, -⟩ := hr.quiet (saveState_quiet s σ)
    exact ⟨S, fun _ _ => trivial⟩

theorem Orderly.sane (G : W.Good e) (O : (∃ b, W.block b) → W.OneGenesis e) {σ : Store}
    (h : Orderly W σ) : Sane W σ := by
  induction h with
  | empty => exact ⟨Honest.empty W, Closed.empty⟩
  | step _ hop hg hr ih => exact (op_sane G O ih hop hg _ _ hr).1

/-- C35, one operation: if every reference in a complete file led to a complete file before the
operation, it does so at every point where the operation can be cut. -/
theorem C35_references_stay_intact (G : W.Good e) (O : (∃ b, W.block b) → W.OneGenesis e) {op : Op}
    {σ σ' : Store} {r : Option (Outcome Unit)} (H : History W σ) (K : Closed σ) (hop : op.In W)
    (hg : op.NeedsGenesis → ∃ g, retrGenesis σ = .ok g) (h : Run op.prog σ r σ') : Closed σ' :=
  (op_sane G O ⟨H.honest G, K⟩ hop hg _ _ h).1.2

/-- C35, whole histories: after any orderly history of operations with any faults, every complete
file is retrievable together with everything it refers to. -/
theorem C35_complete_files_are_retrievable (G : W.Good e)
    (O : (∃ b, W.block b) → W.OneGenesis e) {σ : Store} (H : Orderly W σ) :
    (∀ h, Readable (σ.locks (Hash.str h)) → ∃ x, retrLock σ h = .ok x) ∧
    (∀ h, Readable (σ.bills (Hash.str h)) → ∃ x, retrBill σ h = .ok x ∧
      retrLock σ x.lock.hash = .ok x.lock) ∧
    (∀ h, Readable (σ.expenses (Hash.str h)) → ∃ x, retrExpense σ h = .ok x) ∧
    (Readable σ.genesis → ∃ x, retrGenesis σ = .ok x) ∧
    (∀ h, Readable (σ.trxs (Hash.str h)) → ∃ x, retrTrx σ h = .ok x) ∧
    ((∃ g, retrGenesis σ = .ok g) →
      (∀ h, Readable (σ.blocks (Hash.str h)) → ∃ x, retrBlock σ h = .ok x) ∧
      (∀ h, Readable (σ.minedBlocks (Hash.str h)) → ∃ x, retrMinedBlock σ h = .ok x) ∧
      (∀ h, Readable (σ.links (Hash.str h)) → ∃ x, retrLink σ h = .ok x) ∧
      (∀ h, Readable (σ.minedLinks (Hash.str h)) → ∃ x, retrMinedLink σ h = .ok x)) := by
  have S := H.sane G O
  refine ⟨fun h hr => ?_, fun h hr => ?_, fun h hr => ?_, fun hr => ?_, fun h hr => ?_, fun hg =>
    ⟨fun h hr => ?_, fun h hr => ?_, fun h hr => ?_, fun h hr => ?_⟩⟩
  · obtain ⟨js, hc⟩ := hr
    obtain ⟨y, hy, hp, hf⟩ := S.1.locks _ _ hc
    cases Hash.str_injective hp
    exact (S.lock G hy ⟨js, hc⟩).exists.imp fun _ h => h.1
  · obtain ⟨js, hc⟩ := hr
    obtain ⟨y, hy, hp, hf⟩ := S.1.bills _ _ hc
    cases Hash.str_injective hp
    obtain ⟨x, hx, hx'⟩ := (S.bill G hy ⟨js, hc⟩).exists
    refine ⟨x, hx, ?_⟩
    obtain ⟨js', h1, k2⟩ := Outcome.bind_eq_ok.mp hx
    obtain ⟨tr, h2, k3⟩ := Outcome.bind_eq_ok.mp k2
    obtain ⟨l, h3, h4⟩ := Outcome.bind_eq_ok.mp k3
    obtain ⟨l', hl', -, rfl⟩ := billNow_eq_ok.mp h4
    cases hl'
    rw [readCell_eq_ok] at h1
    rw [hc] at h1
    cases h1
    have hl : l.hash = tr.lock := by
      have e1 : l.hash = y.lock.hash := congrArg (fun b => b.lock.hash) hx'
      rw [bill_file_eq hf, trBillFromJSON] at h2
      simp only [fromString_str, Outcome.bind_ok] at h2
      obtain ⟨-, rfl⟩ := trBillNow_eq_ok.mp h2
      exact e1
    rw [hl]
    exact h3
  · obtain ⟨js, hc⟩ := hr
    obtain ⟨y, hy, hp, hf⟩ := S.1.expenses _ _ hc
    cases Hash.str_injective hp
    exact (S.expense G hy ⟨js, hc⟩).exists.imp fun _ h => h.1
  · obtain ⟨js, hc⟩ := hr
    obtain ⟨y, hy, hf⟩ := S.1.genesis _ hc
    exact (S.genesis G hc hy hf).exists.imp fun _ h => h.1
  · obtain ⟨js, hc⟩ := hr
    obtain ⟨y, hy, hp, hf⟩ := S.1.trxs _ _ hc
    cases Hash.str_injective hp
    exact (S.trx G hy ⟨js, hc⟩).exists.imp fun _ h => h.1
  · obtain ⟨js, hc⟩ := hr
    obtain ⟨y, hy, hp, hf⟩ := S.1.blocks _ _ hc
    cases Hash.str_injective hp
    have O := O ⟨_, hy⟩
    exact (S.block G hy O (stored_genesis G O S.1 hg (G.block_genesis _ hy)) ⟨js, hc⟩).exists.imp
      fun _ h => h.1
  · obtain ⟨js, hc⟩ := hr
    obtain ⟨y, hy, hp, hf⟩ := S.1.minedBlocks _ _ hc
    cases Hash.str_injective hp
    have O := O ⟨_, G.minedBlock_block _ hy⟩
    exact (S.minedBlock G hy O (stored_genesis G O S.1 hg
      (G.block_genesis _ (G.minedBlock_block _ hy))) ⟨js, hc⟩).exists.imp fun _ h => h.1
  · obtain ⟨js, hc⟩ := hr
    obtain ⟨y, hy, hp, hf⟩ := S.1.links _ _ hc
    cases Hash.str_injective hp
    have O := O ⟨_, G.link_next _ hy⟩
    exact (S.link G hy O (stored_genesis G O S.1 hg
      (G.block_genesis _ (G.link_next _ hy))) ⟨js, hc⟩).exists.imp fun _ h => h.1
  · obtain ⟨js, hc⟩ := hr
    obtain ⟨y, hy, hp, hf⟩ := S.1.minedLinks _ _ hc
    cases Hash.str_injective hp
    have O := O ⟨_, G.link_next _ (G.minedLink_link _ hy)⟩
    exact (S.minedLink G hy O (stored_genesis G O S.1 hg
      (G.block_genesis _ (G.link_next _ (G.minedLink_link _ hy)))) ⟨js, hc⟩).exists.imp fun _ h => h.1

end

section examples

attribute [local instance] toyCurve

/-- A world with one object of every kind: an expense that moves a bill to its own lock, a
transaction paying it as fee, a block with that transaction, and so on up to a mined link. -/
theorem toy_world_exact [Sha512] : ∃ (W : World) (x : Expense) (t : Transaction) (b : Block)
    (r : MinedBlock) (k : MinedLink), W.Exact ∧ W.Good id ∧ W.OneGenesis id ∧ W.expense x ∧ W.trx t ∧ W.genesis b.genesis ∧
    W.block b ∧ W.minedBlock r ∧ W.minedLink k ∧ x.Canonical ∧ t.fees = [x] ∧ b.trx = [t, t] ∧
    r.block = b ∧ k.link.next = b ∧ b.genesis.blockBase = 1 ∧
    b.genesis.blockIncrease = .fin (1 / 2) ∧ b.genesis.link = 3 ∧ k.link.index = 7 ∧
    k.mining = [48, 49] ∧ r.mining = [48, 50] ∧ b.additional = 4 ∧
    (∀ u ∈ b.genesis.times, u = 0) ∧ (∀ u ∈ r.fileTimes, u = 0) := by
  obtain ⟨l, sig, h1, hs, h3⟩ := C21_unlock_complete_partial [publicKey (toySc 1),
    publicKey (toySc 2)] (by decide) (toySc 2) (by decide) (by simp) 0
  have hl : l.Built := ⟨_, _, h1⟩
  have lt : l.createdOn = 0 := by
    obtain ⟨_, -, -, -, rfl⟩ := lockNow_eq_ok.mp h1
    rfl
  have hcan := C29_ring_sign_canonical _ _ _ _ hs
  obtain ⟨b, hb⟩ : ∃ b, billNow (some l) 5 0 = .ok b := ⟨_, billNow_eq_ok.mpr ⟨_, rfl, by decide, rfl⟩⟩
  have hbb : b.Built := by
    obtain ⟨l', h, -, rfl⟩ := billNow_eq_ok.mp hb
    cases h
    exact ⟨hl, _, _, _, hb⟩
  obtain ⟨l', h', -, hb'⟩ := billNow_eq_ok.mp hb
  cases h'
  have htot : sourceTotal [b] = 5 := by simp [sourceTotal, hb']
  obtain ⟨c, hc⟩ : ∃ c, contentNow 5 (some [b]) (some l) none 0 = .ok c :=
    ⟨_, contentNow_eq_ok.mpr ⟨_, _, rfl, rfl, by decide, by rw [htot], by simp [htot], rfl⟩⟩
  obtain ⟨src, l', e1, e2, -, -, -, hc'⟩ := contentNow_eq_ok.mp hc
  cases e1; cases e2
  obtain ⟨x, hx⟩ : ∃ x, expenseNow (some c) (some [sig]) = .ok x := by
    refine ⟨_, expenseNow_eq_ok.mpr ⟨_, _, rfl, rfl, ?_, rfl⟩⟩
    rw [hc']
    simp only [List.forall₂_cons, List.forall₂_nil_left_iff, and_true]
    rw [hb']
    exact h3
  obtain ⟨_, _, e1, e2, -, hx'⟩ := expenseNow_eq_ok.mp hx
  cases e1; cases e2
  obtain ⟨t, ht⟩ : ∃ t, trxNow none none [x] 0 = .ok t := ⟨_, trxNow_eq_ok.mpr ⟨by simp, rfl⟩⟩
  obtain ⟨-, ht'⟩ := trxNow_eq_ok.mp ht
  obtain ⟨g, hg⟩ : ∃ g, genesisNow 1 (.fin (1 / 2)) 3 (some b) 0 = .ok g :=
    ⟨_, genesisNow_eq_ok.mpr ⟨_, rfl, by decide, by simp [Flt.le0], by decide, rfl⟩⟩
  obtain ⟨_, e1, -, -, -, hg'⟩ := genesisNow_eq_ok.mp hg
  cases e1
  obtain ⟨bl, hbl⟩ : ∃ y, blockNow (some g) 4 (some [t, t]) 0 = .ok y :=
    ⟨_, blockNow_eq_ok.mpr ⟨_, _, rfl, rfl, by simp, rfl⟩⟩
  obtain ⟨_, _, e1, e2, -, hbl'⟩ := blockNow_eq_ok.mp hbl
  cases e1; cases e2
  obtain ⟨r, hr⟩ : ∃ y, minedBlockNow (some bl) [48, 50] 0 = .ok y :=
    ⟨_, minedBlockNow_eq_ok.mpr ⟨_, rfl, rfl⟩⟩
  obtain ⟨_, e1, hr'⟩ := minedBlockNow_eq_ok.mp hr
  cases e1
  obtain ⟨k, hk⟩ : ∃ y, linkNow (some r.hash) (some bl) 7 0 = .ok y :=
    ⟨_, linkNow_eq_ok.mpr ⟨_, _, rfl, rfl, rfl⟩⟩
  obtain ⟨_, _, e1, e2, hk'⟩ := linkNow_eq_ok.mp hk
  cases e1; cases e2
  obtain ⟨m, hm⟩ : ∃ y, minedLinkNow (some k) [48, 49] 0 = .ok y :=
    ⟨_, minedLinkNow_eq_ok.mpr ⟨_, rfl, rfl⟩⟩
  obtain ⟨_, e1, hm'⟩ := minedLinkNow_eq_ok.mp hm
  cases e1
  have hcb : c.Built := ⟨_, _, _, _, _, hc, by simpa using hbb, hl, by simp⟩
  have hsrc : c.source = [b] := by rw [hc']
  have hdest : c.dest = b := by rw [hc', hb']
  have hrem : c.remaining = none := by rw [hc']; rfl
  have hxc : x.content = c := by rw [hx']
  have hxb : x.Built := ⟨by rw [hxc]; exact hcb, _, _, hx⟩
  have htf : t.fees = [x] := by rw [ht']
  have hta : t.address = none := by rw [ht']
  have htb : t.Built := ⟨by simp [hta], by simpa [htf] using hxb, _, _, _, _, ht⟩
  have hgb : g.bill = b := by rw [hg']
  have hgB : g.Built := ⟨by rw [hgb]; exact hbb, _, _, _, _, _, hg⟩
  have hgm : g.blockIncrease = .fin (1 / 2) := by rw [hg']
  have hblg : bl.genesis = g := by rw [hbl']
  have hblt : bl.trx = [t, t] := by rw [hbl']
  have hblB : bl.Built := ⟨by rw [hblg]; exact hgB, by simpa [hblt] using htb, _, _, _, _, hbl⟩
  have hrb : r.block = bl := by rw [hr']
  have hrB : r.Built := ⟨by rw [hrb]; exact hblB, by rw [hr']; exact utf8_of_ascii (by simp), _, _, _, hr⟩
  have hkn : k.next = bl := by rw [hk']
  have hkB : k.Built := ⟨by rw [hkn]; exact hblB, _, _, _, _, hk⟩
  have hmk : m.link = k := by rw [hm']
  have hmB : m.Built := ⟨by rw [hmk]; exact hkB, by rw [hm']; exact utf8_of_ascii (by simp), _, _, _, hm⟩
  have hbl0 : b.lock = l := by rw [hb']
  refine ⟨⟨(· = l), (· = b), (· = x), (· = g), (· = t), (· = bl), (· = r), (· = k), (· = m)⟩, x, t, bl,
    r, m, ?_, ?_, ?_, rfl, rfl, hblg, rfl, rfl, rfl, ?_, htf, hblt, hrb, by rw [hmk, hkn],
    by rw [hblg, hg'], by rw [hblg, hg'], by rw [hblg, hg'], by rw [hmk, hk'], by rw [hm'],
    by rw [hr'], by rw [hbl'], ?_, ?_⟩
  · constructor
    case genesis => rintro _ _ rfl rfl; rfl
    all_goals rintro _ _ rfl rfl -; rfl
  · constructor <;> simp only [forall_eq]
    · exact hl
    · exact hbb
    · exact hxb
    · intro s hs y hy
      have : x.signatures = [sig] := by rw [hx']
      simp only [this, List.mem_singleton] at hs
      rw [hs] at hy
      obtain ⟨a, rfl⟩ := hcan.1 y hy
      exact toyCurve.canon_fits a
    · exact hgB
    · exact htb
    · exact hblB
    · exact hrB
    · exact hkB
    · exact hmB
    · exact hbl0
    · simp [hxc, hsrc]
    · rw [hxc, hdest]
    · simp [hxc, hrem]
    · exact hgb
    · simp [hgm, Flt.marshals]
    · simp [htf]
    · exact hta
    · exact hblg
    · simp [hblt]
    · simp [hblt]
    · exact hrb
    · exact hkn
    · exact hmk
    all_goals rintro _ _ rfl rfl -; rfl
  · rintro _ _ rfl rfl; rfl
  · intro s hs
    have : x.signatures = [sig] := by rw [hx']
    simp only [this, List.mem_singleton] at hs
    rw [hs]
    exact hcan
  · have e1 : b.createdOn = 0 := by rw [hb']
    have e2 : g.createdOn = 0 := by rw [hg']
    have e3 : l.createdOn = 0 := lt
    simp [hblg, Genesis.times, Bill.times, Lock.times, hgb, hbl0, e1, e2, e3]
  · have e1 : b.createdOn = 0 := by rw [hb']
    have e2 : c.createdOn = 0 := by rw [hc']
    have e3 : l.createdOn = 0 := lt
    have e4 : t.createdOn = 0 := by rw [ht']
    have e5 : bl.createdOn = 0 := by rw [hbl']
    have e6 : r.createdOn = 0 := by rw [hr']
    simp [MinedBlock.fileTimes, Block.fileTimes, Transaction.fileTimes, Expense.times, Content.times,
      Bill.times, Lock.times, hrb, hblt, htf, hxc, hsrc, hdest, hrem, hbl0, e1, e2, e3, e4, e5, e6]

/-- `toy_world_exact` without the first part. -/
theorem toy_world [Sha512] : ∃ (W : World) (x : Expense) (t : Transaction) (b : Block) (r : MinedBlock)
    (k : MinedLink), W.Good id ∧ W.OneGenesis id ∧ W.expense x ∧ W.trx t ∧ W.genesis b.genesis ∧
    W.block b ∧ W.minedBlock r ∧ W.minedLink k ∧ x.Canonical ∧ t.fees = [x] ∧ b.trx = [t, t] ∧
    r.block = b ∧ k.link.next = b ∧ b.genesis.blockBase = 1 ∧
    b.genesis.blockIncrease = .fin (1 / 2) ∧ b.genesis.link = 3 ∧ k.link.index = 7 ∧
    k.mining = [48, 49] ∧ r.mining = [48, 50] ∧ b.additional = 4 ∧
    (∀ u ∈ b.genesis.times, u = 0) ∧ (∀ u ∈ r.fileTimes, u = 0) := by
  obtain ⟨W, x, t, b, r, k, -, h⟩ := toy_world_exact
  exact ⟨W, x, t, b, r, k, h⟩

attribute [local instance] toySha

/-- C31, C33, C34, C35: a history that stores the genesis and then a mined block, whose save
returns nil, from which the mined block comes back. -/
example : ∃ (W : World) (r : MinedBlock) (σ σ' : Store), W.Good id ∧ W.OneGenesis id ∧
    Orderly W σ ∧ History W σ ∧ (Op.minedBlock r).In W ∧ (∃ g, retrGenesis σ = .ok g) ∧
    Run (Op.minedBlock r).prog σ (some (.ok ())) σ' ∧ retrMinedBlock σ' r.hash = .ok r := by
  obtain ⟨W, x, t, b, r, k, G, O, hx, ht, hg, hb, hr, hk, hcan, e1, e2, e3, e4, -⟩ := toy_world
  have hn : ∃ m, retrGenesis Store.empty = .err m := ⟨_, rfl⟩
  have h1 := saveGenesis_exec G (Honest.empty W) hg hn
  have r1 := Run.of_exec (saveGenesis b.genesis) .empty
  rw [h1] at r1
  have H1 : History W ((saveGenesis b.genesis).exec .empty).2 :=
    History.empty.step (op := .genesis b.genesis) hg r1
  have O1 : Orderly W ((saveGenesis b.genesis).exec .empty).2 :=
    Orderly.empty.step (op := .genesis b.genesis) hg (fun h => h.elim) r1
  obtain ⟨g, hg1, -⟩ := C31_saved_is_retrievable G .empty (op := .genesis b.genesis) hg
    (fun h => h.elim) (fun h => h.elim) r1
  have h2 := saveMinedBlock_exec G O (H1.honest G) hr
  have r2 := Run.of_exec (saveMinedBlock r) ((saveGenesis b.genesis).exec .empty).2
  rw [h2] at r2
  refine ⟨W, r, _, _, G, O, O1, H1, hr, ⟨g, hg1⟩, r2, ?_⟩
  refine C31_saved_comes_back G H1 (op := .minedBlock r) hr ?_ (fun _ => O) (fun _ => ⟨g, hg1⟩) r2
  simpa [Op.Canonical, Block.Canonical, e3, e2, Transaction.Canonical, e1] using hcan

/-- C32, C34: a save that is cut in the middle of its last write, leaving a torn file. -/
example : ∃ (x : Lock) (σ' : Store), Run (Op.lock x).prog .empty none σ' ∧
    σ'.locks x.hash.str = some .torn := by
  refine ⟨toyLock 1, _, .look (?_ : Run _ _ none
    { Store.empty with locks := setFile Store.empty.locks (toyLock 1).hash.str .torn }), by simp⟩
  exact .tornWrite (.killed _ _)

end examples

end Verif
