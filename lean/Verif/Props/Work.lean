import Verif.Props.Impostor
import Verif.Model.Store.Reads

/-!
# How many files a retrieval reads

Property C151. The specification counts the files of an object as if nothing were shared: one for
the object and those of its parts. A retrieval reads exactly that many, whatever else is stored; in
particular not the links before the last one. Parts that are named several times are read again each time.
-/

namespace Verif

namespace Rd

variable {α β : Type}

/-- The files that the program reads, in order. -/
def trace (r : Rd α) (σ : Store) : List Spot :=
  match r with
  | ret _ => []
  | ask n k => n ::
    match readCell (σ.file n) with
    | .ok a => (k a).trace σ
    | .err _ => []
    | .crash _ => []

theorem trace_bind (r : Rd α) (f : α → Rd β) (σ : Store) :
    (r.bind f).trace σ = r.trace σ ++
      match r.run σ with
      | .ok a => (f a).trace σ
      | .err _ => []
      | .crash _ => [] := by
  induction r with
  | ret o => cases o <;> rfl
  | ask n k ih =>
    simp only [bind, trace, run]
    cases readCell (σ.file n) with
    | ok a => simp only [ih a, List.cons_append]
    | err m => rfl
    | crash c => rfl

/-- The number of files that the program reads. -/
def cost (r : Rd α) (σ : Store) : Nat := (r.trace σ).length

@[simp] theorem cost_ret (o : Outcome α) (σ : Store) : (ret o).cost σ = 0 := rfl

@[simp] theorem cost_file (n : Spot) (σ : Store) : (file n).cost σ = 1 := by
  simp only [cost, file, trace]
  cases readCell (σ.file n) <;> rfl

theorem cost_bind_ok {r : Rd α} {σ : Store} {a : α} (h : r.run σ = .ok a) (f : α → Rd β) :
    (r.bind f).cost σ = r.cost σ + (f a).cost σ := by
  simp only [cost, trace_bind, h, List.length_append]

theorem cost_ret_bind {o : Outcome α} {σ : Store} {a : α} (h : o = .ok a) (f : α → Rd β) :
    ((ret o).bind f).cost σ = (f a).cost σ := by
  rw [h]
  rfl

theorem cost_bind_le {r : Rd α} {σ : Store} {f : α → Rd β} {n m : Nat} (hr : r.cost σ ≤ n)
    (hf : ∀ a, r.run σ = .ok a → (f a).cost σ ≤ m) : (r.bind f).cost σ ≤ n + m := by
  unfold cost at *
  rw [trace_bind, List.length_append]
  cases h : r.run σ with
  | ok a => exact Nat.add_le_add hr (hf a h)
  | err m => simp; omega
  | crash c => simp; omega

theorem cost_all_ok {γ : Type} {f : γ → Rd β} {σ : Store} {w : β → Nat} :
    ∀ {xs : List γ} {ys : List β}, (∀ x y, (f x).run σ = .ok y → (f x).cost σ = w y) →
      (all f xs).run σ = .ok ys → (all f xs).cost σ = (ys.map w).sum
  | [], ys, _, h => by
    simp only [all, run_ret, Outcome.ok.injEq] at h
    subst h
    rfl
  | x :: xs, ys, hf, h => by
    simp only [all, run_bind, run_ret, Outcome.bind_eq_ok, Outcome.ok.injEq] at h
    obtain ⟨y, h1, ys', h2, rfl⟩ := h
    rw [all, cost_bind_ok h1, cost_bind_ok h2, cost_all_ok hf h2, hf x y h1]
    simp

theorem cost_all_le {γ : Type} {f : γ → Rd β} {σ : Store} {m : Nat} (hf : ∀ x, (f x).cost σ ≤ m) :
    ∀ xs : List γ, (all f xs).cost σ ≤ xs.length * m
  | [] => by simp [all]
  | x :: xs => by
    have := cost_bind_le (f := fun y => (all f xs).bind fun ys => ret (.ok (y :: ys))) (hf x)
      (m := xs.length * m + 0) fun y _ => cost_bind_le (cost_all_le hf xs) fun _ _ => by simp
    rw [all, List.length_cons, Nat.succ_mul]
    omega

end Rd

/-! ## The specification -/

/-- One file for the lock. -/
def Lock.files (_ : Lock) : Nat := 1

/-- One file for the bill, and that of its lock. -/
def Bill.files (b : Bill) : Nat := 1 + b.lock.files

/-- One file for the genesis, and those of its bill. -/
def Genesis.files (g : Genesis) : Nat := 1 + g.bill.files

section
variable [C : Curve]

/-- One file for the expense, and those of the bills that it takes, makes and gives back. -/
def Expense.files (e : Expense) : Nat :=
  1 + (e.content.source.map Bill.files).sum + e.content.dest.files + (e.content.remaining.map Bill.files).getD 0

/-- One file for the transaction, and those of its fees. -/
def Transaction.files (x : Transaction) : Nat := 1 + (x.fees.map Expense.files).sum

/-- One file for the block, those of the genesis, and those of its transactions. -/
def Block.files (b : Block) : Nat := 1 + b.genesis.files + (b.trx.map Transaction.files).sum

/-- One file more than the block. -/
def MinedBlock.files (b : MinedBlock) : Nat := 1 + b.block.files

/-- One file more than its block; none for the links before. -/
def Link.files (l : Link) : Nat := 1 + l.next.files

/-- One file more than the link. -/
def MinedLink.files (l : MinedLink) : Nat := 1 + l.link.files

/-- One file for the chain, those of the genesis, of the root and of the last link. -/
def Chain.files (c : Chain) : Nat := 1 + c.genesis.files + c.root.files + c.head.files

/-- One file for the state, and those of its transactions. -/
def State.files (s : State) : Nat := 1 + (s.trx.map Transaction.files).sum

end

section
variable [Sha512]

theorem readLock_cost {σ : Store} {h : Hash} {x : Lock} (hx : (readLock h).run σ = .ok x) :
    (readLock h).cost σ = x.files := by
  simp only [readLock, Rd.run_bind, Rd.run_file, Rd.run_ret, Outcome.bind_eq_ok] at hx
  obtain ⟨js, h1, tr, h2, -⟩ := hx
  rw [readLock, Rd.cost_bind_ok ((Rd.run_file _ _).trans h1), Rd.cost_ret_bind h2]
  simp [Lock.files]

theorem readBill_cost {σ : Store} {h : Hash} {x : Bill} (hx : (readBill h).run σ = .ok x) :
    (readBill h).cost σ = x.files := by
  simp only [readBill, Rd.run_bind, Rd.run_file, Rd.run_ret, Outcome.bind_eq_ok] at hx
  obtain ⟨js, h1, tr, h2, l, h3, h4⟩ := hx
  obtain ⟨_, e, -, rfl⟩ := billNow_eq_ok.mp h4
  cases e
  rw [readBill, Rd.cost_bind_ok ((Rd.run_file _ _).trans h1), Rd.cost_ret_bind h2,
    Rd.cost_bind_ok h3, readLock_cost h3]
  simp [Bill.files]

theorem readGenesis_cost {σ : Store} {x : Genesis} (hx : readGenesis.run σ = .ok x) :
    readGenesis.cost σ = x.files := by
  simp only [readGenesis, Rd.run_bind, Rd.run_file, Rd.run_ret, Outcome.bind_eq_ok] at hx
  obtain ⟨js, h1, tr, h2, l, h3, h4⟩ := hx
  obtain ⟨_, e, -, -, -, rfl⟩ := genesisNow_eq_ok.mp h4
  cases e
  rw [readGenesis, Rd.cost_bind_ok ((Rd.run_file _ _).trans h1), Rd.cost_ret_bind h2,
    Rd.cost_bind_ok h3, readBill_cost h3]
  simp [Genesis.files]

variable [C : Curve]

theorem readExpense_cost {σ : Store} {h : Hash} {x : Expense} (hx : (readExpense h).run σ = .ok x) :
    (readExpense h).cost σ = x.files := by
  simp only [readExpense, Rd.run_bind, Rd.run_file, Rd.run_ret, Outcome.bind_eq_ok] at hx
  obtain ⟨js, h1, tr, h2, bs, h3, d, h4, r, h5, c, h6, h7⟩ := hx
  obtain ⟨_, _, e, -, -, rfl⟩ := expenseNow_eq_ok.mp h7
  cases e
  obtain ⟨_, _, e, e', -, -, -, rfl⟩ := contentNow_eq_ok.mp h6
  cases e; cases e'
  rw [readExpense, Rd.cost_bind_ok ((Rd.run_file _ _).trans h1), Rd.cost_ret_bind h2,
    Rd.cost_bind_ok h3, Rd.cost_all_ok (fun _ _ => readBill_cost) h3, Rd.cost_bind_ok h4, readBill_cost h4,
    Rd.cost_bind_ok h5, Rd.cost_ret_bind h6]
  have : (Rd.opt readBill tr.remaining).cost σ = (r.map Bill.files).getD 0 := by
    cases hr : tr.remaining with
    | none =>
      simp only [hr, Rd.opt, Rd.run_ret, Outcome.ok.injEq] at h5
      subst h5
      rfl
    | some y =>
      simp only [hr, Rd.opt, Rd.run_bind, Rd.run_ret, Outcome.bind_eq_ok, Outcome.ok.injEq] at h5
      obtain ⟨z, h5, rfl⟩ := h5
      rw [Rd.opt, Rd.cost_bind_ok h5, readBill_cost h5]
      rfl
  rw [this]
  cases r <;> simp [Expense.files, Bill.files, Lock.files] <;> omega

theorem readTrx_cost {σ : Store} {h : Hash} {x : Transaction} (hx : (readTrx h).run σ = .ok x) :
    (readTrx h).cost σ = x.files := by
  simp only [readTrx, Rd.run_bind, Rd.run_file, Rd.run_ret, Outcome.bind_eq_ok] at hx
  obtain ⟨js, h1, tr, h2, fs, h3, h4⟩ := hx
  obtain ⟨-, rfl⟩ := trxNow_eq_ok.mp h4
  rw [readTrx, Rd.cost_bind_ok ((Rd.run_file _ _).trans h1), Rd.cost_ret_bind h2,
    Rd.cost_bind_ok h3, Rd.cost_all_ok (fun _ _ => readExpense_cost) h3]
  simp [Transaction.files]

theorem readBlock_cost {σ : Store} {h : Hash} {x : Block} (hx : (readBlock h).run σ = .ok x) :
    (readBlock h).cost σ = x.files := by
  simp only [readBlock, Rd.run_bind, Rd.run_file, Rd.run_ret, Outcome.bind_eq_ok] at hx
  obtain ⟨js, h1, tr, h2, g, h3, hs, h4, xs, h5, h6⟩ := hx
  obtain ⟨_, _, e, e', -, rfl⟩ := blockNow_eq_ok.mp h6
  cases e; cases e'
  rw [readBlock, Rd.cost_bind_ok ((Rd.run_file _ _).trans h1), Rd.cost_ret_bind h2,
    Rd.cost_bind_ok h3, readGenesis_cost h3, Rd.cost_ret_bind h4, Rd.cost_bind_ok h5,
    Rd.cost_all_ok (fun _ _ => readTrx_cost) h5]
  simp [Block.files]
  omega

theorem readMinedBlock_cost {σ : Store} {h : Hash} {x : MinedBlock}
    (hx : (readMinedBlock h).run σ = .ok x) : (readMinedBlock h).cost σ = x.files := by
  simp only [readMinedBlock, Rd.run_bind, Rd.run_file, Rd.run_ret, Outcome.bind_eq_ok] at hx
  obtain ⟨js, h1, tr, h2, b, h3, h4⟩ := hx
  obtain ⟨_, e, rfl⟩ := minedBlockNow_eq_ok.mp h4
  cases e
  rw [readMinedBlock, Rd.cost_bind_ok ((Rd.run_file _ _).trans h1), Rd.cost_ret_bind h2,
    Rd.cost_bind_ok h3, readBlock_cost h3]
  simp [MinedBlock.files]

theorem readLink_cost {σ : Store} {h : Hash} {x : Link} (hx : (readLink h).run σ = .ok x) :
    (readLink h).cost σ = x.files := by
  simp only [readLink, Rd.run_bind, Rd.run_file, Rd.run_ret, Outcome.bind_eq_ok] at hx
  obtain ⟨js, h1, tr, h2, b, h3, h4⟩ := hx
  obtain ⟨_, _, -, e, rfl⟩ := linkNow_eq_ok.mp h4
  cases e
  rw [readLink, Rd.cost_bind_ok ((Rd.run_file _ _).trans h1), Rd.cost_ret_bind h2,
    Rd.cost_bind_ok h3, readBlock_cost h3]
  simp [Link.files]

theorem readMinedLink_cost {σ : Store} {h : Hash} {x : MinedLink}
    (hx : (readMinedLink h).run σ = .ok x) : (readMinedLink h).cost σ = x.files := by
  simp only [readMinedLink, Rd.run_bind, Rd.run_file, Rd.run_ret, Outcome.bind_eq_ok] at hx
  obtain ⟨js, h1, tr, h2, b, h3, h4⟩ := hx
  obtain ⟨_, e, rfl⟩ := minedLinkNow_eq_ok.mp h4
  cases e
  rw [readMinedLink, Rd.cost_bind_ok ((Rd.run_file _ _).trans h1), Rd.cost_ret_bind h2,
    Rd.cost_bind_ok h3, readLink_cost h3]
  simp [MinedLink.files]

theorem readChain_cost {σ : Store} {x : Chain} (hx : readChain.run σ = .ok x) :
    readChain.cost σ = x.files := by
  simp only [readChain, Rd.run_bind, Rd.run_file, Rd.run_ret, Outcome.bind_eq_ok] at hx
  obtain ⟨js, h1, tr, h2, g, h3, u, h4, r, h5, d, h6, h7⟩ := hx
  obtain ⟨_, _, _, e, e', e'', -, rfl⟩ := chainNow_eq_ok.mp h7
  cases e; cases e'; cases e''
  rw [readChain, Rd.cost_bind_ok ((Rd.run_file _ _).trans h1), Rd.cost_ret_bind h2,
    Rd.cost_bind_ok h3, readGenesis_cost h3, Rd.cost_ret_bind h4, Rd.cost_bind_ok h5,
    readMinedBlock_cost h5, Rd.cost_bind_ok h6, readMinedLink_cost h6]
  simp [Chain.files]
  omega

theorem readState_cost {σ : Store} {c : Hash} {n : UInt64} {x : State}
    (hx : (readState c n).run σ = .ok x) : (readState c n).cost σ = x.files := by
  simp only [readState, Rd.run_bind, Rd.run_file, Rd.run_ret, Outcome.bind_eq_ok] at hx
  obtain ⟨js, h1, tr, h2, hs, h4, xs, h5, h6⟩ := hx
  have hxs : x.trx = xs := by
    obtain ⟨_, _, _, -, -, e, -, -, rfl⟩ := stateNow_eq_ok.mp h6
    cases e
    rfl
  rw [readState, Rd.cost_bind_ok ((Rd.run_file _ _).trans h1), Rd.cost_ret_bind h2,
    Rd.cost_ret_bind h4, Rd.cost_bind_ok h5, Rd.cost_all_ok (fun _ _ => readTrx_cost) h5]
  simp [State.files, hxs]

/-- C151: a retrieval that succeeds reads as many files as the object has, counting the files of a part
each time the part occurs. This does not depend on what else is stored; the links before the last one are
not read, however many there are. -/
theorem C151_reads_of_a_retrieval (σ : Store) :
    (∀ h x, retrLock σ h = .ok x → ((readLock h).trace σ).length = x.files) ∧
    (∀ h x, retrBill σ h = .ok x → ((readBill h).trace σ).length = x.files) ∧
    (∀ x, retrGenesis σ = .ok x → (readGenesis.trace σ).length = x.files) ∧
    (∀ h x, retrExpense σ h = .ok x → ((readExpense h).trace σ).length = x.files) ∧
    (∀ h x, retrTrx σ h = .ok x → ((readTrx h).trace σ).length = x.files) ∧
    (∀ h x, retrBlock σ h = .ok x → ((readBlock h).trace σ).length = x.files) ∧
    (∀ h x, retrMinedBlock σ h = .ok x → ((readMinedBlock h).trace σ).length = x.files) ∧
    (∀ h x, retrLink σ h = .ok x → ((readLink h).trace σ).length = x.files) ∧
    (∀ h x, retrMinedLink σ h = .ok x → ((readMinedLink h).trace σ).length = x.files) ∧
    (∀ x, retrChain σ = .ok x → (readChain.trace σ).length = x.files) ∧
    ∀ c n x, retrState σ c n = .ok x → ((readState c n).trace σ).length = x.files :=
  ⟨fun _ _ h => readLock_cost (by simpa using h), fun _ _ h => readBill_cost (by simpa using h),
    fun _ h => readGenesis_cost (by simpa using h), fun _ _ h => readExpense_cost (by simpa using h),
    fun _ _ h => readTrx_cost (by simpa using h), fun _ _ h => readBlock_cost (by simpa using h),
    fun _ _ h => readMinedBlock_cost (by simpa using h), fun _ _ h => readLink_cost (by simpa using h),
    fun _ _ h => readMinedLink_cost (by simpa using h), fun _ h => readChain_cost (by simpa using h),
    fun _ _ _ h => readState_cost (by simpa using h)⟩

/-! ## A bound for all files -/

/-- No file lists more than `n` references. -/
structure Store.Lists (σ : Store) (n : Nat) : Prop where
  expenses : ∀ p js tr, σ.expenses p = some (.json js) → trExpenseFromJSON js = .ok tr → tr.source.length ≤ n
  trxs : ∀ p js tr, σ.trxs p = some (.json js) → trTransactionFromJSON js = .ok tr → tr.fees.length ≤ n
  blocks : ∀ p js tr, σ.blocks p = some (.json js) → trBlockFromJSON js = .ok tr →
    tr.trx.blockLeaves.length ≤ n
  states : ∀ p js tr, σ.states p = some (.json js) → trStateFromJSON js = .ok tr →
    tr.trx.blockLeaves.length ≤ n

omit [Sha512] C in
theorem takeLeaves_length {l : List Leaf} {a : UInt64} {hs : List Hash} (h : takeLeaves l a = .ok hs) :
    hs.length ≤ l.length := by
  unfold takeLeaves at h
  split at h
  · cases h
    simp
  · cases h

omit [Sha512] C in
/-- Reading a file, parsing it and going on. -/
theorem Rd.cost_start_le {α β : Type} {s : Spot} {p : s.Content → Outcome α} {f : α → Rd β} {σ : Store} {m : Nat}
    (hf : ∀ js tr, readCell (σ.file s) = .ok js → p js = .ok tr → (f tr).cost σ ≤ m) :
    ((Rd.file s).bind fun js => (Rd.ret (p js)).bind f).cost σ ≤ 1 + m := by
  refine Rd.cost_bind_le (by simp) fun js h => ?_
  have := Rd.cost_bind_le (r := Rd.ret (p js)) (f := f) (σ := σ) (n := 0) (m := m) (by simp) fun tr h' =>
    hf js tr ((Rd.run_file _ _).symm.trans h) h'
  omega

omit C in
theorem readLock_le (σ : Store) (h : Hash) : (readLock h).cost σ ≤ 1 :=
  Rd.cost_start_le (m := 0) fun _ _ _ _ => by simp

omit C in
theorem readBill_le (σ : Store) (h : Hash) : (readBill h).cost σ ≤ 2 :=
  Rd.cost_start_le (m := 1) fun _ _ _ _ =>
    Rd.cost_bind_le (m := 0) (readLock_le σ _) fun _ _ => by simp

omit C in
theorem readGenesis_le (σ : Store) : readGenesis.cost σ ≤ 3 :=
  Rd.cost_start_le (m := 2) fun _ _ _ _ =>
    Rd.cost_bind_le (m := 0) (readBill_le σ _) fun _ _ => by simp

variable {σ : Store} {n : Nat}

theorem readExpense_le (L : σ.Lists n) (h : Hash) : (readExpense h).cost σ ≤ 2 * n + 5 := by
  have := Rd.cost_start_le (σ := σ) (s := .expense h.str) (p := trExpenseFromJSON) (m := n * 2 + (2 + (2 + (0 + 0))))
    (f := fun tr => (Rd.all readBill tr.source).bind fun bills =>
      (readBill tr.dest).bind fun dest =>
      (Rd.opt readBill tr.remaining).bind fun remaining =>
      (Rd.ret (contentNow dest.amount (some bills) (some dest.lock) (remaining.map Bill.lock)
        tr.createdOn)).bind fun content =>
      .ret (expenseNow (some content) (some tr.signatures))) fun js tr h1 h2 =>
    Rd.cost_bind_le ((Rd.cost_all_le (readBill_le σ) _).trans
      (Nat.mul_le_mul_right _ (L.expenses _ js tr (readCell_eq_ok.mp h1) h2))) fun bs _ =>
    Rd.cost_bind_le (readBill_le σ _) fun d _ =>
    Rd.cost_bind_le (by
      cases tr.remaining with
      | none => simp [Rd.opt]
      | some y => exact Rd.cost_bind_le (m := 0) (readBill_le σ y) fun _ _ => by simp) fun r _ =>
    Rd.cost_bind_le (by simp) fun _ _ => by simp
  unfold readExpense
  omega

theorem readTrx_le (L : σ.Lists n) (h : Hash) : (readTrx h).cost σ ≤ 1 + n * (2 * n + 5) :=
  Rd.cost_start_le (σ := σ) (s := .trx h.str) (p := trTransactionFromJSON) fun js tr h1 h2 =>
    Rd.cost_bind_le (m := 0) ((Rd.cost_all_le (readExpense_le L) _).trans
      (Nat.mul_le_mul_right _ (L.trxs _ js tr (readCell_eq_ok.mp h1) h2))) fun _ _ => by simp

theorem readBlock_le (L : σ.Lists n) (h : Hash) :
    (readBlock h).cost σ ≤ 4 + n * (1 + n * (2 * n + 5)) := by
  have := Rd.cost_start_le (σ := σ) (s := .block h.str) (p := trBlockFromJSON)
    (m := 3 + (0 + (n * (1 + n * (2 * n + 5)) + 0)))
    (f := fun tr => readGenesis.bind fun gen =>
      (Rd.ret (takeLeaves tr.trx.blockLeaves tr.amount)).bind fun hashes =>
      (Rd.all readTrx hashes).bind fun trx =>
      .ret (blockNow (some gen) tr.additional (some trx) tr.createdOn)) fun js tr h1 h2 =>
    Rd.cost_bind_le (readGenesis_le σ) fun g _ =>
    Rd.cost_bind_le (by simp) fun hs h3 =>
    Rd.cost_bind_le ((Rd.cost_all_le (readTrx_le L) _).trans
      (Nat.mul_le_mul_right _ ((takeLeaves_length h3).trans
        (L.blocks _ js tr (readCell_eq_ok.mp h1) h2)))) fun _ _ => by simp
  unfold readBlock
  omega

theorem readMinedBlock_le (L : σ.Lists n) (h : Hash) :
    (readMinedBlock h).cost σ ≤ 1 + (4 + n * (1 + n * (2 * n + 5))) :=
  Rd.cost_start_le fun _ _ _ _ => Rd.cost_bind_le (m := 0) (readBlock_le L _) fun _ _ => by simp

theorem readLink_le (L : σ.Lists n) (h : Hash) :
    (readLink h).cost σ ≤ 1 + (4 + n * (1 + n * (2 * n + 5))) :=
  Rd.cost_start_le fun _ _ _ _ => Rd.cost_bind_le (m := 0) (readBlock_le L _) fun _ _ => by simp

theorem readMinedLink_le (L : σ.Lists n) (h : Hash) :
    (readMinedLink h).cost σ ≤ 1 + (1 + (4 + n * (1 + n * (2 * n + 5)))) :=
  Rd.cost_start_le fun _ _ _ _ => Rd.cost_bind_le (m := 0) (readLink_le L _) fun _ _ => by simp

theorem readChain_le (L : σ.Lists n) :
    readChain.cost σ ≤ 15 + 2 * (n * (1 + n * (2 * n + 5))) := by
  have := Rd.cost_start_le (σ := σ) (s := .chain) (p := trChainFromJSON)
    (m := 3 + (0 + (1 + (4 + n * (1 + n * (2 * n + 5))) + (1 + (1 + (4 + n * (1 + n * (2 * n + 5)))) + 0))))
    (f := fun tr => readGenesis.bind fun gen =>
      (Rd.ret (Outcome.guardNot (tr.genesis.compare gen.hash)
        "the stored genesis hash, in the chain's stored data is invalid")).bind fun _ =>
      (readMinedBlock tr.root).bind fun root =>
      (readMinedLink tr.head).bind fun head =>
      .ret (chainNow (some gen) (some root) (some head) tr.total tr.createdOn)) fun js tr _ _ =>
    Rd.cost_bind_le (readGenesis_le σ) fun g _ =>
    Rd.cost_bind_le (by simp) fun _ _ =>
    Rd.cost_bind_le (readMinedBlock_le L _) fun _ _ =>
    Rd.cost_bind_le (readMinedLink_le L _) fun _ _ => by simp
  unfold readChain
  omega

theorem readState_le (L : σ.Lists n) (c : Hash) (i : UInt64) :
    (readState c i).cost σ ≤ 1 + n * (1 + n * (2 * n + 5)) := by
  have := Rd.cost_start_le (σ := σ) (s := .state (statePath c i)) (p := trStateFromJSON)
    (m := 0 + (n * (1 + n * (2 * n + 5)) + 0))
    (f := fun tr => (Rd.ret (takeLeaves tr.trx.blockLeaves tr.amount)).bind fun hashes =>
      (Rd.all readTrx hashes).bind fun trx =>
      .ret (stateNow (some c) (some tr.prev) i (some trx) tr.createdOn)) fun js tr h1 h2 =>
    Rd.cost_bind_le (by simp) fun hs h3 =>
    Rd.cost_bind_le ((Rd.cost_all_le (readTrx_le L) _).trans
      (Nat.mul_le_mul_right _ ((takeLeaves_length h3).trans
        (L.states _ js tr (readCell_eq_ok.mp h1) h2)))) fun _ _ => by simp
  unfold readState
  omega

/-- C151: whatever the files contain and whether the retrieval succeeds or fails, it reads at most so
many files when no file lists more than `n` references. -/
theorem C151_reads_are_bounded (L : σ.Lists n) :
    (∀ h, ((readLock h).trace σ).length ≤ 1) ∧
    (∀ h, ((readBill h).trace σ).length ≤ 2) ∧
    (readGenesis.trace σ).length ≤ 3 ∧
    (∀ h, ((readExpense h).trace σ).length ≤ 2 * n + 5) ∧
    (∀ h, ((readTrx h).trace σ).length ≤ 1 + n * (2 * n + 5)) ∧
    (∀ h, ((readBlock h).trace σ).length ≤ 4 + n * (1 + n * (2 * n + 5))) ∧
    (∀ h, ((readMinedBlock h).trace σ).length ≤ 5 + n * (1 + n * (2 * n + 5))) ∧
    (∀ h, ((readLink h).trace σ).length ≤ 5 + n * (1 + n * (2 * n + 5))) ∧
    (∀ h, ((readMinedLink h).trace σ).length ≤ 6 + n * (1 + n * (2 * n + 5))) ∧
    (readChain.trace σ).length ≤ 15 + 2 * (n * (1 + n * (2 * n + 5))) ∧
    ∀ c i, ((readState c i).trace σ).length ≤ 1 + n * (1 + n * (2 * n + 5)) := by
  refine ⟨readLock_le σ, readBill_le σ, readGenesis_le σ, readExpense_le L, readTrx_le L, readBlock_le L,
    fun h => ?_, fun h => ?_, fun h => ?_, readChain_le L, readState_le L⟩
  · have := readMinedBlock_le L h
    unfold Rd.cost at this
    omega
  · have := readLink_le L h
    unfold Rd.cost at this
    omega
  · have := readMinedLink_le L h
    unfold Rd.cost at this
    omega

/-! ## Repeated references -/

/-- C151 (negation of "the work is proportional to the files that are read"): take any stored expense,
a transaction with `j` times this fee and a block with `i` times this transaction. Both are accepted by the
builders. Saving the block adds two files, and retrieving it reads more than `i * j` files. -/
theorem C151_repeated_references_neg {g : Genesis} (hg : retrGenesis σ = .ok g) {e : Expense}
    (he : retrExpense σ e.hash = .ok e) {i j : Nat} (hi : 0 < i) (hi' : i < 2 ^ 63) (hj : 0 < j) (a : UInt64) (t : Time) :
    ∃ x b, trxNow none none (List.replicate j e) t = .ok x ∧
      blockNow (some g) a (some (List.replicate i x)) t = .ok b ∧
      ((∃ m, retrTrx σ x.hash = .err m) → (∃ m, retrBlock σ b.hash = .err m) →
        ∃ σ', (saveBlock b).exec σ = (.ok (), σ') ∧
          (∀ s, s ≠ .trx x.hash.str → s ≠ .block b.hash.str → σ'.file s = σ.file s) ∧
          retrBlock σ' b.hash = .ok b ∧
          ((readBlock b.hash).trace σ').length = 4 + i * (1 + j * e.files)) := by
  obtain ⟨x, hx⟩ : ∃ x, trxNow none none (List.replicate j e) t = .ok x :=
    ⟨_, trxNow_eq_ok.mpr ⟨by simp; omega, rfl⟩⟩
  have hxs : List.replicate i x ≠ [] := by simp; omega
  obtain ⟨b, hb⟩ : ∃ b, blockNow (some g) a (some (List.replicate i x)) t = .ok b :=
    ⟨_, blockNow_eq_ok.mpr ⟨_, _, rfl, rfl, hxs, rfl⟩⟩
  refine ⟨x, b, hx, hb, fun ⟨m, hn⟩ ⟨m', hn'⟩ => ?_⟩
  obtain ⟨-, ex⟩ := trxNow_eq_ok.mp hx
  have hfees : x.fees = List.replicate j e := by rw [ex]
  obtain ⟨_, _, e1, e2, -, eb⟩ := blockNow_eq_ok.mp hb
  cases e1; cases e2
  have hbt : b.trx = List.replicate i x := by rw [eb]
  have hbg : b.genesis = g := by rw [eb]
  obtain ⟨d, hd1, hd2, hd3⟩ := saveTrx_first (x := x) (by
    rw [show x.bucket = none by rw [ex], hfees, show x.createdOn = t by rw [ex]]
    exact hx) (fun f hf => by
    rw [hfees] at hf
    rw [List.eq_of_mem_replicate hf]
    exact he) ⟨m, hn⟩
  have hall : (Prog.forEach saveTrx b.trx).exec σ = (.ok (), { σ with trxs := d }) := by
    obtain ⟨k, rfl⟩ := Nat.exists_eq_add_of_lt hi
    rw [hbt, show 0 + k + 1 = k + 1 by omega, List.replicate_succ, Prog.forEach, exec_bind, hd1]
    exact forEach_found fun y hy => ⟨x, by rw [List.eq_of_mem_replicate hy]; exact hd2⟩
  obtain ⟨c, hc1, hc2, hc3⟩ := saveBlock_first (b := b) (by
    rw [hbg, show b.additional = a by rw [eb], hbt, show b.createdOn = t by rw [eb]]
    exact hb) (by simpa [hbt] using hi')
    (hg.trans (by rw [hbg])) ⟨m', hn'⟩ hall fun y hy => by
      rw [hbt] at hy
      rw [List.eq_of_mem_replicate hy]
      exact hd2
  refine ⟨_, hc1, fun s h1 h2 => ?_, hc2, ?_⟩
  · cases s with
    | trx p => exact hd3 p fun e => h1 (congrArg _ e)
    | block p => exact hc3 p fun e => h2 (congrArg _ e)
    | _ => rfl
  · rw [← Rd.cost, readBlock_cost (x := b) (by simpa using hc2)]
    simp [Block.files, hbt, Transaction.files, hfees, Genesis.files, Bill.files, Lock.files]

end

section examples
attribute [local instance] toyCurve toySha

/-- C151: a store with a genesis and an expense, for which 1000 times the same transaction with 1000 times
the same fee is a block that is not stored yet. -/
example : ∃ (σ : Store) (g : Genesis) (e : Expense), retrGenesis σ = .ok g ∧ retrExpense σ e.hash = .ok e ∧
    ∃ x b, trxNow none none (List.replicate 1000 e) 0 = .ok x ∧
      blockNow (some g) 4 (some (List.replicate 1000 x)) 0 = .ok b ∧
      (∃ m, retrTrx σ x.hash = .err m) ∧ ∃ m, retrBlock σ b.hash = .err m := by
  obtain ⟨σ, g, e, hg, he, ht, hb⟩ := toy_stored
  obtain ⟨x, b, hx, hbn, -⟩ := C151_repeated_references_neg hg he (i := 1000) (j := 1000) (by omega) (by omega)
    (by omega) 4 0
  exact ⟨σ, g, e, hg, he, x, b, hx, hbn, ht _, "no such file or directory", by simp [retrBlock, hb, readCell]⟩

/-- C151: every store whose files list nothing. -/
example : Store.Lists .empty 0 := by
  constructor <;> intro p js tr h <;> cases h

/-- C151: a store with a transaction that lists two fees. -/
example : ∃ (σ : Store) (js : JTrTransaction) (tr : TrTransaction), σ.Lists 2 ∧
    trTransactionFromJSON js = .ok tr ∧ σ.trxs [1] = some (.json js) ∧ tr.fees.length = 2 := by
  have hp : trTransactionFromJSON (TrTransaction.toJSON ⟨toyHash 1, none, none, [toyHash 1, toyHash 2], 0⟩) =
      .ok ⟨toyHash 1, none, none, [toyHash 1, toyHash 2], 0⟩ := by
    simp only [trTransactionFromJSON, TrTransaction.toJSON, fromString_str, mapO_fromString,
      optFromString_optStr, Outcome.bind_ok]
    rfl
  let js := TrTransaction.toJSON ⟨toyHash 1, none, none, [toyHash 1, toyHash 2], 0⟩
  refine ⟨{ Store.empty with trxs := setFile Store.empty.trxs [1] (.json js) }, js, _, ?_, hp,
    by simp [setFile], rfl⟩
  constructor
  · intro p js tr h
    cases h
  · intro p js tr h h'
    change setFile _ _ _ _ = _ at h
    by_cases e : p = [1]
    · rw [e, setFile_same] at h
      obtain rfl := Cell.json.inj (Option.some.inj h)
      rw [hp] at h'
      cases h'
      simp
    · rw [setFile_ne _ _ e] at h
      cases h
  · intro p js tr h
    cases h
  · intro p js tr h
    cases h

end examples

end Verif
