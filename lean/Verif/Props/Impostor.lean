import Verif.Props.StoreChain

/-!
# C136: what is saved is what is retrieved, whoever saved something before
-/

namespace Verif

section
variable [Sha512]

/-- The lock with one key, the hash of another lock. -/
def Lock.impostor (l : Lock) (t : Time) : Lock := ⟨l.hash, [l.hash], t⟩

omit [Sha512] in
theorem impostor_keys {l : Lock} (h : 2 ≤ l.pubKeys.length) (t : Time) :
    (l.impostor t).pubKeys ≠ l.pubKeys := by
  intro e
  rw [← e] at h
  simp [Lock.impostor] at h

theorem impostor_built (l : Lock) (t : Time) : lockNow (some [l.hash]) t = .ok (l.impostor t) :=
  lockNow_eq_ok.mpr ⟨_, rfl, by simp, by simp, by simp [Lock.impostor, fromBytes_hash]⟩

/-- C136 (negation of "the lock that was saved is the lock that is retrieved"): for every lock with two or
more keys there is another lock with one key, which can be built and saved by anyone who knows the hash. When
that one is saved first, saving the lock reports success and writes nothing, and the other lock is what is
retrieved from then on. The hash function does not matter. -/
theorem C136_lock_displaced_neg (σ : Store) (l : Lock) (h2 : 2 ≤ l.pubKeys.length) (t : Time)
    (hn : ∃ m, retrLock σ l.hash = .err m) :
    ∃ l' σ', lockNow (some [l.hash]) t = .ok l' ∧ l'.pubKeys ≠ l.pubKeys ∧
      (saveLock l').exec σ = (.ok (), σ') ∧ (saveLock l).exec σ' = (.ok (), σ') ∧
      retrLock σ' l.hash = .ok l' := by
  obtain ⟨m, hn⟩ := hn
  have hb := impostor_built l t
  have hs : (saveLock (l.impostor t)).exec σ = (.ok (), { σ with
      locks := setFile σ.locks l.hash.str (.json ⟨l.hash.str, [l.hash.str], t⟩) }) := by
    unfold saveLock unlessFound
    simp only [Prog.exec, show (l.impostor t).hash = l.hash from rfl, hn]
    rfl
  have hr : retrLock { σ with
      locks := setFile σ.locks l.hash.str (.json ⟨l.hash.str, [l.hash.str], t⟩) } l.hash =
      .ok (l.impostor t) := by
    unfold retrLock
    simp only [setFile_same, readCell, Outcome.bind_ok, trLockFromJSON, fromString_str, mapO]
    simpa [trLockNow] using hb
  refine ⟨_, _, hb, impostor_keys h2 t, hs, ?_, hr⟩
  unfold saveLock unlessFound
  simp only [Prog.exec, hr]

/-- C136, what holds: a lock that is saved is retrieved as it is when nothing could be retrieved under its hash
before; otherwise nothing is written and what could be retrieved before still is. Missing: that nothing else
has the hash. -/
theorem C136_first_lock_stays_partial (σ : Store) (l : Lock) (hl : lockNow (some l.pubKeys) l.createdOn = .ok l) :
    ((∃ m, retrLock σ l.hash = .err m) → ∃ σ', (saveLock l).exec σ = (.ok (), σ') ∧
      retrLock σ' l.hash = .ok l) ∧
    ∀ y, retrLock σ l.hash = .ok y → (saveLock l).exec σ = (.ok (), σ) := by
  constructor
  · rintro ⟨m, hn⟩
    refine ⟨{ σ with
      locks := setFile σ.locks l.hash.str (.json ⟨l.hash.str, l.pubKeys.map Hash.str, l.createdOn⟩) }, ?_, ?_⟩
    · unfold saveLock unlessFound
      simp only [Prog.exec, hn]
      rfl
    · unfold retrLock
      simp only [setFile_same, readCell, Outcome.bind_ok, trLockFromJSON, fromString_str, mapO_fromString,
        trLockNow]
      exact hl
  · intro y hy
    unfold saveLock unlessFound
    simp only [Prog.exec, hy]

/-- C136: then every bill with that lock that is saved later is retrieved with the other lock, and has the
same hash. -/
theorem C136_bill_changed_neg (σ : Store) (b : Bill) (hb : billNow (some b.lock) b.amount b.createdOn = .ok b)
    (l' : Lock) (hl : l'.hash = b.lock.hash) (hr : retrLock σ b.lock.hash = .ok l')
    (hn : ∃ m, retrBill σ b.hash = .err m) :
    ∃ σ', (saveBill b).exec σ = (.ok (), σ') ∧ retrBill σ' b.hash = .ok { b with lock := l' } := by
  obtain ⟨m, hn⟩ := hn
  obtain ⟨_, e, h0, hh⟩ := billNow_eq_ok.mp hb
  cases e
  have hlock : (saveLock b.lock).exec σ = (.ok (), σ) := by
    unfold saveLock unlessFound
    simp only [Prog.exec, hr]
  have ht : trBillNow b.hash b.lock.hash b.amount b.createdOn =
      .ok ⟨b.hash, b.lock.hash, b.amount, b.createdOn⟩ := trBillNow_eq_ok.mpr ⟨by rintro h; simp [h] at h0, rfl⟩
  refine ⟨{ σ with
      bills := setFile σ.bills b.hash.str (.json ⟨b.hash.str, b.lock.hash.str, b.amount, b.createdOn⟩) }, ?_, ?_⟩
  · unfold saveBill unlessFound
    simp only [Prog.exec, hn]
    rw [exec_bind, hlock]
    simp only [Bill.toTransfer, ht]
    rfl
  · unfold retrBill
    simp only [setFile_same, readCell, Outcome.bind_ok, trBillFromJSON, fromString_str, ht]
    rw [show ∀ f, retrLock { σ with bills := f } b.lock.hash = retrLock σ b.lock.hash from fun _ => rfl, hr]
    refine billNow_eq_ok.mpr ⟨l', rfl, h0, ?_⟩
    have hh' : b.hash = fromBytes (b.lock.hash.bytes ++ itoaU b.amount) := congrArg Bill.hash hh
    rw [hl, ← hh']

variable [C : Curve]

/-- The transaction that is only about one bucket, the hash of another transaction. -/
def Transaction.impostor (x : Transaction) (t : Time) : Transaction := ⟨x.hash, none, some x.hash, [], t⟩

theorem trx_impostor_built (x : Transaction) (t : Time) :
    trxNow none (some x.hash) [] t = .ok (x.impostor t) :=
  trxNow_eq_ok.mpr ⟨by simp, by simp [Transaction.impostor, hashesBytes, fromBytes_hash]⟩

/-- The store with the file of the impostor. -/
def Store.withImpostor (σ : Store) (x : Transaction) (t : Time) : Store :=
  { σ with trxs := setFile σ.trxs x.hash.str (Cell.json ⟨x.hash.str, [], [], x.hash.str, t⟩) }

theorem saveTrx_found {σ : Store} {x y : Transaction} (h : retrTrx σ x.hash = .ok y) :
    (saveTrx x).exec σ = (.ok (), σ) := by
  unfold saveTrx unlessFound
  simp only [Prog.exec, h]

theorem saveTrx_impostor (σ : Store) (x : Transaction) (t : Time) (hn : ∃ m, retrTrx σ x.hash = .err m) :
    (saveTrx (x.impostor t)).exec σ = (.ok (), σ.withImpostor x t) := by
  obtain ⟨m, hn⟩ := hn
  unfold saveTrx unlessFound
  simp only [Prog.exec, show (x.impostor t).hash = x.hash from rfl, hn]
  rfl

theorem retrTrx_impostor (σ : Store) (x : Transaction) (t : Time) :
    retrTrx (σ.withImpostor x t) x.hash = .ok (x.impostor t) := by
  unfold retrTrx Store.withImpostor
  simp only [setFile_same, readCell, Outcome.bind_ok, trTransactionFromJSON, fromString_str, mapO]
  have : optFromString x.hash.str = .ok (some x.hash) := optFromString_optStr (some x.hash)
  have h0 : optFromString [] = .ok none := optFromString_optStr none
  simp only [this, h0, Outcome.bind_ok, trTransactionNow]
  simpa [mapO] using trx_impostor_built x t

/-- C136 (negation of "the transaction that was saved is the transaction that is retrieved"): for every
transaction there is one without address and fees, about one bucket, which can be built and saved by
anyone who knows the hash. When that one is saved first, saving the transaction reports success and writes
nothing, and the other transaction is what is retrieved from then on. -/
theorem C136_transaction_displaced_neg (σ : Store) (x : Transaction) (t : Time)
    (hn : ∃ m, retrTrx σ x.hash = .err m) :
    ∃ y σ', trxNow none (some x.hash) [] t = .ok y ∧ y.fees = [] ∧
      (saveTrx y).exec σ = (.ok (), σ') ∧ (saveTrx x).exec σ' = (.ok (), σ') ∧
      retrTrx σ' x.hash = .ok y :=
  ⟨_, _, trx_impostor_built x t, rfl, saveTrx_impostor σ x t hn, saveTrx_found (retrTrx_impostor σ x t),
    retrTrx_impostor σ x t⟩

theorem retrTrx_withImpostor_ne (σ : Store) (x : Transaction) (t : Time) {h : Hash} (hne : h ≠ x.hash) :
    retrTrx (σ.withImpostor x t) h = retrTrx σ h := by
  unfold retrTrx Store.withImpostor
  simp only [setFile_ne _ _ fun e => hne (Hash.str_injective e)]
  rfl

/-- Saving the impostors of all transactions of a list. -/
theorem save_impostors (t : Time) : ∀ (l : List Transaction) (σ : Store),
    (∀ x ∈ l, (∃ m, retrTrx σ x.hash = .err m) ∨ retrTrx σ x.hash = .ok (x.impostor t)) →
    ∃ d, (Prog.forEach saveTrx (l.map (Transaction.impostor · t))).exec σ =
        (.ok (), { σ with trxs := d }) ∧
      ∀ h, (h ∈ l.map Transaction.hash → retrTrx { σ with trxs := d } h = .ok ⟨h, none, some h, [], t⟩) ∧
        (h ∉ l.map Transaction.hash → retrTrx { σ with trxs := d } h = retrTrx σ h)
  | [], σ, _ => ⟨σ.trxs, rfl, by simp⟩
  | x :: l, σ, hl => by
    have step : ∃ d, (saveTrx (x.impostor t)).exec σ = (.ok (), { σ with trxs := d }) ∧
        retrTrx { σ with trxs := d } x.hash = .ok (x.impostor t) ∧
        ∀ h, h ≠ x.hash → retrTrx { σ with trxs := d } h = retrTrx σ h := by
      rcases hl x (by simp) with hx | hx
      · exact ⟨_, saveTrx_impostor σ x t hx, retrTrx_impostor σ x t, fun h => retrTrx_withImpostor_ne σ x t⟩
      · exact ⟨σ.trxs, saveTrx_found (x := x.impostor t) hx, hx, fun _ _ => rfl⟩
    obtain ⟨d, h1, h2, h3⟩ := step
    obtain ⟨d', h4, h5⟩ := save_impostors t l { σ with trxs := d } (by
      intro y hy
      by_cases e : y.hash = x.hash
      · rw [e, h2]
        exact .inr (by simp [Transaction.impostor, e])
      · rw [h3 _ e]
        exact hl y (by simp [hy]))
    refine ⟨d', ?_, fun h => ?_⟩
    · rw [List.map_cons, Prog.forEach, exec_bind, h1]
      exact h4
    · have h5 := h5 h
      simp only [List.map_cons, List.mem_cons, not_or]
      constructor
      · rintro (e | e)
        · by_cases he : h ∈ l.map Transaction.hash
          · exact h5.1 he
          · exact (h5.2 he).trans (by rw [e]; exact h2)
        · exact h5.1 e
      · rintro ⟨e, he⟩
        exact (h5.2 he).trans (h3 h e)

theorem forEach_found {σ : Store} : ∀ {l : List Transaction} (_ : ∀ x ∈ l, ∃ y, retrTrx σ x.hash = .ok y),
    (Prog.forEach saveTrx l).exec σ = (.ok (), σ)
  | [], _ => rfl
  | x :: l, h => by
    obtain ⟨y, hy⟩ := h x (by simp)
    rw [Prog.forEach, exec_bind, saveTrx_found hy]
    exact forEach_found fun x hx => h x (by simp [hx])

/-- C136: when the impostors of its transactions are saved first, every block is saved without an error and is
retrieved, under the same hash and with the same hash, with the impostors in place of its transactions:
without any fees. -/
theorem C136_block_changed_neg (σ : Store) (b : Block)
    (hb : blockNow (some b.genesis) b.additional (some b.trx) b.createdOn = .ok b)
    (hlen : b.trx.length < 2 ^ 63) (hg : retrGenesis σ = .ok b.genesis) (hc : σ.blocks b.hash.str = none)
    (hn : ∀ x ∈ b.trx, ∃ m, retrTrx σ x.hash = .err m) (t : Time) :
    ∃ l σ₁ σ₂, (∀ y ∈ l, ∃ h, trxNow none (some h) [] t = .ok y) ∧
      (Prog.forEach saveTrx l).exec σ = (.ok (), σ₁) ∧ (saveBlock b).exec σ₁ = (.ok (), σ₂) ∧
      retrBlock σ₂ b.hash = .ok { b with trx := l } ∧ ∀ y ∈ l, y.fees = [] := by
  obtain ⟨d, h1, h2⟩ := save_impostors t b.trx σ fun x hx => .inl (hn x hx)
  have hne : b.trx ≠ [] := by
    obtain ⟨_, _, e, e', h0, -⟩ := blockNow_eq_ok.mp hb
    cases e'
    exact h0
  have hfound : ∀ x ∈ b.trx, retrTrx { σ with trxs := d } x.hash = .ok (x.impostor t) :=
    fun x hx => (h2 x.hash).1 (List.mem_map_of_mem hx)
  obtain ⟨k, m, tree, a, b', ht, -⟩ := hashTreeFromBlocks_spec (b.trx.map fun x => x.hash.bytes) (by simpa using hne)
  obtain ⟨c, hc1, rfl, -, -, hc2⟩ := C09_compact_round_trip ht
  have h64 : (UInt64.ofNat b.trx.length).toNat = b.trx.length := by
    rw [UInt64.toNat_ofNat']
    exact Nat.mod_eq_of_lt (by omega)
  have hb' : trBlockNow b.hash tree (UInt64.ofNat b.trx.length) b.additional b.createdOn =
      .ok ⟨b.hash, tree, UInt64.ofNat b.trx.length, b.additional, b.createdOn⟩ :=
    trBlockNow_eq_ok.mpr ⟨by rw [h64]; exact List.length_pos_iff.mpr hne, rfl⟩
  refine ⟨b.trx.map (Transaction.impostor · t), { σ with trxs := d }, { σ with
      trxs := d
      blocks := setFile σ.blocks b.hash.str (.json ⟨b.hash.str, some tree.compact.toJSON,
        UInt64.ofNat b.trx.length, b.additional, b.createdOn⟩) }, ?_, h1, ?_, ?_, ?_⟩
  · intro y hy
    obtain ⟨x, -, rfl⟩ := List.mem_map.mp hy
    exact ⟨_, trx_impostor_built x t⟩
  · have hnb : retrBlock { σ with trxs := d } b.hash = .err "no such file or directory" := by
      simp [retrBlock, hc, readCell]
    unfold saveBlock unlessFound
    simp only [Prog.exec, hnb]
    rw [exec_bind, forEach_found fun x hx => ⟨_, hfound x hx⟩]
    simp only [Block.toTransfer, hashTreeBuilderNow, ht, Outcome.bind_ok, hb']
    rfl
  · have hm : ∀ f, mapO (retrTrx { σ with trxs := d, blocks := f }) (b.trx.map Transaction.hash) =
        .ok (b.trx.map (Transaction.impostor · t)) := by
      intro f
      have := mapO_ok_of (f := retrTrx { σ with trxs := d, blocks := f })
        (g := fun h => (⟨h, none, some h, [], t⟩ : Transaction)) (xs := b.trx.map Transaction.hash)
        fun h hh => (h2 h).1 hh
      rw [this, List.map_map]
      rfl
    have hg' : ∀ f, retrGenesis { σ with trxs := d, blocks := f } = .ok b.genesis := fun _ => hg
    simp only [retrBlock, setFile_same, readCell, Outcome.bind_ok, trBlockFromJSON, fromString_str,
      Outcome.deref_some, hc1, hc2, hb', hg', takeLeaves_tree hlen ht, hm]
    obtain ⟨_, _, e, e', h0, hh⟩ := blockNow_eq_ok.mp hb
    cases e; cases e'
    refine blockNow_eq_ok.mpr ⟨_, _, rfl, rfl, by simpa using hne, ?_⟩
    have hh' : b.hash = fromBytes (b.genesis.hash.bytes ++
        (itoaU b.additional ++ hashesBytes (b.trx.map Transaction.hash))) := congrArg Block.hash hh
    rw [List.map_map, show Transaction.hash ∘ (Transaction.impostor · t) = Transaction.hash from rfl, ← hh']
  · intro y hy
    obtain ⟨x, -, rfl⟩ := List.mem_map.mp hy
    rfl

/-! ## What was saved first stays -/

theorem forEach_expense_found {σ : Store} : ∀ {l : List Expense} (_ : ∀ x ∈ l, ∃ y, retrExpense σ x.hash = .ok y),
    (Prog.forEach saveExpense l).exec σ = (.ok (), σ)
  | [], _ => rfl
  | x :: l, h => by
    obtain ⟨y, hy⟩ := h x (by simp)
    have : (saveExpense x).exec σ = (.ok (), σ) := by
      unfold saveExpense unlessFound
      simp only [Prog.exec, hy]
    rw [Prog.forEach, exec_bind, this]
    exact forEach_expense_found fun x hx => h x (by simp [hx])

theorem saveTrx_first {σ : Store} {x : Transaction} (hx : trxNow none x.bucket x.fees x.createdOn = .ok x)
    (hf : ∀ f ∈ x.fees, retrExpense σ f.hash = .ok f) (hn : ∃ m, retrTrx σ x.hash = .err m) :
    ∃ d, (saveTrx x).exec σ = (.ok (), { σ with trxs := d }) ∧
      retrTrx { σ with trxs := d } x.hash = .ok x ∧ ∀ p, p ≠ x.hash.str → d p = σ.trxs p := by
  obtain ⟨m, hn⟩ := hn
  have htr : trTransactionNow x.hash none x.bucket (x.fees.map Expense.hash) x.createdOn =
      .ok ⟨x.hash, none, x.bucket, x.fees.map Expense.hash, x.createdOn⟩ := by
    obtain ⟨h0, -⟩ := trxNow_eq_ok.mp hx
    unfold trTransactionNow
    rw [if_neg]
    rintro ⟨-, h1, h2⟩
    rw [Option.isNone_iff_eq_none] at h1
    rw [List.length_map, List.length_eq_zero_iff] at h2
    simp [h1, h2] at h0
  refine ⟨setFile σ.trxs x.hash.str (.json ⟨x.hash.str, optStr none, (x.fees.map Expense.hash).map Hash.str,
    optStr x.bucket, x.createdOn⟩), ?_, ?_, fun p hp => setFile_ne _ _ hp⟩
  · unfold saveTrx unlessFound
    simp only [Prog.exec, hn]
    rw [exec_bind, forEach_expense_found fun f h => ⟨f, hf f h⟩]
    simp only [Transaction.toTransfer, htr]
    rfl
  · have hm : ∀ f, mapO (retrExpense { σ with trxs := f }) (x.fees.map Expense.hash) = .ok x.fees := by
      intro f
      rw [mapO_eq_ok, List.forall₂_map_left_iff]
      exact List.forall₂_same.mpr hf
    simp only [retrTrx, setFile_same, readCell, Outcome.bind_ok, trTransactionFromJSON, fromString_str,
      mapO_fromString, optFromString_optStr, htr, hm]
    exact hx

theorem saveBlock_first {σ : Store} {b : Block} (hb : blockNow (some b.genesis) b.additional (some b.trx) b.createdOn = .ok b)
    (hlen : b.trx.length < 2 ^ 63) (hg : retrGenesis σ = .ok b.genesis) (hn : ∃ m, retrBlock σ b.hash = .err m)
    {d : Bytes → Option (Cell JTrTransaction)}
    (hd : (Prog.forEach saveTrx b.trx).exec σ = (.ok (), { σ with trxs := d }))
    (hf : ∀ x ∈ b.trx, retrTrx { σ with trxs := d } x.hash = .ok x) :
    ∃ c, (saveBlock b).exec σ = (.ok (), { σ with trxs := d, blocks := c }) ∧
      retrBlock { σ with trxs := d, blocks := c } b.hash = .ok b ∧ ∀ p, p ≠ b.hash.str → c p = σ.blocks p := by
  obtain ⟨m, hn⟩ := hn
  have hne : b.trx ≠ [] := by
    obtain ⟨_, _, e, e', h0, -⟩ := blockNow_eq_ok.mp hb
    cases e'
    exact h0
  obtain ⟨k, m, tree, a, b', ht, -⟩ := hashTreeFromBlocks_spec (b.trx.map fun x => x.hash.bytes) (by simpa using hne)
  obtain ⟨c, hc1, rfl, -, -, hc2⟩ := C09_compact_round_trip ht
  have h64 : (UInt64.ofNat b.trx.length).toNat = b.trx.length := by
    rw [UInt64.toNat_ofNat']
    exact Nat.mod_eq_of_lt (by omega)
  have hb' : trBlockNow b.hash tree (UInt64.ofNat b.trx.length) b.additional b.createdOn =
      .ok ⟨b.hash, tree, UInt64.ofNat b.trx.length, b.additional, b.createdOn⟩ :=
    trBlockNow_eq_ok.mpr ⟨by rw [h64]; exact List.length_pos_iff.mpr hne, rfl⟩
  refine ⟨setFile σ.blocks b.hash.str (.json ⟨b.hash.str, some tree.compact.toJSON,
        UInt64.ofNat b.trx.length, b.additional, b.createdOn⟩), ?_, ?_, fun p hp => setFile_ne _ _ hp⟩
  · unfold saveBlock unlessFound
    simp only [Prog.exec, hn]
    rw [exec_bind, hd]
    simp only [Block.toTransfer, hashTreeBuilderNow, ht, Outcome.bind_ok, hb']
    rfl
  · have hm : ∀ f, mapO (retrTrx { σ with trxs := d, blocks := f }) (b.trx.map Transaction.hash) = .ok b.trx := by
      intro f
      rw [mapO_eq_ok, List.forall₂_map_left_iff]
      exact List.forall₂_same.mpr hf
    have hg' : ∀ f, retrGenesis { σ with trxs := d, blocks := f } = .ok b.genesis := fun _ => hg
    simp only [retrBlock, setFile_same, readCell, Outcome.bind_ok, trBlockFromJSON, fromString_str,
      Outcome.deref_some, hc1, hc2, hb', hg', takeLeaves_tree hlen ht, hm]
    exact hb

omit C in
/-- C136: when the bill cannot be retrieved before, and its lock either cannot be or is retrieved as it is,
saving the bill stores it and it is what is retrieved. -/
theorem C136_first_bill_stays_partial (σ : Store) (b : Bill)
    (hb : billNow (some b.lock) b.amount b.createdOn = .ok b)
    (hl : lockNow (some b.lock.pubKeys) b.lock.createdOn = .ok b.lock)
    (hr : (∃ m, retrLock σ b.lock.hash = .err m) ∨ retrLock σ b.lock.hash = .ok b.lock)
    (hn : ∃ m, retrBill σ b.hash = .err m) :
    ∃ σ', (saveBill b).exec σ = (.ok (), σ') ∧ retrBill σ' b.hash = .ok b := by
  obtain ⟨m, hn⟩ := hn
  obtain ⟨_, e, h0, -⟩ := billNow_eq_ok.mp hb
  cases e
  have ht : trBillNow b.hash b.lock.hash b.amount b.createdOn =
      .ok ⟨b.hash, b.lock.hash, b.amount, b.createdOn⟩ := trBillNow_eq_ok.mpr ⟨by rintro h; simp [h] at h0, rfl⟩
  obtain ⟨σ₁, h1, h2⟩ : ∃ σ₁, (saveLock b.lock).exec σ = (.ok (), σ₁) ∧ retrLock σ₁ b.lock.hash = .ok b.lock := by
    rcases hr with hr | hr
    · exact (C136_first_lock_stays_partial σ b.lock hl).1 hr
    · exact ⟨σ, (C136_first_lock_stays_partial σ b.lock hl).2 _ hr, hr⟩
  refine ⟨{ σ₁ with
      bills := setFile σ₁.bills b.hash.str (.json ⟨b.hash.str, b.lock.hash.str, b.amount, b.createdOn⟩) }, ?_, ?_⟩
  · unfold saveBill unlessFound
    simp only [Prog.exec, hn]
    rw [exec_bind, h1]
    simp only [Bill.toTransfer, ht]
    rfl
  · unfold retrBill
    simp only [setFile_same, readCell, Outcome.bind_ok, trBillFromJSON, fromString_str, ht]
    rw [show ∀ f, retrLock { σ₁ with bills := f } b.lock.hash = retrLock σ₁ b.lock.hash from fun _ => rfl, h2]
    exact hb

/-- C136: when a transaction without an address cannot be retrieved before and its fees are retrieved as they
are, saving it stores it and it is what is retrieved. -/
theorem C136_first_transaction_stays_partial (σ : Store) (x : Transaction)
    (hx : trxNow none x.bucket x.fees x.createdOn = .ok x)
    (hf : ∀ f ∈ x.fees, retrExpense σ f.hash = .ok f) (hn : ∃ m, retrTrx σ x.hash = .err m) :
    ∃ σ', (saveTrx x).exec σ = (.ok (), σ') ∧ retrTrx σ' x.hash = .ok x :=
  let ⟨_, h1, h2, _⟩ := saveTrx_first hx hf hn
  ⟨_, h1, h2⟩

/-- C136: when a block cannot be retrieved before and its genesis and its transactions are retrieved as they are,
saving it stores it and it is what is retrieved. -/
theorem C136_first_block_stays_partial (σ : Store) (b : Block)
    (hb : blockNow (some b.genesis) b.additional (some b.trx) b.createdOn = .ok b)
    (hlen : b.trx.length < 2 ^ 63) (hg : retrGenesis σ = .ok b.genesis)
    (hf : ∀ x ∈ b.trx, retrTrx σ x.hash = .ok x) (hn : ∃ m, retrBlock σ b.hash = .err m) :
    ∃ σ', (saveBlock b).exec σ = (.ok (), σ') ∧ retrBlock σ' b.hash = .ok b :=
  let ⟨_, h1, h2, _⟩ := saveBlock_first hb hlen hg hn (d := σ.trxs) (forEach_found fun x hx => ⟨x, hf x hx⟩) hf
  ⟨_, h1, h2⟩

end

section examples
attribute [local instance] toyCurve toySha

/-- C136: a lock with two keys, and an empty store. -/
example : ∃ l t, lockNow (some [fromBytes [1], fromBytes [2]]) t = .ok l ∧ 2 ≤ l.pubKeys.length ∧
    lockNow (some l.pubKeys) l.createdOn = .ok l ∧ ∃ m, retrLock .empty l.hash = .err m :=
  ⟨_, 0, rfl, by decide, rfl, _, rfl⟩

/-- C136: a bill with a displaced lock. -/
example : ∃ (b : Bill) (l' : Lock) (σ : Store), billNow (some b.lock) b.amount b.createdOn = .ok b ∧
    l'.hash = b.lock.hash ∧ l' ≠ b.lock ∧ retrLock σ b.lock.hash = .ok l' ∧
    ∃ m, retrBill σ b.hash = .err m := by
  obtain ⟨l, hl⟩ : ∃ l, lockNow (some [fromBytes [1], fromBytes [2]]) 0 = .ok l := ⟨_, rfl⟩
  obtain ⟨_, e, -, -, e'⟩ := lockNow_eq_ok.mp hl
  cases e
  obtain ⟨l', σ', h1, h2, h3, -, h5⟩ := C136_lock_displaced_neg .empty l (by rw [e']; decide) 0 ⟨_, rfl⟩
  have hh : l'.hash = l.hash := by
    obtain ⟨_, e, -, -, rfl⟩ := lockNow_eq_ok.mp h1
    cases e
    simp [fromBytes_hash]
  refine ⟨⟨fromBytes (l.hash.bytes ++ itoaU 5), l, 5, 0⟩, l', σ', billNow_eq_ok.mpr ⟨_, rfl, by simp, rfl⟩, hh,
    fun h => h2 (by rw [h]), h5, "no such file or directory", ?_⟩
  obtain rfl : σ' = ((saveLock l').exec .empty).2 := by rw [h3]
  have hf := (saveLock_frame l' .empty).exec.1.bills (by omega)
  simp only [retrBill, hf]
  rfl

/-- C136: a block of a stored genesis, whose transactions have fees and are not stored. -/
example : ∃ (σ : Store) (b : Block), blockNow (some b.genesis) b.additional (some b.trx) b.createdOn = .ok b ∧
    b.trx.length < 2 ^ 63 ∧ retrGenesis σ = .ok b.genesis ∧ σ.blocks b.hash.str = none ∧
    (∀ x ∈ b.trx, ∃ m, retrTrx σ x.hash = .err m) ∧ b.trx ≠ [] ∧ ∀ x ∈ b.trx, x.fees ≠ [] := by
  obtain ⟨W, x, t, b, r, k, G, O, hx, ht, hg, hb, hr, hk, hcan, e1, e2, e3, e4, -⟩ := toy_world
  have h1 := saveGenesis_exec G (Honest.empty _) hg ⟨_, rfl⟩
  obtain ⟨y, hy, hy'⟩ := ((saveGenesis_honest G (Honest.empty _) hg).exec.2 () h1).exists
  have hfr := (saveGenesis_frame b.genesis .empty).exec.1
  refine ⟨_, b, ?_, G.block_length b hb, hy.trans (congrArg _ hy'), ?_, ?_, by simp [e2], by simp [e2, e1]⟩
  · obtain ⟨-, -, _, _, _, _, h⟩ := G.block_built b hb
    obtain ⟨_, _, rfl, rfl, -, rfl⟩ := blockNow_eq_ok.mp h
    exact h
  · rw [hfr.blocks (by omega)]
    rfl
  · intro z _
    refine ⟨"no such file or directory", ?_⟩
    simp only [retrTrx, hfr.trxs (by omega)]
    rfl

/-- A store with a genesis and an expense, without transactions and blocks. -/
theorem toy_stored : ∃ (σ : Store) (g : Genesis) (e : Expense), retrGenesis σ = .ok g ∧
    retrExpense σ e.hash = .ok e ∧ (∀ h, ∃ m, retrTrx σ h = .err m) ∧ ∀ p, σ.blocks p = none := by
  obtain ⟨W, x, t, b, r, k, G, O, hx, ht, hg, hb, hr, hk, hcan, -⟩ := toy_world
  have h1 := saveGenesis_exec G (Honest.empty _) hg ⟨_, rfl⟩
  have H1 := (saveGenesis_honest G (Honest.empty _) hg).exec.1
  obtain ⟨y, hy, hy'⟩ := ((saveGenesis_honest G (Honest.empty _) hg).exec.2 () h1).exists
  have f1 := (saveGenesis_frame b.genesis .empty).exec.1
  generalize ((saveGenesis b.genesis).exec .empty).2 = σ at *
  have h2 := saveExpense_exec G H1 hx
  obtain ⟨z, hz, hz'⟩ := ((saveExpense_honest G H1 hx).exec.2 () h2).exists
  have f2 := (saveExpense_frame x σ).exec.1
  have k2 := (saveExpense_keep x σ).exec.1
  rw [Expense.timed_id, Expense.timed_id, Expense.reduced_of_canonical hcan] at hz'
  refine ⟨_, b.genesis, x, k2.retrGenesis (hy.trans (congrArg _ hy')), hz.trans (congrArg _ hz'), fun h => ?_, fun h => ?_⟩
  · refine ⟨"no such file or directory", ?_⟩
    simp only [retrTrx, f2.trxs (by omega), f1.trxs (by omega)]
    rfl
  · simp only [f2.blocks (by omega), f1.blocks (by omega)]
    rfl

/-- C136: a bill with its lock, a transaction with a fee and a block that were not saved before. -/
example : (∃ b : Bill, billNow (some b.lock) b.amount b.createdOn = .ok b ∧
      lockNow (some b.lock.pubKeys) b.lock.createdOn = .ok b.lock ∧ (∃ m, retrLock .empty b.lock.hash = .err m) ∧
      ∃ m, retrBill .empty b.hash = .err m) ∧
    ∃ (σ σ' : Store) (x : Transaction) (b : Block), x.fees ≠ [] ∧
      trxNow none x.bucket x.fees x.createdOn = .ok x ∧ (∀ f ∈ x.fees, retrExpense σ f.hash = .ok f) ∧
      (∃ m, retrTrx σ x.hash = .err m) ∧
      blockNow (some b.genesis) b.additional (some b.trx) b.createdOn = .ok b ∧ b.trx.length < 2 ^ 63 ∧
      retrGenesis σ' = .ok b.genesis ∧ (∀ y ∈ b.trx, retrTrx σ' y.hash = .ok y) ∧ b.trx = [x, x] ∧
      ∃ m, retrBlock σ' b.hash = .err m := by
  refine ⟨⟨toyBill 1 5, rfl, rfl, ⟨_, rfl⟩, _, rfl⟩, ?_⟩
  obtain ⟨σ, g, e, hg, he, ht, hb⟩ := toy_stored
  obtain ⟨x, hx⟩ : ∃ x, trxNow none none [e] 0 = .ok x := ⟨_, trxNow_eq_ok.mpr ⟨by simp, rfl⟩⟩
  have hx' := hx
  obtain ⟨-, ex⟩ := trxNow_eq_ok.mp hx'
  have e1 : x.bucket = none := by rw [ex]
  have e2 : x.fees = [e] := by rw [ex]
  have e3 : x.createdOn = 0 := by rw [ex]
  have hf : ∀ f ∈ x.fees, retrExpense σ f.hash = .ok f := by simpa [e2] using he
  have hx2 : trxNow none x.bucket x.fees x.createdOn = .ok x := by rw [e1, e2, e3]; exact hx
  obtain ⟨d, h1, h2, h3⟩ := saveTrx_first hx2 hf (ht _)
  obtain ⟨b, hbn⟩ : ∃ b, blockNow (some g) 4 (some [x, x]) 0 = .ok b :=
    ⟨_, blockNow_eq_ok.mpr ⟨_, _, rfl, rfl, by simp, rfl⟩⟩
  have hbn' := hbn
  obtain ⟨_, _, i1, i2, -, eb⟩ := blockNow_eq_ok.mp hbn'
  cases i1; cases i2
  have b1 : b.genesis = g := by rw [eb]
  have b2 : b.trx = [x, x] := by rw [eb]
  have b3 : b.additional = 4 := by rw [eb]
  have b4 : b.createdOn = 0 := by rw [eb]
  refine ⟨σ, { σ with trxs := d }, x, b, by simp [e2], hx2, hf, ht _, by rw [b1, b2, b3, b4]; exact hbn,
    by simp [b2], by rw [b1]; exact hg, by simpa [b2] using h2, b2, ?_⟩
  exact ⟨"no such file or directory", by simp [retrBlock, hb, readCell]⟩

end examples

end Verif
