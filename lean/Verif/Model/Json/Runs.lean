import Verif.Model.Json.Drive
import Verif.Spec.Persistence

/-!
# Runs on bytes

The programs of the services write only JSON texts of transfer objects. Runs on bytes are runs on the
store (`RawRun.run`), and a run without faults on the store is one on bytes if all times that are
written can be marshalled.
-/

namespace Verif

/-- All writes of a program write a transfer object with the property. -/
inductive Prog.Puts [C : Curve] {α : Type} (P : PutOp → Prop) : Prog α → Prop
  | ret (o : Outcome α) : Prog.Puts P (.ret o)
  | look {f : Store → Prog α} : (∀ σ, Prog.Puts P (f σ)) → Prog.Puts P (.look f)
  | write {op : PutOp} {k : Bool → Prog α} : P op → (∀ b, Prog.Puts P (k b)) →
      Prog.Puts P (.write op.done op.torn k)

/-- The times written with a transaction. -/
def Transaction.fileTimes [C : Curve] (x : Transaction) : List Time :=
  x.createdOn :: x.fees.flatMap Expense.times
/-- The times written with a block. -/
def Block.fileTimes [C : Curve] (b : Block) : List Time :=
  b.createdOn :: b.trx.flatMap Transaction.fileTimes
/-- The times written with a mined block. -/
def MinedBlock.fileTimes [C : Curve] (b : MinedBlock) : List Time := b.createdOn :: b.block.fileTimes
/-- The times written with a link. -/
def Link.fileTimes [C : Curve] (l : Link) : List Time := l.createdOn :: l.next.fileTimes
/-- The times written with a mined link. -/
def MinedLink.fileTimes [C : Curve] (l : MinedLink) : List Time := l.createdOn :: l.link.fileTimes

/-- The times an operation writes. -/
def Op.fileTimes [C : Curve] : Op → List Time
  | .lock x => x.times
  | .bill x => x.times
  | .expense x => x.times
  | .genesis x => x.times
  | .trx x => x.fileTimes
  | .block x => x.fileTimes
  | .minedBlock x => x.fileTimes
  | .link x => x.fileTimes
  | .minedLink x => x.fileTimes
  | .insert c => c.genesis.times ++ c.root.fileTimes ++ c.head.fileTimes ++ [c.createdOn]
  | .update _ c => c.head.fileTimes ++ [c.createdOn]
  | .state _ => []

/-- The difficulty an operation writes is a float64. -/
def Op.Real [C : Curve] : Op → Prop
  | .genesis x => x.blockIncrease.IsFloat
  | .insert c => c.genesis.blockIncrease.IsFloat
  | _ => True

namespace Prog.Puts

section
variable [C : Curve] {α β γ : Type} {P : PutOp → Prop}

theorem bind {p : Prog α} {f : α → Prog β} (hp : p.Puts P) (hf : ∀ a, (f a).Puts P) :
    (p.bind f).Puts P := by
  induction hp with
  | ret o => cases o with
    | ok a => exact hf a
    | err m => exact .ret _
    | crash c => exact .ret _
  | look _ ih => exact .look ih
  | write h _ ih => exact .write h ih

theorem lift {o : Outcome α} {f : α → Prog β} (hf : ∀ a, o = .ok a → (f a).Puts P) :
    ((Prog.lift o).bind f).Puts P := by
  cases o with
  | ok a => exact hf a rfl
  | err m => exact .ret _
  | crash c => exact .ret _

theorem save {op : PutOp} (h : P op) : (Prog.save op.done op.torn).Puts P := .write h fun _ => .ret _

theorem forEach {f : γ → Prog Unit} : ∀ {l : List γ}, (∀ x ∈ l, (f x).Puts P) →
    (Prog.forEach f l).Puts P
  | [], _ => .ret _
  | x :: xs, h => (h x (by simp)).bind fun _ => forEach fun y hy => h y (by simp [hy])

theorem unlessFound {f : Store → Outcome α} {rest : Prog Unit} (h : rest.Puts P) :
    (Verif.unlessFound f rest).Puts P := by
  refine .look fun σ => ?_
  cases f σ with
  | ok a => exact .ret _
  | err m => exact h
  | crash c => exact .ret _

end

end Prog.Puts

theorem TrGenesis.toJSON_ok {g : TrGenesis} {js : JTrGenesis} (h : g.toJSON = .ok js) :
    js = g.goJSON ∧ g.blockIncrease.marshals = true := by
  unfold TrGenesis.toJSON at h
  split at h
  · rename_i hm
    cases h
    exact ⟨rfl, hm⟩
  · cases h

section
variable [C : Curve] [FloatText]

/-- The object can be written. -/
def PutOp.Writable (op : PutOp) : Prop := op.Real ∧ ∃ b, op.text = some b

omit C [FloatText] in
theorem compactC_writes (j : JCompact) : compactC.Writes j := by
  have : compactC.Writes j ↔ True := by
    struct_writes
    exact iff_of_true (fun _ _ => rfl) trivial
  exact this.mpr trivial

omit C [FloatText] in
theorem jTrLockC_writes (x : JTrLock) : jTrLockC.Writes x ↔ Dated x.createdOn := by
  struct_writes
omit C [FloatText] in
theorem jTrBillC_writes (x : JTrBill) : jTrBillC.Writes x ↔ Dated x.createdOn := by
  struct_writes
omit C [FloatText] in
theorem jTrExpenseC_writes (x : JTrExpense) : jTrExpenseC.Writes x ↔ Dated x.createdOn := by
  struct_writes
omit C in
theorem jTrGenesisC_writes (x : JTrGenesis) :
    jTrGenesisC.Writes x ↔ x.blockIncrease.marshals = true ∧ Dated x.createdOn := by
  struct_writes
omit C [FloatText] in
theorem jTrTransactionC_writes (x : JTrTransaction) : jTrTransactionC.Writes x ↔ Dated x.createdOn := by
  struct_writes
omit C [FloatText] in
theorem jTrBlockC_writes (x : JTrBlock) : jTrBlockC.Writes x ↔ Dated x.createdOn := by
  struct_writes
  simp [compactC_writes]
omit C [FloatText] in
theorem jTrMinedBlockC_writes (x : JTrMined) : jTrMinedBlockC.Writes x ↔ Dated x.createdOn := by
  struct_writes
omit C [FloatText] in
theorem jTrLinkC_writes (x : JTrLink) : jTrLinkC.Writes x ↔ Dated x.createdOn := by
  struct_writes
omit C [FloatText] in
theorem jTrMinedLinkC_writes (x : JTrMined) : jTrMinedLinkC.Writes x ↔ Dated x.createdOn := by
  struct_writes
omit C [FloatText] in
theorem jTrChainC_writes (x : JTrChain) : jTrChainC.Writes x ↔ Dated x.createdOn := by
  struct_writes
omit C [FloatText] in
theorem jTrStateC_writes (x : JTrState) : jTrStateC.Writes x ↔ Dated x.createdOn := by
  struct_writes
  simp [compactC_writes]

variable [Sha512]

theorem saveLock_puts {x : Lock} (h : ∀ t ∈ x.times, Dated t) : (saveLock x).Puts PutOp.Writable :=
  .unlessFound <| .lift fun tr ht => by
    refine .save (op := .lock tr) ⟨trivial, ?_⟩
    cases ht
    exact Codec.writes_iff.mp ((jTrLockC_writes _).mpr (h _ (by simp [Lock.times, TrLock.toJSON])))

theorem saveBill_puts {x : Bill} (h : ∀ t ∈ x.times, Dated t) : (saveBill x).Puts PutOp.Writable :=
  .unlessFound <| (saveLock_puts fun t ht => h t (by simp [Bill.times, ht])).bind fun _ =>
    .lift fun tr ht => by
    refine .save (op := .bill tr) ⟨trivial, ?_⟩
    unfold Bill.toTransfer trBillNow at ht
    split at ht <;> cases ht
    exact Codec.writes_iff.mp ((jTrBillC_writes _).mpr (h _ (by simp [Bill.times, TrBill.toJSON])))

theorem saveGenesis_puts {x : Genesis} (hr : x.blockIncrease.IsFloat) (h : ∀ t ∈ x.times, Dated t) :
    (saveGenesis x).Puts PutOp.Writable := by
  refine .look fun σ => ?_
  cases retrGenesis σ with
  | ok a => exact .ret _
  | crash c => exact .ret _
  | err m =>
    refine (saveBill_puts fun t ht => h t (by simp [Genesis.times, ht])).bind fun _ =>
      .lift fun tr ht => .lift fun js hj => ?_
    obtain ⟨rfl, hm⟩ := TrGenesis.toJSON_ok hj
    unfold Genesis.toTransfer trGenesisNow at ht
    refine .save (op := .genesis tr) ?_
    split at ht
    · cases ht
    split at ht
    · cases ht
    split at ht
    · cases ht
    cases ht
    exact ⟨hr, Codec.writes_iff.mp ((jTrGenesisC_writes _).mpr
      ⟨hm, h _ (by simp [Genesis.times, TrGenesis.goJSON])⟩)⟩

theorem saveExpense_puts {x : Expense} (h : ∀ t ∈ x.times, Dated t) :
    (saveExpense x).Puts PutOp.Writable := by
  simp only [Expense.times, Content.times, List.mem_cons, List.mem_append, List.mem_flatMap] at h
  refine .unlessFound <| (Prog.Puts.forEach fun b hb => saveBill_puts fun t ht =>
    h t (.inr (.inl ⟨b, hb, ht⟩))).bind fun _ =>
    (saveBill_puts fun t ht => h t (.inr (.inr (.inl ht)))).bind fun _ =>
    (Prog.Puts.forEach fun b hb => saveBill_puts fun t ht =>
      h t (.inr (.inr (.inr ⟨b, hb, ht⟩)))).bind fun _ => .lift fun tr ht => ?_
  refine .save (op := .expense tr) ⟨trivial, ?_⟩
  unfold Expense.toTransfer trExpenseNow at ht
  split at ht
  · cases ht
  split at ht
  · cases ht
  cases ht
  exact Codec.writes_iff.mp ((jTrExpenseC_writes _).mpr (h _ (.inl rfl)))

theorem saveTrx_puts {x : Transaction} (h : ∀ t ∈ x.fileTimes, Dated t) :
    (saveTrx x).Puts PutOp.Writable := by
  simp only [Transaction.fileTimes, List.mem_cons, List.mem_flatMap] at h
  refine .unlessFound <| (Prog.Puts.forEach fun b hb => saveExpense_puts fun t ht =>
    h t (.inr ⟨b, hb, ht⟩)).bind fun _ => .lift fun tr ht => ?_
  refine .save (op := .trx tr) ⟨trivial, ?_⟩
  unfold Transaction.toTransfer trTransactionNow at ht
  split at ht
  · cases ht
  cases ht
  exact Codec.writes_iff.mp ((jTrTransactionC_writes _).mpr (h _ (.inl rfl)))

theorem saveBlock_puts {x : Block} (h : ∀ t ∈ x.fileTimes, Dated t) :
    (saveBlock x).Puts PutOp.Writable := by
  simp only [Block.fileTimes, List.mem_cons, List.mem_flatMap] at h
  refine .unlessFound <| (Prog.Puts.forEach fun b hb => saveTrx_puts fun t ht =>
    h t (.inr ⟨b, hb, ht⟩)).bind fun _ => .lift fun tr ht => ?_
  refine .save (op := .block tr) ⟨trivial, ?_⟩
  unfold Block.toTransfer trBlockNow at ht
  obtain ⟨tree, -, ht⟩ := Outcome.bind_eq_ok.mp ht
  split at ht
  · cases ht
  cases ht
  exact Codec.writes_iff.mp ((jTrBlockC_writes _).mpr (h _ (.inl rfl)))

theorem saveMinedBlock_puts {x : MinedBlock} (h : ∀ t ∈ x.fileTimes, Dated t) :
    (saveMinedBlock x).Puts PutOp.Writable := by
  simp only [MinedBlock.fileTimes, List.mem_cons] at h
  refine .unlessFound <| (saveBlock_puts fun t ht => h t (.inr ht)).bind fun _ =>
    .lift fun tr ht => ?_
  refine .save (op := .minedBlock tr) ⟨trivial, ?_⟩
  cases ht
  exact Codec.writes_iff.mp ((jTrMinedBlockC_writes _).mpr (h _ (.inl rfl)))

theorem saveLink_puts {x : Link} (h : ∀ t ∈ x.fileTimes, Dated t) :
    (saveLink x).Puts PutOp.Writable := by
  simp only [Link.fileTimes, List.mem_cons] at h
  refine .unlessFound <| (saveBlock_puts fun t ht => h t (.inr ht)).bind fun _ =>
    .lift fun tr ht => ?_
  refine .save (op := .link tr) ⟨trivial, ?_⟩
  cases ht
  exact Codec.writes_iff.mp ((jTrLinkC_writes _).mpr (h _ (.inl rfl)))

theorem saveMinedLink_puts {x : MinedLink} (h : ∀ t ∈ x.fileTimes, Dated t) :
    (saveMinedLink x).Puts PutOp.Writable := by
  simp only [MinedLink.fileTimes, List.mem_cons] at h
  refine .unlessFound <| (saveLink_puts fun t ht => h t (.inr ht)).bind fun _ =>
    .lift fun tr ht => ?_
  refine .save (op := .minedLink tr) ⟨trivial, ?_⟩
  cases ht
  exact Codec.writes_iff.mp ((jTrMinedLinkC_writes _).mpr (h _ (.inl rfl)))

theorem saveChain_puts {x : Chain} (h : ∀ t ∈ x.head.fileTimes, Dated t) (ht : Dated x.createdOn) :
    (saveChain x).Puts PutOp.Writable := by
  refine (saveMinedLink_puts h).bind fun _ => .lift fun tr ht' => ?_
  refine .save (op := .chain tr) ⟨trivial, ?_⟩
  unfold Chain.toTransfer trChainNow at ht'
  split at ht'
  · cases ht'
  cases ht'
  exact Codec.writes_iff.mp ((jTrChainC_writes _).mpr ht)

/-- Every operation with marshallable times writes only objects that can be marshalled. -/
theorem Op.puts {op : Op} (hr : op.Real) (h : ∀ t ∈ op.fileTimes, Dated t) :
    op.prog.Puts PutOp.Writable := by
  cases op with
  | lock x => exact saveLock_puts h
  | bill x => exact saveBill_puts h
  | expense x => exact saveExpense_puts h
  | genesis x => exact saveGenesis_puts hr h
  | trx x => exact saveTrx_puts h
  | block x => exact saveBlock_puts h
  | minedBlock x => exact saveMinedBlock_puts h
  | link x => exact saveLink_puts h
  | minedLink x => exact saveMinedLink_puts h
  | insert c =>
    simp only [Op.fileTimes, List.mem_append, List.mem_singleton] at h
    exact .unlessFound <| (saveGenesis_puts hr fun t ht => h t (.inl (.inl (.inl ht)))).bind fun _ =>
      (saveMinedBlock_puts fun t ht => h t (.inl (.inl (.inr ht)))).bind fun _ =>
      saveChain_puts (fun t ht => h t (.inl (.inr ht))) (h _ (.inr rfl))
  | update a c =>
    simp only [Op.fileTimes, List.mem_append, List.mem_singleton] at h
    exact .lift fun _ _ => .lift fun _ _ =>
      saveChain_puts (fun t ht => h t (.inl ht)) (h _ (.inr rfl))
  | state s =>
    have hs : ∀ f : TrState → Prog Unit, ((Prog.lift s.toTransfer).bind f).Puts PutOp.Writable :=
      fun f => .lift fun tr ht => by
        unfold State.toTransfer trStateNow at ht
        obtain ⟨tree, -, ht⟩ := Outcome.bind_eq_ok.mp ht
        split at ht
        · cases ht
        · cases ht
    refine .look fun σ => ?_
    cases retrState σ s.chain s.height with
    | ok a => dsimp only; split
              · exact .ret _
              · exact hs _
    | err m => exact hs _
    | crash c => exact .ret _

omit [Sha512] in
/-- The run without faults can be made on bytes. -/
theorem Prog.Puts.exec {α : Type} {p : Prog α} (hp : p.Puts PutOp.Writable) (δ : Drive) :
    ∃ δ', RawRun p δ (some (p.exec δ.store).1) δ' ∧ δ'.store = (p.exec δ.store).2 := by
  induction hp generalizing δ with
  | ret o => exact ⟨δ, .ret o δ, rfl⟩
  | look _ ih =>
    obtain ⟨δ', h1, h2⟩ := ih δ.store δ
    exact ⟨δ', .look h1, h2⟩
  | @write op k h _ ih =>
    obtain ⟨hr, b, hb⟩ := h
    obtain ⟨δ', h1, h2⟩ := ih true (op.put b δ)
    rw [PutOp.store_put hr hb] at h1 h2
    exact ⟨δ', .written hr hb h1, h2⟩

/-! ## Histories -/

/-- `δ` is reached from the empty drive by operations on objects of the world, with any faults. -/
inductive RawHistory (W : World) : Drive → Prop
  | empty : RawHistory W .empty
  | step {δ δ' : Drive} {op : Op} {r : Option (Outcome Unit)} :
      RawHistory W δ → op.In W → RawRun op.prog δ r δ' → RawHistory W δ'

/-- `δ'` is reached from `δ` by a sequence of operations, with any faults. -/
inductive RawLater : Drive → Drive → Prop
  | refl (δ : Drive) : RawLater δ δ
  | step {δ δ₁ δ₂ : Drive} {op : Op} {r : Option (Outcome Unit)} :
      RawLater δ δ₁ → RawRun op.prog δ₁ r δ₂ → RawLater δ δ₂

theorem RawHistory.history {W : World} {δ : Drive} (h : RawHistory W δ) : History W δ.store := by
  induction h with
  | empty => exact .empty
  | step _ hop hr ih => exact ih.step hop hr.run

theorem RawLater.later {δ δ' : Drive} (h : RawLater δ δ') : Later δ.store δ'.store := by
  induction h with
  | refl => exact .refl _
  | step _ hr ih => exact ih.step hr.run

end

end Verif
