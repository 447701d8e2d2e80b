import Verif.Model.Store.Views

/-!
# Retrievals whose files are read at different moments
-/

namespace Verif

section
variable [Sha512] [C : Curve] {W : World} {e : Time → Time}

/-- Whatever the objects of the world write between the reads: the retrieval returns a value that
looks like `z` through `n`, or an error. -/
def Rd.Gets (W : World) {α β : Type} (n : α → β) (z : β) : Rd α → Prop
  | .ret o => Fetch True o n z
  | .ask s k => ∀ a, s.Honest W a → Gets W n z (k a)

namespace Rd.Gets
variable {α β γ δ : Type}

theorem ok {n : α → β} {x : α} : (Rd.ret (.ok x)).Gets W n (n x) := .inl ⟨x, rfl, rfl⟩

theorem bind {n : α → β} {z : β} {f : α → Rd γ} {n' : γ → δ} {z' : δ} {r : Rd α}
    (h : r.Gets W n z) (hf : ∀ x, n x = z → (f x).Gets W n' z') : (r.bind f).Gets W n' z' := by
  induction r with
  | ret o =>
    rcases h with ⟨x, rfl, hx⟩ | ⟨-, m, rfl⟩
    · exact hf x hx
    · exact .inr ⟨trivial, m, rfl⟩
  | ask s k ih => exact fun a ha => ih a (h a ha)

theorem file {s : Spot} {f : s.Content → Rd γ} {n' : γ → δ} {z' : δ}
    (hf : ∀ a, s.Honest W a → (f a).Gets W n' z') : ((Rd.file s).bind f).Gets W n' z' :=
  fun a ha => hf a ha

theorem retBind {x : α} {o : Outcome α} (h : o = .ok x) {f : α → Rd γ} {n' : γ → δ} {z' : δ}
    (hf : (f x).Gets W n' z') : ((Rd.ret o).bind f).Gets W n' z' := by subst h; exact hf

theorem all {κ : Type} {f : κ → Rd α} {k : γ → κ} {n : α → β} {m : γ → β} : ∀ {ys : List γ},
    (∀ y ∈ ys, (f (k y)).Gets W n (m y)) → (Rd.all f (ys.map k)).Gets W (List.map n) (ys.map m)
  | [], _ => .inl ⟨[], rfl, rfl⟩
  | y :: ys, h => by
    refine (h y (by simp)).bind fun x hx => ?_
    refine (all (ys := ys) fun z hz => h z (by simp [hz])).bind fun xs hxs => ?_
    exact .inl ⟨x :: xs, rfl, by simp [hx, hxs]⟩

theorem opt {κ : Type} {f : κ → Rd α} {k : γ → κ} {n : α → β} {m : γ → β} {y : Option γ}
    (h : ∀ z, y = some z → (f (k z)).Gets W n (m z)) :
    (Rd.opt f (y.map k)).Gets W (Option.map n) (y.map m) := by
  cases y with
  | none => exact .inl ⟨none, rfl, rfl⟩
  | some z => exact (h z rfl).bind fun x hx => .inl ⟨some x, rfl, by simp [hx]⟩

end Rd.Gets

theorem readLock_gets (G : W.Good e) {x : Lock} (hx : W.lock x) :
    (readLock x.hash).Gets W (Lock.timed e) (x.timed e) := by
  refine Rd.Gets.file fun js h => ?_
  obtain ⟨y, hy, hp, hf⟩ := h
  have hh := Hash.str_injective hp
  rw [G.lock_hash x y hx hy hh]
  cases hf
  refine .retBind (x := ⟨y.hash, y.pubKeys, y.createdOn⟩) ?_ ?_
  · simp [trLockFromJSON, TrLock.toJSON, trLockNow, mapO_fromString]
  · exact .inl ⟨y, lock_rebuild (G.lock_built y hy), rfl⟩

theorem readBill_gets (G : W.Good e) {x : Bill} (hx : W.bill x) :
    (readBill x.hash).Gets W (Bill.timed e) (x.timed e) := by
  refine Rd.Gets.file fun js h => ?_
  obtain ⟨y, hy, hp, hf⟩ := h
  have hh := Hash.str_injective hp
  rw [G.bill_hash x y hx hy hh]
  obtain ⟨tr, ht, hjs⟩ := Outcome.bind_eq_ok.mp hf
  cases hjs
  obtain ⟨h0, rfl⟩ := trBillNow_eq_ok.mp ht
  refine .retBind (x := ⟨y.hash, y.lock.hash, y.amount, y.createdOn⟩) ?_ ?_
  · simp only [trBillFromJSON, TrBill.toJSON, fromString_str, Outcome.bind_ok]
    exact trBillNow_eq_ok.mpr ⟨h0, rfl⟩
  · refine (readLock_gets G (G.bill_lock y hy)).bind fun l hl => ?_
    obtain ⟨z, hz, hz'⟩ := bill_rebuild (G.bill_built y hy) hl
    exact .inl ⟨z, hz, hz'⟩

theorem readGenesis_gets (G : W.Good e) (O : W.OneGenesis e) {x : Genesis} (hx : W.genesis x) :
    readGenesis.Gets W (Genesis.timed e) (x.timed e) := by
  refine Rd.Gets.file fun js h => ?_
  obtain ⟨y, hy, hf⟩ := h
  rw [O x y hx hy]
  obtain ⟨tr, ht, hjs⟩ := Outcome.bind_eq_ok.mp hf
  have ht' := ht
  obtain ⟨-, -, -, rfl⟩ := trGenesisNow_eq_ok.mp ht
  unfold TrGenesis.toJSON at hjs
  split at hjs
  · cases hjs
    have ht'' : trGenesisNow y.hash y.bill.hash y.blockBase y.blockIncrease y.link y.createdOn =
      .ok _ := ht'
    refine .retBind (x := ⟨y.hash, y.bill.hash, y.blockBase, y.blockIncrease, y.link, y.createdOn⟩)
      ?_ ?_
    · simp only [trGenesisFromJSON, fromString_str, Outcome.bind_ok]
      exact ht''
    · refine (readBill_gets G (G.genesis_bill y hy)).bind fun l hl => ?_
      obtain ⟨z, hz, hz'⟩ := genesis_rebuild (G.genesis_built y hy) hl
      exact .inl ⟨z, hz, hz'⟩
  · cases hjs

theorem readExpense_gets (G : W.Good e) {x : Expense} (hx : W.expense x) :
    (readExpense x.hash).Gets W (Expense.timed e) (x.reduced.timed e) := by
  refine Rd.Gets.file fun js h => ?_
  obtain ⟨y, hy, hp, hf⟩ := h
  have hh := Hash.str_injective hp
  rw [G.expense_hash x y hx hy hh]
  obtain ⟨tr, ht, hjs⟩ := Outcome.bind_eq_ok.mp hf
  cases hjs
  obtain ⟨h0, h1, rfl⟩ := trExpenseNow_eq_ok.mp ht
  have hsig : mapO toRingSignature (y.signatures.map RingSignature.str) =
      .ok (y.signatures.map RingSignature.reduced) := mapO_map_ok fun s _ => toRingSignature_str s
  have htr : trExpenseNow y.hash (y.content.source.map Bill.hash) y.content.dest.hash
      (y.signatures.map RingSignature.reduced) (y.content.remaining.map Bill.hash)
      y.content.createdOn = .ok ⟨y.hash, y.content.source.map Bill.hash, y.content.dest.hash,
        y.signatures.map RingSignature.reduced, y.content.remaining.map Bill.hash,
        y.content.createdOn⟩ := trExpenseNow_eq_ok.mpr ⟨h0, by simpa using h1, rfl⟩
  refine .retBind (x := ⟨y.hash, y.content.source.map Bill.hash, y.content.dest.hash,
    y.signatures.map RingSignature.reduced, y.content.remaining.map Bill.hash,
    y.content.createdOn⟩) ?_ ?_
  · simp only [Outcome.bind_ok, trExpenseFromJSON, TrExpense.toJSON,
      fromString_str, mapO_fromString, hsig, optFromString_optStr, htr]
  · refine (Rd.Gets.all fun b hb => readBill_gets G (G.expense_source y hy b hb)).bind
      fun src hs => (readBill_gets G (G.expense_dest y hy)).bind fun dest hd =>
      (Rd.Gets.opt fun b hb => readBill_gets G (G.expense_remaining y hy b hb)).bind
      fun rem hr => ?_
    obtain ⟨c, z, hc, hz, hz'⟩ := expense_rebuild (G.expense_built y hy) (G.expense_fits y hy) hs hd hr
    exact .retBind hc (.inl ⟨z, hz, hz'⟩)

theorem readTrx_gets (G : W.Good e) {x : Transaction} (hx : W.trx x) :
    (readTrx x.hash).Gets W (Transaction.timed e) (x.reduced.timed e) := by
  refine Rd.Gets.file fun js h => ?_
  obtain ⟨y, hy, hp, hf⟩ := h
  have hh := Hash.str_injective hp
  rw [G.trx_hash x y hx hy hh]
  obtain ⟨tr, ht, hjs⟩ := Outcome.bind_eq_ok.mp hf
  cases hjs
  have ht' := ht
  obtain ⟨-, rfl⟩ := trTransactionNow_eq_ok.mp ht
  have htr : trTransactionNow y.hash none y.bucket (y.fees.map Expense.hash) y.createdOn = .ok _ :=
    ht'
  have hn : optFromString (optStr none) = .ok none := optFromString_optStr none
  refine .retBind (x := ⟨y.hash, none, y.bucket, y.fees.map Expense.hash, y.createdOn⟩) ?_ ?_
  · simp only [Outcome.bind_ok, trTransactionFromJSON, TrTransaction.toJSON,
      fromString_str, mapO_fromString, optFromString_optStr, hn, htr]
  · refine (Rd.Gets.all fun b hb => readExpense_gets G (G.trx_fees y hy b hb)).bind fun fees hs => ?_
    obtain ⟨z, hz, hz'⟩ := trx_rebuild (G.trx_built y hy) (G.trx_address y hy) hs
    exact .inl ⟨z, hz, hz'⟩

theorem readBlock_gets (G : W.Good e) (O : W.OneGenesis e) {x : Block} (hx : W.block x) :
    (readBlock x.hash).Gets W (Block.timed e) (x.reduced.timed e) := by
  refine Rd.Gets.file fun js h => ?_
  obtain ⟨y, hy, hp, hf⟩ := h
  have hh := Hash.str_injective hp
  rw [G.block_hash x y hx hy hh]
  obtain ⟨t, ht, h0, rfl⟩ := block_file_eq hf
  obtain ⟨c, hc1, rfl, -, -, hc2⟩ := C09_compact_round_trip ht
  have hb : trBlockNow y.hash t (UInt64.ofNat y.trx.length) y.additional y.createdOn =
      .ok ⟨y.hash, t, UInt64.ofNat y.trx.length, y.additional, y.createdOn⟩ :=
    trBlockNow_eq_ok.mpr ⟨h0, rfl⟩
  refine .retBind (x := ⟨y.hash, t, UInt64.ofNat y.trx.length, y.additional, y.createdOn⟩) ?_ ?_
  · simp only [Outcome.bind_ok, trBlockFromJSON, fromString_str,
      Outcome.deref_some, hc1, hc2, hb]
  · refine (readGenesis_gets G O (G.block_genesis y hy)).bind fun g hg => ?_
    refine .retBind (takeLeaves_tree (G.block_length y hy) ht) ?_
    refine (Rd.Gets.all fun b hb => readTrx_gets G (G.block_trx y hy b hb)).bind fun trx hs => ?_
    obtain ⟨z, hz, hz'⟩ := block_rebuild (G.block_built y hy) hg hs
    exact .inl ⟨z, hz, hz'⟩

theorem readMinedBlock_gets (G : W.Good e) (O : W.OneGenesis e) {x : MinedBlock}
    (hx : W.minedBlock x) :
    (readMinedBlock x.hash).Gets W (MinedBlock.timed e) (x.reduced.timed e) := by
  refine Rd.Gets.file fun js h => ?_
  obtain ⟨y, hy, hp, hf⟩ := h
  have hh := Hash.str_injective hp
  rw [G.minedBlock_hash x y hx hy hh]
  cases hf
  refine .retBind (x := ⟨y.hash, y.block.hash, y.mining, y.createdOn⟩) ?_ ?_
  · simp only [trMinedFromJSON, TrMined.toJSON, Outcome.bind_ok,
      fromString_str, trMinedNow, jsonText_of_utf8 (G.minedBlock_built y hy).2.1]
  · refine (readBlock_gets G O (G.minedBlock_block y hy)).bind fun b hb => ?_
    obtain ⟨z, hz, hz'⟩ := minedBlock_rebuild (G.minedBlock_built y hy) hb
    exact .inl ⟨z, hz, hz'⟩

theorem readLink_gets (G : W.Good e) (O : W.OneGenesis e) {x : Link} (hx : W.link x) :
    (readLink x.hash).Gets W (Link.timed e) (x.reduced.timed e) := by
  refine Rd.Gets.file fun js h => ?_
  obtain ⟨y, hy, hp, hf⟩ := h
  have hh := Hash.str_injective hp
  rw [G.link_hash x y hx hy hh]
  cases hf
  refine .retBind (x := ⟨y.hash, y.prevLink, y.next.hash, y.index, y.createdOn⟩) ?_ ?_
  · simp only [trLinkFromJSON, TrLink.toJSON, Outcome.bind_ok, fromString_str, trLinkNow]
  · refine (readBlock_gets G O (G.link_next y hy)).bind fun b hb => ?_
    obtain ⟨z, hz, hz'⟩ := link_rebuild (G.link_built y hy) hb
    exact .inl ⟨z, hz, hz'⟩

theorem readMinedLink_gets (G : W.Good e) (O : W.OneGenesis e) {x : MinedLink}
    (hx : W.minedLink x) :
    (readMinedLink x.hash).Gets W (MinedLink.timed e) (x.reduced.timed e) := by
  refine Rd.Gets.file fun js h => ?_
  obtain ⟨y, hy, hp, hf⟩ := h
  have hh := Hash.str_injective hp
  rw [G.minedLink_hash x y hx hy hh]
  cases hf
  refine .retBind (x := ⟨y.hash, y.link.hash, y.mining, y.createdOn⟩) ?_ ?_
  · simp only [trMinedFromJSON, TrMined.toJSON, Outcome.bind_ok,
      fromString_str, trMinedNow, jsonText_of_utf8 (G.minedLink_built y hy).2.1]
  · refine (readLink_gets G O (G.minedLink_link y hy)).bind fun b hb => ?_
    obtain ⟨z, hz, hz'⟩ := minedLink_rebuild (G.minedLink_built y hy) hb
    exact .inl ⟨z, hz, hz'⟩

/-! ## Programs that keep the store honest, whatever they retrieve -/

/-- Every write of the program is for an object of the world. -/
def Proc.Keeps (W : World) {α : Type} : Proc α → Prop
  | .ret _ => True
  | .query _ k => ∀ o, (k o).Keeps W
  | .write d t k => (∀ σ, Honest W σ → Honest W (d σ) ∧ Honest W (t σ)) ∧ ∀ b, (k b).Keeps W

namespace Proc.Keeps
variable {α β : Type}

theorem bind {p : Proc α} {f : α → Proc β} (h : p.Keeps W) (hf : ∀ a, (f a).Keeps W) :
    (p.bind f).Keeps W := by
  induction p with
  | ret o => cases o with
    | ok a => exact hf a
    | err m => trivial
    | crash c => trivial
  | query q k ih => exact fun o => ih o (h o)
  | write d t k ih => exact ⟨h.1, fun b => ih b (h.2 b)⟩

theorem ret {o : Outcome α} {f : α → Proc β} (h : ∀ a, o = .ok a → (f a).Keeps W) :
    ((Proc.ret o).bind f).Keeps W := by
  cases o with
  | ok a => exact h a rfl
  | err m => trivial
  | crash c => trivial

theorem forEach {γ : Type} {f : γ → Proc Unit} : ∀ {xs : List γ}, (∀ x ∈ xs, (f x).Keeps W) →
    (Proc.forEach f xs).Keeps W
  | [], _ => trivial
  | x :: xs, h => (h x (by simp)).bind fun _ => forEach fun y hy => h y (by simp [hy])

theorem unlessFound {q : Query} {rest : Proc Unit} (h : rest.Keeps W) :
    (Proc.unlessFound q rest).Keeps W := by
  intro o
  cases o with
  | ok a => trivial
  | err m => exact h
  | crash c => trivial

theorem save {d t : Store → Store} (h : ∀ σ, Honest W σ → Honest W (d σ) ∧ Honest W (t σ)) :
    (Proc.save d t).Keeps W := ⟨h, fun _ => trivial⟩

end Proc.Keeps

theorem procLock_keeps {x : Lock} (hx : W.lock x) : (procLock x).Keeps W := by
  refine .unlessFound (.ret fun tr htr => .save fun σ H => ?_)
  have hf : x.file = .ok tr.toJSON := by simp [Lock.file, htr]
  cases htr
  exact ⟨H.setLock hx _ fun js e => by cases e; exact hf, H.setLock hx _ fun js e => by cases e⟩

theorem procBill_keeps (G : W.Good e) {x : Bill} (hx : W.bill x) : (procBill x).Keeps W := by
  refine .unlessFound (.bind (procLock_keeps (G.bill_lock x hx)) fun _ => .ret fun tr htr =>
    .save fun σ H => ?_)
  have hf : x.file = .ok tr.toJSON := by simp [Bill.file, htr]
  obtain ⟨-, rfl⟩ := trBillNow_eq_ok.mp htr
  exact ⟨H.setBill hx _ fun js e => by cases e; exact hf, H.setBill hx _ fun js e => by cases e⟩

theorem procGenesis_keeps (G : W.Good e) {x : Genesis} (hx : W.genesis x) :
    (procGenesis x).Keeps W := by
  intro o
  cases o with
  | ok a => trivial
  | crash c => trivial
  | err m =>
    refine .bind (procBill_keeps G (G.genesis_bill x hx)) fun _ => .ret fun tr htr =>
      .ret fun js hjs => .save fun σ H => ?_
    have hf : x.file = .ok js := by simp [Genesis.file, htr, hjs]
    exact ⟨H.setGenesis hx _ fun js e => by cases e; exact hf,
      H.setGenesis hx _ fun js e => by cases e⟩

theorem procExpense_keeps (G : W.Good e) {x : Expense} (hx : W.expense x) :
    (procExpense x).Keeps W := by
  refine .unlessFound (.bind (.forEach fun b hb => procBill_keeps G (G.expense_source x hx b hb))
    fun _ => .bind (procBill_keeps G (G.expense_dest x hx)) fun _ =>
    .bind (.forEach fun b hb => procBill_keeps G (G.expense_remaining x hx b (by simpa using hb)))
    fun _ => .ret fun tr htr => .save fun σ H => ?_)
  have hf : x.file = .ok tr.toJSON := by simp [Expense.file, htr]
  obtain ⟨-, -, rfl⟩ := trExpenseNow_eq_ok.mp htr
  exact ⟨H.setExpense hx _ fun js e => by cases e; exact hf,
    H.setExpense hx _ fun js e => by cases e⟩

theorem procTrx_keeps (G : W.Good e) {x : Transaction} (hx : W.trx x) : (procTrx x).Keeps W := by
  refine .unlessFound (.bind (.forEach fun b hb => procExpense_keeps G (G.trx_fees x hx b hb))
    fun _ => .ret fun tr htr => .save fun σ H => ?_)
  have hf : x.file = .ok tr.toJSON := by simp [Transaction.file, htr]
  have hh : tr.hash = x.hash := by
    obtain ⟨-, rfl⟩ := trTransactionNow_eq_ok.mp htr
    rfl
  rw [hh]
  exact ⟨H.setTrx hx _ fun js e => by cases e; exact hf, H.setTrx hx _ fun js e => by cases e⟩

theorem procBlock_keeps (G : W.Good e) {x : Block} (hx : W.block x) : (procBlock x).Keeps W := by
  refine .unlessFound (.bind (.forEach fun b hb => procTrx_keeps G (G.block_trx x hx b hb))
    fun _ => .ret fun tr htr => .save fun σ H => ?_)
  have hf : x.file = .ok tr.toJSON := by simp [Block.file, htr]
  have hh : tr.hash = x.hash := by
    obtain ⟨t, ht1, ht2⟩ := Outcome.bind_eq_ok.mp htr
    obtain ⟨-, rfl⟩ := trBlockNow_eq_ok.mp ht2
    rfl
  rw [hh]
  exact ⟨H.setBlock hx _ fun js e => by cases e; exact hf, H.setBlock hx _ fun js e => by cases e⟩

theorem procMinedBlock_keeps (G : W.Good e) {x : MinedBlock} (hx : W.minedBlock x) :
    (procMinedBlock x).Keeps W := by
  refine .unlessFound (.bind (procBlock_keeps G (G.minedBlock_block x hx))
    fun _ => .ret fun tr htr => .save fun σ H => ?_)
  have hf : x.file = .ok tr.toJSON := by simp [MinedBlock.file, htr]
  cases htr
  exact ⟨H.setMinedBlock hx _ fun js e => by cases e; exact hf,
    H.setMinedBlock hx _ fun js e => by cases e⟩

theorem procLink_keeps (G : W.Good e) {x : Link} (hx : W.link x) : (procLink x).Keeps W := by
  refine .unlessFound (.bind (procBlock_keeps G (G.link_next x hx))
    fun _ => .ret fun tr htr => .save fun σ H => ?_)
  have hf : x.file = .ok tr.toJSON := by simp [Link.file, htr]
  cases htr
  exact ⟨H.setLink hx _ fun js e => by cases e; exact hf, H.setLink hx _ fun js e => by cases e⟩

theorem procMinedLink_keeps (G : W.Good e) {x : MinedLink} (hx : W.minedLink x) :
    (procMinedLink x).Keeps W := by
  refine .unlessFound (.bind (procLink_keeps G (G.minedLink_link x hx))
    fun _ => .ret fun tr htr => .save fun σ H => ?_)
  have hf : x.file = .ok tr.toJSON := by simp [MinedLink.file, htr]
  cases htr
  exact ⟨H.setMinedLink hx _ fun js e => by cases e; exact hf,
    H.setMinedLink hx _ fun js e => by cases e⟩

theorem procChain_keeps (G : W.Good e) {x : Chain} (hx : W.minedLink x.head) :
    (procChain x).Keeps W :=
  .bind (procMinedLink_keeps G hx) fun _ => .ret fun _ _ => .save fun _ H => ⟨{ H with }, { H with }⟩

theorem Op.proc_keeps (G : W.Good e) {op : Op} (h : op.In W) : op.proc.Keeps W := by
  cases op with
  | lock x => exact procLock_keeps h
  | bill x => exact procBill_keeps G h
  | expense x => exact procExpense_keeps G h
  | genesis x => exact procGenesis_keeps G h
  | trx x => exact procTrx_keeps G h
  | block x => exact procBlock_keeps G h
  | minedBlock x => exact procMinedBlock_keeps G h
  | link x => exact procLink_keeps G h
  | minedLink x => exact procMinedLink_keeps G h
  | insert c =>
    obtain ⟨h1, h2, h3⟩ := h
    exact .unlessFound (.bind (procGenesis_keeps G h1) fun _ =>
      .bind (procMinedBlock_keeps G h2) fun _ => procChain_keeps G h3)
  | update a b => exact .ret fun _ _ => .ret fun _ _ => procChain_keeps G h
  | state s =>
    have hs : ((Proc.ret s.toTransfer).bind fun tr => .save (fun σ => { σ with
          states := setFile σ.states (statePath tr.chain tr.height) (.json tr.toJSON) })
        (fun σ => { σ with
          states := setFile σ.states (statePath tr.chain tr.height) .torn })).Keeps W :=
      .ret fun _ _ => .save fun _ H => ⟨{ H with }, { H with }⟩
    intro o
    show Proc.Keeps W _
    beta_reduce
    split
    · split
      · trivial
      · exact hs
    · exact hs
    · trivial

end

end Verif
