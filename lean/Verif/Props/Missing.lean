import Verif.Props.Text

/-!
# Files with missing members

C126: no reader notices that members are missing.
-/

namespace Verif

theorem mapM_writeMember_filter {σ : Type} {s : σ} (keep : Bytes → Bool) :
    ∀ {fs : List (Fld σ)} {ms : List (Bytes × Json)}, fs.mapM (writeMember s) = some ms →
      (fs.filter fun f => keep f.name).mapM (writeMember s) = some (ms.filter fun m => keep m.1)
  | [], ms, h => by
    simp at h
    subst h
    simp
  | f :: fs, ms, h => by
    simp only [List.mapM_cons, Option.pure_def, Option.bind_eq_bind, Option.bind_eq_some_iff,
      Option.some.injEq] at h
    obtain ⟨m, h2, ms', h3, rfl⟩ := h
    have h4 := mapM_writeMember_filter keep h3
    have h5 : m.1 = f.name := by
      unfold writeMember at h2
      simp only [Option.map_eq_some_iff] at h2
      obtain ⟨j, -, rfl⟩ := h2
      rfl
    cases hk : keep f.name <;> simp [h5, hk, h2, h4]

/-- The fields of the members that are left are read, the others keep the zero value. -/
theorem structC_missing {σ : Type} {zero s : σ} {fs : List (Fld σ)} {ms : List (Bytes × Json)}
    (hn : (fs.map Fld.name).Nodup) (ht : ∀ f ∈ fs, ∀ c ∈ f.name, isTagByte c = true)
    (hg : ∀ f ∈ fs, f.codec.Good (f.get s)) (hw : (structC zero fs).enc s = some (.obj ms))
    (keep : Bytes → Bool) :
    (structC zero fs).read (Json.obj (ms.filter fun m => keep m.1)).render =
      some (fs.foldl (fun a f => bif keep f.name then f.set (f.codec.norm (f.get s)) a else a) zero) := by
  simp only [structC, Option.map_eq_some_iff, Json.obj.injEq] at hw
  obtain ⟨ms', h1, rfl⟩ := hw
  obtain ⟨h2, h3⟩ := readMembers_write hn ht _ _ (fun g hg => List.mem_of_mem_filter hg)
    (fun g h => hg g (List.mem_of_mem_filter h)) (mapM_writeMember_filter keep h1)
  unfold Codec.read
  rw [parseJson_render (by exact h2)]
  refine (h3 _).trans ?_
  rw [List.foldl_filter]
  simp only [← Bool.cond_eq_ite]
  rfl

/-- C126 (negation), locks. -/
theorem C126_missing_lock_neg (x : TrLock) {ms : List (Bytes × Json)}
    (hw : jTrLockC.enc x.toJSON = some (.obj ms)) (keep : Bytes → Bool) :
    jTrLockC.read (Json.obj (ms.filter fun m => keep m.1)).render = some {
      hash := if keep (ascii "hash") then x.toJSON.hash else []
      pubKeys := if keep (ascii "pubkeys") then x.toJSON.pubKeys else []
      createdOn := if keep (ascii "created_on") then x.toJSON.createdOn else 0 } := by
  unfold jTrLockC at hw ⊢
  refine (structC_missing ?_ ?_ ?_ hw keep).trans (congrArg some ?_)
  · simp only [List.map_cons, List.map_nil, fld]
    decide +kernel
  · simp only [List.forall_mem_cons, fld, List.not_mem_nil, false_imp_iff, implies_true, and_true]
    decide +kernel
  · simp only [List.forall_mem_cons, fld, List.not_mem_nil, false_imp_iff, implies_true, and_true]
    exact ⟨strC_good _, listC_good fun a _ => strC_good a, timeC_good _⟩
  · generalize hz : (⟨[], [], 0⟩ : JTrLock) = z
    simp only [List.foldl_cons, List.foldl_nil, fld, ← Bool.cond_eq_ite]
    have h0 : ∀ k a (s : JTrLock), (bif k then { s with hash := a } else s) =
        { s with hash := bif k then a else s.hash } := by intro k; cases k <;> intros <;> rfl
    have h1 : ∀ k a (s : JTrLock), (bif k then { s with pubKeys := a } else s) =
        { s with pubKeys := bif k then a else s.pubKeys } := by intro k; cases k <;> intros <;> rfl
    have h2 : ∀ k a (s : JTrLock), (bif k then { s with createdOn := a } else s) =
        { s with createdOn := bif k then a else s.createdOn } := by intro k; cases k <;> intros <;> rfl
    rw [h2, h1, h0, ← hz]
    conv_rhs => rw [← jTrLockC_norm x]
    rfl

/-- C126 (negation), bills. -/
theorem C126_missing_bill_neg (x : TrBill) {ms : List (Bytes × Json)}
    (hw : jTrBillC.enc x.toJSON = some (.obj ms)) (keep : Bytes → Bool) :
    jTrBillC.read (Json.obj (ms.filter fun m => keep m.1)).render = some {
      hash := if keep (ascii "hash") then x.toJSON.hash else []
      lock := if keep (ascii "lock") then x.toJSON.lock else []
      amount := if keep (ascii "amount") then x.toJSON.amount else 0
      createdOn := if keep (ascii "created_on") then x.toJSON.createdOn else 0 } := by
  unfold jTrBillC at hw ⊢
  refine (structC_missing ?_ ?_ ?_ hw keep).trans (congrArg some ?_)
  · simp only [List.map_cons, List.map_nil, fld]
    decide +kernel
  · simp only [List.forall_mem_cons, fld, List.not_mem_nil, false_imp_iff, implies_true, and_true]
    decide +kernel
  · simp only [List.forall_mem_cons, fld, List.not_mem_nil, false_imp_iff, implies_true, and_true]
    exact ⟨strC_good _, strC_good _, uintC_good _, timeC_good _⟩
  · generalize hz : (⟨[], [], 0, 0⟩ : JTrBill) = z
    simp only [List.foldl_cons, List.foldl_nil, fld, ← Bool.cond_eq_ite]
    have h0 : ∀ k a (s : JTrBill), (bif k then { s with hash := a } else s) =
        { s with hash := bif k then a else s.hash } := by intro k; cases k <;> intros <;> rfl
    have h1 : ∀ k a (s : JTrBill), (bif k then { s with lock := a } else s) =
        { s with lock := bif k then a else s.lock } := by intro k; cases k <;> intros <;> rfl
    have h2 : ∀ k a (s : JTrBill), (bif k then { s with amount := a } else s) =
        { s with amount := bif k then a else s.amount } := by intro k; cases k <;> intros <;> rfl
    have h3 : ∀ k a (s : JTrBill), (bif k then { s with createdOn := a } else s) =
        { s with createdOn := bif k then a else s.createdOn } := by intro k; cases k <;> intros <;> rfl
    rw [h3, h2, h1, h0, ← hz]
    conv_rhs => rw [← jTrBillC_norm x]
    rfl

/-- C126 (negation), expenses. -/
theorem C126_missing_expense_neg [Curve] (x : TrExpense) {ms : List (Bytes × Json)}
    (hw : jTrExpenseC.enc x.toJSON = some (.obj ms)) (keep : Bytes → Bool) :
    jTrExpenseC.read (Json.obj (ms.filter fun m => keep m.1)).render = some {
      hash := if keep (ascii "hash") then x.toJSON.hash else []
      source := if keep (ascii "from") then x.toJSON.source else []
      dest := if keep (ascii "to") then x.toJSON.dest else []
      signatures := if keep (ascii "signatures") then x.toJSON.signatures else []
      remaining := if keep (ascii "remaining") then x.toJSON.remaining else []
      createdOn := if keep (ascii "created_on") then x.toJSON.createdOn else 0 } := by
  unfold jTrExpenseC at hw ⊢
  refine (structC_missing ?_ ?_ ?_ hw keep).trans (congrArg some ?_)
  · simp only [List.map_cons, List.map_nil, fld]
    decide +kernel
  · simp only [List.forall_mem_cons, fld, List.not_mem_nil, false_imp_iff, implies_true, and_true]
    decide +kernel
  · simp only [List.forall_mem_cons, fld, List.not_mem_nil, false_imp_iff, implies_true, and_true]
    exact ⟨strC_good _, listC_good fun a _ => strC_good a, strC_good _, listC_good fun a _ => strC_good a, strC_good _, timeC_good _⟩
  · generalize hz : (⟨[], [], [], [], [], 0⟩ : JTrExpense) = z
    simp only [List.foldl_cons, List.foldl_nil, fld, ← Bool.cond_eq_ite]
    have h0 : ∀ k a (s : JTrExpense), (bif k then { s with hash := a } else s) =
        { s with hash := bif k then a else s.hash } := by intro k; cases k <;> intros <;> rfl
    have h1 : ∀ k a (s : JTrExpense), (bif k then { s with source := a } else s) =
        { s with source := bif k then a else s.source } := by intro k; cases k <;> intros <;> rfl
    have h2 : ∀ k a (s : JTrExpense), (bif k then { s with dest := a } else s) =
        { s with dest := bif k then a else s.dest } := by intro k; cases k <;> intros <;> rfl
    have h3 : ∀ k a (s : JTrExpense), (bif k then { s with signatures := a } else s) =
        { s with signatures := bif k then a else s.signatures } := by intro k; cases k <;> intros <;> rfl
    have h4 : ∀ k a (s : JTrExpense), (bif k then { s with remaining := a } else s) =
        { s with remaining := bif k then a else s.remaining } := by intro k; cases k <;> intros <;> rfl
    have h5 : ∀ k a (s : JTrExpense), (bif k then { s with createdOn := a } else s) =
        { s with createdOn := bif k then a else s.createdOn } := by intro k; cases k <;> intros <;> rfl
    rw [h5, h4, h3, h2, h1, h0, ← hz]
    conv_rhs => rw [← jTrExpenseC_norm x]
    rfl

/-- C126 (negation), geneses. -/
theorem C126_missing_genesis_neg [FloatText] (x : TrGenesis) (h : x.blockIncrease.IsFloat) {ms : List (Bytes × Json)}
    (hw : jTrGenesisC.enc x.goJSON = some (.obj ms)) (keep : Bytes → Bool) :
    jTrGenesisC.read (Json.obj (ms.filter fun m => keep m.1)).render = some {
      hash := if keep (ascii "hash") then x.goJSON.hash else []
      bill := if keep (ascii "bill") then x.goJSON.bill else []
      blockBase := if keep (ascii "block_difficulty_base") then x.goJSON.blockBase else 0
      blockIncrease := if keep (ascii "block_difficulty_increase_per_trx") then x.goJSON.blockIncrease else .fin 0
      link := if keep (ascii "link_difficulty") then x.goJSON.link else 0
      createdOn := if keep (ascii "created_on") then x.goJSON.createdOn else 0 } := by
  unfold jTrGenesisC at hw ⊢
  refine (structC_missing ?_ ?_ ?_ hw keep).trans (congrArg some ?_)
  · simp only [List.map_cons, List.map_nil, fld]
    decide +kernel
  · simp only [List.forall_mem_cons, fld, List.not_mem_nil, false_imp_iff, implies_true, and_true]
    decide +kernel
  · simp only [List.forall_mem_cons, fld, List.not_mem_nil, false_imp_iff, implies_true, and_true]
    exact ⟨strC_good _, strC_good _, uintC_good _, fltC_good h, uintC_good _, timeC_good _⟩
  · generalize hz : (⟨[], [], 0, .fin 0, 0, 0⟩ : JTrGenesis) = z
    simp only [List.foldl_cons, List.foldl_nil, fld, ← Bool.cond_eq_ite]
    have h0 : ∀ k a (s : JTrGenesis), (bif k then { s with hash := a } else s) =
        { s with hash := bif k then a else s.hash } := by intro k; cases k <;> intros <;> rfl
    have h1 : ∀ k a (s : JTrGenesis), (bif k then { s with bill := a } else s) =
        { s with bill := bif k then a else s.bill } := by intro k; cases k <;> intros <;> rfl
    have h2 : ∀ k a (s : JTrGenesis), (bif k then { s with blockBase := a } else s) =
        { s with blockBase := bif k then a else s.blockBase } := by intro k; cases k <;> intros <;> rfl
    have h3 : ∀ k a (s : JTrGenesis), (bif k then { s with blockIncrease := a } else s) =
        { s with blockIncrease := bif k then a else s.blockIncrease } := by intro k; cases k <;> intros <;> rfl
    have h4 : ∀ k a (s : JTrGenesis), (bif k then { s with link := a } else s) =
        { s with link := bif k then a else s.link } := by intro k; cases k <;> intros <;> rfl
    have h5 : ∀ k a (s : JTrGenesis), (bif k then { s with createdOn := a } else s) =
        { s with createdOn := bif k then a else s.createdOn } := by intro k; cases k <;> intros <;> rfl
    rw [h5, h4, h3, h2, h1, h0, ← hz]
    conv_rhs => rw [← jTrGenesisC_norm x]
    rfl

/-- C126 (negation), transactions. -/
theorem C126_missing_transaction_neg (x : TrTransaction) {ms : List (Bytes × Json)}
    (hw : jTrTransactionC.enc x.toJSON = some (.obj ms)) (keep : Bytes → Bool) :
    jTrTransactionC.read (Json.obj (ms.filter fun m => keep m.1)).render = some {
      hash := if keep (ascii "hash") then x.toJSON.hash else []
      address := if keep (ascii "address") then x.toJSON.address else []
      fees := if keep (ascii "fees") then x.toJSON.fees else []
      bucket := if keep (ascii "bucket") then x.toJSON.bucket else []
      createdOn := if keep (ascii "created_on") then x.toJSON.createdOn else 0 } := by
  unfold jTrTransactionC at hw ⊢
  refine (structC_missing ?_ ?_ ?_ hw keep).trans (congrArg some ?_)
  · simp only [List.map_cons, List.map_nil, fld]
    decide +kernel
  · simp only [List.forall_mem_cons, fld, List.not_mem_nil, false_imp_iff, implies_true, and_true]
    decide +kernel
  · simp only [List.forall_mem_cons, fld, List.not_mem_nil, false_imp_iff, implies_true, and_true]
    exact ⟨strC_good _, strC_good _, listC_good fun a _ => strC_good a, strC_good _, timeC_good _⟩
  · generalize hz : (⟨[], [], [], [], 0⟩ : JTrTransaction) = z
    simp only [List.foldl_cons, List.foldl_nil, fld, ← Bool.cond_eq_ite]
    have h0 : ∀ k a (s : JTrTransaction), (bif k then { s with hash := a } else s) =
        { s with hash := bif k then a else s.hash } := by intro k; cases k <;> intros <;> rfl
    have h1 : ∀ k a (s : JTrTransaction), (bif k then { s with address := a } else s) =
        { s with address := bif k then a else s.address } := by intro k; cases k <;> intros <;> rfl
    have h2 : ∀ k a (s : JTrTransaction), (bif k then { s with fees := a } else s) =
        { s with fees := bif k then a else s.fees } := by intro k; cases k <;> intros <;> rfl
    have h3 : ∀ k a (s : JTrTransaction), (bif k then { s with bucket := a } else s) =
        { s with bucket := bif k then a else s.bucket } := by intro k; cases k <;> intros <;> rfl
    have h4 : ∀ k a (s : JTrTransaction), (bif k then { s with createdOn := a } else s) =
        { s with createdOn := bif k then a else s.createdOn } := by intro k; cases k <;> intros <;> rfl
    rw [h4, h3, h2, h1, h0, ← hz]
    conv_rhs => rw [← jTrTransactionC_norm x]
    rfl

/-- C126 (negation), blocks. -/
theorem C126_missing_block_neg (x : TrBlock) {ms : List (Bytes × Json)}
    (hw : jTrBlockC.enc x.toJSON = some (.obj ms)) (keep : Bytes → Bool) :
    jTrBlockC.read (Json.obj (ms.filter fun m => keep m.1)).render = some {
      hash := if keep (ascii "hash") then x.toJSON.hash else []
      trx := if keep (ascii "transactions") then x.toJSON.trx else none
      amount := if keep (ascii "amount") then x.toJSON.amount else 0
      additional := if keep (ascii "additional") then x.toJSON.additional else 0
      createdOn := if keep (ascii "created_on") then x.toJSON.createdOn else 0 } := by
  unfold jTrBlockC at hw ⊢
  refine (structC_missing ?_ ?_ ?_ hw keep).trans (congrArg some ?_)
  · simp only [List.map_cons, List.map_nil, fld]
    decide +kernel
  · simp only [List.forall_mem_cons, fld, List.not_mem_nil, false_imp_iff, implies_true, and_true]
    decide +kernel
  · simp only [List.forall_mem_cons, fld, List.not_mem_nil, false_imp_iff, implies_true, and_true]
    exact ⟨strC_good _, ptrC_good (structC_notNull _ _) fun a _ => compactC_good a, uintC_good _, uintC_good _, timeC_good _⟩
  · generalize hz : (⟨[], none, 0, 0, 0⟩ : JTrBlock) = z
    simp only [List.foldl_cons, List.foldl_nil, fld, ← Bool.cond_eq_ite]
    have h0 : ∀ k a (s : JTrBlock), (bif k then { s with hash := a } else s) =
        { s with hash := bif k then a else s.hash } := by intro k; cases k <;> intros <;> rfl
    have h1 : ∀ k a (s : JTrBlock), (bif k then { s with trx := a } else s) =
        { s with trx := bif k then a else s.trx } := by intro k; cases k <;> intros <;> rfl
    have h2 : ∀ k a (s : JTrBlock), (bif k then { s with amount := a } else s) =
        { s with amount := bif k then a else s.amount } := by intro k; cases k <;> intros <;> rfl
    have h3 : ∀ k a (s : JTrBlock), (bif k then { s with additional := a } else s) =
        { s with additional := bif k then a else s.additional } := by intro k; cases k <;> intros <;> rfl
    have h4 : ∀ k a (s : JTrBlock), (bif k then { s with createdOn := a } else s) =
        { s with createdOn := bif k then a else s.createdOn } := by intro k; cases k <;> intros <;> rfl
    rw [h4, h3, h2, h1, h0, ← hz]
    conv_rhs => rw [← jTrBlockC_norm x]
    rfl

/-- C126 (negation), mined blocks. -/
theorem C126_missing_mined_block_neg (x : TrMined) {ms : List (Bytes × Json)}
    (hw : jTrMinedBlockC.enc x.goJSON = some (.obj ms)) (keep : Bytes → Bool) :
    jTrMinedBlockC.read (Json.obj (ms.filter fun m => keep m.1)).render = some {
      hash := if keep (ascii "hash") then x.toJSON.hash else []
      of := if keep (ascii "block") then x.toJSON.of else []
      mining := if keep (ascii "mining") then x.toJSON.mining else []
      createdOn := if keep (ascii "created_on") then x.toJSON.createdOn else 0 } := by
  unfold jTrMinedBlockC at hw ⊢
  refine (structC_missing ?_ ?_ ?_ hw keep).trans (congrArg some ?_)
  · simp only [List.map_cons, List.map_nil, fld]
    decide +kernel
  · simp only [List.forall_mem_cons, fld, List.not_mem_nil, false_imp_iff, implies_true, and_true]
    decide +kernel
  · simp only [List.forall_mem_cons, fld, List.not_mem_nil, false_imp_iff, implies_true, and_true]
    exact ⟨strC_good _, strC_good _, strC_good _, timeC_good _⟩
  · generalize hz : (⟨[], [], [], 0⟩ : JTrMined) = z
    simp only [List.foldl_cons, List.foldl_nil, fld, ← Bool.cond_eq_ite]
    have h0 : ∀ k a (s : JTrMined), (bif k then { s with hash := a } else s) =
        { s with hash := bif k then a else s.hash } := by intro k; cases k <;> intros <;> rfl
    have h1 : ∀ k a (s : JTrMined), (bif k then { s with of := a } else s) =
        { s with of := bif k then a else s.of } := by intro k; cases k <;> intros <;> rfl
    have h2 : ∀ k a (s : JTrMined), (bif k then { s with mining := a } else s) =
        { s with mining := bif k then a else s.mining } := by intro k; cases k <;> intros <;> rfl
    have h3 : ∀ k a (s : JTrMined), (bif k then { s with createdOn := a } else s) =
        { s with createdOn := bif k then a else s.createdOn } := by intro k; cases k <;> intros <;> rfl
    rw [h3, h2, h1, h0, ← hz]
    conv_rhs => rw [← jTrMinedBlockC_norm x]
    rfl

/-- C126 (negation), mined links. -/
theorem C126_missing_mined_link_neg (x : TrMined) {ms : List (Bytes × Json)}
    (hw : jTrMinedLinkC.enc x.goJSON = some (.obj ms)) (keep : Bytes → Bool) :
    jTrMinedLinkC.read (Json.obj (ms.filter fun m => keep m.1)).render = some {
      hash := if keep (ascii "hash") then x.toJSON.hash else []
      of := if keep (ascii "link") then x.toJSON.of else []
      mining := if keep (ascii "mining") then x.toJSON.mining else []
      createdOn := if keep (ascii "created_on") then x.toJSON.createdOn else 0 } := by
  unfold jTrMinedLinkC at hw ⊢
  refine (structC_missing ?_ ?_ ?_ hw keep).trans (congrArg some ?_)
  · simp only [List.map_cons, List.map_nil, fld]
    decide +kernel
  · simp only [List.forall_mem_cons, fld, List.not_mem_nil, false_imp_iff, implies_true, and_true]
    decide +kernel
  · simp only [List.forall_mem_cons, fld, List.not_mem_nil, false_imp_iff, implies_true, and_true]
    exact ⟨strC_good _, strC_good _, strC_good _, timeC_good _⟩
  · generalize hz : (⟨[], [], [], 0⟩ : JTrMined) = z
    simp only [List.foldl_cons, List.foldl_nil, fld, ← Bool.cond_eq_ite]
    have h0 : ∀ k a (s : JTrMined), (bif k then { s with hash := a } else s) =
        { s with hash := bif k then a else s.hash } := by intro k; cases k <;> intros <;> rfl
    have h1 : ∀ k a (s : JTrMined), (bif k then { s with of := a } else s) =
        { s with of := bif k then a else s.of } := by intro k; cases k <;> intros <;> rfl
    have h2 : ∀ k a (s : JTrMined), (bif k then { s with mining := a } else s) =
        { s with mining := bif k then a else s.mining } := by intro k; cases k <;> intros <;> rfl
    have h3 : ∀ k a (s : JTrMined), (bif k then { s with createdOn := a } else s) =
        { s with createdOn := bif k then a else s.createdOn } := by intro k; cases k <;> intros <;> rfl
    rw [h3, h2, h1, h0, ← hz]
    conv_rhs => rw [← jTrMinedLinkC_norm x]
    rfl

/-- C126 (negation), links. -/
theorem C126_missing_link_neg (x : TrLink) {ms : List (Bytes × Json)}
    (hw : jTrLinkC.enc x.toJSON = some (.obj ms)) (keep : Bytes → Bool) :
    jTrLinkC.read (Json.obj (ms.filter fun m => keep m.1)).render = some {
      hash := if keep (ascii "hash") then x.toJSON.hash else []
      prevLink := if keep (ascii "previous_link") then x.toJSON.prevLink else []
      next := if keep (ascii "next") then x.toJSON.next else []
      index := if keep (ascii "index") then x.toJSON.index else 0
      createdOn := if keep (ascii "created_on") then x.toJSON.createdOn else 0 } := by
  unfold jTrLinkC at hw ⊢
  refine (structC_missing ?_ ?_ ?_ hw keep).trans (congrArg some ?_)
  · simp only [List.map_cons, List.map_nil, fld]
    decide +kernel
  · simp only [List.forall_mem_cons, fld, List.not_mem_nil, false_imp_iff, implies_true, and_true]
    decide +kernel
  · simp only [List.forall_mem_cons, fld, List.not_mem_nil, false_imp_iff, implies_true, and_true]
    exact ⟨strC_good _, strC_good _, strC_good _, uintC_good _, timeC_good _⟩
  · generalize hz : (⟨[], [], [], 0, 0⟩ : JTrLink) = z
    simp only [List.foldl_cons, List.foldl_nil, fld, ← Bool.cond_eq_ite]
    have h0 : ∀ k a (s : JTrLink), (bif k then { s with hash := a } else s) =
        { s with hash := bif k then a else s.hash } := by intro k; cases k <;> intros <;> rfl
    have h1 : ∀ k a (s : JTrLink), (bif k then { s with prevLink := a } else s) =
        { s with prevLink := bif k then a else s.prevLink } := by intro k; cases k <;> intros <;> rfl
    have h2 : ∀ k a (s : JTrLink), (bif k then { s with next := a } else s) =
        { s with next := bif k then a else s.next } := by intro k; cases k <;> intros <;> rfl
    have h3 : ∀ k a (s : JTrLink), (bif k then { s with index := a } else s) =
        { s with index := bif k then a else s.index } := by intro k; cases k <;> intros <;> rfl
    have h4 : ∀ k a (s : JTrLink), (bif k then { s with createdOn := a } else s) =
        { s with createdOn := bif k then a else s.createdOn } := by intro k; cases k <;> intros <;> rfl
    rw [h4, h3, h2, h1, h0, ← hz]
    conv_rhs => rw [← jTrLinkC_norm x]
    rfl

/-- C126 (negation), chains. -/
theorem C126_missing_chain_neg (x : TrChain) {ms : List (Bytes × Json)}
    (hw : jTrChainC.enc x.toJSON = some (.obj ms)) (keep : Bytes → Bool) :
    jTrChainC.read (Json.obj (ms.filter fun m => keep m.1)).render = some {
      hash := if keep (ascii "hash") then x.toJSON.hash else []
      genesis := if keep (ascii "genesis") then x.toJSON.genesis else []
      root := if keep (ascii "root") then x.toJSON.root else []
      head := if keep (ascii "head") then x.toJSON.head else []
      total := if keep (ascii "total") then x.toJSON.total else 0
      createdOn := if keep (ascii "created_on") then x.toJSON.createdOn else 0 } := by
  unfold jTrChainC at hw ⊢
  refine (structC_missing ?_ ?_ ?_ hw keep).trans (congrArg some ?_)
  · simp only [List.map_cons, List.map_nil, fld]
    decide +kernel
  · simp only [List.forall_mem_cons, fld, List.not_mem_nil, false_imp_iff, implies_true, and_true]
    decide +kernel
  · simp only [List.forall_mem_cons, fld, List.not_mem_nil, false_imp_iff, implies_true, and_true]
    exact ⟨strC_good _, strC_good _, strC_good _, strC_good _, uintC_good _, timeC_good _⟩
  · generalize hz : (⟨[], [], [], [], 0, 0⟩ : JTrChain) = z
    simp only [List.foldl_cons, List.foldl_nil, fld, ← Bool.cond_eq_ite]
    have h0 : ∀ k a (s : JTrChain), (bif k then { s with hash := a } else s) =
        { s with hash := bif k then a else s.hash } := by intro k; cases k <;> intros <;> rfl
    have h1 : ∀ k a (s : JTrChain), (bif k then { s with genesis := a } else s) =
        { s with genesis := bif k then a else s.genesis } := by intro k; cases k <;> intros <;> rfl
    have h2 : ∀ k a (s : JTrChain), (bif k then { s with root := a } else s) =
        { s with root := bif k then a else s.root } := by intro k; cases k <;> intros <;> rfl
    have h3 : ∀ k a (s : JTrChain), (bif k then { s with head := a } else s) =
        { s with head := bif k then a else s.head } := by intro k; cases k <;> intros <;> rfl
    have h4 : ∀ k a (s : JTrChain), (bif k then { s with total := a } else s) =
        { s with total := bif k then a else s.total } := by intro k; cases k <;> intros <;> rfl
    have h5 : ∀ k a (s : JTrChain), (bif k then { s with createdOn := a } else s) =
        { s with createdOn := bif k then a else s.createdOn } := by intro k; cases k <;> intros <;> rfl
    rw [h5, h4, h3, h2, h1, h0, ← hz]
    conv_rhs => rw [← jTrChainC_norm x]
    rfl

set_option maxHeartbeats 2000000 in
/-- C126 (negation), states. -/
theorem C126_missing_state_neg (x : TrState) {ms : List (Bytes × Json)}
    (hw : jTrStateC.enc x.toJSON = some (.obj ms)) (keep : Bytes → Bool) :
    jTrStateC.read (Json.obj (ms.filter fun m => keep m.1)).render = some {
      hash := if keep (ascii "hash") then x.toJSON.hash else []
      chain := if keep (ascii "chain") then x.toJSON.chain else []
      prev := if keep (ascii "previous") then x.toJSON.prev else []
      height := if keep (ascii "height") then x.toJSON.height else 0
      trx := if keep (ascii "transactions") then x.toJSON.trx else none
      amount := if keep (ascii "amount") then x.toJSON.amount else 0
      createdOn := if keep (ascii "created_on") then x.toJSON.createdOn else 0 } := by
  unfold jTrStateC at hw ⊢
  refine (structC_missing ?_ ?_ ?_ hw keep).trans (congrArg some ?_)
  · simp only [List.map_cons, List.map_nil, fld]
    decide +kernel
  · simp only [List.forall_mem_cons, fld, List.not_mem_nil, false_imp_iff, implies_true, and_true]
    decide +kernel
  · simp only [List.forall_mem_cons, fld, List.not_mem_nil, false_imp_iff, implies_true, and_true]
    exact ⟨strC_good _, strC_good _, strC_good _, uintC_good _, ptrC_good (structC_notNull _ _) fun a _ => compactC_good a, uintC_good _, timeC_good _⟩
  · generalize hz : (⟨[], [], [], 0, none, 0, 0⟩ : JTrState) = z
    simp only [List.foldl_cons, List.foldl_nil, fld, ← Bool.cond_eq_ite]
    have h0 : ∀ k a (s : JTrState), (bif k then { s with hash := a } else s) =
        { s with hash := bif k then a else s.hash } := by intro k; cases k <;> intros <;> rfl
    have h1 : ∀ k a (s : JTrState), (bif k then { s with chain := a } else s) =
        { s with chain := bif k then a else s.chain } := by intro k; cases k <;> intros <;> rfl
    have h2 : ∀ k a (s : JTrState), (bif k then { s with prev := a } else s) =
        { s with prev := bif k then a else s.prev } := by intro k; cases k <;> intros <;> rfl
    have h3 : ∀ k a (s : JTrState), (bif k then { s with height := a } else s) =
        { s with height := bif k then a else s.height } := by intro k; cases k <;> intros <;> rfl
    have h4 : ∀ k a (s : JTrState), (bif k then { s with trx := a } else s) =
        { s with trx := bif k then a else s.trx } := by intro k; cases k <;> intros <;> rfl
    have h5 : ∀ k a (s : JTrState), (bif k then { s with amount := a } else s) =
        { s with amount := bif k then a else s.amount } := by intro k; cases k <;> intros <;> rfl
    have h6 : ∀ k a (s : JTrState), (bif k then { s with createdOn := a } else s) =
        { s with createdOn := bif k then a else s.createdOn } := by intro k; cases k <;> intros <;> rfl
    rw [h6, h5, h4, h3, h2, h1, h0, ← hz]
    conv_rhs => rw [← jTrStateC_norm x]
    rfl

end Verif
