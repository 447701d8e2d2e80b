import Verif.Props.Missing
import Verif.Props.Wire
import Verif.Props.Identities
import Verif.Model.Json.Identities

/-!
# Texts with missing members

C148: the texts that nodes exchange and the files of identities, with any members left out, are read; what
was left out is taken to be the zero value. The members that are left are read as they were written, up to
the replacement of text that is not UTF-8 (`Codec.norm`).
-/

namespace Verif

/-- C148 (negation), locks. -/
theorem C148_missing_lock_neg (x : JSONLock) {ms : List (Bytes × Json)}
    (hw : jLockC.enc x = some (.obj ms)) (keep : Bytes → Bool) :
    jLockC.read (Json.obj (ms.filter fun m => keep m.1)).render = some {
      pubKeys := if keep (ascii "pubkeys") then (listC strC).norm x.pubKeys else []
      createdOn := if keep (ascii "created_on") then timeC.norm x.createdOn else 0 } := by
  unfold jLockC at hw ⊢
  refine (structC_missing ?_ ?_ ?_ hw keep).trans (congrArg some ?_)
  · simp only [List.map_cons, List.map_nil, fld]
    decide +kernel
  · simp only [List.forall_mem_cons, fld, List.not_mem_nil, false_imp_iff, implies_true, and_true]
    decide +kernel
  · simp only [List.forall_mem_cons, fld, List.not_mem_nil, false_imp_iff, implies_true, and_true]
    exact ⟨listC_good fun a _ => strC_good a,
          timeC_good _⟩
  · generalize hz : (⟨[], 0⟩ : JSONLock) = z
    simp only [List.foldl_cons, List.foldl_nil, fld, ← Bool.cond_eq_ite]
    have h0 : ∀ k a (s : JSONLock), (bif k then { s with pubKeys := a } else s) =
        { s with pubKeys := bif k then a else s.pubKeys } := by intro k; cases k <;> intros <;> rfl
    have h1 : ∀ k a (s : JSONLock), (bif k then { s with createdOn := a } else s) =
        { s with createdOn := bif k then a else s.createdOn } := by intro k; cases k <;> intros <;> rfl
    rw [h1, h0, ← hz]

/-- C148 (negation), bills. -/
theorem C148_missing_bill_neg (x : JSONBill) {ms : List (Bytes × Json)}
    (hw : jBillC.enc x = some (.obj ms)) (keep : Bytes → Bool) :
    jBillC.read (Json.obj (ms.filter fun m => keep m.1)).render = some {
      lock := if keep (ascii "lock") then (ptrC jLockC).norm x.lock else none
      amount := if keep (ascii "amount") then uintC.norm x.amount else 0
      createdOn := if keep (ascii "created_on") then timeC.norm x.createdOn else 0 } := by
  unfold jBillC at hw ⊢
  refine (structC_missing ?_ ?_ ?_ hw keep).trans (congrArg some ?_)
  · simp only [List.map_cons, List.map_nil, fld]
    decide +kernel
  · simp only [List.forall_mem_cons, fld, List.not_mem_nil, false_imp_iff, implies_true, and_true]
    decide +kernel
  · simp only [List.forall_mem_cons, fld, List.not_mem_nil, false_imp_iff, implies_true, and_true]
    exact ⟨ptrC_good (structC_notNull _ _) fun a _ => jLockC_good a,
          uintC_good _,
          timeC_good _⟩
  · generalize hz : (⟨none, 0, 0⟩ : JSONBill) = z
    simp only [List.foldl_cons, List.foldl_nil, fld, ← Bool.cond_eq_ite]
    have h0 : ∀ k a (s : JSONBill), (bif k then { s with lock := a } else s) =
        { s with lock := bif k then a else s.lock } := by intro k; cases k <;> intros <;> rfl
    have h1 : ∀ k a (s : JSONBill), (bif k then { s with amount := a } else s) =
        { s with amount := bif k then a else s.amount } := by intro k; cases k <;> intros <;> rfl
    have h2 : ∀ k a (s : JSONBill), (bif k then { s with createdOn := a } else s) =
        { s with createdOn := bif k then a else s.createdOn } := by intro k; cases k <;> intros <;> rfl
    rw [h2, h1, h0, ← hz]

/-- C148 (negation), contents. -/
theorem C148_missing_content_neg (x : JSONContent) {ms : List (Bytes × Json)}
    (hw : jContentC.enc x = some (.obj ms)) (keep : Bytes → Bool) :
    jContentC.read (Json.obj (ms.filter fun m => keep m.1)).render = some {
      source := if keep (ascii "from") then (listC (ptrC jBillC)).norm x.source else []
      dest := if keep (ascii "to") then (ptrC jBillC).norm x.dest else none
      remaining := if keep (ascii "remaining") then (ptrC jBillC).norm x.remaining else none
      createdOn := if keep (ascii "created_on") then timeC.norm x.createdOn else 0 } := by
  unfold jContentC at hw ⊢
  refine (structC_missing ?_ ?_ ?_ hw keep).trans (congrArg some ?_)
  · simp only [List.map_cons, List.map_nil, fld]
    decide +kernel
  · simp only [List.forall_mem_cons, fld, List.not_mem_nil, false_imp_iff, implies_true, and_true]
    decide +kernel
  · simp only [List.forall_mem_cons, fld, List.not_mem_nil, false_imp_iff, implies_true, and_true]
    exact ⟨listC_good fun a _ => ptrC_good (structC_notNull _ _) fun b _ => jBillC_good b,
          ptrC_good (structC_notNull _ _) fun a _ => jBillC_good a,
          ptrC_good (structC_notNull _ _) fun a _ => jBillC_good a,
          timeC_good _⟩
  · generalize hz : (⟨[], none, none, 0⟩ : JSONContent) = z
    simp only [List.foldl_cons, List.foldl_nil, fld, ← Bool.cond_eq_ite]
    have h0 : ∀ k a (s : JSONContent), (bif k then { s with source := a } else s) =
        { s with source := bif k then a else s.source } := by intro k; cases k <;> intros <;> rfl
    have h1 : ∀ k a (s : JSONContent), (bif k then { s with dest := a } else s) =
        { s with dest := bif k then a else s.dest } := by intro k; cases k <;> intros <;> rfl
    have h2 : ∀ k a (s : JSONContent), (bif k then { s with remaining := a } else s) =
        { s with remaining := bif k then a else s.remaining } := by intro k; cases k <;> intros <;> rfl
    have h3 : ∀ k a (s : JSONContent), (bif k then { s with createdOn := a } else s) =
        { s with createdOn := bif k then a else s.createdOn } := by intro k; cases k <;> intros <;> rfl
    rw [h3, h2, h1, h0, ← hz]

/-- C148 (negation), expenses. -/
theorem C148_missing_expense_neg (x : JSONExpense) {ms : List (Bytes × Json)}
    (hw : jExpenseC.enc x = some (.obj ms)) (keep : Bytes → Bool) :
    jExpenseC.read (Json.obj (ms.filter fun m => keep m.1)).render = some {
      content := if keep (ascii "content") then (ptrC jContentC).norm x.content else none
      signatures := if keep (ascii "signatures") then (listC strC).norm x.signatures else [] } := by
  unfold jExpenseC at hw ⊢
  refine (structC_missing ?_ ?_ ?_ hw keep).trans (congrArg some ?_)
  · simp only [List.map_cons, List.map_nil, fld]
    decide +kernel
  · simp only [List.forall_mem_cons, fld, List.not_mem_nil, false_imp_iff, implies_true, and_true]
    decide +kernel
  · simp only [List.forall_mem_cons, fld, List.not_mem_nil, false_imp_iff, implies_true, and_true]
    exact ⟨ptrC_good (structC_notNull _ _) fun a _ => jContentC_good a,
          listC_good fun a _ => strC_good a⟩
  · generalize hz : (⟨none, []⟩ : JSONExpense) = z
    simp only [List.foldl_cons, List.foldl_nil, fld, ← Bool.cond_eq_ite]
    have h0 : ∀ k a (s : JSONExpense), (bif k then { s with content := a } else s) =
        { s with content := bif k then a else s.content } := by intro k; cases k <;> intros <;> rfl
    have h1 : ∀ k a (s : JSONExpense), (bif k then { s with signatures := a } else s) =
        { s with signatures := bif k then a else s.signatures } := by intro k; cases k <;> intros <;> rfl
    rw [h1, h0, ← hz]

/-- C148 (negation), addresses. -/
theorem C148_missing_address_neg (x : JSONAddress) {ms : List (Bytes × Json)}
    (hw : jAddressC.enc x = some (.obj ms)) (keep : Bytes → Bool) :
    jAddressC.read (Json.obj (ms.filter fun m => keep m.1)).render = some {
      sender := if keep (ascii "sender") then strC.norm x.sender else []
      recipients := if keep (ascii "recipients") then (listC strC).norm x.recipients else []
      subject := if keep (ascii "subject") then strC.norm x.subject else []
      createdOn := if keep (ascii "created_on") then timeC.norm x.createdOn else 0 } := by
  unfold jAddressC at hw ⊢
  refine (structC_missing ?_ ?_ ?_ hw keep).trans (congrArg some ?_)
  · simp only [List.map_cons, List.map_nil, fld]
    decide +kernel
  · simp only [List.forall_mem_cons, fld, List.not_mem_nil, false_imp_iff, implies_true, and_true]
    decide +kernel
  · simp only [List.forall_mem_cons, fld, List.not_mem_nil, false_imp_iff, implies_true, and_true]
    exact ⟨strC_good _,
          listC_good fun a _ => strC_good a,
          strC_good _,
          timeC_good _⟩
  · generalize hz : (⟨[], [], [], 0⟩ : JSONAddress) = z
    simp only [List.foldl_cons, List.foldl_nil, fld, ← Bool.cond_eq_ite]
    have h0 : ∀ k a (s : JSONAddress), (bif k then { s with sender := a } else s) =
        { s with sender := bif k then a else s.sender } := by intro k; cases k <;> intros <;> rfl
    have h1 : ∀ k a (s : JSONAddress), (bif k then { s with recipients := a } else s) =
        { s with recipients := bif k then a else s.recipients } := by intro k; cases k <;> intros <;> rfl
    have h2 : ∀ k a (s : JSONAddress), (bif k then { s with subject := a } else s) =
        { s with subject := bif k then a else s.subject } := by intro k; cases k <;> intros <;> rfl
    have h3 : ∀ k a (s : JSONAddress), (bif k then { s with createdOn := a } else s) =
        { s with createdOn := bif k then a else s.createdOn } := by intro k; cases k <;> intros <;> rfl
    rw [h3, h2, h1, h0, ← hz]

/-- C148 (negation), transactions. -/
theorem C148_missing_transaction_neg (x : JSONTransaction) {ms : List (Bytes × Json)}
    (hw : jTransactionC.enc x = some (.obj ms)) (keep : Bytes → Bool) :
    jTransactionC.read (Json.obj (ms.filter fun m => keep m.1)).render = some {
      address := if keep (ascii "address") then (ptrC jAddressC).norm x.address else none
      fees := if keep (ascii "fees") then (listC (ptrC jExpenseC)).norm x.fees else []
      bucket := if keep (ascii "bucket") then strC.norm x.bucket else []
      createdOn := if keep (ascii "created_on") then timeC.norm x.createdOn else 0 } := by
  unfold jTransactionC at hw ⊢
  refine (structC_missing ?_ ?_ ?_ hw keep).trans (congrArg some ?_)
  · simp only [List.map_cons, List.map_nil, fld]
    decide +kernel
  · simp only [List.forall_mem_cons, fld, List.not_mem_nil, false_imp_iff, implies_true, and_true]
    decide +kernel
  · simp only [List.forall_mem_cons, fld, List.not_mem_nil, false_imp_iff, implies_true, and_true]
    exact ⟨ptrC_good (structC_notNull _ _) fun a _ => jAddressC_good a,
          listC_good fun a _ => ptrC_good (structC_notNull _ _) fun b _ => jExpenseC_good b,
          strC_good _,
          timeC_good _⟩
  · generalize hz : (⟨none, [], [], 0⟩ : JSONTransaction) = z
    simp only [List.foldl_cons, List.foldl_nil, fld, ← Bool.cond_eq_ite]
    have h0 : ∀ k a (s : JSONTransaction), (bif k then { s with address := a } else s) =
        { s with address := bif k then a else s.address } := by intro k; cases k <;> intros <;> rfl
    have h1 : ∀ k a (s : JSONTransaction), (bif k then { s with fees := a } else s) =
        { s with fees := bif k then a else s.fees } := by intro k; cases k <;> intros <;> rfl
    have h2 : ∀ k a (s : JSONTransaction), (bif k then { s with bucket := a } else s) =
        { s with bucket := bif k then a else s.bucket } := by intro k; cases k <;> intros <;> rfl
    have h3 : ∀ k a (s : JSONTransaction), (bif k then { s with createdOn := a } else s) =
        { s with createdOn := bif k then a else s.createdOn } := by intro k; cases k <;> intros <;> rfl
    rw [h3, h2, h1, h0, ← hz]

/-- C148 (negation), geneses. -/
theorem C148_missing_genesis_neg [FloatText] (x : JSONGenesis) (h : x.FloatOk) {ms : List (Bytes × Json)}
    (hw : jGenesisC.enc x = some (.obj ms)) (keep : Bytes → Bool) :
    jGenesisC.read (Json.obj (ms.filter fun m => keep m.1)).render = some {
      bill := if keep (ascii "bill") then (ptrC jBillC).norm x.bill else none
      link := if keep (ascii "link_difficulty") then uintC.norm x.link else 0
      blockBase := if keep (ascii "block_difficulty_base") then uintC.norm x.blockBase else 0
      blockIncrease := if keep (ascii "block_difficulty_increase_per_transaction") then fltC.norm x.blockIncrease else .fin 0
      createdOn := if keep (ascii "created_on") then timeC.norm x.createdOn else 0 } := by
  unfold jGenesisC at hw ⊢
  refine (structC_missing ?_ ?_ ?_ hw keep).trans (congrArg some ?_)
  · simp only [List.map_cons, List.map_nil, fld]
    decide +kernel
  · simp only [List.forall_mem_cons, fld, List.not_mem_nil, false_imp_iff, implies_true, and_true]
    decide +kernel
  · simp only [List.forall_mem_cons, fld, List.not_mem_nil, false_imp_iff, implies_true, and_true]
    exact ⟨ptrC_good (structC_notNull _ _) fun a _ => jBillC_good a,
          uintC_good _,
          uintC_good _,
          fltC_good h,
          timeC_good _⟩
  · generalize hz : (⟨none, 0, 0, .fin 0, 0⟩ : JSONGenesis) = z
    simp only [List.foldl_cons, List.foldl_nil, fld, ← Bool.cond_eq_ite]
    have h0 : ∀ k a (s : JSONGenesis), (bif k then { s with bill := a } else s) =
        { s with bill := bif k then a else s.bill } := by intro k; cases k <;> intros <;> rfl
    have h1 : ∀ k a (s : JSONGenesis), (bif k then { s with link := a } else s) =
        { s with link := bif k then a else s.link } := by intro k; cases k <;> intros <;> rfl
    have h2 : ∀ k a (s : JSONGenesis), (bif k then { s with blockBase := a } else s) =
        { s with blockBase := bif k then a else s.blockBase } := by intro k; cases k <;> intros <;> rfl
    have h3 : ∀ k a (s : JSONGenesis), (bif k then { s with blockIncrease := a } else s) =
        { s with blockIncrease := bif k then a else s.blockIncrease } := by intro k; cases k <;> intros <;> rfl
    have h4 : ∀ k a (s : JSONGenesis), (bif k then { s with createdOn := a } else s) =
        { s with createdOn := bif k then a else s.createdOn } := by intro k; cases k <;> intros <;> rfl
    rw [h4, h3, h2, h1, h0, ← hz]

/-- C148 (negation), blocks. -/
theorem C148_missing_block_neg [FloatText] (x : JSONBlock) (h : x.FloatOk) {ms : List (Bytes × Json)}
    (hw : jBlockC.enc x = some (.obj ms)) (keep : Bytes → Bool) :
    jBlockC.read (Json.obj (ms.filter fun m => keep m.1)).render = some {
      genesis := if keep (ascii "genesis") then (ptrC jGenesisC).norm x.genesis else none
      trx := if keep (ascii "transactions") then (listC (ptrC jTransactionC)).norm x.trx else []
      additional := if keep (ascii "additional") then uintC.norm x.additional else 0
      createdOn := if keep (ascii "created_on") then timeC.norm x.createdOn else 0 } := by
  unfold jBlockC at hw ⊢
  refine (structC_missing ?_ ?_ ?_ hw keep).trans (congrArg some ?_)
  · simp only [List.map_cons, List.map_nil, fld]
    decide +kernel
  · simp only [List.forall_mem_cons, fld, List.not_mem_nil, false_imp_iff, implies_true, and_true]
    decide +kernel
  · simp only [List.forall_mem_cons, fld, List.not_mem_nil, false_imp_iff, implies_true, and_true]
    exact ⟨ptrC_good (structC_notNull _ _) fun a ha => jGenesisC_good a (h a ha),
          listC_good fun a _ => ptrC_good (structC_notNull _ _) fun b _ => jTransactionC_good b,
          uintC_good _,
          timeC_good _⟩
  · generalize hz : (⟨none, [], 0, 0⟩ : JSONBlock) = z
    simp only [List.foldl_cons, List.foldl_nil, fld, ← Bool.cond_eq_ite]
    have h0 : ∀ k a (s : JSONBlock), (bif k then { s with genesis := a } else s) =
        { s with genesis := bif k then a else s.genesis } := by intro k; cases k <;> intros <;> rfl
    have h1 : ∀ k a (s : JSONBlock), (bif k then { s with trx := a } else s) =
        { s with trx := bif k then a else s.trx } := by intro k; cases k <;> intros <;> rfl
    have h2 : ∀ k a (s : JSONBlock), (bif k then { s with additional := a } else s) =
        { s with additional := bif k then a else s.additional } := by intro k; cases k <;> intros <;> rfl
    have h3 : ∀ k a (s : JSONBlock), (bif k then { s with createdOn := a } else s) =
        { s with createdOn := bif k then a else s.createdOn } := by intro k; cases k <;> intros <;> rfl
    rw [h3, h2, h1, h0, ← hz]

/-- C148 (negation), links. -/
theorem C148_missing_link_neg [FloatText] (x : JSONLink) (h : x.FloatOk) {ms : List (Bytes × Json)}
    (hw : jLinkC.enc x = some (.obj ms)) (keep : Bytes → Bool) :
    jLinkC.read (Json.obj (ms.filter fun m => keep m.1)).render = some {
      prevLink := if keep (ascii "previous_link") then strC.norm x.prevLink else []
      next := if keep (ascii "next") then (ptrC jBlockC).norm x.next else none
      index := if keep (ascii "index") then uintC.norm x.index else 0
      createdOn := if keep (ascii "created_on") then timeC.norm x.createdOn else 0 } := by
  unfold jLinkC at hw ⊢
  refine (structC_missing ?_ ?_ ?_ hw keep).trans (congrArg some ?_)
  · simp only [List.map_cons, List.map_nil, fld]
    decide +kernel
  · simp only [List.forall_mem_cons, fld, List.not_mem_nil, false_imp_iff, implies_true, and_true]
    decide +kernel
  · simp only [List.forall_mem_cons, fld, List.not_mem_nil, false_imp_iff, implies_true, and_true]
    exact ⟨strC_good _,
          ptrC_good (structC_notNull _ _) fun a ha => jBlockC_good a (h a ha),
          uintC_good _,
          timeC_good _⟩
  · generalize hz : (⟨[], none, 0, 0⟩ : JSONLink) = z
    simp only [List.foldl_cons, List.foldl_nil, fld, ← Bool.cond_eq_ite]
    have h0 : ∀ k a (s : JSONLink), (bif k then { s with prevLink := a } else s) =
        { s with prevLink := bif k then a else s.prevLink } := by intro k; cases k <;> intros <;> rfl
    have h1 : ∀ k a (s : JSONLink), (bif k then { s with next := a } else s) =
        { s with next := bif k then a else s.next } := by intro k; cases k <;> intros <;> rfl
    have h2 : ∀ k a (s : JSONLink), (bif k then { s with index := a } else s) =
        { s with index := bif k then a else s.index } := by intro k; cases k <;> intros <;> rfl
    have h3 : ∀ k a (s : JSONLink), (bif k then { s with createdOn := a } else s) =
        { s with createdOn := bif k then a else s.createdOn } := by intro k; cases k <;> intros <;> rfl
    rw [h3, h2, h1, h0, ← hz]

/-- C148 (negation), mined links. -/
theorem C148_missing_mined_link_neg [FloatText] (x : JSONMinedLink) (h : x.FloatOk) {ms : List (Bytes × Json)}
    (hw : jMinedLinkC.enc x = some (.obj ms)) (keep : Bytes → Bool) :
    jMinedLinkC.read (Json.obj (ms.filter fun m => keep m.1)).render = some {
      link := if keep (ascii "link") then (ptrC jLinkC).norm x.link else none
      mining := if keep (ascii "mining") then strC.norm x.mining else []
      createdOn := if keep (ascii "created_on") then timeC.norm x.createdOn else 0 } := by
  unfold jMinedLinkC at hw ⊢
  refine (structC_missing ?_ ?_ ?_ hw keep).trans (congrArg some ?_)
  · simp only [List.map_cons, List.map_nil, fld]
    decide +kernel
  · simp only [List.forall_mem_cons, fld, List.not_mem_nil, false_imp_iff, implies_true, and_true]
    decide +kernel
  · simp only [List.forall_mem_cons, fld, List.not_mem_nil, false_imp_iff, implies_true, and_true]
    exact ⟨ptrC_good (structC_notNull _ _) fun a ha => jLinkC_good a (h a ha),
          strC_good _,
          timeC_good _⟩
  · generalize hz : (⟨none, [], 0⟩ : JSONMinedLink) = z
    simp only [List.foldl_cons, List.foldl_nil, fld, ← Bool.cond_eq_ite]
    have h0 : ∀ k a (s : JSONMinedLink), (bif k then { s with link := a } else s) =
        { s with link := bif k then a else s.link } := by intro k; cases k <;> intros <;> rfl
    have h1 : ∀ k a (s : JSONMinedLink), (bif k then { s with mining := a } else s) =
        { s with mining := bif k then a else s.mining } := by intro k; cases k <;> intros <;> rfl
    have h2 : ∀ k a (s : JSONMinedLink), (bif k then { s with createdOn := a } else s) =
        { s with createdOn := bif k then a else s.createdOn } := by intro k; cases k <;> intros <;> rfl
    rw [h2, h1, h0, ← hz]

/-- C148 (negation), entries of statements. -/
theorem C148_missing_entry_neg (x : JTrEntry) {ms : List (Bytes × Json)}
    (hw : jTrEntryC.enc x = some (.obj ms)) (keep : Bytes → Bool) :
    jTrEntryC.read (Json.obj (ms.filter fun m => keep m.1)).render = some {
      hash := if keep (ascii "hash") then strC.norm x.hash else []
      name := if keep (ascii "string") then strC.norm x.name else []
      trx := if keep (ascii "transactions") then (listC strC).norm x.trx else []
      description := if keep (ascii "description") then strC.norm x.description else []
      createdOn := if keep (ascii "created_on") then timeC.norm x.createdOn else 0 } := by
  unfold jTrEntryC at hw ⊢
  refine (structC_missing ?_ ?_ ?_ hw keep).trans (congrArg some ?_)
  · simp only [List.map_cons, List.map_nil, fld]
    decide +kernel
  · simp only [List.forall_mem_cons, fld, List.not_mem_nil, false_imp_iff, implies_true, and_true]
    decide +kernel
  · simp only [List.forall_mem_cons, fld, List.not_mem_nil, false_imp_iff, implies_true, and_true]
    exact ⟨strC_good _,
          strC_good _,
          listC_good fun a _ => strC_good a,
          strC_good _,
          timeC_good _⟩
  · generalize hz : (⟨[], [], [], [], 0⟩ : JTrEntry) = z
    simp only [List.foldl_cons, List.foldl_nil, fld, ← Bool.cond_eq_ite]
    have h0 : ∀ k a (s : JTrEntry), (bif k then { s with hash := a } else s) =
        { s with hash := bif k then a else s.hash } := by intro k; cases k <;> intros <;> rfl
    have h1 : ∀ k a (s : JTrEntry), (bif k then { s with name := a } else s) =
        { s with name := bif k then a else s.name } := by intro k; cases k <;> intros <;> rfl
    have h2 : ∀ k a (s : JTrEntry), (bif k then { s with trx := a } else s) =
        { s with trx := bif k then a else s.trx } := by intro k; cases k <;> intros <;> rfl
    have h3 : ∀ k a (s : JTrEntry), (bif k then { s with description := a } else s) =
        { s with description := bif k then a else s.description } := by intro k; cases k <;> intros <;> rfl
    have h4 : ∀ k a (s : JTrEntry), (bif k then { s with createdOn := a } else s) =
        { s with createdOn := bif k then a else s.createdOn } := by intro k; cases k <;> intros <;> rfl
    rw [h4, h3, h2, h1, h0, ← hz]

/-- C148 (negation), statements. -/
theorem C148_missing_statement_neg (x : JTrStatement) {ms : List (Bytes × Json)}
    (hw : jTrStatementC.enc x = some (.obj ms)) (keep : Bytes → Bool) :
    jTrStatementC.read (Json.obj (ms.filter fun m => keep m.1)).render = some {
      hash := if keep (ascii "hash") then strC.norm x.hash else []
      incoming := if keep (ascii "incoming") then (listC strC).norm x.incoming else []
      outgoing := if keep (ascii "outgoing") then (listC strC).norm x.outgoing else []
      createdOn := if keep (ascii "created_on") then timeC.norm x.createdOn else 0 } := by
  unfold jTrStatementC at hw ⊢
  refine (structC_missing ?_ ?_ ?_ hw keep).trans (congrArg some ?_)
  · simp only [List.map_cons, List.map_nil, fld]
    decide +kernel
  · simp only [List.forall_mem_cons, fld, List.not_mem_nil, false_imp_iff, implies_true, and_true]
    decide +kernel
  · simp only [List.forall_mem_cons, fld, List.not_mem_nil, false_imp_iff, implies_true, and_true]
    exact ⟨strC_good _,
          listC_good fun a _ => strC_good a,
          listC_good fun a _ => strC_good a,
          timeC_good _⟩
  · generalize hz : (⟨[], [], [], 0⟩ : JTrStatement) = z
    simp only [List.foldl_cons, List.foldl_nil, fld, ← Bool.cond_eq_ite]
    have h0 : ∀ k a (s : JTrStatement), (bif k then { s with hash := a } else s) =
        { s with hash := bif k then a else s.hash } := by intro k; cases k <;> intros <;> rfl
    have h1 : ∀ k a (s : JTrStatement), (bif k then { s with incoming := a } else s) =
        { s with incoming := bif k then a else s.incoming } := by intro k; cases k <;> intros <;> rfl
    have h2 : ∀ k a (s : JTrStatement), (bif k then { s with outgoing := a } else s) =
        { s with outgoing := bif k then a else s.outgoing } := by intro k; cases k <;> intros <;> rfl
    have h3 : ∀ k a (s : JTrStatement), (bif k then { s with createdOn := a } else s) =
        { s with createdOn := bif k then a else s.createdOn } := by intro k; cases k <;> intros <;> rfl
    rw [h3, h2, h1, h0, ← hz]

/-- C148 (negation), bills of wallets. -/
theorem C148_missing_wallet_bill_neg (x : JTrWalletBill) {ms : List (Bytes × Json)}
    (hw : jTrWalletBillC.enc x = some (.obj ms)) (keep : Bytes → Bool) :
    jTrWalletBillC.read (Json.obj (ms.filter fun m => keep m.1)).render = some {
      hash := if keep (ascii "hash") then strC.norm x.hash else []
      bill := if keep (ascii "bill") then strC.norm x.bill else []
      pks := if keep (ascii "pks") then (listC strC).norm x.pks else []
      createdOn := if keep (ascii "created_on") then timeC.norm x.createdOn else 0 } := by
  unfold jTrWalletBillC at hw ⊢
  refine (structC_missing ?_ ?_ ?_ hw keep).trans (congrArg some ?_)
  · simp only [List.map_cons, List.map_nil, fld]
    decide +kernel
  · simp only [List.forall_mem_cons, fld, List.not_mem_nil, false_imp_iff, implies_true, and_true]
    decide +kernel
  · simp only [List.forall_mem_cons, fld, List.not_mem_nil, false_imp_iff, implies_true, and_true]
    exact ⟨strC_good _,
          strC_good _,
          listC_good fun a _ => strC_good a,
          timeC_good _⟩
  · generalize hz : (⟨[], [], [], 0⟩ : JTrWalletBill) = z
    simp only [List.foldl_cons, List.foldl_nil, fld, ← Bool.cond_eq_ite]
    have h0 : ∀ k a (s : JTrWalletBill), (bif k then { s with hash := a } else s) =
        { s with hash := bif k then a else s.hash } := by intro k; cases k <;> intros <;> rfl
    have h1 : ∀ k a (s : JTrWalletBill), (bif k then { s with bill := a } else s) =
        { s with bill := bif k then a else s.bill } := by intro k; cases k <;> intros <;> rfl
    have h2 : ∀ k a (s : JTrWalletBill), (bif k then { s with pks := a } else s) =
        { s with pks := bif k then a else s.pks } := by intro k; cases k <;> intros <;> rfl
    have h3 : ∀ k a (s : JTrWalletBill), (bif k then { s with createdOn := a } else s) =
        { s with createdOn := bif k then a else s.createdOn } := by intro k; cases k <;> intros <;> rfl
    rw [h3, h2, h1, h0, ← hz]

/-- C148 (negation), wallets. -/
theorem C148_missing_wallet_neg (x : JTrWallet) {ms : List (Bytes × Json)}
    (hw : jTrWalletC.enc x = some (.obj ms)) (keep : Bytes → Bool) :
    jTrWalletC.read (Json.obj (ms.filter fun m => keep m.1)).render = some {
      hash := if keep (ascii "hash") then strC.norm x.hash else []
      name := if keep (ascii "name") then strC.norm x.name else []
      description := if keep (ascii "description") then strC.norm x.description else []
      statement := if keep (ascii "statement") then strC.norm x.statement else []
      bills := if keep (ascii "bills") then (listC strC).norm x.bills else []
      createdOn := if keep (ascii "created_on") then timeC.norm x.createdOn else 0 } := by
  unfold jTrWalletC at hw ⊢
  refine (structC_missing ?_ ?_ ?_ hw keep).trans (congrArg some ?_)
  · simp only [List.map_cons, List.map_nil, fld]
    decide +kernel
  · simp only [List.forall_mem_cons, fld, List.not_mem_nil, false_imp_iff, implies_true, and_true]
    decide +kernel
  · simp only [List.forall_mem_cons, fld, List.not_mem_nil, false_imp_iff, implies_true, and_true]
    exact ⟨strC_good _,
          strC_good _,
          strC_good _,
          strC_good _,
          listC_good fun a _ => strC_good a,
          timeC_good _⟩
  · generalize hz : (⟨[], [], [], [], [], 0⟩ : JTrWallet) = z
    simp only [List.foldl_cons, List.foldl_nil, fld, ← Bool.cond_eq_ite]
    have h0 : ∀ k a (s : JTrWallet), (bif k then { s with hash := a } else s) =
        { s with hash := bif k then a else s.hash } := by intro k; cases k <;> intros <;> rfl
    have h1 : ∀ k a (s : JTrWallet), (bif k then { s with name := a } else s) =
        { s with name := bif k then a else s.name } := by intro k; cases k <;> intros <;> rfl
    have h2 : ∀ k a (s : JTrWallet), (bif k then { s with description := a } else s) =
        { s with description := bif k then a else s.description } := by intro k; cases k <;> intros <;> rfl
    have h3 : ∀ k a (s : JTrWallet), (bif k then { s with statement := a } else s) =
        { s with statement := bif k then a else s.statement } := by intro k; cases k <;> intros <;> rfl
    have h4 : ∀ k a (s : JTrWallet), (bif k then { s with bills := a } else s) =
        { s with bills := bif k then a else s.bills } := by intro k; cases k <;> intros <;> rfl
    have h5 : ∀ k a (s : JTrWallet), (bif k then { s with createdOn := a } else s) =
        { s with createdOn := bif k then a else s.createdOn } := by intro k; cases k <;> intros <;> rfl
    rw [h5, h4, h3, h2, h1, h0, ← hz]

/-- C148 (negation), identities. -/
theorem C148_missing_identity_neg (x : JTrIdentity) {ms : List (Bytes × Json)}
    (hw : jTrIdentityC.enc x = some (.obj ms)) (keep : Bytes → Bool) :
    jTrIdentityC.read (Json.obj (ms.filter fun m => keep m.1)).render = some {
      hash := if keep (ascii "hash") then strC.norm x.hash else []
      seed := if keep (ascii "seed") then strC.norm x.seed else []
      name := if keep (ascii "name") then strC.norm x.name else []
      root := if keep (ascii "root") then strC.norm x.root else []
      wallets := if keep (ascii "wallets") then (listC strC).norm x.wallets else []
      buckets := if keep (ascii "buckets") then (listC strC).norm x.buckets else []
      createdOn := if keep (ascii "created_on") then timeC.norm x.createdOn else 0 } := by
  unfold jTrIdentityC at hw ⊢
  refine (structC_missing ?_ ?_ ?_ hw keep).trans (congrArg some ?_)
  · simp only [List.map_cons, List.map_nil, fld]
    decide +kernel
  · simp only [List.forall_mem_cons, fld, List.not_mem_nil, false_imp_iff, implies_true, and_true]
    decide +kernel
  · simp only [List.forall_mem_cons, fld, List.not_mem_nil, false_imp_iff, implies_true, and_true]
    exact ⟨strC_good _,
          strC_good _,
          strC_good _,
          strC_good _,
          listC_good fun a _ => strC_good a,
          listC_good fun a _ => strC_good a,
          timeC_good _⟩
  · generalize hz : (⟨[], [], [], [], [], [], 0⟩ : JTrIdentity) = z
    simp only [List.foldl_cons, List.foldl_nil, fld, ← Bool.cond_eq_ite]
    have h0 : ∀ k a (s : JTrIdentity), (bif k then { s with hash := a } else s) =
        { s with hash := bif k then a else s.hash } := by intro k; cases k <;> intros <;> rfl
    have h1 : ∀ k a (s : JTrIdentity), (bif k then { s with seed := a } else s) =
        { s with seed := bif k then a else s.seed } := by intro k; cases k <;> intros <;> rfl
    have h2 : ∀ k a (s : JTrIdentity), (bif k then { s with name := a } else s) =
        { s with name := bif k then a else s.name } := by intro k; cases k <;> intros <;> rfl
    have h3 : ∀ k a (s : JTrIdentity), (bif k then { s with root := a } else s) =
        { s with root := bif k then a else s.root } := by intro k; cases k <;> intros <;> rfl
    have h4 : ∀ k a (s : JTrIdentity), (bif k then { s with wallets := a } else s) =
        { s with wallets := bif k then a else s.wallets } := by intro k; cases k <;> intros <;> rfl
    have h5 : ∀ k a (s : JTrIdentity), (bif k then { s with buckets := a } else s) =
        { s with buckets := bif k then a else s.buckets } := by intro k; cases k <;> intros <;> rfl
    have h6 : ∀ k a (s : JTrIdentity), (bif k then { s with createdOn := a } else s) =
        { s with createdOn := bif k then a else s.createdOn } := by intro k; cases k <;> intros <;> rfl
    rw [h6, h5, h4, h3, h2, h1, h0, ← hz]

/-- C148 (negation), cancels. -/
theorem C148_missing_cancel_neg (x : JTrCancel) {ms : List (Bytes × Json)}
    (hw : jTrCancelC.enc x = some (.obj ms)) (keep : Bytes → Bool) :
    jTrCancelC.read (Json.obj (ms.filter fun m => keep m.1)).render = some {
      hash := if keep (ascii "hash") then strC.norm x.hash else []
      expense := if keep (ascii "expense") then strC.norm x.expense else []
      lock := if keep (ascii "lock") then strC.norm x.lock else []
      signatures := if keep (ascii "signatures") then (listC strC).norm x.signatures else []
      createdOn := if keep (ascii "created_on") then timeC.norm x.createdOn else 0 } := by
  unfold jTrCancelC at hw ⊢
  refine (structC_missing ?_ ?_ ?_ hw keep).trans (congrArg some ?_)
  · simp only [List.map_cons, List.map_nil, fld]
    decide +kernel
  · simp only [List.forall_mem_cons, fld, List.not_mem_nil, false_imp_iff, implies_true, and_true]
    decide +kernel
  · simp only [List.forall_mem_cons, fld, List.not_mem_nil, false_imp_iff, implies_true, and_true]
    exact ⟨strC_good _,
          strC_good _,
          strC_good _,
          listC_good fun a _ => strC_good a,
          timeC_good _⟩
  · generalize hz : (⟨[], [], [], [], 0⟩ : JTrCancel) = z
    simp only [List.foldl_cons, List.foldl_nil, fld, ← Bool.cond_eq_ite]
    have h0 : ∀ k a (s : JTrCancel), (bif k then { s with hash := a } else s) =
        { s with hash := bif k then a else s.hash } := by intro k; cases k <;> intros <;> rfl
    have h1 : ∀ k a (s : JTrCancel), (bif k then { s with expense := a } else s) =
        { s with expense := bif k then a else s.expense } := by intro k; cases k <;> intros <;> rfl
    have h2 : ∀ k a (s : JTrCancel), (bif k then { s with lock := a } else s) =
        { s with lock := bif k then a else s.lock } := by intro k; cases k <;> intros <;> rfl
    have h3 : ∀ k a (s : JTrCancel), (bif k then { s with signatures := a } else s) =
        { s with signatures := bif k then a else s.signatures } := by intro k; cases k <;> intros <;> rfl
    have h4 : ∀ k a (s : JTrCancel), (bif k then { s with createdOn := a } else s) =
        { s with createdOn := bif k then a else s.createdOn } := by intro k; cases k <;> intros <;> rfl
    rw [h4, h3, h2, h1, h0, ← hz]

/-! ## What nodes and users get -/

section
variable [Sha512] [C : Curve] [FloatText]

omit [Sha512] in
/-- What a mined link is written as. -/
theorem minedLink_members {l : MinedLink} {js : Bytes} (h : jMinedLinkC.text l.toJSON = some js) :
    ∃ ms, jMinedLinkC.enc l.toJSON = some (.obj ms) ∧ js = (Json.obj ms).render := by
  unfold Codec.text at h
  obtain ⟨v, hv, rfl⟩ := Option.map_eq_some_iff.mp h
  have : ∃ ms, v = .obj ms := by
    unfold jMinedLinkC structC at hv
    simp only [Option.map_eq_some_iff] at hv
    obtain ⟨ms, -, rfl⟩ := hv
    exact ⟨_, rfl⟩
  obtain ⟨ms, rfl⟩ := this
  exact ⟨ms, hv, rfl⟩

/-- C148 (negation): what another node decodes from the text of a mined link with members left out. Without
its link it panics; without anything else it takes the zero value and computes a hash that fits. -/
theorem C148_mined_link_decodes_neg (l : MinedLink) (hl : l.Built) (hf : l.Fits)
    (hq : l.link.next.genesis.blockIncrease.IsFloat)
    (hm : l.link.next.genesis.blockIncrease.marshals = true) (ht : ∀ t ∈ l.times, Dated t) :
    ∃ ms, encodeMinedLink l = .ok (b64Encode (Json.obj ms).render) ∧ ∀ keep : Bytes → Bool,
      decodeMinedLink (b64Encode (Json.obj (ms.filter fun m => keep m.1)).render) =
        if keep (ascii "link") then
          .ok (some ⟨fromBytes (l.link.hash.bytes ++ if keep (ascii "mining") then l.mining else []),
            l.link.reduced, if keep (ascii "mining") then l.mining else [],
            if keep (ascii "created_on") then l.createdOn else 0⟩)
        else .crash .nilDeref := by
  obtain ⟨js, h⟩ := Codec.writes_iff.mp ((jMinedLinkC_writes l).mpr ⟨hm, ht⟩)
  obtain ⟨ms, hw, rfl⟩ := minedLink_members h
  refine ⟨ms, (encode_eq l).2 _ h, fun keep => ?_⟩
  have hfl : l.toJSON.FloatOk := by
    rintro k ⟨⟩ b ⟨⟩ g ⟨⟩
    exact hq
  have hr := C148_missing_mined_link_neg l.toJSON hfl hw keep
  have h1 : (ptrC jLinkC).norm l.toJSON.link = some l.link.toJSON := by
    change some (jLinkC.norm l.link.toJSON) = _
    rw [jLinkC_norm]
  have h2 : strC.norm l.toJSON.mining = l.mining := jsonText_of_utf8 hl.2.1
  have h3 : timeC.norm l.toJSON.createdOn = l.createdOn := rfl
  rw [h1, h2, h3] at hr
  have hb := C29_link_round_trip_partial l.link hl.1 hf
  have hu : jsonText (if keep (ascii "mining") then l.mining else []) =
      if keep (ascii "mining") then l.mining else [] := by
    split
    · exact jsonText_of_utf8 hl.2.1
    · exact jsonText_of_utf8 (utf8_of_ascii (by simp))
  have hh : l.link.reduced.hash = l.link.hash := rfl
  unfold decodeMinedLink
  rw [b64Decode_encode]
  simp only [hr, minedLinkFromJSON, Outcome.deref_some, Outcome.bind_ok, hu]
  by_cases hk : keep (ascii "link") = true
  · simp only [hk, if_true, hb, Outcome.bind_ok, minedLinkNow, fromMultiBytes, hh, List.flatten_cons,
      List.flatten_nil, List.append_nil]
  · simp only [hk, if_false, linkFromJSON, Outcome.deref, Outcome.bind_crash, Bool.false_eq_true]

/-- C148 (negation): with its time left out, a mined link is decoded under the same hash, dated to the
zero time. -/
theorem C148_time_left_out_neg (l : MinedLink) (hl : l.Built) (hf : l.Fits)
    (hq : l.link.next.genesis.blockIncrease.IsFloat)
    (hm : l.link.next.genesis.blockIncrease.marshals = true) (ht : ∀ t ∈ l.times, Dated t) :
    ∃ ms, encodeMinedLink l = .ok (b64Encode (Json.obj ms).render) ∧
      decodeMinedLink (b64Encode (Json.obj (ms.filter fun m => m.1 ≠ ascii "created_on")).render) =
        .ok (some { l.reduced with createdOn := 0 }) ∧ l.reduced.hash = l.hash := by
  obtain ⟨ms, h1, h2⟩ := C148_mined_link_decodes_neg l hl hf hq hm ht
  refine ⟨ms, h1, ?_, rfl⟩
  have e1 : ascii "link" ≠ ascii "created_on" := by decide +kernel
  have e2 : ascii "mining" ≠ ascii "created_on" := by decide +kernel
  have := h2 fun m => decide (m ≠ ascii "created_on")
  simp only [e1, e2, ne_eq, not_false_eq_true, decide_true, if_true, not_true_eq_false, decide_false,
    Bool.false_eq_true, if_false] at this
  obtain ⟨-, -, k, m, t, hk⟩ := hl
  obtain ⟨k, rfl, rfl⟩ := minedLinkNow_eq_ok.mp hk
  exact this

omit [FloatText] C in
/-- C148 (negation): what is read of the file of an identity with members left out. Only the seed, the name
and the root are missed; without its hash it gets the hash of the empty text, without its wallets or buckets it
has none. -/
theorem C148_identity_reads_neg (i : TrIdentity) (hi : i.Built) {ms : List (Bytes × Json)}
    (hw : jTrIdentityC.enc i.toJSON = some (.obj ms)) (keep : Bytes → Bool) {t₁ t₂ : Time} (ht : i.createdOn ≤ t₂)
    (h0 : 0 ≤ t₂) :
    ∃ js, jTrIdentityC.read (Json.obj (ms.filter fun m => keep m.1)).render = some js ∧
      ∀ j, trIdentityFromJSON js t₁ t₂ = .ok j ↔
        (keep (ascii "seed") ∧ keep (ascii "name") ∧ keep (ascii "root")) ∧
        j = ⟨if keep (ascii "hash") then i.hash else fromBytes [], jsonText i.seed, jsonText i.name,
          jsonText i.root, if keep (ascii "wallets") then keepNonEmpty i.wallets else none,
          if keep (ascii "buckets") then keepNonEmpty i.buckets else none,
          if keep (ascii "created_on") then i.createdOn else 0, t₂⟩ := by
  refine ⟨_, C148_missing_identity_neg i.toJSON hw keep, fun j => ?_⟩
  obtain ⟨hs, hn, hr, -⟩ := hi.texts
  have hj : ∀ b, jsonText (jsonText b) = jsonText b := fun b => jsonText_of_utf8 (jsonText_utf8 b)
  have he : jsonText [] = [] := jsonText_of_utf8 (utf8_of_ascii (by simp))
  have h1 : strC.norm i.toJSON.hash = i.hash.str := jsonText_hash _
  have h2 : strC.norm i.toJSON.seed = jsonText i.seed := rfl
  have h3 : strC.norm i.toJSON.name = jsonText i.name := rfl
  have h4 : strC.norm i.toJSON.root = jsonText i.root := rfl
  have h5 : (listC strC).norm i.toJSON.wallets = (i.wallets.getD []).map Hash.str := map_jsonText_hash _
  have h6 : (listC strC).norm i.toJSON.buckets = (i.buckets.getD []).map Hash.str := map_jsonText_hash _
  have h7 : timeC.norm i.toJSON.createdOn = i.createdOn := rfl
  have e1 : fromString (if keep (ascii "hash") then i.hash.str else []) =
      .ok (if keep (ascii "hash") then i.hash else fromBytes []) := by
    split
    · exact fromString_str _
    · rfl
  have e2 : ∀ (k : Bool) (w : Option (List Hash)), hashesIfAny (if k then (w.getD []).map Hash.str else []) =
      .ok (if k then keepNonEmpty w else none) := by
    intro k w
    cases k
    · rfl
    · exact hashesIfAny_str w
  simp only [h1, h2, h3, h4, h5, h6, h7, trIdentityFromJSON, e1, e2, Outcome.bind_ok]
  rw [trIdentityNow_eq_ok]
  have e3 : ∀ (k : Bool) {s : Bytes}, s ≠ [] →
      (jsonText (if k then jsonText s else []) ≠ [] ↔ k = true) := by
    intro k s hs
    cases k
    · simp [he]
    · simpa [hj] using jsonText_ne_nil hs
  rw [e3 _ hs, e3 _ hn, e3 _ hr]
  have e4 : (if keep (ascii "created_on") then i.createdOn else 0) ≤ t₂ := by
    split
    · exact ht
    · exact h0
  constructor
  · rintro ⟨_, e, k1, k2, k3, -, rfl⟩
    refine ⟨⟨k1, k2, k3⟩, ?_⟩
    rw [← Option.some.inj e]
    simp only [k1, k2, k3, if_true, hj, Option.getD_some, Option.getD_none]
  · rintro ⟨⟨k1, k2, k3⟩, rfl⟩
    refine ⟨_, rfl, k1, k2, k3, e4, ?_⟩
    simp only [k1, k2, k3, if_true, hj, Option.getD_some, Option.getD_none]

end

section examples

attribute [local instance] toyCurve toySha FloatText.decimal

/-- C148: the text of the toy link without its time. -/
example : ∃ ms, encodeMinedLink toyMinedLink = .ok (b64Encode (Json.obj ms).render) ∧
    decodeMinedLink (b64Encode (Json.obj (ms.filter fun m => m.1 ≠ ascii "created_on")).render) =
      .ok (some { toyMinedLink.reduced with createdOn := 0 }) ∧
    decodeMinedLink (b64Encode (Json.obj (ms.filter fun m => m.1 ≠ ascii "link")).render) =
      .crash .nilDeref := by
  have hq : toyMinedLink.link.next.genesis.blockIncrease.IsFloat := by
    refine ⟨⟨1, -1, by norm_num, by norm_num, ?_⟩, ?_⟩
    · norm_num
    · rw [abs_of_pos (by norm_num)]
      exact lt_of_lt_of_le (by norm_num) (one_le_pow₀ (n := 1024) (by norm_num : (1 : ℚ) ≤ 2))
  have ht : ∀ t ∈ toyMinedLink.times, Dated t := by
    intro t ht
    have : t = 0 := by
      simpa [MinedLink.times, Link.times, Block.times, Genesis.times, Bill.times, Lock.times,
        Transaction.times, toyMinedLink, toyLink, toyBlock, toyGenesis, toyTrx, toyBill, toyLock] using ht
    subst this
    decide
  obtain ⟨ms, h1, h2⟩ := C148_mined_link_decodes_neg _ toyMinedLink_built toyMinedLink_fits hq rfl ht
  refine ⟨ms, h1, ?_, ?_⟩
  · have e1 : ascii "link" ≠ ascii "created_on" := by decide +kernel
    have e2 : ascii "mining" ≠ ascii "created_on" := by decide +kernel
    have := h2 fun m => decide (m ≠ ascii "created_on")
    simp only [e1, e2, ne_eq, not_false_eq_true, decide_true, if_true, not_true_eq_false, decide_false,
      Bool.false_eq_true, if_false] at this
    exact this
  · simpa using h2 fun m => decide (m ≠ ascii "link")

/-- C148: the file of an identity without its wallets, and without its name. -/
example {ms : List (Bytes × Json)}
    (hw : jTrIdentityC.enc (toyIdentity (ascii "me")).toJSON = some (.obj ms)) :
    ∃ js js' j, jTrIdentityC.read (Json.obj (ms.filter fun m => m.1 ≠ ascii "wallets")).render = some js ∧
      trIdentityFromJSON js 9 9 = .ok j ∧ j.wallets = none ∧ j.hash = (toyIdentity (ascii "me")).hash ∧
      jTrIdentityC.read (Json.obj (ms.filter fun m => m.1 ≠ ascii "name")).render = some js' ∧
      ∀ j', trIdentityFromJSON js' 9 9 ≠ .ok j' := by
  have hb := toyIdentity_built (name := ascii "me") (by decide)
  obtain ⟨js, h1, h2⟩ := C148_identity_reads_neg _ hb hw (fun m => decide (m ≠ ascii "wallets"))
    (t₁ := 9) (t₂ := 9) (by decide) (by decide)
  obtain ⟨js', h1', h2'⟩ := C148_identity_reads_neg _ hb hw (fun m => decide (m ≠ ascii "name"))
    (t₁ := 9) (t₂ := 9) (by decide) (by decide)
  have e1 : ascii "seed" ≠ ascii "wallets" := by decide +kernel
  have e2 : ascii "name" ≠ ascii "wallets" := by decide +kernel
  have e3 : ascii "root" ≠ ascii "wallets" := by decide +kernel
  have e4 : ascii "hash" ≠ ascii "wallets" := by decide +kernel
  refine ⟨js, js', _, h1, (h2 _).mpr ⟨by simp [e1, e2, e3], rfl⟩, by simp, by simp [e4], h1', fun j' h => ?_⟩
  have := ((h2' j').mp h).1.2.1
  simp at this

end examples

end Verif
