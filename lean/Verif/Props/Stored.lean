import Verif.Spec.Stored
import Verif.Props.Missing

/-!
# What retrieval makes of changed files

C135: a changed file is noticed when it is retrieved.
-/

namespace Verif

section
variable [Sha512] {σ σ' : Store}

theorem retrLock_rehashed (h : σ.Rehashed σ') : retrLock σ = retrLock σ' := by
  funext x
  unfold retrLock
  rcases h.locks x.str with e | ⟨a, t, e, e', ⟨u, hu⟩, v, hv⟩
  · rw [e]
  · rw [e, e']
    simp only [readCell, Outcome.bind_ok, trLockFromJSON, hu, hv]
    cases mapO fromString a.pubKeys <;> rfl

theorem retrBill_rehashed (h : σ.Rehashed σ') : retrBill σ = retrBill σ' := by
  funext x
  unfold retrBill
  rw [retrLock_rehashed h]
  rcases h.bills x.str with e | ⟨a, t, e, e', ⟨u, hu⟩, v, hv⟩
  · rw [e]
  · rw [e, e']
    simp only [readCell, Outcome.bind_ok, trBillFromJSON, hu, hv]
    cases fromString a.lock <;> simp only [Outcome.bind_ok, Outcome.bind_err, Outcome.bind_crash, trBillNow]
    split <;> rfl

theorem retrGenesis_rehashed (h : σ.Rehashed σ') : retrGenesis σ = retrGenesis σ' := by
  unfold retrGenesis
  rw [retrBill_rehashed h]
  rcases h.genesis with e | ⟨a, t, e, e', ⟨u, hu⟩, v, hv⟩
  · rw [e]
  · rw [e, e']
    simp only [readCell, Outcome.bind_ok, trGenesisFromJSON, hu, hv]
    cases fromString a.bill <;> simp only [Outcome.bind_ok, Outcome.bind_err, Outcome.bind_crash, trGenesisNow]
    split
    · rfl
    · split
      · rfl
      · split <;> rfl

variable [C : Curve]

theorem retrExpense_rehashed (h : σ.Rehashed σ') : retrExpense σ = retrExpense σ' := by
  funext x
  unfold retrExpense
  rw [retrBill_rehashed h]
  rcases h.expenses x.str with e | ⟨a, t, e, e', ⟨u, hu⟩, v, hv⟩
  · rw [e]
  · rw [e, e']
    simp only [readCell, Outcome.bind_ok, trExpenseFromJSON, hu, hv]
    cases mapO fromString a.source <;> try rfl
    cases fromString a.dest <;> try rfl
    cases mapO toRingSignature a.signatures <;> try rfl
    cases optFromString a.remaining <;> try rfl
    simp only [Outcome.bind_ok, trExpenseNow]
    split
    · rfl
    · split <;> rfl

theorem retrTrx_rehashed (h : σ.Rehashed σ') : retrTrx σ = retrTrx σ' := by
  funext x
  unfold retrTrx
  rw [retrExpense_rehashed h]
  rcases h.trxs x.str with e | ⟨a, t, e, e', ⟨u, hu⟩, v, hv⟩
  · rw [e]
  · rw [e, e']
    simp only [readCell, Outcome.bind_ok, trTransactionFromJSON, hu, hv]
    cases mapO fromString a.fees <;> try rfl
    cases optFromString a.bucket <;> try rfl
    cases optFromString a.address <;> try rfl
    simp only [Outcome.bind_ok, trTransactionNow]
    split <;> rfl

theorem retrBlock_rehashed (h : σ.Rehashed σ') : retrBlock σ = retrBlock σ' := by
  funext x
  unfold retrBlock
  rw [retrTrx_rehashed h, retrGenesis_rehashed h]
  rcases h.blocks x.str with e | ⟨a, t, e, e', ⟨u, hu⟩, v, hv⟩
  · rw [e]
  · rw [e, e']
    simp only [readCell, Outcome.bind_ok, trBlockFromJSON, hu, hv]
    cases Outcome.deref a.trx <;> try rfl
    simp only [Outcome.bind_ok]
    cases compactFromJSON _ <;> try rfl
    simp only [Outcome.bind_ok]
    cases leavesHashTree _ <;> try rfl
    simp only [Outcome.bind_ok, trBlockNow]
    split <;> rfl

theorem retrMinedBlock_rehashed (h : σ.Rehashed σ') : retrMinedBlock σ = retrMinedBlock σ' := by
  funext x
  unfold retrMinedBlock
  rw [retrBlock_rehashed h]
  rcases h.minedBlocks x.str with e | ⟨a, t, e, e', ⟨u, hu⟩, v, hv⟩
  · rw [e]
  · rw [e, e']
    simp only [readCell, Outcome.bind_ok, trMinedFromJSON, hu, hv]
    cases fromString a.of <;> rfl

theorem retrLink_rehashed (h : σ.Rehashed σ') : retrLink σ = retrLink σ' := by
  funext x
  unfold retrLink
  rw [retrBlock_rehashed h]
  rcases h.links x.str with e | ⟨a, t, e, e', ⟨u, hu⟩, v, hv⟩
  · rw [e]
  · rw [e, e']
    simp only [readCell, Outcome.bind_ok, trLinkFromJSON, hu, hv]
    cases fromString a.prevLink <;> try rfl
    cases fromString a.next <;> rfl

theorem retrMinedLink_rehashed (h : σ.Rehashed σ') : retrMinedLink σ = retrMinedLink σ' := by
  funext x
  unfold retrMinedLink
  rw [retrLink_rehashed h]
  rcases h.minedLinks x.str with e | ⟨a, t, e, e', ⟨u, hu⟩, v, hv⟩
  · rw [e]
  · rw [e, e']
    simp only [readCell, Outcome.bind_ok, trMinedFromJSON, hu, hv]
    cases fromString a.of <;> rfl

theorem retrChain_rehashed (h : σ.Rehashed σ') : retrChain σ = retrChain σ' := by
  unfold retrChain
  rw [retrGenesis_rehashed h, retrMinedBlock_rehashed h, retrMinedLink_rehashed h]
  rcases h.chain with e | ⟨a, t, e, e', ⟨u, hu⟩, v, hv⟩
  · rw [e]
  · rw [e, e']
    simp only [readCell, Outcome.bind_ok, trChainFromJSON, hu, hv]
    cases fromString a.genesis <;> try rfl
    cases fromString a.root <;> try rfl
    cases fromString a.head <;> try rfl
    simp only [Outcome.bind_ok, trChainNow]
    split <;> rfl

theorem retrState_rehashed (h : σ.Rehashed σ') : retrState σ = retrState σ' := by
  funext x n
  unfold retrState
  rw [retrTrx_rehashed h]
  rcases h.states (statePath x n) with e | ⟨a, t, e, e', ⟨u, hu⟩, v, hv⟩
  · rw [e]
  · rw [e, e']
    simp only [readCell, Outcome.bind_ok, trStateFromJSON, hu, hv]
    cases fromString a.chain <;> try rfl
    cases fromString a.prev <;> try rfl
    simp only [Outcome.bind_ok]
    cases Outcome.deref a.trx <;> try rfl
    simp only [Outcome.bind_ok]
    cases compactFromJSON _ <;> try rfl
    simp only [Outcome.bind_ok]
    cases leavesHashTree _ <;> try rfl
    simp only [Outcome.bind_ok, trStateNow]
    split
    · rfl
    · split <;> rfl

/-- C135 (negation of "the hash in a file is compared with the object that is read"): every hash that
is stored beside the fields of an object can be replaced by any other, in all files at once; every
retrieval has the same outcome as before. -/
theorem C135_stored_hash_unused_neg (h : σ.Rehashed σ') :
    retrLock σ = retrLock σ' ∧ retrBill σ = retrBill σ' ∧ retrGenesis σ = retrGenesis σ' ∧
    retrExpense σ = retrExpense σ' ∧ retrTrx σ = retrTrx σ' ∧ retrBlock σ = retrBlock σ' ∧
    retrMinedBlock σ = retrMinedBlock σ' ∧ retrLink σ = retrLink σ' ∧
    retrMinedLink σ = retrMinedLink σ' ∧ retrChain σ = retrChain σ' ∧ retrState σ = retrState σ' :=
  ⟨retrLock_rehashed h, retrBill_rehashed h, retrGenesis_rehashed h, retrExpense_rehashed h,
    retrTrx_rehashed h, retrBlock_rehashed h, retrMinedBlock_rehashed h, retrLink_rehashed h,
    retrMinedLink_rehashed h, retrChain_rehashed h, retrState_rehashed h⟩

omit C in
/-- C135 (negation of "an object is found under its own hash only"): nothing compares the hash that was
asked for with the object; a file copied to another name is retrieved under that name as well. -/
theorem C135_copied_file_neg [Curve] {h h' : Hash} :
    (σ.locks h.str = σ.locks h'.str → retrLock σ h = retrLock σ h') ∧
    (σ.bills h.str = σ.bills h'.str → retrBill σ h = retrBill σ h') ∧
    (σ.expenses h.str = σ.expenses h'.str → retrExpense σ h = retrExpense σ h') ∧
    (σ.trxs h.str = σ.trxs h'.str → retrTrx σ h = retrTrx σ h') ∧
    (σ.blocks h.str = σ.blocks h'.str → retrBlock σ h = retrBlock σ h') ∧
    (σ.minedBlocks h.str = σ.minedBlocks h'.str → retrMinedBlock σ h = retrMinedBlock σ h') ∧
    (σ.links h.str = σ.links h'.str → retrLink σ h = retrLink σ h') ∧
    (σ.minedLinks h.str = σ.minedLinks h'.str → retrMinedLink σ h = retrMinedLink σ h') := by
  refine ⟨?_, ?_, ?_, ?_, ?_, ?_, ?_, ?_⟩ <;> intro e
  · unfold retrLock; rw [e]
  · unfold retrBill; rw [e]
  · unfold retrExpense; rw [e]
  · unfold retrTrx; rw [e]
  · unfold retrBlock; rw [e]
  · unfold retrMinedBlock; rw [e]
  · unfold retrLink; rw [e]
  · unfold retrMinedLink; rw [e]

variable [FloatText] {δ : Drive} {ms : List (Bytes × Json)} {keep : Bytes → Bool}

omit C [FloatText] in
theorem fromString_kept (h : Hash) (k : Bool) :
    fromString (if k then h.str else []) = .ok (if k then h else Sha512.sum []) := by
  cases k
  · simp [fromString, hexDecode, fromBytes]
  · simp

/-- C135 (negation of "reading a changed file is an error at worst"): a block file from which the
transactions are missing, and possibly other members, makes the retrieval panic, whatever else is
stored. -/
theorem C135_block_without_tree_neg (x : TrBlock) (hw : jTrBlockC.enc x.toJSON = some (.obj ms))
    (hk : keep (ascii "transactions") = false) {h : Hash}
    (hf : δ.blocks h.str = some (Json.obj (ms.filter fun m => keep m.1)).render) :
    retrBlock δ.store h = .crash .nilDeref := by
  unfold retrBlock
  simp only [Drive.store, hf, Option.map_some, cellOf, C126_missing_block_neg x hw keep, readCell,
    Outcome.bind_ok, trBlockFromJSON, hk]
  rw [show x.toJSON.hash = x.hash.str from rfl, fromString_kept]
  rfl

/-- C135 (negation): likewise a state file. -/
theorem C135_state_without_tree_neg (x : TrState) (hw : jTrStateC.enc x.toJSON = some (.obj ms))
    (hk : keep (ascii "transactions") = false) {c : Hash} {n : UInt64}
    (hf : δ.states (statePath c n) = some (Json.obj (ms.filter fun m => keep m.1)).render) :
    retrState δ.store c n = .crash .nilDeref := by
  unfold retrState
  simp only [Drive.store, hf, Option.map_some, cellOf, C126_missing_state_neg x hw keep, readCell,
    Outcome.bind_ok, trStateFromJSON, hk]
  rw [show x.toJSON.hash = x.hash.str from rfl, show x.toJSON.chain = x.chain.str from rfl,
    show x.toJSON.prev = x.prev.str from rfl, fromString_kept, fromString_kept, fromString_kept]
  rfl

omit C in
/-- C135 (negation of "a file without a mandatory member is refused"): a link file without the
previous link is retrieved as a link behind the hash of the empty text; without the index as the
link 0; without the time as a link of the year 1. Only the next block is missed: the block with the
hash of the empty text is looked up in its place. -/
theorem C135_link_members_neg [Curve] (x : TrLink) (hw : jTrLinkC.enc x.toJSON = some (.obj ms)) {h : Hash}
    (hf : δ.links h.str = some (Json.obj (ms.filter fun m => keep m.1)).render) :
    retrLink δ.store h = (retrBlock δ.store
      (if keep (ascii "next") then x.next else Sha512.sum []) >>= fun b =>
        linkNow (some (if keep (ascii "previous_link") then x.prevLink else Sha512.sum [])) (some b)
          (if keep (ascii "index") then x.index else 0)
          (if keep (ascii "created_on") then x.createdOn else 0)) := by
  conv_lhs => unfold retrLink
  simp only [Drive.store, hf, Option.map_some, cellOf, C126_missing_link_neg x hw keep, readCell,
    Outcome.bind_ok, trLinkFromJSON]
  rw [show x.toJSON.hash = x.hash.str from rfl, show x.toJSON.prevLink = x.prevLink.str from rfl,
    show x.toJSON.next = x.next.str from rfl, fromString_kept, fromString_kept, fromString_kept]
  rfl

omit C in
/-- C135: a bill file without the amount is refused; without the lock, the lock under the hash of the
empty text is looked up in its place. -/
theorem C135_bill_members (x : TrBill) (hw : jTrBillC.enc x.toJSON = some (.obj ms)) {h : Hash}
    (hf : δ.bills h.str = some (Json.obj (ms.filter fun m => keep m.1)).render) :
    (keep (ascii "amount") = false → ∃ m, retrBill δ.store h = .err m) ∧
    (keep (ascii "amount") = true → x.amount ≠ 0 → retrBill δ.store h = (retrLock δ.store
      (if keep (ascii "lock") then x.lock else Sha512.sum []) >>= fun l =>
        billNow (some l) x.amount (if keep (ascii "created_on") then x.createdOn else 0))) := by
  unfold retrBill
  simp only [Drive.store, hf, Option.map_some, cellOf, C126_missing_bill_neg x hw keep, readCell,
    Outcome.bind_ok, trBillFromJSON]
  rw [show x.toJSON.hash = x.hash.str from rfl, show x.toJSON.lock = x.lock.str from rfl,
    fromString_kept, fromString_kept]
  refine ⟨fun hk => ?_, fun hk hx => ?_⟩
  · simp [trBillNow, hk]
  · have : x.toJSON.amount = x.amount := rfl
    simp [trBillNow, hk, hx, this]
    rfl

omit C in
/-- C135: a lock file without the keys is refused, one with keys is retrieved whatever else is missing. -/
theorem C135_lock_members (x : TrLock) (hw : jTrLockC.enc x.toJSON = some (.obj ms)) {h : Hash}
    (hf : δ.locks h.str = some (Json.obj (ms.filter fun m => keep m.1)).render) :
    retrLock δ.store h = lockNow (some (if keep (ascii "pubkeys") then x.pubKeys else []))
      (if keep (ascii "created_on") then x.createdOn else 0) := by
  unfold retrLock
  simp only [Drive.store, hf, Option.map_some, cellOf, C126_missing_lock_neg x hw keep, readCell,
    Outcome.bind_ok, trLockFromJSON]
  rw [show x.toJSON.hash = x.hash.str from rfl, show x.toJSON.pubKeys = x.pubKeys.map Hash.str from rfl,
    fromString_kept]
  cases keep (ascii "pubkeys")
  · simp [trLockNow]
    rfl
  · simp [trLockNow, mapO_fromString]
    rfl

omit C [FloatText] [Sha512] in
theorem trGenesisNow_err {a b : Hash} {n l : UInt64} {i : Flt} {t : Time}
    (h : n = 0 ∨ i.le0 = true ∨ l = 0) : ∃ m, trGenesisNow a b n i l t = .err m := by
  unfold trGenesisNow
  split
  · exact ⟨_, rfl⟩
  · split
    · exact ⟨_, rfl⟩
    · split
      · exact ⟨_, rfl⟩
      · rename_i h1 h2 h3
        rcases h with rfl | h | rfl
        · exact absurd (by decide) h1
        · exact absurd h h2
        · exact absurd (by decide) h3

omit C in
/-- C135: a genesis file without one of the three difficulties is refused. -/
theorem C135_genesis_members (x : TrGenesis) (hx : x.blockIncrease.IsFloat)
    (hw : jTrGenesisC.enc x.goJSON = some (.obj ms))
    (hf : δ.genesis = some (Json.obj (ms.filter fun m => keep m.1)).render)
    (hk : keep (ascii "block_difficulty_base") = false ∨
      keep (ascii "block_difficulty_increase_per_trx") = false ∨ keep (ascii "link_difficulty") = false) :
    ∃ m, retrGenesis δ.store = .err m := by
  unfold retrGenesis
  simp only [Drive.store, hf, Option.map_some, cellOf, C126_missing_genesis_neg x hx hw keep, readCell,
    Outcome.bind_ok, trGenesisFromJSON]
  rw [show x.goJSON.hash = x.hash.str from rfl, show x.goJSON.bill = x.bill.str from rfl,
    fromString_kept, fromString_kept]
  obtain ⟨m, hm⟩ : ∃ m, trGenesisNow (if keep (ascii "hash") then x.hash else Sha512.sum [])
      (if keep (ascii "bill") then x.bill else Sha512.sum [])
      (if keep (ascii "block_difficulty_base") then x.goJSON.blockBase else 0)
      (if keep (ascii "block_difficulty_increase_per_trx") then x.goJSON.blockIncrease else .fin 0)
      (if keep (ascii "link_difficulty") then x.goJSON.link else 0)
      (if keep (ascii "created_on") then x.goJSON.createdOn else 0) = .err m := by
    apply trGenesisNow_err
    rcases hk with hk | hk | hk
    · exact .inl (by simp [hk])
    · exact .inr (.inl (by simp [hk, Flt.le0]))
    · exact .inr (.inr (by simp [hk]))
  simp only [Outcome.bind_ok]
  rw [hm]
  exact ⟨m, rfl⟩

/-- C135: a chain file without the total is refused. -/
theorem C135_chain_members (x : TrChain) (hw : jTrChainC.enc x.toJSON = some (.obj ms))
    (hf : δ.chain = some (Json.obj (ms.filter fun m => keep m.1)).render)
    (hk : keep (ascii "total") = false) : ∃ m, retrChain δ.store = .err m := by
  unfold retrChain
  simp only [Drive.store, hf, Option.map_some, cellOf, C126_missing_chain_neg x hw keep, readCell,
    Outcome.bind_ok, trChainFromJSON]
  rw [show x.toJSON.hash = x.hash.str from rfl, show x.toJSON.genesis = x.genesis.str from rfl,
    show x.toJSON.root = x.root.str from rfl, show x.toJSON.head = x.head.str from rfl,
    fromString_kept, fromString_kept, fromString_kept, fromString_kept]
  simp [trChainNow, hk]

omit C in
/-- C135: an expense file without the bills or without the signatures is refused. -/
theorem C135_expense_members [Curve] (x : TrExpense) (hw : jTrExpenseC.enc x.toJSON = some (.obj ms))
    {h : Hash} (hf : δ.expenses h.str = some (Json.obj (ms.filter fun m => keep m.1)).render)
    (hk : keep (ascii "from") = false ∨ keep (ascii "signatures") = false) :
    ∃ m, retrExpense δ.store h = .err m := by
  have h1 : ∀ k : Bool, ∃ l, mapO fromString (if k then x.source.map Hash.str else []) = .ok l ∧
      (k = false → l = []) := by
    intro k
    cases k
    · exact ⟨[], rfl, fun _ => rfl⟩
    · exact ⟨x.source, mapO_fromString _, by simp⟩
  have h2 : ∀ k : Bool, ∃ l, mapO toRingSignature (if k then x.signatures.map RingSignature.str else []) =
      .ok l ∧ (k = false → l = []) := by
    intro k
    cases k
    · exact ⟨[], rfl, fun _ => rfl⟩
    · have : ∀ l : List RingSignature, ∃ r, mapO toRingSignature (l.map RingSignature.str) = .ok r := by
        intro l
        induction l with
        | nil => exact ⟨[], rfl⟩
        | cons a l ih =>
          obtain ⟨rs, hrs⟩ := ih
          exact ⟨_ :: rs, by simp only [List.map_cons, mapO, toRingSignature_str, hrs]; rfl⟩
      obtain ⟨r, hr⟩ := this x.signatures
      exact ⟨r, hr, by simp⟩
  have h3 : ∀ k : Bool, ∃ r, optFromString (if k then optStr x.remaining else []) = .ok r := by
    intro k
    cases k
    · exact ⟨none, rfl⟩
    · exact ⟨x.remaining, optFromString_optStr _⟩
  unfold retrExpense
  simp only [Drive.store, hf, Option.map_some, cellOf, C126_missing_expense_neg x hw keep, readCell,
    Outcome.bind_ok, trExpenseFromJSON]
  rw [show x.toJSON.hash = x.hash.str from rfl, show x.toJSON.dest = x.dest.str from rfl,
    show x.toJSON.source = x.source.map Hash.str from rfl,
    show x.toJSON.signatures = x.signatures.map RingSignature.str from rfl,
    show x.toJSON.remaining = optStr x.remaining from rfl, fromString_kept, fromString_kept]
  obtain ⟨l1, e1, f1⟩ := h1 (keep (ascii "from"))
  obtain ⟨l2, e2, f2⟩ := h2 (keep (ascii "signatures"))
  obtain ⟨l3, e3⟩ := h3 (keep (ascii "remaining"))
  rw [e1, e2, e3]
  simp only [Outcome.bind_ok, trExpenseNow]
  rcases hk with hk | hk
  · rw [f1 hk]
    exact ⟨_, rfl⟩
  · rw [f2 hk]
    split
    · exact ⟨_, rfl⟩
    · exact ⟨_, rfl⟩

omit C in
/-- C135 (negation): a file of a mined block without the mining result is retrieved as a block with an
empty result; without the block, the block under the hash of the empty text is looked up. -/
theorem C135_mined_block_members_neg [Curve] (x : TrMined)
    (hw : jTrMinedBlockC.enc x.goJSON = some (.obj ms)) {h : Hash}
    (hf : δ.minedBlocks h.str = some (Json.obj (ms.filter fun m => keep m.1)).render) :
    retrMinedBlock δ.store h = (retrBlock δ.store
      (if keep (ascii "block") then x.of else Sha512.sum []) >>= fun b =>
        minedBlockNow (some b) (if keep (ascii "mining") then jsonText x.mining else [])
          (if keep (ascii "created_on") then x.createdOn else 0)) := by
  conv_lhs => unfold retrMinedBlock
  simp only [Drive.store, hf, Option.map_some, cellOf, C126_missing_mined_block_neg x hw keep, readCell,
    Outcome.bind_ok, trMinedFromJSON]
  rw [show x.toJSON.hash = x.hash.str from rfl, show x.toJSON.of = x.of.str from rfl,
    show x.toJSON.mining = jsonText x.mining from rfl, fromString_kept, fromString_kept]
  simp only [Outcome.bind_ok, trMinedNow]
  have : jsonText (if keep (ascii "mining") then jsonText x.mining else []) =
      (if keep (ascii "mining") then jsonText x.mining else []) := by
    cases keep (ascii "mining")
    · exact jsonText_nil
    · exact jsonText_of_utf8 (jsonText_utf8 _)
  rw [this]
  rfl

end

section examples

attribute [local instance] toyCurve toySha FloatText.decimal

/-- C135: the stored hash of a lock replaced by another one. -/
example : ∃ σ σ' : Store, σ ≠ σ' ∧ σ.Rehashed σ' ∧ ∃ l, retrLock σ' (toyHash 1) = .ok l := by
  have hr : ∀ h : Hash, HashText h.str := fun h => ⟨h, by simp⟩
  refine ⟨{ Store.empty with locks := fun _ => some (.json ⟨(toyHash 1).str, [(toyHash 2).str], 0⟩) },
    { Store.empty with locks := fun _ => some (.json ⟨(toyHash 5).str, [(toyHash 2).str], 0⟩) }, ?_,
    ⟨fun p => .inr ⟨_, (toyHash 5).str, rfl, rfl, hr _, hr _⟩, fun _ => .inl rfl, fun _ => .inl rfl,
      .inl rfl, fun _ => .inl rfl, fun _ => .inl rfl, fun _ => .inl rfl, fun _ => .inl rfl,
      fun _ => .inl rfl, .inl rfl, fun _ => .inl rfl⟩, ?_⟩
  · intro h
    have := congrFun (congrArg Store.locks h) []
    simp only [Option.some.injEq, Cell.json.injEq, JTrLock.mk.injEq] at this
    exact absurd (Hash.str_injective this.1) (by decide +kernel)
  · refine ⟨⟨fromBytes (hashesBytes [toyHash 2]), [toyHash 2], 0⟩, ?_⟩
    simp [retrLock, readCell, trLockFromJSON, mapO, trLockNow]
    exact lockNow_eq_ok.mpr ⟨_, rfl, by simp, by simp, rfl⟩

/-- C126, C135: the members of a block, a bill and a link. -/
example (t : HashTree) : (∃ ms, jTrBlockC.enc (TrBlock.mk (toyHash 1) t 1 1 0).toJSON = some (.obj ms)) ∧
    (∃ ms, jTrBillC.enc (TrBill.mk (toyHash 1) (toyHash 2) 7 0).toJSON = some (.obj ms)) ∧
    (∃ ms, jTrLinkC.enc (TrLink.mk (toyHash 1) (toyHash 2) (toyHash 3) 7 0).toJSON = some (.obj ms)) := by
  have key : ∀ {α : Type} {c : Codec α} {a : α}, (∃ b, c.text a = some b) → ∃ j, c.enc a = some j := by
    rintro α c a ⟨b, h⟩
    unfold Codec.text at h
    simp only [Option.map_eq_some_iff] at h
    obtain ⟨j, h, -⟩ := h
    exact ⟨j, h⟩
  refine ⟨?_, ?_, ?_⟩
  · obtain ⟨j, h⟩ := key (C123_written_iff.2.2.2.2.2.1 (TrBlock.mk (toyHash 1) t 1 1 0) |>.mpr (by change Dated 0; decide))
    have h' := h
    unfold jTrBlockC structC at h'
    simp only [Option.map_eq_some_iff] at h'
    obtain ⟨ms, -, rfl⟩ := h'
    exact ⟨ms, h⟩
  · obtain ⟨j, h⟩ := key (C123_written_iff.2.1 (TrBill.mk (toyHash 1) (toyHash 2) 7 0) |>.mpr (by decide))
    have h' := h
    unfold jTrBillC structC at h'
    simp only [Option.map_eq_some_iff] at h'
    obtain ⟨ms, -, rfl⟩ := h'
    exact ⟨ms, h⟩
  · obtain ⟨j, h⟩ := key (C123_written_iff.2.2.2.2.2.2.1 (TrLink.mk (toyHash 1) (toyHash 2) (toyHash 3) 7 0) |>.mpr (by decide))
    have h' := h
    unfold jTrLinkC structC at h'
    simp only [Option.map_eq_some_iff] at h'
    obtain ⟨ms, -, rfl⟩ := h'
    exact ⟨ms, h⟩

end examples

end Verif
