import Verif.Model.Store.Lemmas
import Verif.Props.Json
import Verif.Props.HashTree
import Verif.Spec.Store

/-!
# Stores written by the services only

`Honest W σ`: every readable file was written for an object of the world `W`.
-/

namespace Verif

section
variable [Sha512]

/-- The file content written for the lock. -/
def Lock.file (l : Lock) : Outcome JTrLock := do let tr ← l.toTransfer; .ok tr.toJSON
/-- The file content written for the bill. -/
def Bill.file (b : Bill) : Outcome JTrBill := do let tr ← b.toTransfer; .ok tr.toJSON
/-- The file content written for the genesis. -/
def Genesis.file (g : Genesis) : Outcome JTrGenesis := do let tr ← g.toTransfer; tr.toJSON

variable [C : Curve]

/-- The file content written for the expense. -/
def Expense.file (x : Expense) : Outcome JTrExpense := do let tr ← x.toTransfer; .ok tr.toJSON
/-- The file content written for the transaction. -/
def Transaction.file (x : Transaction) : Outcome JTrTransaction := do
  let tr ← x.toTransfer; .ok tr.toJSON
/-- The file content written for the block. -/
def Block.file (x : Block) : Outcome JTrBlock := do let tr ← x.toTransfer; .ok tr.toJSON
/-- The file content written for the mined block. -/
def MinedBlock.file (x : MinedBlock) : Outcome JTrMined := do let tr ← x.toTransfer; .ok tr.toJSON
/-- The file content written for the link. -/
def Link.file (x : Link) : Outcome JTrLink := do let tr ← x.toTransfer; .ok tr.toJSON
/-- The file content written for the mined link. -/
def MinedLink.file (x : MinedLink) : Outcome JTrMined := do let tr ← x.toTransfer; .ok tr.toJSON

/-- Every readable file was written for an object of the world, under the text of its hash. Torn
files may be anywhere. -/
structure Honest (W : World) (σ : Store) : Prop where
  locks : ∀ p js, σ.locks p = some (.json js) → ∃ y, W.lock y ∧ p = y.hash.str ∧ y.file = .ok js
  bills : ∀ p js, σ.bills p = some (.json js) → ∃ y, W.bill y ∧ p = y.hash.str ∧ y.file = .ok js
  expenses : ∀ p js, σ.expenses p = some (.json js) →
    ∃ y, W.expense y ∧ p = y.hash.str ∧ y.file = .ok js
  genesis : ∀ js, σ.genesis = some (.json js) → ∃ y, W.genesis y ∧ y.file = .ok js
  trxs : ∀ p js, σ.trxs p = some (.json js) → ∃ y, W.trx y ∧ p = y.hash.str ∧ y.file = .ok js
  blocks : ∀ p js, σ.blocks p = some (.json js) → ∃ y, W.block y ∧ p = y.hash.str ∧ y.file = .ok js
  minedBlocks : ∀ p js, σ.minedBlocks p = some (.json js) →
    ∃ y, W.minedBlock y ∧ p = y.hash.str ∧ y.file = .ok js
  links : ∀ p js, σ.links p = some (.json js) → ∃ y, W.link y ∧ p = y.hash.str ∧ y.file = .ok js
  minedLinks : ∀ p js, σ.minedLinks p = some (.json js) →
    ∃ y, W.minedLink y ∧ p = y.hash.str ∧ y.file = .ok js

theorem Honest.empty (W : World) : Honest W .empty := by
  constructor <;> intros <;> simp_all [Store.empty]

/-! ## Fetching -/

/-- The call returns a value that looks like `z` through `n`; or, when `p` allows it, an error. -/
def Fetch {α β : Type} (p : Prop) (o : Outcome α) (n : α → β) (z : β) : Prop :=
  (∃ x, o = .ok x ∧ n x = z) ∨ (p ∧ ∃ m, o = .err m)

omit [Sha512] C in
theorem Fetch.bind {α β γ δ : Type} {p : Prop} {o : Outcome α} {n : α → β} {z : β}
    {f : α → Outcome γ} {n' : γ → δ} {z' : δ} (h : Fetch p o n z)
    (hf : ∀ x, o = .ok x → n x = z → Fetch p (f x) n' z') : Fetch p (o >>= f) n' z' := by
  rcases h with ⟨x, rfl, hx⟩ | ⟨hp, m, rfl⟩
  · exact hf x rfl hx
  · exact .inr ⟨hp, m, rfl⟩

omit [Sha512] C in
theorem Fetch.mono {α β : Type} {p q : Prop} {o : Outcome α} {n : α → β} {z : β}
    (h : Fetch p o n z) (hpq : p → q) : Fetch q o n z :=
  h.imp id fun h => ⟨hpq h.1, h.2⟩

omit [Sha512] C in
theorem Fetch.mapO {α β γ κ : Type} {p : Prop} {f : κ → Outcome α} {k : γ → κ} {n : α → β}
    {m : γ → β} : ∀ {ys : List γ}, (∀ y ∈ ys, Fetch p (f (k y)) n (m y)) →
      Fetch p (mapO f (ys.map k)) (List.map n) (ys.map m)
  | [], _ => .inl ⟨[], rfl, rfl⟩
  | y :: ys, h => by
    simp only [List.map_cons, Verif.mapO]
    rcases h y (by simp) with ⟨x, hx, hn⟩ | ⟨hp, e, he⟩
    · rcases Fetch.mapO (ys := ys) fun z hz => h z (by simp [hz]) with ⟨xs, hxs, hns⟩ | ⟨hp, e, he⟩
      · exact .inl ⟨x :: xs, by rw [hx, hxs], by simp [hn, hns]⟩
      · exact .inr ⟨hp, e, by rw [hx, he]⟩
    · exact .inr ⟨hp, e, by rw [he]⟩

omit [Sha512] C in
theorem Fetch.optO {α β γ κ : Type} {p : Prop} {f : κ → Outcome α} {k : γ → κ} {n : α → β}
    {m : γ → β} {y : Option γ} (h : ∀ z, y = some z → Fetch p (f (k z)) n (m z)) :
    Fetch p (Verif.optO f (y.map k)) (Option.map n) (y.map m) := by
  cases y with
  | none => exact .inl ⟨none, rfl, rfl⟩
  | some z =>
    rcases h z rfl with ⟨x, hx, hn⟩ | ⟨hp, e, he⟩
    · exact .inl ⟨some x, by simp [Verif.optO, hx], by simp [hn]⟩
    · exact .inr ⟨hp, e, by simp [Verif.optO, he]⟩

/-! ## Rebuilding from parts that only differ in times -/

omit C in
theorem lock_rebuild {y : Lock} (hy : y.Built) : lockNow (some y.pubKeys) y.createdOn = .ok y := by
  obtain ⟨keys, t, h⟩ := hy
  obtain ⟨ks, rfl, -, -, rfl⟩ := lockNow_eq_ok.mp h
  exact h

omit C in
theorem bill_rebuild {e : Time → Time} {y : Bill} (hy : y.Built) {l : Lock}
    (hl : l.timed e = y.lock.timed e) :
    ∃ x, billNow (some l) y.amount y.createdOn = .ok x ∧ x.timed e = y.timed e := by
  obtain ⟨-, l', a, t, h⟩ := hy
  obtain ⟨l', rfl, h1, rfl⟩ := billNow_eq_ok.mp h
  have hh : l.hash = l'.hash := (congrArg Lock.hash hl :)
  refine ⟨_, billNow_eq_ok.mpr ⟨l, rfl, h1, rfl⟩, ?_⟩
  simp only at hl
  simp [Bill.timed, hh, hl]

omit C in
theorem genesis_rebuild {e : Time → Time} {y : Genesis} (hy : y.Built) {b : Bill}
    (hb : b.timed e = y.bill.timed e) :
    ∃ x, genesisNow y.blockBase y.blockIncrease y.link (some b) y.createdOn = .ok x ∧
      x.timed e = y.timed e := by
  obtain ⟨-, base, incr, link, b', t, h⟩ := hy
  obtain ⟨b', rfl, h1, h2, h3, rfl⟩ := genesisNow_eq_ok.mp h
  have hh : b.hash = b'.hash := (congrArg Bill.hash hb :)
  refine ⟨_, genesisNow_eq_ok.mpr ⟨b, rfl, h1, h2, h3, rfl⟩, ?_⟩
  simp only at hb
  simp [Genesis.timed, hh, hb]

omit [Sha512] C in
theorem map_hash_of_timed {e : Time → Time} {xs ys : List Bill}
    (h : xs.map (Bill.timed e) = ys.map (Bill.timed e)) : xs.map Bill.hash = ys.map Bill.hash := by
  have := congrArg (List.map Bill.hash) h
  simpa [Function.comp_def, Bill.timed] using this

omit [Sha512] C in
theorem sourceTotal_of_timed {e : Time → Time} {xs ys : List Bill}
    (h : xs.map (Bill.timed e) = ys.map (Bill.timed e)) : sourceTotal xs = sourceTotal ys := by
  have := congrArg (List.map Bill.amount) h
  have h' : xs.map Bill.amount = ys.map Bill.amount := by
    simpa [Function.comp_def, Bill.timed] using this
  have key : ∀ l : List Bill, sourceTotal l = (l.map Bill.amount).foldl (· + ·) 0 := by
    intro l; simp [sourceTotal, List.foldl_map]
  rw [key, key, h']

omit C in
theorem content_rebuild {e : Time → Time} {y : Content} (hy : y.Built) {src : List Bill}
    {dest : Bill} {rem : Option Bill}
    (hs : src.map (Bill.timed e) = y.source.map (Bill.timed e))
    (hd : dest.timed e = y.dest.timed e)
    (hr : rem.map (Bill.timed e) = y.remaining.map (Bill.timed e)) :
    ∃ x, contentNow dest.amount (some src) (some dest.lock) (rem.map Bill.lock) y.createdOn =
      .ok x ∧ x.timed e = y.timed e ∧ x.source = src := by
  obtain ⟨a, src', l', rem', t, h, -, -, -⟩ := hy
  obtain ⟨_, _, e1, e2, h1, h2, h3, rfl⟩ := contentNow_eq_ok.mp h
  cases e1; cases e2
  have hh := map_hash_of_timed hs
  have ht := sourceTotal_of_timed hs
  have ha : dest.amount = a := (congrArg Bill.amount hd :)
  have hl : dest.lock.timed e = l'.timed e := (congrArg Bill.lock hd :)
  have hlh : dest.lock.hash = l'.hash := (congrArg Lock.hash hl :)
  have hrl : (rem.map Bill.lock).map (Lock.timed e) = rem'.map (Lock.timed e) := by
    have := congrArg (Option.map Bill.lock) hr
    simpa [Function.comp_def, Bill.timed, Option.map_map] using this
  have hrn : rem.map Bill.lock = none ↔ rem' = none := by
    have := (congrArg Option.isNone hrl :)
    cases rem <;> cases rem' <;> simp_all
  refine ⟨_, contentNow_eq_ok.mpr ⟨src, dest.lock, rfl, rfl, by rw [ha]; exact h1,
    by rw [ha, ht]; exact h2, by rw [hrn, ha, ht]; exact h3, rfl⟩, ?_, rfl⟩
  have hrh : (rem.map Bill.lock).map Lock.hash = rem'.map Lock.hash := by
    have := congrArg (Option.map Lock.hash) hrl
    simpa [Function.comp_def, Lock.timed, Option.map_map] using this
  have hcd : contentData dest.lock dest.amount src (rem.map Bill.lock) =
      contentData l' a src' rem' := by
    have hm : src.map (fun b => b.hash.bytes) = src'.map (fun b => b.hash.bytes) := by
      have := congrArg (List.map Hash.bytes) hh
      simpa [Function.comp_def] using this
    unfold contentData
    rw [hlh, ha, hm]
    cases rem <;> cases rem' <;> simp_all
  simp only [Content.timed, hcd, hs, Content.mk.injEq, true_and, Option.map_map, and_true]
  refine ⟨?_, ?_⟩
  · simp [Bill.timed, hlh, ha, hl]
  · cases rem <;> cases rem' <;> simp_all [Bill.timed, Function.comp_def]

theorem unlock_timed {e : Time → Time} {l l' : Lock} (h : l.timed e = l'.timed e)
    {s : RingSignature} : l.unlock s = .ok () ↔ l'.unlock s = .ok () := by
  have h1 : l.hash = l'.hash := (congrArg Lock.hash h :)
  have h2 : l.pubKeys = l'.pubKeys := (congrArg Lock.pubKeys h :)
  rw [unlock_eq_ok, unlock_eq_ok, h1, h2]

omit C in
theorem content_source_built {c : Content} (hc : c.Built) : ∀ b ∈ c.source, b.lock.Built := by
  obtain ⟨a, src, l, rem, t, h, hs, -⟩ := hc
  obtain ⟨_, _, e, -, -, -, -, rfl⟩ := contentNow_eq_ok.mp h
  cases e
  exact fun b hb => (hs b hb).1

theorem expense_rebuild {e : Time → Time} {y : Expense} (hy : y.Built) (hfit : y.Fits) {src : List Bill}
    {dest : Bill} {rem : Option Bill}
    (hs : src.map (Bill.timed e) = y.content.source.map (Bill.timed e))
    (hd : dest.timed e = y.content.dest.timed e)
    (hr : rem.map (Bill.timed e) = y.content.remaining.map (Bill.timed e)) :
    ∃ c x, contentNow dest.amount (some src) (some dest.lock) (rem.map Bill.lock)
        y.content.createdOn = .ok c ∧
      expenseNow (some c) (some (y.signatures.map RingSignature.reduced)) = .ok x ∧
      x.timed e = y.reduced.timed e := by
  obtain ⟨hc, c, sg, h⟩ := hy
  obtain ⟨c', sg, rfl, rfl, hf, rfl⟩ := expenseNow_eq_ok.mp h
  obtain ⟨c, hc1, hc2, rfl⟩ := content_rebuild hc hs hd hr
  have hch : c.hash = c'.hash := (congrArg Content.hash hc2 :)
  have hct : e c.createdOn = e c'.createdOn := (congrArg Content.createdOn hc2 :)
  refine ⟨c, _, hc1, expenseNow_eq_ok.mpr ⟨c, _, rfl, rfl, ?_, rfl⟩, ?_⟩
  · have hb : ∀ b ∈ c'.source, b.lock.Built := by
      exact content_source_built hc
    simp only at hs
    have hfit2 : ∀ s ∈ sg, s.Fits := hfit
    clear h hc hd hr hc1 hc2 hch hct hfit
    revert hb hs
    generalize c'.source = src' at hf
    generalize c.source = src
    intro hs hb
    induction hf generalizing src with
    | nil =>
      simp only [List.map_nil, List.map_eq_nil_iff] at hs
      subst hs
      simp
    | cons h1 _ ih =>
      cases src with
      | nil => simp at hs
      | cons b src =>
        simp only [List.map_cons, List.cons.injEq] at hs
        simp only [List.map_cons, List.forall₂_cons]
        refine ⟨?_, ih (fun s h => hfit2 s (by simp [h])) src hs.2 fun b h => hb b (by simp [h])⟩
        exact (unlock_timed (congrArg Bill.lock hs.1)).mpr
          (unlock_reduced (hb _ (by simp)) (hfit2 _ (by simp)) h1)
  · simp [Expense.timed, Expense.reduced, hc2, hch, hct, List.map_map, Function.comp_def,
      reduced_str]

theorem trx_rebuild {e : Time → Time} {y : Transaction} (hy : y.Built) (ha : y.address = none)
    {fees : List Expense}
    (hf : fees.map (Expense.timed e) = y.fees.map fun f => f.reduced.timed e) :
    ∃ x, trxNow none y.bucket fees y.createdOn = .ok x ∧ x.timed e = y.reduced.timed e := by
  obtain ⟨-, -, a, b, f, t, h⟩ := hy
  obtain ⟨h1, rfl⟩ := trxNow_eq_ok.mp h
  simp only at ha
  subst ha
  have hh : fees.map Expense.hash = f.map Expense.hash := by
    have := congrArg (List.map Expense.hash) hf
    simpa [Function.comp_def, Expense.timed, Expense.reduced] using this
  refine ⟨_, trxNow_eq_ok.mpr ⟨by rw [hh]; exact h1, rfl⟩, ?_⟩
  rw [hh]
  simp only at hf
  simp [Transaction.timed, Transaction.reduced, hf, Function.comp_def]

theorem block_rebuild {e : Time → Time} {y : Block} (hy : y.Built) {g : Genesis}
    {trx : List Transaction} (hg : g.timed e = y.genesis.timed e)
    (ht : trx.map (Transaction.timed e) = y.trx.map fun f => f.reduced.timed e) :
    ∃ x, blockNow (some g) y.additional (some trx) y.createdOn = .ok x ∧
      x.timed e = y.reduced.timed e := by
  obtain ⟨-, -, g', a, f, t, h⟩ := hy
  obtain ⟨g', f, rfl, rfl, h1, rfl⟩ := blockNow_eq_ok.mp h
  have hh : trx.map Transaction.hash = f.map Transaction.hash := by
    have := congrArg (List.map Transaction.hash) ht
    simpa [Function.comp_def, Transaction.timed, Transaction.reduced] using this
  have hgh : g.hash = g'.hash := (congrArg Genesis.hash hg :)
  have hne : trx ≠ [] := by
    rintro rfl
    simp only [List.map_nil] at hh
    exact h1 (List.map_eq_nil_iff.mp hh.symm)
  refine ⟨_, blockNow_eq_ok.mpr ⟨g, trx, rfl, rfl, hne, rfl⟩, ?_⟩
  rw [hh]
  simp only at ht hg
  simp [Block.timed, Block.reduced, ht, hg, hgh, Function.comp_def]

theorem minedBlock_rebuild {e : Time → Time} {y : MinedBlock} (hy : y.Built) {b : Block}
    (hb : b.timed e = y.block.reduced.timed e) :
    ∃ x, minedBlockNow (some b) y.mining y.createdOn = .ok x ∧ x.timed e = y.reduced.timed e := by
  obtain ⟨-, -, b', m, t, h⟩ := hy
  obtain ⟨b', rfl, rfl⟩ := minedBlockNow_eq_ok.mp h
  have hh : b.hash = b'.hash := (congrArg Block.hash hb :)
  refine ⟨_, minedBlockNow_eq_ok.mpr ⟨b, rfl, rfl⟩, ?_⟩
  simp only at hb
  simp [MinedBlock.timed, MinedBlock.reduced, hb, hh]

theorem link_rebuild {e : Time → Time} {y : Link} (hy : y.Built) {b : Block}
    (hb : b.timed e = y.next.reduced.timed e) :
    ∃ x, linkNow (some y.prevLink) (some b) y.index y.createdOn = .ok x ∧
      x.timed e = y.reduced.timed e := by
  obtain ⟨-, p, b', i, t, h⟩ := hy
  obtain ⟨p, b', rfl, rfl, rfl⟩ := linkNow_eq_ok.mp h
  have hh : b.hash = b'.hash := (congrArg Block.hash hb :)
  refine ⟨_, linkNow_eq_ok.mpr ⟨p, b, rfl, rfl, rfl⟩, ?_⟩
  simp only at hb
  simp [Link.timed, Link.reduced, hb, hh]

theorem minedLink_rebuild {e : Time → Time} {y : MinedLink} (hy : y.Built) {b : Link}
    (hb : b.timed e = y.link.reduced.timed e) :
    ∃ x, minedLinkNow (some b) y.mining y.createdOn = .ok x ∧ x.timed e = y.reduced.timed e := by
  obtain ⟨-, -, b', m, t, h⟩ := hy
  obtain ⟨b', rfl, rfl⟩ := minedLinkNow_eq_ok.mp h
  have hh : b.hash = b'.hash := (congrArg Link.hash hb :)
  refine ⟨_, minedLinkNow_eq_ok.mpr ⟨b, rfl, rfl⟩, ?_⟩
  simp only at hb
  simp [MinedLink.timed, MinedLink.reduced, hb, hh]

/-! ## Retrieval of an object whose file is there -/

omit C in
theorem retrLock_file {p : Prop} {e : Time → Time} {σ : Store} {y : Lock} {js : JTrLock}
    (hy : y.Built) (hf : y.file = .ok js) (hc : σ.locks y.hash.str = some (.json js)) :
    Fetch p (retrLock σ y.hash) (Lock.timed e) (y.timed e) := by
  cases hf
  refine .inl ⟨y, ?_, rfl⟩
  simp [retrLock, hc, readCell, trLockFromJSON, TrLock.toJSON, trLockNow, mapO_fromString,
    lock_rebuild hy]

omit C in
theorem retrBill_file {p : Prop} {e : Time → Time} {σ : Store} {y : Bill} {js : JTrBill}
    (hy : y.Built) (hf : y.file = .ok js) (hc : σ.bills y.hash.str = some (.json js))
    (hl : Fetch p (retrLock σ y.lock.hash) (Lock.timed e) (y.lock.timed e)) :
    Fetch p (retrBill σ y.hash) (Bill.timed e) (y.timed e) := by
  obtain ⟨tr, ht, hjs⟩ := Outcome.bind_eq_ok.mp hf
  cases hjs
  obtain ⟨h0, rfl⟩ := trBillNow_eq_ok.mp ht
  simp only [retrBill, hc, readCell, Outcome.bind_ok, trBillFromJSON, TrBill.toJSON,
    fromString_str, trBillNow, if_neg h0]
  refine hl.bind fun l _ hl => ?_
  obtain ⟨x, hx, hx'⟩ := bill_rebuild hy hl
  exact .inl ⟨x, hx, hx'⟩

omit C in
theorem retrGenesis_file {p : Prop} {e : Time → Time} {σ : Store} {y : Genesis} {js : JTrGenesis}
    (hy : y.Built) (hf : y.file = .ok js) (hc : σ.genesis = some (.json js))
    (hl : Fetch p (retrBill σ y.bill.hash) (Bill.timed e) (y.bill.timed e)) :
    Fetch p (retrGenesis σ) (Genesis.timed e) (y.timed e) := by
  obtain ⟨tr, ht, hjs⟩ := Outcome.bind_eq_ok.mp hf
  have ht' := ht
  obtain ⟨-, -, -, rfl⟩ := trGenesisNow_eq_ok.mp ht
  unfold TrGenesis.toJSON at hjs
  split at hjs
  · cases hjs
    simp only [retrGenesis, hc, readCell, Outcome.bind_ok, trGenesisFromJSON, fromString_str]
    have ht'' : trGenesisNow y.hash y.bill.hash y.blockBase y.blockIncrease y.link y.createdOn =
      .ok _ := ht'
    rw [ht'']
    simp only [Outcome.bind_ok]
    refine hl.bind fun l _ hl => ?_
    obtain ⟨x, hx, hx'⟩ := genesis_rebuild hy hl
    exact .inl ⟨x, hx, hx'⟩
  · cases hjs

theorem retrExpense_file {p : Prop} {e : Time → Time} {σ : Store} {y : Expense} {js : JTrExpense}
    (hy : y.Built) (hfit : y.Fits) (hf : y.file = .ok js) (hc : σ.expenses y.hash.str = some (.json js))
    (hs : ∀ b ∈ y.content.source, Fetch p (retrBill σ b.hash) (Bill.timed e) (b.timed e))
    (hd : Fetch p (retrBill σ y.content.dest.hash) (Bill.timed e) (y.content.dest.timed e))
    (hr : ∀ b, y.content.remaining = some b →
      Fetch p (retrBill σ b.hash) (Bill.timed e) (b.timed e)) :
    Fetch p (retrExpense σ y.hash) (Expense.timed e) (y.reduced.timed e) := by
  obtain ⟨tr, ht, hjs⟩ := Outcome.bind_eq_ok.mp hf
  cases hjs
  obtain ⟨h0, h1, rfl⟩ := trExpenseNow_eq_ok.mp ht
  have hsig : mapO toRingSignature (y.signatures.map RingSignature.str) =
      .ok (y.signatures.map RingSignature.reduced) := mapO_map_ok fun s _ => toRingSignature_str s
  have htr : trExpenseNow y.hash (y.content.source.map Bill.hash) y.content.dest.hash
      (y.signatures.map RingSignature.reduced) (y.content.remaining.map Bill.hash)
      y.content.createdOn = .ok ⟨y.hash, y.content.source.map Bill.hash, y.content.dest.hash,
        y.signatures.map RingSignature.reduced, y.content.remaining.map Bill.hash,
        y.content.createdOn⟩ := trExpenseNow_eq_ok.mpr ⟨h0, by simpa using h1, rfl⟩
  simp only [retrExpense, hc, readCell, Outcome.bind_ok, trExpenseFromJSON, TrExpense.toJSON,
    fromString_str, mapO_fromString, hsig, optFromString_optStr, htr]
  refine (Fetch.mapO hs).bind fun src _ hs => hd.bind fun dest _ hd =>
    (Fetch.optO hr).bind fun rem _ hr => ?_
  obtain ⟨c, x, hx, hx', hx''⟩ := expense_rebuild hy hfit hs hd hr
  exact .inl ⟨x, by rw [hx]; exact hx', hx''⟩

theorem retrTrx_file {p : Prop} {e : Time → Time} {σ : Store} {y : Transaction}
    {js : JTrTransaction} (hy : y.Built) (ha : y.address = none) (hf : y.file = .ok js)
    (hc : σ.trxs y.hash.str = some (.json js))
    (hs : ∀ b ∈ y.fees, Fetch p (retrExpense σ b.hash) (Expense.timed e) (b.reduced.timed e)) :
    Fetch p (retrTrx σ y.hash) (Transaction.timed e) (y.reduced.timed e) := by
  obtain ⟨tr, ht, hjs⟩ := Outcome.bind_eq_ok.mp hf
  cases hjs
  have ht' := ht
  obtain ⟨-, rfl⟩ := trTransactionNow_eq_ok.mp ht
  have htr : trTransactionNow y.hash none y.bucket (y.fees.map Expense.hash) y.createdOn = .ok _ :=
    ht'
  have hn : optFromString (optStr none) = .ok none := optFromString_optStr none
  simp only [retrTrx, hc, readCell, Outcome.bind_ok, trTransactionFromJSON, TrTransaction.toJSON,
    fromString_str, mapO_fromString, optFromString_optStr, hn, htr]
  refine (Fetch.mapO hs).bind fun fees _ hs => ?_
  obtain ⟨x, hx, hx'⟩ := trx_rebuild hy ha hs
  exact .inl ⟨x, hx, hx'⟩

/-- The tree stored with a block gives the hashes of its transactions back. -/
theorem takeLeaves_tree {y : Block} (hlen : y.trx.length < 2 ^ 63) {t : HashTree}
    (ht : hashTreeFromBlocks (y.trx.map fun x => x.hash.bytes) = .ok t) :
    takeLeaves t.blockLeaves (UInt64.ofNat y.trx.length) = .ok (y.trx.map Transaction.hash) := by
  have hne := hashTreeFromBlocks_ne_nil ht
  obtain ⟨k, m, t', a, b, h1, -, -, -, h2, -⟩ := hashTreeFromBlocks_spec _ hne
  obtain rfl : t = t' := Outcome.ok.inj (ht.symm.trans h1)
  have hN : (toInt (UInt64.ofNat y.trx.length)).toNat = y.trx.length := by
    have h64 : (UInt64.ofNat y.trx.length).toNat = y.trx.length := by
      rw [UInt64.toNat_ofNat']
      exact Nat.mod_eq_of_lt (by omega)
    rw [toInt_of_lt (by rw [h64]; exact hlen), h64]
    simp
  have hm : (y.trx.map fun x => x.hash.bytes).map fromBytes = y.trx.map Transaction.hash := by
    simp [Function.comp_def, fromBytes_hash]
  unfold takeLeaves
  rw [hN, h2, hm, if_pos (by simp)]
  congr 1
  rw [List.map_append, List.take_append_of_le_length (by simp), List.take_of_length_le (by simp)]
  simp [Function.comp_def, Leaf.head]

theorem block_file_eq {y : Block} {js : JTrBlock} (hf : y.file = .ok js) :
    ∃ t, hashTreeFromBlocks (y.trx.map fun x => x.hash.bytes) = .ok t ∧
      0 < (UInt64.ofNat y.trx.length).toNat ∧
      js = ⟨y.hash.str, some t.compact.toJSON, UInt64.ofNat y.trx.length, y.additional,
        y.createdOn⟩ := by
  obtain ⟨tr, ht, hjs⟩ := Outcome.bind_eq_ok.mp hf
  cases hjs
  obtain ⟨t, ht1, ht2⟩ := Outcome.bind_eq_ok.mp ht
  obtain ⟨h0, rfl⟩ := trBlockNow_eq_ok.mp ht2
  exact ⟨t, ht1, h0, rfl⟩

theorem retrBlock_file {p : Prop} {e : Time → Time} {σ : Store} {y : Block} {js : JTrBlock}
    (hy : y.Built) (hlen : y.trx.length < 2 ^ 63) (hf : y.file = .ok js)
    (hc : σ.blocks y.hash.str = some (.json js))
    (hg : Fetch p (retrGenesis σ) (Genesis.timed e) (y.genesis.timed e))
    (hs : ∀ b ∈ y.trx, Fetch p (retrTrx σ b.hash) (Transaction.timed e) (b.reduced.timed e)) :
    Fetch p (retrBlock σ y.hash) (Block.timed e) (y.reduced.timed e) := by
  obtain ⟨t, ht, h0, rfl⟩ := block_file_eq hf
  obtain ⟨c, hc1, rfl, -, -, hc2⟩ := C09_compact_round_trip ht
  have hb : trBlockNow y.hash t (UInt64.ofNat y.trx.length) y.additional y.createdOn =
      .ok ⟨y.hash, t, UInt64.ofNat y.trx.length, y.additional, y.createdOn⟩ :=
    trBlockNow_eq_ok.mpr ⟨h0, rfl⟩
  simp only [retrBlock, hc, readCell, Outcome.bind_ok, trBlockFromJSON, fromString_str,
    Outcome.deref_some, hc1, hc2, hb]
  refine hg.bind fun g _ hg => ?_
  rw [takeLeaves_tree hlen ht]
  simp only [Outcome.bind_ok]
  refine (Fetch.mapO hs).bind fun trx _ hs => ?_
  obtain ⟨x, hx, hx'⟩ := block_rebuild hy hg hs
  exact .inl ⟨x, hx, hx'⟩

theorem retrMinedBlock_file {p : Prop} {e : Time → Time} {σ : Store} {y : MinedBlock}
    {js : JTrMined} (hy : y.Built) (hf : y.file = .ok js)
    (hc : σ.minedBlocks y.hash.str = some (.json js))
    (hb : Fetch p (retrBlock σ y.block.hash) (Block.timed e) (y.block.reduced.timed e)) :
    Fetch p (retrMinedBlock σ y.hash) (MinedBlock.timed e) (y.reduced.timed e) := by
  cases hf
  simp only [retrMinedBlock, hc, readCell, Outcome.bind_ok, trMinedFromJSON, TrMined.toJSON,
    fromString_str, trMinedNow, jsonText_of_utf8 hy.2.1]
  refine hb.bind fun b _ hb => ?_
  obtain ⟨x, hx, hx'⟩ := minedBlock_rebuild hy hb
  exact .inl ⟨x, hx, hx'⟩

theorem retrLink_file {p : Prop} {e : Time → Time} {σ : Store} {y : Link} {js : JTrLink}
    (hy : y.Built) (hf : y.file = .ok js) (hc : σ.links y.hash.str = some (.json js))
    (hb : Fetch p (retrBlock σ y.next.hash) (Block.timed e) (y.next.reduced.timed e)) :
    Fetch p (retrLink σ y.hash) (Link.timed e) (y.reduced.timed e) := by
  cases hf
  simp only [retrLink, hc, readCell, Outcome.bind_ok, trLinkFromJSON, TrLink.toJSON,
    fromString_str, trLinkNow]
  refine hb.bind fun b _ hb => ?_
  obtain ⟨x, hx, hx'⟩ := link_rebuild hy hb
  exact .inl ⟨x, hx, hx'⟩

theorem retrMinedLink_file {p : Prop} {e : Time → Time} {σ : Store} {y : MinedLink}
    {js : JTrMined} (hy : y.Built) (hf : y.file = .ok js)
    (hc : σ.minedLinks y.hash.str = some (.json js))
    (hb : Fetch p (retrLink σ y.link.hash) (Link.timed e) (y.link.reduced.timed e)) :
    Fetch p (retrMinedLink σ y.hash) (MinedLink.timed e) (y.reduced.timed e) := by
  cases hf
  simp only [retrMinedLink, hc, readCell, Outcome.bind_ok, trMinedFromJSON, TrMined.toJSON,
    fromString_str, trMinedNow, jsonText_of_utf8 hy.2.1]
  refine hb.bind fun b _ hb => ?_
  obtain ⟨x, hx, hx'⟩ := minedLink_rebuild hy hb
  exact .inl ⟨x, hx, hx'⟩

end

end Verif
