import Verif.Props.Alike
import Verif.Props.Exact
import Verif.Props.Store

/-!
# Creation times: C161

No hash contains a time, no builder compares two times, and the times of received objects are taken as they are.
`timed` (`Spec/Store.lean`) applies a function to all times in an object.
-/

namespace Verif

section
variable [Sha512]

private theorem lock_timed {l : Lock} (h : l.Built) (e : Time → Time) : (l.timed e).Built := by
  obtain ⟨keys, t, h⟩ := h
  obtain ⟨ks, rfl, h1, h2, rfl⟩ := lockNow_eq_ok.mp h
  exact ⟨some ks, e t, lockNow_eq_ok.mpr ⟨ks, rfl, h1, h2, rfl⟩⟩

private theorem bill_timed {b : Bill} (h : b.Built) (e : Time → Time) : (b.timed e).Built := by
  obtain ⟨hl, l, a, t, h⟩ := h
  obtain ⟨l, rfl, h1, rfl⟩ := billNow_eq_ok.mp h
  exact ⟨lock_timed hl e, some (l.timed e), a, e t, billNow_eq_ok.mpr ⟨_, rfl, h1, rfl⟩⟩

omit [Sha512] in
private theorem sourceTotal_timed (e : Time → Time) (src : List Bill) :
    sourceTotal (src.map (Bill.timed e)) = sourceTotal src := by
  simp only [sourceTotal, List.foldl_map]
  rfl

private theorem content_timed {c : Content} (h : c.Built) (e : Time → Time) : (c.timed e).Built := by
  obtain ⟨a, src, l, rem, t, h, hs, hl, hr⟩ := h
  obtain ⟨_, _, e1, e2, h1, h2, h3, rfl⟩ := contentNow_eq_ok.mp h
  cases e1; cases e2
  refine ⟨a, src.map (Bill.timed e), l.timed e, rem.map (Lock.timed e), e t,
    contentNow_eq_ok.mpr ⟨_, _, rfl, rfl, h1, ?_, ?_, ?_⟩, ?_, lock_timed hl e, ?_⟩
  · rwa [sourceTotal_timed]
  · rw [sourceTotal_timed, ← h3]
    cases rem <;> simp
  · rw [sourceTotal_timed]
    have hd : contentData (l.timed e) a (src.map (Bill.timed e)) (rem.map (Lock.timed e)) =
        contentData l a src rem := by
      cases rem <;> simp [contentData, Lock.timed, Bill.timed, Function.comp_def]
    rw [hd]
    cases rem <;> rfl
  · intro b hb
    obtain ⟨b, hb', rfl⟩ := List.mem_map.mp hb
    exact bill_timed (hs b hb') e
  · intro r hr'
    obtain ⟨r, hr'', rfl⟩ := Option.map_eq_some_iff.mp hr'
    exact lock_timed (hr r hr'') e

private theorem genesis_timed {g : Genesis} (h : g.Built) (e : Time → Time) : (g.timed e).Built := by
  obtain ⟨hb, base, incr, link, b, t, h⟩ := h
  obtain ⟨b, rfl, h1, h2, h3, rfl⟩ := genesisNow_eq_ok.mp h
  exact ⟨bill_timed hb e, base, incr, link, some (b.timed e), e t,
    genesisNow_eq_ok.mpr ⟨_, rfl, h1, h2, h3, rfl⟩⟩

private theorem address_timed {a : Address} (h : a.Built) (e : Time → Time) : (a.timed e).Built := by
  obtain ⟨s, r, j, t, h⟩ := h
  obtain ⟨h1, rfl⟩ := addressNow_eq_ok.mp h
  exact ⟨s, r, j, e t, addressNow_eq_ok.mpr ⟨h1, rfl⟩⟩

variable [C : Curve]

private theorem expense_timed {x : Expense} (h : x.Built) (e : Time → Time) : (x.timed e).Built := by
  obtain ⟨hc, c, sigs, h⟩ := h
  obtain ⟨c, sg, rfl, rfl, hf, rfl⟩ := expenseNow_eq_ok.mp h
  refine ⟨content_timed hc e, some (c.timed e), some sg, expenseNow_eq_ok.mpr ⟨_, _, rfl, rfl, ?_, rfl⟩⟩
  simp only [Content.timed, List.forall₂_map_left_iff]
  exact hf

private theorem trx_timed {x : Transaction} (h : x.Built) (e : Time → Time) : (x.timed e).Built := by
  obtain ⟨ha, hf, a, b, f, t, h⟩ := h
  obtain ⟨hne, rfl⟩ := trxNow_eq_ok.mp h
  have e1 : (a.map (Address.timed e)).map Address.hash = a.map Address.hash := by cases a <;> rfl
  have e2 : (f.map (Expense.timed e)).map Expense.hash = f.map Expense.hash := by
    rw [List.map_map]; rfl
  refine ⟨?_, ?_, a.map (Address.timed e), b, f.map (Expense.timed e), e t, trxNow_eq_ok.mpr ⟨?_, ?_⟩⟩
  · intro z hz
    obtain ⟨z, hz', rfl⟩ := Option.map_eq_some_iff.mp hz
    exact address_timed (ha z hz') e
  · intro z hz
    obtain ⟨z, hz', rfl⟩ := List.mem_map.mp hz
    exact expense_timed (hf z hz') e
  · rw [e1, e2]
    exact hne
  · rw [e1, e2]
    rfl

private theorem block_timed {b : Block} (h : b.Built) (e : Time → Time) : (b.timed e).Built := by
  obtain ⟨hg, hx, g, n, x, t, h⟩ := h
  obtain ⟨g, x, rfl, rfl, hne, rfl⟩ := blockNow_eq_ok.mp h
  have e1 : (x.map (Transaction.timed e)).map Transaction.hash = x.map Transaction.hash := by
    rw [List.map_map]; rfl
  refine ⟨genesis_timed hg e, ?_, some (g.timed e), n, some (x.map (Transaction.timed e)), e t,
    blockNow_eq_ok.mpr ⟨_, _, rfl, rfl, by simpa using hne, ?_⟩⟩
  · intro z hz
    obtain ⟨z, hz', rfl⟩ := List.mem_map.mp hz
    exact trx_timed (hx z hz') e
  · rw [e1]
    rfl

private theorem mined_block_timed {b : MinedBlock} (h : b.Built) (e : Time → Time) : (b.timed e).Built := by
  obtain ⟨hb, hu, k, m, t, h⟩ := h
  obtain ⟨k, rfl, rfl⟩ := minedBlockNow_eq_ok.mp h
  exact ⟨block_timed hb e, hu, some (k.timed e), m, e t, minedBlockNow_eq_ok.mpr ⟨_, rfl, rfl⟩⟩

private theorem link_timed {l : Link} (h : l.Built) (e : Time → Time) : (l.timed e).Built := by
  obtain ⟨hn, p, n, i, t, h⟩ := h
  obtain ⟨p, n, rfl, rfl, rfl⟩ := linkNow_eq_ok.mp h
  exact ⟨block_timed hn e, some p, some (n.timed e), i, e t, linkNow_eq_ok.mpr ⟨_, _, rfl, rfl, rfl⟩⟩

private theorem mined_link_timed {l : MinedLink} (h : l.Built) (e : Time → Time) : (l.timed e).Built := by
  obtain ⟨hn, hu, k, m, t, h⟩ := h
  obtain ⟨k, rfl, rfl⟩ := minedLinkNow_eq_ok.mp h
  exact ⟨link_timed hn e, hu, some (k.timed e), m, e t, minedLinkNow_eq_ok.mpr ⟨_, rfl, rfl⟩⟩

/-- C161: the expectation fails. Whatever is done to the creation times in an accepted object, on all levels, the
object is accepted and has the same hash, for all kinds of objects; mined objects have the same mining text. -/
theorem C161_times_are_free_neg (e : Time → Time) :
    (∀ x : Lock, x.Built → (x.timed e).Built ∧ (x.timed e).hash = x.hash) ∧
    (∀ x : Bill, x.Built → (x.timed e).Built ∧ (x.timed e).hash = x.hash) ∧
    (∀ x : Expense, x.Built → (x.timed e).Built ∧ (x.timed e).hash = x.hash) ∧
    (∀ x : Genesis, x.Built → (x.timed e).Built ∧ (x.timed e).hash = x.hash) ∧
    (∀ x : Address, x.Built → (x.timed e).Built ∧ (x.timed e).hash = x.hash) ∧
    (∀ x : Transaction, x.Built → (x.timed e).Built ∧ (x.timed e).hash = x.hash) ∧
    (∀ x : Block, x.Built → (x.timed e).Built ∧ (x.timed e).hash = x.hash) ∧
    (∀ x : Link, x.Built → (x.timed e).Built ∧ (x.timed e).hash = x.hash) ∧
    (∀ x : MinedBlock, x.Built → (x.timed e).Built ∧ (x.timed e).hash = x.hash ∧
      (x.timed e).mining = x.mining) ∧
    ∀ x : MinedLink, x.Built → (x.timed e).Built ∧ (x.timed e).hash = x.hash ∧
      (x.timed e).mining = x.mining :=
  ⟨fun _ h => ⟨lock_timed h e, rfl⟩, fun _ h => ⟨bill_timed h e, rfl⟩, fun _ h => ⟨expense_timed h e, rfl⟩,
    fun _ h => ⟨genesis_timed h e, rfl⟩, fun _ h => ⟨address_timed h e, rfl⟩, fun _ h => ⟨trx_timed h e, rfl⟩,
    fun _ h => ⟨block_timed h e, rfl⟩, fun _ h => ⟨link_timed h e, rfl⟩,
    fun _ h => ⟨mined_block_timed h e, rfl, rfl⟩, fun _ h => ⟨mined_link_timed h e, rfl, rfl⟩⟩

/-- C161: nothing puts the times of a chain in order. For every accepted chain and any four times there is an
accepted chain with the same hash whose genesis, root, head and whole have these times and are otherwise the
same. -/
theorem C161_any_order_neg {c : Chain} (h : c.Built) (t₁ t₂ t₃ t₄ : Time) :
    ∃ d : Chain, d.Built ∧ d.hash = c.hash ∧ d.genesis = c.genesis.timed (fun _ => t₁) ∧
      d.root = c.root.timed (fun _ => t₂) ∧ d.head = c.head.timed (fun _ => t₃) ∧ d.total = c.total ∧
      d.genesis.createdOn = t₁ ∧ d.root.createdOn = t₂ ∧ d.head.createdOn = t₃ ∧ d.createdOn = t₄ := by
  obtain ⟨hg, hr, hh, g, r, k, n, t, h⟩ := h
  obtain ⟨g, r, k, rfl, rfl, rfl, hn, rfl⟩ := chainNow_eq_ok.mp h
  refine ⟨_, ⟨genesis_timed hg fun _ => t₁, mined_block_timed hr fun _ => t₂, mined_link_timed hh fun _ => t₃,
    some (g.timed fun _ => t₁), some (r.timed fun _ => t₂), some (k.timed fun _ => t₃), n, t₄,
    chainNow_eq_ok.mpr ⟨_, _, _, rfl, rfl, rfl, ?_, rfl⟩⟩, rfl, rfl, rfl, rfl, rfl, rfl, rfl, rfl, rfl⟩
  simpa [MinedBlock.timed, Block.timed, MinedLink.timed, Link.timed] using hn

/-- C161: everybody can do this to the text of a mined link on its way: whatever the text of the link is read
as, that with other times is read as this with these times. -/
theorem C161_texts_on_the_way_neg {l y : MinedLink} (h : l.Built)
    (hj : minedLinkFromJSON (some l.toJSON) = .ok y) (e : Time → Time) :
    minedLinkFromJSON (some (l.timed e).toJSON) = .ok (y.timed e) ∧ (y.timed e).hash = y.hash := by
  refine ⟨?_, rfl⟩
  obtain ⟨hn, hu, k, m, t, h⟩ := h
  obtain ⟨k, rfl, rfl⟩ := minedLinkNow_eq_ok.mp h
  obtain ⟨rfl, ho⟩ := ((C29_mined_link_round_trip_exact k hn m t _ h).1 y).mp hj
  refine ((C29_mined_link_round_trip_exact (k.timed e) (link_timed hn e) m (e t) _
    (minedLinkNow_eq_ok.mpr ⟨_, rfl, rfl⟩)).1 _).mpr ⟨?_, ?_⟩
  · simp [MinedLink.timed, Link.timed, Link.reduced, Block.timed, Block.reduced, Transaction.timed,
      Transaction.reduced, Expense.timed, Expense.reduced, Function.comp_def]
  · intro x hx f hf
    obtain ⟨x, hx', rfl⟩ := List.mem_map.mp hx
    obtain ⟨f, hf', rfl⟩ := List.mem_map.mp hf
    have := ho x hx' f hf'
    simp only [Expense.OpensReduced, Expense.timed, Content.timed, List.forall₂_map_left_iff] at this ⊢
    exact this

/-- C161: the node that has an object under the hash, with whatever times, keeps it: saving the object with
other times returns nil and writes nothing, and the times that came first are retrieved ever after. -/
theorem C161_first_times_stay (e : Time → Time) {σ σ' : Store} {r : Option (Outcome Unit)} :
    (∀ l y : Lock, retrLock σ l.hash = .ok y → Run (saveLock (l.timed e)) σ r σ' →
      (r = none ∨ r = some (.ok ())) ∧ σ' = σ ∧ retrLock σ' (l.timed e).hash = .ok y) ∧
    ∀ l y : MinedLink, retrMinedLink σ l.hash = .ok y → Run (saveMinedLink (l.timed e)) σ r σ' →
      (r = none ∨ r = some (.ok ())) ∧ σ' = σ ∧ retrMinedLink σ' (l.timed e).hash = .ok y := by
  refine ⟨fun l y hy h => ?_, fun l y hy h => ?_⟩
  · obtain ⟨rfl, hr⟩ := C33_save_is_idempotent (op := .lock (l.timed e)) ⟨y, hy⟩ h
    exact ⟨hr, rfl, hy⟩
  · obtain ⟨rfl, hr⟩ := C33_save_is_idempotent (op := .minedLink (l.timed e)) ⟨y, hy⟩ h
    exact ⟨hr, rfl, hy⟩

/-- C161, what holds: the times inside an expense agree. The expense and the bills it makes have the time of its
content, whatever times its JSON form has for these bills. -/
theorem C161_expense_times_partial {x : Expense} (h : x.Built) :
    x.createdOn = x.content.createdOn ∧ x.content.dest.createdOn = x.content.createdOn ∧
    (∀ r, x.content.remaining = some r → r.createdOn = x.content.createdOn) ∧
    ∀ (j : JSONContent) (c : Content) (b : JSONBill) (t : Time), j.dest = some b →
      contentFromJSON (some j) = .ok c →
      contentFromJSON (some { j with dest := some { b with createdOn := t } }) = .ok c := by
  obtain ⟨⟨a, src, l, rem, t, h', -⟩, c, sigs, h⟩ := h
  obtain ⟨c, sg, rfl, rfl, hf, rfl⟩ := expenseNow_eq_ok.mp h
  obtain ⟨_, _, e1, e2, h1, h2, h3, rfl⟩ := contentNow_eq_ok.mp h'
  refine ⟨rfl, rfl, ?_, ?_⟩
  · intro r hr
    obtain ⟨r, hr', rfl⟩ := Option.map_eq_some_iff.mp hr
    rfl
  · intro j c b t hb hj
    simp only [contentFromJSON, Outcome.deref_some, Outcome.bind_ok, hb] at hj ⊢
    obtain ⟨s, hs, hj⟩ := Outcome.bind_eq_ok.mp hj
    obtain ⟨d, hd, hj⟩ := Outcome.bind_eq_ok.mp hj
    rw [hs]
    simp only [billFromJSON, Outcome.deref_some, Outcome.bind_ok] at hd ⊢
    obtain ⟨l, hl, hd⟩ := Outcome.bind_eq_ok.mp hd
    obtain ⟨l, e, ha, rfl⟩ := billNow_eq_ok.mp hd
    cases e
    rw [hl, Outcome.bind_ok, billNow_eq_ok.mpr ⟨l, rfl, ha, rfl⟩]
    exact hj

end

section examples

attribute [local instance] toyCurve toySha

/-- C161: an accepted chain with a transaction whose head is older than its genesis. -/
example : ∃ d : Chain, d.Built ∧ d.head.link.next.trx ≠ [] ∧ d.head.createdOn < d.genesis.createdOn := by
  obtain ⟨c, hc, e, hne⟩ := toyChain_built
  obtain ⟨d, hd, -, -, -, hh, -, h1, -, h3, -⟩ := C161_any_order_neg hc 1000 5 7 0
  refine ⟨d, hd, ?_, by rw [h1, h3]; decide⟩
  simpa [hh, MinedLink.timed, Link.timed, Block.timed] using hne

/-- C161: a link with transactions that is read, and so it is with the year 1970 everywhere. -/
example : minedLinkFromJSON (some (toyMinedLink.timed fun _ => 0).toJSON) =
      .ok (toyMinedLink.reduced.timed fun _ => 0) ∧ (toyMinedLink.timed fun _ => 0).Built :=
  ⟨(C161_texts_on_the_way_neg toyMinedLink_built
    (C29_mined_link_round_trip_partial _ toyMinedLink_built toyMinedLink_fits) _).1,
    ((C161_times_are_free_neg fun _ => 0).2.2.2.2.2.2.2.2.2 _ toyMinedLink_built).1⟩

/-- C161: a lock of time 0 is saved, and then the same one of time 9. -/
example : ∃ σ σ' : Store, Run (saveLock (toyLock 1)) .empty (some (.ok ())) σ ∧
    Run (saveLock ((toyLock 1).timed fun _ => 9)) σ (some (.ok ())) σ' ∧
    retrLock σ' (toyLock 1).hash = .ok (toyLock 1) ∧ ((toyLock 1).timed fun _ => 9) ≠ toyLock 1 := by
  have h1 := Run.of_exec (saveLock (toyLock 1)) .empty
  have h2 : ((saveLock (toyLock 1)).exec .empty).1 = .ok () := by decide +kernel
  have h3 : retrLock ((saveLock (toyLock 1)).exec .empty).2 (toyLock 1).hash = .ok (toyLock 1) := by decide +kernel
  rw [h2] at h1
  have h4 := Run.of_exec (saveLock ((toyLock 1).timed fun _ => 9)) ((saveLock (toyLock 1)).exec .empty).2
  obtain ⟨hr, -, h⟩ := (C161_first_times_stay _).1 _ _ h3 h4
  refine ⟨_, _, h1, ?_, h, by decide⟩
  rcases hr with hr | hr
  · cases hr
  · rwa [hr] at h4

/-- C161: a signed expense, and one of its times. -/
example : ∃ x : Expense, x.Built ∧ x.signatures ≠ [] ∧ x.content.dest.createdOn = x.createdOn := by
  obtain ⟨l, sig, h1, h2, h3⟩ := C21_unlock_complete_partial [publicKey (toySc 1),
    publicKey (toySc 2)] (by decide) (toySc 2) (by decide) (by simp) 0
  obtain ⟨x, hx, hs⟩ := exists_expense ⟨_, _, h1⟩ h3
  have := C161_expense_times_partial hx
  exact ⟨x, hx, by simp [hs], by rw [this.1, this.2.1]⟩

end examples

end Verif
