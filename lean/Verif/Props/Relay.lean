import Verif.Spec.Relay
import Verif.Props.Power
import Verif.Props.StoreChain

/-!
# Links that go from node to node: C154
-/

namespace Verif

section
variable [C : Curve]

theorem normSc_normSc (s : Scalar) : normSc (normSc s) = normSc s := by
  simp only [normSc, C.val_canon]

theorem RingSignature.reduced_reduced (s : RingSignature) : s.reduced.reduced = s.reduced := by
  simp [RingSignature.reduced, normSc_normSc, Function.comp_def]

theorem Expense.reduced_reduced (x : Expense) : x.reduced.reduced = x.reduced := by
  simp [Expense.reduced, RingSignature.reduced_reduced, Function.comp_def]

theorem Transaction.reduced_reduced (x : Transaction) : x.reduced.reduced = x.reduced := by
  simp [Transaction.reduced, Expense.reduced_reduced, Function.comp_def]

theorem Block.reduced_reduced (x : Block) : x.reduced.reduced = x.reduced := by
  simp [Block.reduced, Transaction.reduced_reduced, Function.comp_def]

theorem MinedLink.reduced_reduced (x : MinedLink) : x.reduced.reduced = x.reduced := by
  simp [MinedLink.reduced, Link.reduced, Block.reduced_reduced]

theorem MinedLink.reduced_times (x : MinedLink) : x.reduced.times = x.times := by
  have h : (fun x : Transaction => x.reduced.times) = Transaction.times := by
    funext x
    simp [Transaction.times, Transaction.reduced, List.flatMap_map, Expense.times, Expense.reduced]
    rfl
  simp [MinedLink.times, MinedLink.reduced, Link.reduced, Link.times, Block.reduced, Block.times,
    List.flatMap_map, h]

variable [Sha512] [FloatText] {W : World}

omit [FloatText] in
theorem MinedLink.Sendable.fits (G : W.Good id) {l : MinedLink} (h : W.minedLink l) : l.Fits :=
  fun x hx f hf => G.expense_fits f (G.trx_fees x (G.block_trx _ (G.link_next _
    (G.minedLink_link _ h)) x hx) f hf)

theorem MinedLink.Sendable.decoded (G : W.Good id) {l : MinedLink} (h : l.Sendable W) :
    ∃ text, encodeMinedLink l = .ok text ∧ decodeMinedLink text = .ok (some l.reduced) := by
  obtain ⟨text, -, h⟩ := C67_encode_decode_partial l (G.minedLink_built l h.mem)
    (MinedLink.Sendable.fits G h.mem) h.float
    (G.genesis_marshals _ (G.block_genesis _ (G.link_next _ (G.minedLink_link _ h.mem)))) h.dated
  exact ⟨text, h⟩

omit [Sha512] [FloatText] in
theorem MinedLink.Sendable.reduced {l : MinedLink} (h : l.Sendable W) : l.reduced.Sendable W where
  mem := h.mem_reduced
  mem_reduced := by rw [MinedLink.reduced_reduced]; exact h.mem_reduced
  float := h.float
  dated := by rw [MinedLink.reduced_times]; exact h.dated

/-! ## C154 -/

/-- C154: on its way over any number of nodes a link without addresses never becomes another one:
what any node sends on has the same hash and the same content, at most with reduced encodings of the
scalars of the signatures, which the first text has already. -/
theorem C154_relayed_is_right_partial (G : W.Good id) (O : W.OneGenesis id) {l k : MinedLink}
    (h : l.Sendable W) (hk : Relayed W l k) :
    (k = l ∨ k = l.reduced) ∧ k.hash = l.hash := by
  have key : k = l ∨ k = l.reduced := by
    induction hk with
    | start => exact .inl rfl
    | @hop k r k' text cs past σ _ he hd hl hr ih =>
      have hs : k.Sendable W ∧ k.reduced = l.reduced := by
        rcases ih with rfl | rfl
        · exact ⟨h, rfl⟩
        · exact ⟨h.reduced, MinedLink.reduced_reduced l⟩
      obtain ⟨text', he', hd'⟩ := hs.1.decoded G
      cases he'.symm.trans he
      cases hd'.symm.trans hd
      rw [hs.2] at hr
      rcases C153_retrieved_is_right G O hl (op := .minedLink l.reduced) h.mem_reduced trivial
        with ⟨y, hy, hy'⟩ | ⟨m, hm⟩
      · rw [show (Op.minedLink l.reduced).query.reads.run σ = _ from run_readMinedLink _ σ] at hy
        obtain rfl := Outcome.ok.inj (hy.symm.trans hr)
        right
        have hy' : y = l.reduced.reduced :=
          (MinedLink.timed_id y).symm.trans (hy'.trans (MinedLink.timed_id _))
        rw [hy', MinedLink.reduced_reduced]
      · rw [show (Op.minedLink l.reduced).query.reads.run σ = _ from run_readMinedLink _ σ] at hm
        cases hm.symm.trans hr
  exact ⟨key, by rcases key with rfl | rfl <;> rfl⟩

/-- C154: and it arrives: when every node has a genesis, whatever happened to its files before, each
node can decode, save and send on the link, and the last one gets it. -/
theorem C154_relayed_arrives_partial (G : W.Good id) (O : W.OneGenesis id) {l : MinedLink}
    (h : l.Sendable W) : ∀ {σs : List Store}, σs ≠ [] →
    (∀ σ ∈ σs, (∃ cs past, Life W cs past σ) ∧ ∃ g, retrGenesis σ = .ok g) →
    relayAll l σs = .ok l.reduced
  | [], h0, _ => absurd rfl h0
  | σ :: σs, _, hσ => by
    obtain ⟨⟨cs, past, hl⟩, hg⟩ := hσ σ (by simp)
    obtain ⟨text, he, hd⟩ := h.decoded G
    obtain ⟨σ', hs, y, hy, hy'⟩ := C153_saving_again_repairs G hl (op := .minedLink l.reduced)
      h.mem_reduced trivial (fun _ => O) (fun _ => hg) fun _ h => by cases h
    have hy' : y = l.reduced.reduced := by simpa [MinedLink.timed_id] using hy'
    rw [MinedLink.reduced_reduced] at hy'
    subst hy'
    have hr : relay l σ = .ok l.reduced := by
      have hs : (saveMinedLink l.reduced).exec σ = (.ok (), σ') := hs
      simp only [relay, he, hd, Outcome.bind_ok, Outcome.deref, hs]
      exact hy
    simp only [relayAll, hr, Outcome.bind_ok]
    by_cases h0 : σs = []
    · subst h0; rfl
    · have := C154_relayed_arrives_partial G O h.reduced h0 fun σ hs => hσ σ (by simp [hs])
      rwa [MinedLink.reduced_reduced] at this

omit [FloatText] in
theorem retrMinedLink_plain {σ : Store} {h : Hash} {k : MinedLink} (hk : retrMinedLink σ h = .ok k) :
    ∀ x ∈ k.link.next.trx, x.address = none := by
  simp only [retrMinedLink, Outcome.bind_eq_ok] at hk
  obtain ⟨_, -, _, -, l, hl, hk⟩ := hk
  obtain ⟨l', e, rfl⟩ := minedLinkNow_eq_ok.mp hk
  cases e
  simp only [retrLink, Outcome.bind_eq_ok] at hl
  obtain ⟨_, -, _, -, b, hb, hl⟩ := hl
  obtain ⟨_, b', -, e, rfl⟩ := linkNow_eq_ok.mp hl
  cases e
  simp only [retrBlock, Outcome.bind_eq_ok] at hb
  obtain ⟨_, -, _, -, _, -, _, -, xs, hxs, hb⟩ := hb
  obtain ⟨_, xs', -, e, -, rfl⟩ := blockNow_eq_ok.mp hb
  cases e
  have hf := mapO_eq_ok.mp hxs
  clear hxs hb hl hk
  induction hf with
  | nil => simp
  | cons hr _ ih => exact List.forall_mem_cons.mpr ⟨C38_retrieved_without_address_neg σ _ _ hr, ih⟩

/-- C154 (negation for links with addresses): a node never sends on a link of which a transaction
has an address, whatever it was sent and whatever is in its files. -/
theorem C154_addresses_never_sent_on_neg (k : MinedLink) {x : Transaction}
    (hx : x ∈ k.link.next.trx) (ha : x.address ≠ none) :
    (∀ l σ, relay l σ ≠ .ok k) ∧ (∀ W l, Relayed W l k → k = l) := by
  constructor
  · intro l σ h
    simp only [relay, Outcome.bind_eq_ok] at h
    obtain ⟨_, -, _, -, _, -, _, -, h⟩ := h
    exact ha (retrMinedLink_plain h x hx)
  · intro W l h
    cases h with
    | start => rfl
    | hop _ _ _ _ h => exact absurd (retrMinedLink_plain h x hx) ha

end

section examples

attribute [local instance] toyCurve toySha FloatText.decimal

/-- The parts of the toy link. -/
def toyLinkWorld : World where
  lock x := x = toyLock 1
  bill x := x = toyBill 1 5
  expense _ := False
  genesis x := x = toyGenesis
  trx x := x = toyTrx 1 ∨ x = toyTrx 2
  block x := x = toyBlock
  minedBlock _ := False
  link x := x = toyLink
  minedLink x := x = toyMinedLink

theorem toyLinkWorld_good : toyLinkWorld.Good id := by
  constructor <;> simp only [toyLinkWorld, forall_eq, false_imp_iff, implies_true]
  · exact toyLock_built 1
  · exact toyBill_built 1 5 (by decide)
  · exact toyGenesis_built
  · rintro x (rfl | rfl) <;> exact toyTrx_built _
  · exact toyBlock_built
  · exact toyLink_built
  · exact toyMinedLink_built
  · rfl
  · rfl
  · rfl
  · rintro x (rfl | rfl) <;> simp [toyTrx]
  · rintro x (rfl | rfl) <;> rfl
  · rfl
  · simp [toyBlock]
  · simp [toyBlock]
  · rfl
  · rfl
  all_goals first
    | (rintro _ _ rfl rfl -; rfl)
    | skip
  rintro x y (rfl | rfl) (rfl | rfl) h
  · rfl
  · exact absurd h (by decide)
  · exact absurd h (by decide)
  · rfl

theorem toyMinedLink_sendable : toyMinedLink.Sendable toyLinkWorld where
  mem := rfl
  mem_reduced := by
    simp [toyLinkWorld, MinedLink.reduced, toyMinedLink, Link.reduced, toyLink, Block.reduced,
      toyBlock, Transaction.reduced, toyTrx]
  float := by
    refine ⟨⟨1, -1, by norm_num, by norm_num, ?_⟩, ?_⟩
    · norm_num
    · rw [abs_of_pos (by norm_num)]
      exact lt_of_lt_of_le (by norm_num) (one_le_pow₀ (n := 1024) (by norm_num : (1 : ℚ) ≤ 2))
  dated := by
    have h0 : Dated 0 := by decide
    intro t ht
    suffices t = 0 by rw [this]; exact h0
    simpa [MinedLink.times, Link.times, Block.times, Genesis.times, Bill.times, Lock.times,
      Transaction.times, toyMinedLink, toyLink, toyBlock, toyGenesis, toyTrx, toyBill, toyLock] using ht

/-- C154: the toy link goes over three nodes that have nothing but the genesis. -/
example : ∃ σ, (∃ cs past, Life toyLinkWorld cs past σ) ∧ (∃ g, retrGenesis σ = .ok g) ∧
    (∃ m, retrMinedLink σ toyMinedLink.hash = .err m) ∧
    relayAll toyMinedLink [σ, σ, σ] = .ok toyMinedLink.reduced ∧
    ∃ k, Relayed toyLinkWorld toyMinedLink k ∧ k = toyMinedLink.reduced := by
  have G := toyLinkWorld_good
  have O : toyLinkWorld.OneGenesis id := by rintro _ _ rfl rfl; rfl
  obtain ⟨σ, hs, f1⟩ := C153_saving_again_repairs G .empty (op := .genesis toyGenesis) rfl trivial
    (fun h => h.elim) (fun h => h.elim) fun _ _ => ⟨_, rfl⟩
  obtain ⟨p1, -, l1⟩ := Life.op (W := toyLinkWorld) (op := .genesis toyGenesis) rfl .empty
  rw [hs] at l1
  have hg : ∃ g, retrGenesis σ = .ok g := f1.imp fun _ h => h.1
  have hr := Run.of_exec (Op.genesis toyGenesis).prog .empty
  rw [hs] at hr
  have hf : σ.minedLinks = Store.empty.minedLinks :=
    (saveGenesis_frame toyGenesis .empty _ _ hr).1.minedLinks (by decide)
  obtain ⟨σ', hs', f2⟩ := C153_saving_again_repairs G l1 (op := .minedLink toyMinedLink) rfl trivial
    (fun _ => O) (fun _ => hg) fun _ h => by cases h
  obtain ⟨p2, -, l2⟩ := Life.op (W := toyLinkWorld) (op := .minedLink toyMinedLink) rfl l1
  rw [hs'] at l2
  obtain ⟨y, hy, hy'⟩ := f2
  obtain ⟨text, he, hd⟩ := toyMinedLink_sendable.decoded G
  refine ⟨σ, ⟨_, _, l1⟩, hg, ⟨"no such file or directory", ?_⟩,
    C154_relayed_arrives_partial G O toyMinedLink_sendable (by simp) ?_, y,
    Relayed.start.hop he hd l2 hy, ?_⟩
  · simp [retrMinedLink, hf, Store.empty, readCell]
  · simp only [List.mem_cons, List.not_mem_nil, or_false, or_self, forall_eq]
    exact ⟨⟨_, _, l1⟩, hg⟩
  · simpa [MinedLink.timed_id] using hy'

/-- C154: a transaction with an address. -/
example : ∃ (k : MinedLink) (x : Transaction), k.Built ∧ x ∈ k.link.next.trx ∧ x.address ≠ none := by
  obtain ⟨a, ha⟩ : ∃ a, addressNow none [toyHash 1] none 0 = .ok a :=
    ⟨_, addressNow_eq_ok.mpr ⟨by simp, rfl⟩⟩
  obtain ⟨x, hx⟩ : ∃ x, trxNow (some a) none [] 0 = .ok x := ⟨_, trxNow_eq_ok.mpr ⟨by simp, rfl⟩⟩
  obtain ⟨b, hb⟩ : ∃ b, blockNow (some toyGenesis) 4 (some [x]) 0 = .ok b :=
    ⟨_, blockNow_eq_ok.mpr ⟨_, _, rfl, rfl, by simp, rfl⟩⟩
  obtain ⟨l, hl⟩ : ∃ l, linkNow (some (toyHash 1)) (some b) 7 0 = .ok l :=
    ⟨_, linkNow_eq_ok.mpr ⟨_, _, rfl, rfl, rfl⟩⟩
  obtain ⟨k, hk⟩ : ∃ k, minedLinkNow (some l) [48] 0 = .ok k :=
    ⟨_, minedLinkNow_eq_ok.mpr ⟨_, rfl, rfl⟩⟩
  have hk' := hk; have hl' := hl; have hb' := hb; have hx' := hx
  obtain ⟨_, e1, rfl⟩ := minedLinkNow_eq_ok.mp hk
  cases e1
  obtain ⟨_, _, -, e1, rfl⟩ := linkNow_eq_ok.mp hl
  cases e1
  obtain ⟨_, _, e2, e1, -, rfl⟩ := blockNow_eq_ok.mp hb
  cases e1; cases e2
  obtain ⟨-, rfl⟩ := trxNow_eq_ok.mp hx
  refine ⟨_, _, ⟨⟨⟨toyGenesis_built, ?_, _, _, _, _, hb'⟩, _, _, _, _, hl'⟩, utf8_of_ascii (by simp),
    _, _, _, hk'⟩, List.mem_singleton.mpr rfl, by simp⟩
  simp only [List.mem_singleton, forall_eq]
  refine ⟨?_, by simp, _, _, _, _, hx'⟩
  rintro _ ⟨⟩
  exact ⟨_, _, _, _, ha⟩

end examples

end Verif
