import Verif.Props.Difficulty
import Verif.Model.App.Miners
import Verif.Props.Miner
import Verif.Props.StoreChain

/-!
# The miners on the store: C46, C51, C80
-/

namespace Verif

section
variable [Sha512] [C : Curve]

omit [Sha512] C in
theorem Spec.get {α β : Type} {g : Store → Outcome α} {f : α → Prog β} {σ : Store}
    {I : Store → Prop} {Q : β → Store → Prop} (hI : I σ) (hf : ∀ a, g σ = .ok a → Spec (f a) σ I Q) :
    Spec ((Prog.get g).bind f) σ I Q := Spec.look hI (Spec.lift hI hf)

omit [Sha512] C in
theorem Spec.lift' {α : Type} {o : Outcome α} {σ : Store} {I : Store → Prop}
    {Q : α → Store → Prop} (hI : I σ) (hf : ∀ a, o = .ok a → Q a σ) :
    Spec (Prog.lift o) σ I Q := Spec.ret hI hf

/-- What the link miner makes, from any store, under all interruptions: nothing is written; the
mined link has index 0, extends the mined link it was asked to extend, is mined with the link
difficulty of the genesis of the stored chain. -/
theorem makeMinedLink_spec (E : MinerEnv) (p n : Bytes) (σ : Store) :
    Spec (makeMinedLink E p n) σ (· = σ) (fun k _ => ∃ chain prev, retrChain σ = .ok chain ∧
      (∃ h, fromString p = .ok h ∧ retrMinedLink σ h = .ok prev) ∧
      (∃ h, fromString n = .ok h ∧ retrBlock σ h = .ok k.link.next) ∧
      linkNow (some prev.hash) (some k.link.next) 0 E.time₁ = .ok k.link ∧
      mine E.stack chain.genesis.link k.link.hash = .ok k.mining ∧
      minedLinkNow (some k.link) k.mining E.time₂ = .ok k) := by
  refine Spec.get rfl fun chain hc => ?_
  refine Spec.lift rfl fun ph hph => Spec.lift rfl fun nh hnh => ?_
  refine Spec.get rfl fun prev hp => Spec.get rfl fun next hn => ?_
  refine Spec.lift rfl fun link hl => Spec.lift rfl fun res hr => Spec.lift' rfl fun k hk => ?_
  obtain ⟨l', e1, e2⟩ := minedLinkNow_eq_ok.mp hk
  cases e1
  obtain ⟨_, _, e3, e4, e5⟩ := linkNow_eq_ok.mp hl
  cases e3; cases e4
  have hkl : k.link = link := by rw [e2]
  have hkm : k.mining = res := by rw [e2]
  have hkn : k.link.next = next := by rw [hkl, e5]
  rw [hkm, hkn, hkl]
  exact ⟨chain, prev, hc, ⟨ph, hph, hp⟩, ⟨nh, hnh, hn⟩, hl, hr, hk⟩

/-- What the block miner makes, from any store, under all interruptions. -/
theorem makeMinedBlock_spec (E : MinerEnv) (trx : List Bytes) (σ : Store) :
    Spec (makeMinedBlock E trx) σ (· = σ) (fun k _ => ∃ chain hashes, retrChain σ = .ok chain ∧
      mapO fromString trx = .ok hashes ∧ mapO (retrTrx σ) hashes = .ok k.block.trx ∧
      blockNow (some chain.genesis) 0 (some k.block.trx) E.time₁ = .ok k.block ∧
      mine E.stack (E.difficulty chain.genesis k.block.trx.length) k.block.hash = .ok k.mining ∧
      minedBlockNow (some k.block) k.mining E.time₂ = .ok k) := by
  refine Spec.lift rfl fun hs hhs => ?_
  refine Spec.get rfl fun txs ht => Spec.get rfl fun chain hc => ?_
  refine Spec.lift rfl fun b hb => Spec.lift rfl fun res hr => Spec.lift' rfl fun k hk => ?_
  obtain ⟨b', e1, e2⟩ := minedBlockNow_eq_ok.mp hk
  cases e1
  obtain ⟨_, _, e3, e4, -, e5⟩ := blockNow_eq_ok.mp hb
  cases e3; cases e4
  have hkb : k.block = b := by rw [e2]
  have hkm : k.mining = res := by rw [e2]
  have hkt : k.block.trx = txs := by rw [hkb, e5]
  rw [hkm, hkt, hkb]
  exact ⟨chain, hs, hc, hhs, ht, hb, hr, hk⟩

/-- Mined link files: saving a mined link writes at most the file of that mined link and of its
link. -/
theorem saveMinedLink_files (k : MinedLink) (σ : Store) :
    Spec (saveMinedLink k) σ (fun σ' =>
      (∀ p, σ'.links p = σ.links p ∨ (p = k.link.hash.str ∧ (σ'.links p = some .torn ∨
        σ'.links p = some (.json ⟨k.link.hash.str, k.link.prevLink.str, k.link.next.hash.str,
          k.link.index, k.link.createdOn⟩)))) ∧
      (∀ p, σ'.minedLinks p = σ.minedLinks p ∨ (p = k.hash.str ∧ (σ'.minedLinks p = some .torn ∨
        σ'.minedLinks p = some (.json ⟨k.hash.str, k.link.hash.str, jsonText k.mining, k.createdOn⟩)))))
      (fun _ _ => True) := by
  have h0 : ∀ {α : Type} (d : Bytes → Option (Cell α)) (p q : Bytes) (c : Cell α),
      setFile d q c p = d p ∨ (p = q ∧ setFile d q c p = some c) := by
    intro α d p q c
    unfold setFile
    by_cases h : p = q <;> simp [h]
  have key : Spec (saveLink k.link) σ (fun σ' => σ'.minedLinks = σ.minedLinks ∧
      (∀ p, σ'.links p = σ.links p ∨ (p = k.link.hash.str ∧ (σ'.links p = some .torn ∨
        σ'.links p = some (.json ⟨k.link.hash.str, k.link.prevLink.str, k.link.next.hash.str,
          k.link.index, k.link.createdOn⟩))))) (fun _ _ => True) := by
    refine Spec.unlessFound ⟨rfl, fun _ => .inl rfl⟩ (fun _ _ => trivial) fun _ => ?_
    refine Spec.bind ((saveBlock_frame k.link.next σ).mono (fun σ' f =>
      ⟨f.minedLinks (by omega), fun p => .inl (congrFun (f.links (by omega)) p)⟩)
      (Q := fun _ σ' => σ'.links = σ.links) fun _ σ' f _ => f.links (by omega)) fun _ σ₁ h h' => ?_
    refine Spec.lift h fun tr htr => ?_
    cases htr
    refine Spec.save h ⟨h.1, fun p => ?_⟩ ⟨h.1, fun p => ?_⟩ trivial
    · refine (h0 σ₁.links p _ _).imp (fun e => e.trans (congrFun h' p)) fun e => ⟨e.1, .inr ?_⟩
      exact e.2
    · exact (h0 σ₁.links p _ _).imp (fun e => e.trans (congrFun h' p)) fun e => ⟨e.1, .inl e.2⟩
  refine Spec.unlessFound ⟨fun _ => .inl rfl, fun _ => .inl rfl⟩ (fun _ _ => trivial) fun _ => ?_
  refine Spec.bind (key.mono (fun σ' f => ⟨f.2, fun p => .inl (congrFun f.1 p)⟩)
    (Q := fun _ σ' => σ'.minedLinks = σ.minedLinks) fun _ σ' f _ => f.1) fun _ σ₁ h h' => ?_
  refine Spec.lift h fun tr htr => ?_
  cases htr
  refine Spec.save h ⟨h.1, fun p => ?_⟩ ⟨h.1, fun p => ?_⟩ trivial
  · refine (h0 σ₁.minedLinks p _ _).imp (fun e => e.trans (congrFun h' p)) fun e => ⟨e.1, .inr ?_⟩
    exact e.2
  · exact (h0 σ₁.minedLinks p _ _).imp (fun e => e.trans (congrFun h' p)) fun e => ⟨e.1, .inl e.2⟩

/-- Mined block files: saving a mined block writes at most the file of that mined block. -/
theorem saveMinedBlock_files (k : MinedBlock) (σ : Store) :
    Spec (saveMinedBlock k) σ (fun σ' => ∀ p, σ'.minedBlocks p = σ.minedBlocks p ∨
      (p = k.hash.str ∧ (σ'.minedBlocks p = some .torn ∨
        σ'.minedBlocks p = some (.json ⟨k.hash.str, k.block.hash.str, jsonText k.mining, k.createdOn⟩))))
      (fun _ _ => True) := by
  have h0 : ∀ {α : Type} (d : Bytes → Option (Cell α)) (p q : Bytes) (c : Cell α),
      setFile d q c p = d p ∨ (p = q ∧ setFile d q c p = some c) := by
    intro α d p q c
    unfold setFile
    by_cases h : p = q <;> simp [h]
  refine Spec.unlessFound (fun _ => .inl rfl) (fun _ _ => trivial) fun _ => ?_
  refine Spec.bind ((saveBlock_frame k.block σ).mono (fun σ' f =>
    fun p => .inl (congrFun (f.minedBlocks (by omega)) p))
    (Q := fun _ σ' => σ'.minedBlocks = σ.minedBlocks) fun _ σ' f _ => f.minedBlocks (by omega))
    fun _ σ₁ h h' => ?_
  refine Spec.lift h fun tr htr => ?_
  cases htr
  refine Spec.save h (fun p => ?_) (fun p => ?_) trivial
  · refine (h0 σ₁.minedBlocks p _ _).imp (fun e => e.trans (congrFun h' p)) fun e => ⟨e.1, .inr ?_⟩
    exact e.2
  · exact (h0 σ₁.minedBlocks p _ _).imp (fun e => e.trans (congrFun h' p)) fun e => ⟨e.1, .inl e.2⟩

/-! ## C51 -/

/-- C51: from any store, under all faults, every link file that the link miner adds or changes, and
that is complete, has index 0. -/
theorem C51_stored_links_have_index_zero_neg (E : MinerEnv) (prev next : Bytes) {σ σ' : Store}
    {r : Option (Outcome Unit)} (h : Run (mineLink E prev next) σ r σ') (p : Bytes) (js : JTrLink)
    (hnew : σ'.links p ≠ σ.links p) (hjs : σ'.links p = some (.json js)) : js.index = 0 := by
  have key : Spec (mineLink E prev next) σ (fun σ' => ∀ p js, σ'.links p ≠ σ.links p →
      σ'.links p = some (.json js) → js.index = 0) (fun _ _ => True) := by
    refine Spec.bind ((makeMinedLink_spec E prev next σ).mono (fun σ' h => ?_)
      (Q := fun k σ' => σ' = σ ∧ k.link.index = 0) fun k σ' h hk => ?_) fun k σ₁ h hk => ?_
    · subst h
      exact fun p js hne => absurd rfl hne
    · obtain ⟨chain, prev, -, -, -, hl, -, -⟩ := hk
      obtain ⟨_, _, -, -, hl⟩ := linkNow_eq_ok.mp hl
      exact ⟨h, by rw [hl]⟩
    · obtain ⟨rfl, hk⟩ := hk
      refine (saveMinedLink_files k σ₁).mono (fun σ' hf p js hne hj => ?_) fun _ _ _ h => h
      rcases hf.1 p with h | ⟨-, h | h⟩
      · exact absurd h hne
      · rw [h] at hj; cases hj
      · rw [h] at hj; cases hj; exact hk
  exact (key _ _ h).1 p js hnew hjs

/-- C51: every mined link that the link miner makes has index 0, whatever mined link it extends, and
every chain with such a head has height 0. -/
theorem C51_mined_head_has_height_zero_neg (E : MinerEnv) (prev next : Bytes) {σ σ' : Store}
    {k : MinedLink} (h : Run (makeMinedLink E prev next) σ (some (.ok k)) σ') :
    k.link.index = 0 ∧ ∀ g r n t c, chainNow g r (some k) n t = .ok c → c.height = 0 := by
  obtain ⟨_, _, -, -, -, hl, -, -⟩ := (makeMinedLink_spec E prev next σ _ _ h).2 k rfl
  obtain ⟨_, _, -, -, hl⟩ := linkNow_eq_ok.mp hl
  have hk : k.link.index = 0 := by rw [hl]
  refine ⟨hk, fun g r n t c hc => ?_⟩
  obtain ⟨_, _, _, -, -, e, -, rfl⟩ := chainNow_eq_ok.mp hc
  cases e
  exact hk

/-! ## C46 on the store -/

/-- C46: from any store, under all faults, every mined block file that the block miner adds or
changes, and that is complete, is named by a hash that starts with as many zero bytes as the
difficulty of the stored chain asks for the number of transactions of the block; the hash is the one
the file's block hash and mining text give. -/
theorem C46_stored_mined_block_meets_difficulty (E : MinerEnv) (trx : List Bytes) {σ σ' : Store}
    {r : Option (Outcome Unit)} (h : Run (mineBlock E trx) σ r σ') (p : Bytes) (js : JTrMined)
    (hnew : σ'.minedBlocks p ≠ σ.minedBlocks p) (hjs : σ'.minedBlocks p = some (.json js)) :
    ∃ (chain : Chain) (b m : Hash), retrChain σ = .ok chain ∧ p = m.str ∧ js.hash = m.str ∧
      js.of = b.str ∧ m = fromBytes (b.bytes ++ js.mining) ∧
      ∀ d, d = blockDifficulty E.machine chain.genesis.blockBase chain.genesis.blockIncrease trx.length →
        d.toNat < 2 ^ 63 →
        ∀ j < d.toNat, m.bytes[j]? = some 0 := by
  have key : Spec (mineBlock E trx) σ (fun σ' => ∀ p js, σ'.minedBlocks p ≠ σ.minedBlocks p →
      σ'.minedBlocks p = some (.json js) →
      ∃ (chain : Chain) (b m : Hash), retrChain σ = .ok chain ∧ p = m.str ∧ js.hash = m.str ∧
      js.of = b.str ∧ m = fromBytes (b.bytes ++ js.mining) ∧
      ∀ d, d = blockDifficulty E.machine chain.genesis.blockBase chain.genesis.blockIncrease trx.length →
        d.toNat < 2 ^ 63 →
        ∀ j < d.toNat, m.bytes[j]? = some 0) (fun _ _ => True) := by
    refine Spec.bind ((makeMinedBlock_spec E trx σ).mono (fun σ' h => ?_)
      (Q := fun k σ' => σ' = σ ∧ ∃ chain hashes, retrChain σ = .ok chain ∧
      mapO fromString trx = .ok hashes ∧ mapO (retrTrx σ) hashes = .ok k.block.trx ∧
      blockNow (some chain.genesis) 0 (some k.block.trx) E.time₁ = .ok k.block ∧
      mine E.stack (E.difficulty chain.genesis k.block.trx.length) k.block.hash = .ok k.mining ∧
      minedBlockNow (some k.block) k.mining E.time₂ = .ok k) fun k σ' h hk => ⟨h, hk⟩)
      fun k σ₁ h hk => ?_
    · subst h
      exact fun p js hne => absurd rfl hne
    · obtain ⟨rfl, chain, hashes, hc, hh, ht, hb, hm, hk⟩ := hk
      have hlen : k.block.trx.length = trx.length := by
        have h1 := (mapO_eq_ok.mp hh).length_eq
        have h2 := (mapO_eq_ok.mp ht).length_eq
        omega
      rw [hlen] at hm
      refine (saveMinedBlock_files k σ₁).mono (fun σ' hf p js hne hj => ?_) fun _ _ _ h => h
      rcases hf p with h | ⟨hp, h | h⟩
      · exact absurd h hne
      · rw [h] at hj; cases hj
      · rw [h] at hj
        cases hj
        obtain ⟨b', e1, e2⟩ := minedBlockNow_eq_ok.mp hk
        cases e1
        refine ⟨chain, k.block.hash, k.hash, hc, hp, rfl, rfl, ?_, ?_⟩
        · rw [jsonText_of_utf8 (C47_mined_text_is_digits _ _ _ _ hm).2]
          exact (congrArg MinedBlock.hash e2 :)
        · rintro d rfl hd
          exact (C46_mined_hash_has_prefix E.stack _ hd k.mining E.time₂).1 k.block k hm hk
  exact (key _ _ h).1 p js hnew hjs

/-- C46: the same for the link miner and the link difficulty of the genesis of the stored chain. -/
theorem C46_stored_mined_link_meets_difficulty (E : MinerEnv) (prev next : Bytes) {σ σ' : Store}
    {r : Option (Outcome Unit)} (h : Run (mineLink E prev next) σ r σ') (p : Bytes) (js : JTrMined)
    (hnew : σ'.minedLinks p ≠ σ.minedLinks p) (hjs : σ'.minedLinks p = some (.json js)) :
    ∃ (chain : Chain) (l m : Hash), retrChain σ = .ok chain ∧ p = m.str ∧ js.hash = m.str ∧
      js.of = l.str ∧ m = fromBytes (l.bytes ++ js.mining) ∧
      (chain.genesis.link.toNat < 2 ^ 63 →
        ∀ j < chain.genesis.link.toNat, m.bytes[j]? = some 0) := by
  have key : Spec (mineLink E prev next) σ (fun σ' => ∀ p js, σ'.minedLinks p ≠ σ.minedLinks p →
      σ'.minedLinks p = some (.json js) →
      ∃ (chain : Chain) (l m : Hash), retrChain σ = .ok chain ∧ p = m.str ∧ js.hash = m.str ∧
      js.of = l.str ∧ m = fromBytes (l.bytes ++ js.mining) ∧
      (chain.genesis.link.toNat < 2 ^ 63 →
        ∀ j < chain.genesis.link.toNat, m.bytes[j]? = some 0)) (fun _ _ => True) := by
    refine Spec.bind ((makeMinedLink_spec E prev next σ).mono (fun σ' h => ?_)
      (Q := fun k σ' => σ' = σ ∧ ∃ chain, retrChain σ = .ok chain ∧
      mine E.stack chain.genesis.link k.link.hash = .ok k.mining ∧
      minedLinkNow (some k.link) k.mining E.time₂ = .ok k) fun k σ' h hk => ?_)
      fun k σ₁ h hk => ?_
    · subst h
      exact fun p js hne => absurd rfl hne
    · obtain ⟨chain, prev, hc, -, -, -, hm, hk⟩ := hk
      exact ⟨h, chain, hc, hm, hk⟩
    · obtain ⟨rfl, chain, hc, hm, hk⟩ := hk
      refine (saveMinedLink_files k σ₁).mono (fun σ' hf p js hne hj => ?_) fun _ _ _ h => h
      rcases hf.2 p with h | ⟨hp, h | h⟩
      · exact absurd h hne
      · rw [h] at hj; cases hj
      · rw [h] at hj
        cases hj
        obtain ⟨b', e1, e2⟩ := minedLinkNow_eq_ok.mp hk
        cases e1
        refine ⟨chain, k.link.hash, k.hash, hc, hp, rfl, rfl, ?_, fun hd => ?_⟩
        · rw [jsonText_of_utf8 (C47_mined_text_is_digits _ _ _ _ hm).2]
          exact (congrArg MinedLink.hash e2 :)
        · exact (C46_mined_hash_has_prefix E.stack _ hd k.mining E.time₂).2 k.link k hm hk
  exact (key _ _ h).1 p js hnew hjs

/-! ## C80 -/

variable {W : World} {e : Time → Time}

theorem Settled.history {σ : Store} (h : Settled W σ) : History W σ := by
  induction h with
  | empty => exact .empty
  | step _ h1 _ h2 ih => exact ih.step h1 h2

/-- In a settled history a complete chain file names a genesis of the world. -/
theorem Settled.chain_file {σ : Store} (h : Settled W σ) :
    ∀ js, σ.chain = some (.json js) → ∃ g, W.genesis g ∧ js.genesis = g.hash.str := by
  induction h with
  | empty => intro js hjs; cases hjs
  | @step σ σ' op r hs hop hu hr ih =>
    have keep : ∀ {p : Prog Unit} {n : Nat}, Spec p σ (Frame n σ) (fun _ _ => True) → n < 7 →
        Run p σ r σ' → ∀ js, σ'.chain = some (.json js) →
          ∃ g, W.genesis g ∧ js.genesis = g.hash.str := by
      intro p n hp hn hr js hjs
      rw [(hp _ _ hr).1.chain hn] at hjs
      exact ih js hjs
    let I : Store → Prop := fun σ' => ∀ js, σ'.chain = some (.json js) →
      ∃ g, W.genesis g ∧ js.genesis = g.hash.str
    have stay : ∀ {p : Prog Unit} {n : Nat} {σ : Store}, Spec p σ (Frame n σ) (fun _ _ => True) →
        n < 7 → I σ → Spec p σ I (fun _ _ => True) := by
      intro p n σ hp hn hI
      refine hp.mono (fun σ' f js hjs => ?_) fun _ _ _ h => h
      rw [f.chain hn] at hjs
      exact hI js hjs
    have sc : ∀ {σ : Store} {c : Chain}, W.genesis c.genesis → I σ →
        Spec (saveChain c) σ I (fun _ _ => True) := by
      intro σ c hc hI
      refine Spec.bind (stay (saveMinedLink_frame _ _) (by omega) hI) fun _ σ₁ h _ => ?_
      refine Spec.lift h fun tr htr => ?_
      obtain ⟨-, rfl⟩ := trChainNow_eq_ok.mp htr
      refine Spec.save h ?_ ?_ trivial
      · intro js hjs; cases hjs; exact ⟨_, hc, rfl⟩
      · intro js hjs; cases hjs
    cases op with
    | lock x => exact keep (saveLock_frame x σ) (by omega) hr
    | bill x => exact keep (saveBill_frame x σ) (by omega) hr
    | expense x => exact keep (saveExpense_frame x σ) (by omega) hr
    | genesis x => exact keep (saveGenesis_frame x σ) (by omega) hr
    | trx x => exact keep (saveTrx_frame x σ) (by omega) hr
    | block x => exact keep (saveBlock_frame x σ) (by omega) hr
    | minedBlock x => exact keep (saveMinedBlock_frame x σ) (by omega) hr
    | link x => exact keep (saveLink_frame x σ) (by omega) hr
    | minedLink x => exact keep (saveMinedLink_frame x σ) (by omega) hr
    | state s =>
      obtain ⟨rfl, -⟩ := hr.quiet (saveState_quiet s σ)
      exact ih
    | insert c =>
      refine (Spec.unlessFound (I := I) (P := fun _ _ => True) ih (fun _ _ => trivial)
        (fun _ => ?_) _ _ hr).1
      refine Spec.bind (stay (saveGenesis_frame _ _) (by omega) ih) fun _ σ₁ h _ => ?_
      refine Spec.bind (stay (saveMinedBlock_frame _ _) (by omega) h) fun _ σ₂ h _ => ?_
      exact sc hop.1 h
    | update a b =>
      refine (Spec.lift (I := I) (Q := fun _ _ => True) ih (fun _ _ => Spec.lift ih fun _ _ => ?_)
        _ _ hr).1
      exact sc (hu a b rfl) ih

/-- C80: in every history of operations on the objects of one genesis, with any faults, no chain can
ever be retrieved, so both miners write nothing and never return nil. -/
theorem C80_no_mining_on_own_chain_neg (G : W.Good e) (O : W.OneGenesis e) {σ : Store}
    (H : Settled W σ) : (∀ c, retrChain σ ≠ .ok c) ∧
    (∀ E trx r σ', Run (mineBlock E trx) σ r σ' → σ' = σ ∧ r ≠ some (.ok ())) ∧
    (∀ E prev next r σ', Run (mineLink E prev next) σ r σ' → σ' = σ ∧ r ≠ some (.ok ())) := by
  have hc : ∀ c, retrChain σ ≠ .ok c := by
    intro c hr
    obtain ⟨js, hjs, hg, -⟩ := C39_retrieved_genesis_differs_neg hr
    obtain ⟨g, hgW, hjg⟩ := H.chain_file js hjs
    rcases (H.history.honest G).genesis_some G with ⟨y, x, hy, hx, hxy⟩ | ⟨m, hm⟩
    · have : x.hash = g.hash := (congrArg Genesis.hash (hxy.trans (O y g hy hgW)) :)
      exact C39_own_genesis_rejected_neg hjs hx (hjg.trans (by rw [this])) c hr
    · rw [hm] at hg; cases hg
  refine ⟨hc, fun E trx r σ' hr => ?_, fun E prev next r σ' hr => ?_⟩
  · have : Spec (mineBlock E trx) σ (· = σ) (fun _ _ => False) :=
      Spec.bind (makeMinedBlock_spec E trx σ) fun k σ₁ h hk => by
        obtain ⟨c, _, h, -⟩ := hk
        exact absurd h (hc c)
    exact ⟨(this _ _ hr).1, fun h => (this _ _ hr).2 () h⟩
  · have : Spec (mineLink E prev next) σ (· = σ) (fun _ _ => False) :=
      Spec.bind (makeMinedLink_spec E prev next σ) fun k σ₁ h hk => by
        obtain ⟨c, _, h, -⟩ := hk
        exact absurd h (hc c)
    exact ⟨(this _ _ hr).1, fun h => (this _ _ hr).2 () h⟩

end

section examples

attribute [local instance] toyCurve

/-- Hashes that start with three zero bytes, followed by the length and the last byte of the
data. -/
@[reducible] def lenSha : Sha512 where
  sum x := ⟨[0, 0, 0, UInt8.ofNat x.length, x.getLastD 0] ++ List.replicate 59 0, by simp⟩

attribute [local instance] lenSha

theorem lenSha_works (h : Hash) (d : UInt64) (hd : d.toNat ≤ 3) : mine 1 d h = .ok [48] := by
  have h48 : nonce 0 0 = [48] := by simp [nonce, natDec]
  refine (C47_mine_first_candidate 1 d h [48]).mpr ⟨0, 0, by omega, by omega, h48.symm, ?_,
    by intro k' _ h; omega, by intro k' h; omega⟩
  have hl : (h.bytes ++ nonce 0 0).length ≠ 64 := by simp [h48, h.len]
  have hw : wanted d = d.toNat := by rw [C47_wanted, if_pos (by omega)]
  rw [Works, fromBytes_of_ne hl, hw]
  generalize hx : h.bytes ++ nonce 0 0 = x
  have : d.toNat = 0 ∨ d.toNat = 1 ∨ d.toNat = 2 ∨ d.toNat = 3 := by omega
  rcases this with h | h | h | h <;> rw [h] <;> exact ⟨_, rfl⟩

/-- One operation of a history without faults. -/
theorem toy_step {W : World} (G : W.Good id) (O : W.OneGenesis id) {σ : Store} (H : History W σ)
    (op : Op) (hop : op.In W) (hc : op.Canonical) (hs : op.Saves)
    (hn : ∀ x, op = .genesis x → ∃ m, retrGenesis σ = .err m)
    (hg : op.NeedsGenesis → ∃ g, retrGenesis σ = .ok g) :
    ∃ σ', History W σ' ∧ op.Exactly σ' ∧ Keep σ σ' ∧ Run op.prog σ (some (.ok ())) σ' := by
  have hr := Run.of_exec op.prog σ
  rw [op_exec G (H.honest G) hop hs (fun _ => O) hn] at hr
  exact ⟨_, H.step hop hr, C31_saved_comes_back G H hop hc (fun _ => O) hg hr, (op_keep op σ _ _ hr).1,
    hr⟩

/-- A store with a retrievable chain, which takes a chain file with a foreign genesis hash. -/
theorem toy_mining_store : ∃ (σ : Store) (c : Chain) (t : Transaction),
    retrChain σ = .ok c ∧ c.genesis.blockBase = 1 ∧ c.genesis.blockIncrease = .fin (1 / 2) ∧
    c.genesis.link = 3 ∧ retrMinedLink σ c.head.hash = .ok c.head ∧
    retrBlock σ c.head.link.next.hash = .ok c.head.link.next ∧
    retrTrx σ t.hash = .ok t ∧
    (∀ p, p ≠ c.head.link.hash.str → σ.links p = none) ∧
    (∀ p, p ≠ c.head.hash.str → σ.minedLinks p = none) ∧
    (∀ p, p ≠ c.root.hash.str → σ.minedBlocks p = none) ∧
    c.head.link.index = 7 ∧ c.head.mining = [48, 49] ∧ c.head.Built ∧ c.root.Built ∧
    c.root.block.trx = [t, t] ∧ c.root.mining = [48, 50] ∧ c.head.link.next = c.root.block ∧
    c.genesis = c.root.block.genesis ∧ c.root.block.additional = 4 := by
  obtain ⟨W, x, t, b, r, k, G, O, hx, ht, hg, hb, hr, hk, hcan, e1, e2, e3, e4, f1, f2, f3, f4, f5, f6, f7, -⟩ :=
    toy_world
  have hcan' : b.Canonical := by
    simpa [Block.Canonical, e2, Transaction.Canonical, e1] using hcan
  obtain ⟨σ₀, H0, q0, k0, r0⟩ := toy_step G O .empty (.genesis b.genesis) hg trivial trivial
    (fun _ _ => ⟨_, rfl⟩) (fun h => h.elim)
  obtain ⟨σ₁, H1, q1, k1, r1⟩ := toy_step G O H0 (.trx t) ht
    (by simpa [Op.Canonical, Transaction.Canonical, e1] using hcan) trivial (fun _ h => by cases h)
    (fun h => h.elim)
  obtain ⟨σ₂, H2, q2, k2, r2⟩ := toy_step G O H1 (.block b) hb hcan' trivial (fun _ h => by cases h)
    (fun _ => ⟨_, k1.retrGenesis q0⟩)
  obtain ⟨σ₃, H3, q3, k3, r3⟩ := toy_step G O H2 (.minedBlock r) hr
    (by simpa [Op.Canonical, e3] using hcan') trivial (fun _ h => by cases h)
    (fun _ => ⟨_, (k1.trans k2).retrGenesis q0⟩)
  obtain ⟨σ₄, H4, q4, k4, r4⟩ := toy_step G O H3 (.minedLink k) hk
    (by simpa [Op.Canonical, e4] using hcan') trivial (fun _ h => by cases h)
    (fun _ => ⟨_, ((k1.trans k2).trans k3).retrGenesis q0⟩)
  have fr0 := (saveGenesis_frame b.genesis .empty _ _ r0).1
  have fr1 := (saveTrx_frame t σ₀ _ _ r1).1
  have fr2 := (saveBlock_frame b σ₁ _ _ r2).1
  have fr3 := (saveMinedBlock_frame r σ₂ _ _ r3).1
  have w3 := (saveMinedBlock_files r σ₂ _ _ r3).1
  have w4 := (saveMinedLink_files k σ₃ _ _ r4).1
  have l3 : σ₃.links = σ₂.links := by
    refine ((?_ : Spec (saveMinedBlock r) σ₂ (fun σ' => σ'.links = σ₂.links) (fun _ _ => True)) _ _ r3).1
    refine Spec.unlessFound rfl (fun _ _ => trivial) fun _ => ?_
    refine Spec.bind ((saveBlock_frame r.block σ₂).mono (fun σ' f => f.links (by omega))
      fun _ _ _ h => h) fun _ σ₁ h _ => ?_
    exact Spec.lift h fun tr htr => Spec.save h h h trivial
  have m4 : σ₄.minedBlocks = σ₃.minedBlocks := by
    refine ((?_ : Spec (saveMinedLink k) σ₃ (fun σ' => σ'.minedBlocks = σ₃.minedBlocks)
      (fun _ _ => True)) _ _ r4).1
    refine Spec.unlessFound rfl (fun _ _ => trivial) fun _ => ?_
    refine Spec.bind (P := fun _ _ => True) (Spec.unlessFound rfl (fun _ _ => trivial) fun _ =>
      Spec.bind ((saveBlock_frame k.link.next σ₃).mono (fun σ' f => f.minedBlocks (by omega))
      fun _ _ _ h => h) fun _ σ₁ h _ => Spec.lift h fun tr htr => Spec.save h h h trivial)
      fun _ σ₁ h _ => ?_
    exact Spec.lift h fun tr htr => Spec.save h h h trivial
  obtain ⟨o, ho⟩ : ∃ o : Hash, o ≠ b.genesis.hash := by
    by_cases h : toyHash 1 = b.genesis.hash
    · exact ⟨toyHash 2, fun h' => toyHash_ne (by decide) (h.trans h'.symm)⟩
    · exact ⟨_, h⟩
  obtain ⟨c, hc⟩ : ∃ y, chainNow (some b.genesis) (some r) (some k) 4 0 = .ok y :=
    ⟨_, chainNow_eq_ok.mpr ⟨_, _, _, rfl, rfl, rfl, by simp [e3, e4, e2], rfl⟩⟩
  obtain ⟨_, _, _, i1, i2, i3, -, hc'⟩ := chainNow_eq_ok.mp hc
  cases i1; cases i2; cases i3
  have cg : c.genesis = b.genesis := by rw [hc']
  have cr : c.root = r := by rw [hc']
  have ch : c.head = k := by rw [hc']
  have K : Keep σ₄ { σ₄ with chain := some (.json ⟨o.str, o.str, r.hash.str, k.hash.str, 4, 0⟩) } :=
    (Keep.refl σ₄).setChain _
  refine ⟨{ σ₄ with chain := some (.json ⟨o.str, o.str, r.hash.str, k.hash.str, 4, 0⟩) }, c, t, ?_,
    by rw [cg, f1], by rw [cg, f2], by rw [cg, f3], ?_, ?_, ?_, ?_, ?_, ?_, by rw [ch, f4],
    by rw [ch, f5], by rw [ch]; exact G.minedLink_built k hk, by rw [cr]; exact G.minedBlock_built r hr,
    by rw [cr, e3, e2], by rw [cr, f6], by rw [ch, cr, e3, e4], by rw [cg, cr, e3], by rw [cr, e3, f7]⟩
  · have n1 := (((k1.trans k2).trans k3).trans k4 |>.trans K).retrGenesis q0
    have n2 := (k4.trans K).retrMinedBlock q3
    have n3 := K.retrMinedLink q4
    have n4 : trChainFromJSON ⟨o.str, o.str, r.hash.str, k.hash.str, 4, 0⟩ =
        .ok ⟨o, o, r.hash, k.hash, 4, 0⟩ := by
      simp only [trChainFromJSON, fromString_str, Outcome.bind_ok]
      exact trChainNow_eq_ok.mpr ⟨by decide, rfl⟩
    have n5 : o.compare b.genesis.hash = false := Hash.compare_false_iff.mpr ho
    simp only [retrChain, readCell, Outcome.bind_ok, n4, n1, n5, n2, n3, Outcome.guardNot_false, hc]
  · rw [ch]; exact K.retrMinedLink q4
  · rw [ch, e4]; exact ((k3.trans k4).trans K).retrBlock q2
  · exact (((k2.trans k3).trans k4).trans K).retrTrx q1
  · intro p hp
    rw [ch] at hp
    rcases w4.1 p with h | ⟨h, -⟩
    · refine h.trans ?_
      rw [l3, fr2.links (by omega), fr1.links (by omega), fr0.links (by omega)]
      rfl
    · exact absurd h hp
  · intro p hp
    rw [ch] at hp
    rcases w4.2 p with h | ⟨h, -⟩
    · refine h.trans ?_
      rw [fr3.minedLinks (by omega), fr2.minedLinks (by omega), fr1.minedLinks (by omega),
        fr0.minedLinks (by omega)]
      rfl
    · exact absurd h hp
  · intro p hp
    rw [cr] at hp
    simp only [m4]
    rcases w3 p with h | ⟨h, -⟩
    · refine h.trans ?_
      rw [fr2.minedBlocks (by omega), fr1.minedBlocks (by omega), fr0.minedBlocks (by omega)]
      rfl
    · exact absurd h hp

theorem lenSha_ne {x y : Bytes} (hx : x.length ≠ 64) (hy : y.length ≠ 64)
    (h : UInt8.ofNat x.length ≠ UInt8.ofNat y.length ∨ x.getLastD 0 ≠ y.getLastD 0) :
    fromBytes x ≠ fromBytes y := by
  rw [fromBytes_of_ne hx, fromBytes_of_ne hy]
  intro h'
  have := congrArg Hash.bytes h'
  simp only [Sha512.sum, List.cons_append, List.nil_append, List.cons.injEq] at this
  rcases h with h | h
  · exact h this.2.2.2.1
  · exact h this.2.2.2.2.1

theorem exec_get {α β : Type} {g : Store → Outcome α} {f : α → Prog β} {σ : Store} {a : α}
    (h : g σ = .ok a) : ((Prog.get g).bind f).exec σ = (f a).exec σ := by
  simp only [Prog.get, Prog.bind, Prog.exec, h]

/-- C51, C46: the link miner on a store with a retrievable chain extends a link of index 7 by one
of index 0, in a new file. -/
example : ∃ (E : MinerEnv) (σ σ' : Store) (prev next p q : Bytes) (js : JTrLink) (jm : JTrMined),
    Run (mineLink E prev next) σ (some (.ok ())) σ' ∧ σ'.links p ≠ σ.links p ∧
    σ'.links p = some (.json js) ∧ σ'.minedLinks q ≠ σ.minedLinks q ∧
    σ'.minedLinks q = some (.json jm) ∧ ∃ h prevLink, fromString prev = .ok h ∧
    retrMinedLink σ h = .ok prevLink ∧ prevLink.link.index = 7 := by
  obtain ⟨σ, c, t, hc, g1, g2, g3, hk, hb, htr, nl, nm, nb, f4, f5, kB, -⟩ := toy_mining_store
  let E : MinerEnv := ⟨1, ⟨false, fun _ => 0⟩, 0, 0⟩
  obtain ⟨l, hl⟩ : ∃ l, linkNow (some c.head.hash) (some c.head.link.next) 0 0 = .ok l :=
    ⟨_, linkNow_eq_ok.mpr ⟨_, _, rfl, rfl, rfl⟩⟩
  obtain ⟨m, hm⟩ : ∃ m, minedLinkNow (some l) [48] 0 = .ok m :=
    ⟨_, minedLinkNow_eq_ok.mpr ⟨_, rfl, rfl⟩⟩
  obtain ⟨_, _, i1, i2, hl'⟩ := linkNow_eq_ok.mp hl
  cases i1; cases i2
  obtain ⟨_, i1, hm'⟩ := minedLinkNow_eq_ok.mp hm
  cases i1
  obtain ⟨⟨-, _, _, _, _, hkl⟩, -, _, _, _, hkm⟩ := kB
  obtain ⟨p', n', -, -, hkl⟩ := linkNow_eq_ok.mp hkl
  obtain ⟨_, -, hkm⟩ := minedLinkNow_eq_ok.mp hkm
  have i0 : itoaU 0 = [48] := by simp [itoaU, itoa, toInt, natDec]
  have i7 : itoaU 7 = [55] := by simp [itoaU, itoa, toInt, natDec]
  have hlne : l.hash.str ≠ c.head.link.hash.str := by
    intro h
    have h := Hash.str_injective h
    have e1 : l.hash = fromBytes (c.head.hash.bytes ++ (c.head.link.next.hash.bytes ++ [48])) := by
      rw [hl', i0]
    have e2 : c.head.link.hash = fromBytes (p'.bytes ++ (n'.hash.bytes ++ [55])) := by
      have : itoaU c.head.link.index = [55] := by rw [f4, i7]
      rw [hkl] at this ⊢
      simp only at this ⊢
      rw [this]
    rw [e1, e2] at h
    refine lenSha_ne ?_ ?_ (.inr ?_) h
    · simp [Hash.len]
    · simp [Hash.len]
    · simp
  have hmne : m.hash.str ≠ c.head.hash.str := by
    intro h
    have h := Hash.str_injective h
    have e1 : m.hash = fromBytes (l.hash.bytes ++ [48]) := by rw [hm']
    have e2 : c.head.hash = fromBytes (c.head.link.hash.bytes ++ [48, 49]) := by
      have := f5
      rw [hkm] at this ⊢
      simp only at this ⊢
      rw [this]
    rw [e1, e2] at h
    refine lenSha_ne ?_ ?_ (.inl ?_) h
    · simp [Hash.len]
    · simp [Hash.len]
    · simp only [List.length_append, Hash.len]; decide
  have hmk : (makeMinedLink E c.head.hash.str c.head.link.next.hash.str).exec σ = (.ok m, σ) := by
    rw [makeMinedLink, exec_get hc, fromString_str, fromString_str]
    simp only [Prog.lift, Prog.bind]
    rw [exec_get hk, exec_get hb]
    simp only [E, hl, Prog.bind, lenSha_works l.hash c.genesis.link (by rw [g3]; decide), hm,
      Prog.exec]
  have hsl : (saveLink l).exec σ = (.ok (), { σ with
      links := setFile σ.links l.hash.str (.json ⟨l.hash.str, l.prevLink.str, l.next.hash.str,
        l.index, l.createdOn⟩) }) := by
    obtain ⟨w, e1⟩ : ∃ w, retrLink σ l.hash = .err w :=
      ⟨"no such file or directory", by simp [retrLink, nl _ hlne, readCell]⟩
    have e2 : retrBlock σ l.next.hash = .ok c.head.link.next := by rw [hl']; exact hb
    rw [saveLink, unlessFound]
    simp only [Prog.exec, e1]
    rw [saveBlock, unlessFound]
    simp only [Prog.bind, Prog.exec, e2]
    rfl
  obtain ⟨w, e3⟩ : ∃ w, retrMinedLink σ m.hash = .err w :=
    ⟨"no such file or directory", by simp [retrMinedLink, nm _ hmne, readCell]⟩
  have hml : m.link = l := by rw [hm']
  rw [← hml] at hsl
  have hx : (mineLink E c.head.hash.str c.head.link.next.hash.str).exec σ =
      (.ok (), { σ with
        links := setFile σ.links m.link.hash.str (.json ⟨m.link.hash.str, m.link.prevLink.str,
          m.link.next.hash.str, m.link.index, m.link.createdOn⟩)
        minedLinks := setFile σ.minedLinks m.hash.str (.json ⟨m.hash.str, m.link.hash.str, jsonText m.mining,
          m.createdOn⟩) }) := by
    rw [mineLink, exec_bind_ok (by rw [hmk]), hmk, saveMinedLink, unlessFound]
    simp only [Prog.exec, e3]
    rw [exec_bind_ok (by rw [hsl]), hsl]
    rfl
  have hr := Run.of_exec (mineLink E c.head.hash.str c.head.link.next.hash.str) σ
  rw [hx] at hr
  rw [← hml] at hlne
  refine ⟨E, σ, _, _, _, m.link.hash.str, m.hash.str, _, _, hr, ?_, by simp [setFile]; rfl, ?_,
    by simp [setFile]; rfl, _, _, fromString_str _, hk, f4⟩
  · simp [setFile, nl _ hlne]
  · simp [setFile, nm _ hmne]

/-- C46: the block miner on the same store writes a new mined block file, for two transactions and
difficulty 2. -/
example : ∃ (E : MinerEnv) (σ σ' : Store) (trx : List Bytes) (p : Bytes) (jm : JTrMined) (c : Chain),
    Run (mineBlock E trx) σ (some (.ok ())) σ' ∧ σ'.minedBlocks p ≠ σ.minedBlocks p ∧
    σ'.minedBlocks p = some (.json jm) ∧ retrChain σ = .ok c ∧
    (E.difficulty c.genesis trx.length).toNat = 2 := by
  obtain ⟨σ, c, t, hc, g1, g2, g3, hk, hb, htr, nl, nm, nb, f4, f5, kB, rB, e1, e2, e3, e4, e7⟩ :=
    toy_mining_store
  let E : MinerEnv := ⟨1, ⟨false, fun _ => 0⟩, 0, 0⟩
  have hd : (E.difficulty c.genesis 2).toNat = 2 := by
    have h1 : (1 : UInt64).toNat = 1 := rfl
    simp only [MinerEnv.difficulty, g2, g1, E]
    have := C50_difficulty_exact ⟨false, fun _ => 0⟩ 1 1 1 2 (by norm_num) (by norm_num) (by decide)
    simpa using this
  obtain ⟨b, hb'⟩ : ∃ b, blockNow (some c.genesis) 0 (some [t, t]) 0 = .ok b :=
    ⟨_, blockNow_eq_ok.mpr ⟨_, _, rfl, rfl, by simp, rfl⟩⟩
  obtain ⟨m, hm⟩ : ∃ m, minedBlockNow (some b) [48] 0 = .ok m :=
    ⟨_, minedBlockNow_eq_ok.mpr ⟨_, rfl, rfl⟩⟩
  obtain ⟨_, _, i1, i2, -, hbe⟩ := blockNow_eq_ok.mp hb'
  cases i1; cases i2
  obtain ⟨_, i1, hm'⟩ := minedBlockNow_eq_ok.mp hm
  cases i1
  obtain ⟨bB, -, _, _, _, hr⟩ := rB
  obtain ⟨_, -, hr⟩ := minedBlockNow_eq_ok.mp hr
  have hmne : m.hash.str ≠ c.root.hash.str := by
    intro h
    have h := Hash.str_injective h
    have e1 : m.hash = fromBytes (b.hash.bytes ++ [48]) := by rw [hm']
    have e2 : c.root.hash = fromBytes (c.root.block.hash.bytes ++ [48, 50]) := by
      have := e2
      rw [hr] at this ⊢
      simp only at this ⊢
      rw [this]
    rw [e1, e2] at h
    refine lenSha_ne ?_ ?_ (.inl ?_) h
    · simp [Hash.len]
    · simp [Hash.len]
    · simp only [List.length_append, Hash.len]; decide
  have hmk : (makeMinedBlock E [t.hash.str, t.hash.str]).exec σ = (.ok m, σ) := by
    have h1 : mapO fromString [t.hash.str, t.hash.str] = .ok [t.hash, t.hash] := by simp [mapO]
    rw [makeMinedBlock, h1]
    simp only [Prog.lift, Prog.bind]
    rw [exec_get (a := [t, t]) (by simp [mapO, htr]), exec_get hc]
    have := lenSha_works b.hash (E.difficulty c.genesis 2) (by rw [hd]; decide)
    simp only [E] at this
    simp only [E, hb', Prog.bind, hm, Prog.exec, List.length_cons, List.length_nil, this]
  have hbh : b.hash = c.root.block.hash := by
    have h1 : b.hash = fromBytes (c.genesis.hash.bytes ++ (itoaU 0 ++
        hashesBytes ([t, t].map Transaction.hash))) := by rw [hbe]
    obtain ⟨-, -, _, n, _, _, h2⟩ := bB
    obtain ⟨g', x', -, -, -, h2⟩ := blockNow_eq_ok.mp h2
    have h3 : n = 4 := by rw [h2] at e7; exact e7
    have h4 : x' = [t, t] := by rw [h2] at e1; exact e1
    have h5 : g' = c.genesis := by rw [h2] at e4; exact e4.symm
    have h6 : c.root.block.hash = fromBytes (c.genesis.hash.bytes ++ (itoaU 4 ++
        hashesBytes ([t, t].map Transaction.hash))) := by
      rw [h2, h3, h4, h5]
    have i0 : itoaU 0 = [48] := by simp [itoaU, itoa, toInt, natDec]
    have i4 : itoaU 4 = [52] := by simp [itoaU, itoa, toInt, natDec]
    have n0 : ∀ x : UInt8, (c.genesis.hash.bytes ++ ([x] ++
        hashesBytes ([t, t].map Transaction.hash))).length = 193 := by
      intro x
      simp [hashesBytes, Hash.len]
    have n1 : ∀ x : UInt8, (c.genesis.hash.bytes ++ ([x] ++
        hashesBytes ([t, t].map Transaction.hash))).getLastD 0 = t.hash.bytes.getLastD 0 := by
      intro x
      have : t.hash.bytes ≠ [] := by
        intro h
        have := t.hash.len
        rw [h] at this
        cases this
      have e : c.genesis.hash.bytes ++ ([x] ++ hashesBytes ([t, t].map Transaction.hash)) =
          (c.genesis.hash.bytes ++ [x] ++ t.hash.bytes) ++ t.hash.bytes := by simp [hashesBytes]
      rw [e, List.getLastD_eq_getLast?, List.getLast?_append, List.getLast?_eq_some_getLast this,
        List.getLastD_eq_getLast?, List.getLast?_eq_some_getLast this]
      rfl
    rw [h1, h6, i0, i4, fromBytes_of_ne (by rw [n0]; decide), fromBytes_of_ne (by rw [n0]; decide)]
    simp only [Sha512.sum, n0, n1]
  have e5 : retrBlock σ m.block.hash = .ok c.root.block := by
    rw [hm', hbh, ← e3]; exact hb
  obtain ⟨w, e6⟩ : ∃ w, retrMinedBlock σ m.hash = .err w :=
    ⟨"no such file or directory", by simp [retrMinedBlock, nb _ hmne, readCell]⟩
  have hx : (mineBlock E [t.hash.str, t.hash.str]).exec σ =
      (.ok (), { σ with
        minedBlocks := setFile σ.minedBlocks m.hash.str (.json ⟨m.hash.str, m.block.hash.str, jsonText m.mining,
          m.createdOn⟩) }) := by
    rw [mineBlock, exec_bind_ok (by rw [hmk]), hmk, saveMinedBlock, unlessFound]
    simp only [Prog.exec, e6]
    rw [saveBlock, unlessFound]
    simp only [Prog.bind, Prog.exec, e5]
    rfl
  have hr := Run.of_exec (mineBlock E [t.hash.str, t.hash.str]) σ
  rw [hx] at hr
  refine ⟨E, σ, _, _, m.hash.str, _, c, hr, ?_, by simp [setFile]; rfl, hc, hd⟩
  simp [setFile, nb _ hmne]

/-- C80: a settled history that inserts a chain of the one genesis: the chain file is there, and no
miner can work on it. -/
example : ∃ (W : World) (σ : Store), W.Good id ∧ W.OneGenesis id ∧ Settled W σ ∧
    ∃ js, σ.chain = some (.json js) := by
  obtain ⟨W, x, t, b, r, k, G, O, hx, ht, hg, hb, hr, hk, hcan, e1, e2, e3, e4, -⟩ := toy_world
  obtain ⟨d, hd⟩ : ∃ y, chainNow (some b.genesis) (some r) (some k) 4 0 = .ok y :=
    ⟨_, chainNow_eq_ok.mpr ⟨_, _, _, rfl, rfl, rfl, by simp [e3, e4, e2], rfl⟩⟩
  obtain ⟨_, _, _, i1, i2, i3, -, hd'⟩ := chainNow_eq_ok.mp hd
  cases i1; cases i2; cases i3
  have hdB : d.Built := ⟨by rw [hd']; exact G.genesis_built _ hg, by rw [hd']; exact G.minedBlock_built _ hr,
    by rw [hd']; exact G.minedLink_built _ hk, _, _, _, _, _, hd⟩
  have hin : (Op.insert d).In W := by
    rw [hd']
    exact ⟨hg, hr, hk⟩
  have hrun := Run.of_exec (insertChain d) .empty
  refine ⟨W, _, G, O, Settled.empty.step hin (fun _ _ h => by cases h) hrun, ?_⟩
  obtain ⟨w, h0⟩ : ∃ w, retrChain .empty = .err w := ⟨_, rfl⟩
  simp only [insertChain, unlessFound, Prog.exec, h0]
  have s1 := saveGenesis_exec G (Honest.empty W) hin.1 ⟨_, rfl⟩
  have H1 := (saveGenesis_honest G (Honest.empty W) hin.1).exec.1
  rw [exec_bind_ok s1]
  have s2 := saveMinedBlock_exec G O H1 hin.2.1
  have H2 := (saveMinedBlock_stays G H1 hin.2.1).exec.1
  rw [exec_bind_ok s2, saveChain, exec_bind_ok (saveMinedLink_exec G O H2 hin.2.2)]
  have : d.toTransfer = .ok ⟨d.hash, d.genesis.hash, d.root.hash, d.head.hash, d.total,
    d.createdOn⟩ := trChainNow_eq_ok.mpr ⟨chain_total_pos G hdB hin.2.1 hin.2.2, rfl⟩
  rw [this]
  exact ⟨_, rfl⟩

end examples

end Verif
