import Verif.Model.Store.Concurrent

/-!
# Calls that run at the same time: what every service relies on and guarantees
-/

namespace Verif

section
variable [Sha512] [C : Curve] {α : Type}

/-- A condition on the files and a result that stays true when more files are complete. -/
def Up (Q : Cov → Outcome α → Prop) : Prop := ∀ K K' o, (∀ g, K g → K' g) → Q K o → Q K' o

/-- Whatever other calls do between the steps of the program, as long as they only add to the
complete files `K`: every write is for an object of the world whose references are in `K`, and the
program ends with `Q`. -/
def Safe (W : World) (Q : Cov → Outcome α → Prop) : Prog α → Cov → Prop
  | .ret o, K => Q K o
  | .look f, K => ∀ K' : Cov, (∀ g, K g → K' g) → K'.Closed W → ∀ σ, Honest W σ →
      (∀ g, σ.whole g → K' g) → Safe W Q (f σ) K'
  | .write d t k, K =>
      (∃ f, Tracked W d t f ∧
        (∀ K' : Cov, (∀ g, K g → K' g) → K'.Closed W → Cov.Closed W fun g => K' g ∨ g = f) ∧
        Safe W Q (k true) fun g => K g ∨ g = f) ∨
      (Untracked W d t ∧ Safe W Q (k true) K)

variable {W : World}

theorem Safe.mono {Q : Cov → Outcome α → Prop} (u : Up Q) {p : Prog α} :
    ∀ {K K' : Cov}, Safe W Q p K → (∀ g, K g → K' g) → Safe W Q p K' := by
  induction p with
  | ret o => intro K K' h hK; exact u _ _ _ hK h
  | look f ih => intro K K' h hK K'' hK'; exact h K'' fun g hg => hK' g (hK g hg)
  | write d t k ih =>
    intro K K' h hK
    refine h.imp (fun ⟨f, ht, hc, hs⟩ => ⟨f, ht, fun K'' hK' => hc K'' fun g hg => hK' g (hK g hg),
      ih true hs fun g => .imp (hK g) id⟩) fun ⟨hu, hs⟩ => ⟨hu, ih true hs hK⟩

theorem Safe.imp {Q Q' : Cov → Outcome α → Prop} (hQ : ∀ K o, Q K o → Q' K o) {p : Prog α} :
    ∀ {K : Cov}, Safe W Q p K → Safe W Q' p K := by
  induction p with
  | ret o => intro K h; exact hQ _ _ h
  | look f ih => intro K h K' h1 h2 σ h3 h4; exact ih σ (h K' h1 h2 σ h3 h4)
  | write d t k ih =>
    intro K h
    exact Or.imp (fun ⟨f, ht, hc, hs⟩ => ⟨f, ht, hc, ih true hs⟩) (fun ⟨hu, hs⟩ => ⟨hu, ih true hs⟩) h

theorem Safe.carry {Q : Cov → Outcome α → Prop} {f : FileName} {p : Prog α} :
    ∀ {K : Cov}, Safe W Q p K → K f → Safe W (fun K o => Q K o ∧ K f) p K := by
  induction p with
  | ret o => intro K h hK; exact ⟨h, hK⟩
  | look g ih => intro K h hK K' h1 h2 σ h3 h4; exact ih σ (h K' h1 h2 σ h3 h4) (h1 f hK)
  | write d t k ih =>
    intro K h hK
    exact Or.imp (fun ⟨f, ht, hc, hs⟩ => ⟨f, ht, hc, ih true hs (.inl hK)⟩)
      (fun ⟨hu, hs⟩ => ⟨hu, ih true hs hK⟩) h

theorem Safe.bind {β : Type} {Q : Cov → Outcome α → Prop} {Q' : Cov → Outcome β → Prop}
    {p : Prog α} {f : α → Prog β} (he : ∀ K m, Q K (.err m) → Q' K (.err m))
    (hc : ∀ K c, Q K (.crash c) → Q' K (.crash c)) : ∀ {K : Cov}, Safe W Q p K →
    (∀ a K', (∀ g, K g → K' g) → Q K' (.ok a) → Safe W Q' (f a) K') → Safe W Q' (p.bind f) K := by
  induction p with
  | ret o =>
    intro K h hf
    cases o with
    | ok a => exact hf a K (fun _ h => h) h
    | err m => exact he _ _ h
    | crash c => exact hc _ _ h
  | look g ih =>
    intro K h hf K' h1 h2 σ h3 h4
    exact ih σ (h K' h1 h2 σ h3 h4) fun a K'' hK => hf a K'' fun g hg => hK g (h1 g hg)
  | write d t k ih =>
    intro K h hf
    exact Or.imp (fun ⟨f, ht, hc, hs⟩ => ⟨f, ht, hc, ih true hs fun a K' hK =>
      hf a K' fun g hg => hK g (.inl hg)⟩) (fun ⟨hu, hs⟩ => ⟨hu, ih true hs hf⟩) h

/-- The call returned nil and the file is complete. -/
def Saved (f : FileName) : Cov → Outcome Unit → Prop := fun K o => o = .ok () ∧ K f

omit [Sha512] C in
theorem Saved.up (f : FileName) : Up (Saved f) := fun _ _ _ h => .imp id (h f)

theorem Safe.bindSaved {f : FileName} {β : Type} {Q : Cov → Outcome β → Prop} {p : Prog Unit}
    {k : Unit → Prog β} {K : Cov} (h : Safe W (Saved f) p K)
    (hk : ∀ K', (∀ g, K g → K' g) → K' f → Safe W Q (k ()) K') : Safe W Q (p.bind k) K :=
  h.bind (fun _ _ h => by cases h.1) (fun _ _ h => by cases h.1) fun _ K' hK h => hk K' hK h.2

theorem Safe.forEach {γ : Type} {f : γ → Prog Unit} {n : γ → FileName} : ∀ {xs : List γ} {K : Cov},
    (∀ x ∈ xs, ∀ K, Safe W (Saved (n x)) (f x) K) →
      Safe W (fun K o => o = .ok () ∧ ∀ x ∈ xs, K (n x)) (Prog.forEach f xs) K
  | [], _, _ => ⟨rfl, by simp⟩
  | x :: xs, K, h => by
    refine (h x (by simp) K).bindSaved fun K' hK hx => ?_
    have := Safe.forEach (xs := xs) (K := K') fun y hy => h y (by simp [hy])
    have hup : Safe W (fun K o => (o = .ok () ∧ ∀ x ∈ xs, K (n x)) ∧ K (n x))
        (Prog.forEach f xs) K' := this.carry hx
    exact hup.imp fun K o h => ⟨h.1.1, by simpa using ⟨h.2, h.1.2⟩⟩

theorem Safe.unlessFound {β : Type} {f : Store → Outcome α} {rest : Prog Unit} {n : FileName}
    {v : α → β} {z : β} (hf : ∀ σ, Honest W σ → Fetch True (f σ) v z)
    (hn : ∀ σ x, f σ = .ok x → σ.whole n) {K : Cov}
    (hr : ∀ K' : Cov, (∀ g, K g → K' g) → Safe W (Saved n) rest K') :
    Safe W (Saved n) (unlessFound f rest) K := by
  intro K' hK _ σ H hw
  rcases hf σ H with ⟨x, hx, -⟩ | ⟨-, m, hm⟩
  · simp only [hx]
    exact ⟨rfl, hw _ (hn σ x hx)⟩
  · simp only [hm]
    exact hr K' hK

theorem Safe.save {d t : Store → Store} {f : FileName} {K : Cov} (ht : Tracked W d t f)
    (hc : ∀ K' : Cov, (∀ g, K g → K' g) → K'.Closed W → Cov.Closed W fun g => K' g ∨ g = f) :
    Safe W (Saved f) (Prog.save d t) K :=
  .inl ⟨f, ht, hc, rfl, .inr rfl⟩

/-! ## The services -/

variable {e : Time → Time}

omit [Sha512] C in
theorem whole_of_read {β : Type} {c : Option (Cell α)} {f : α → Outcome β} {x : β}
    (hx : (readCell c >>= f) = .ok x) : Readable c := by
  obtain ⟨js, hjs, -⟩ := Outcome.bind_eq_ok.mp hx
  exact ⟨js, readCell_eq_ok.mp hjs⟩

omit C in
theorem bill_toTransfer {x : Bill} (hx : x.Built) : ∃ tr, x.toTransfer = .ok tr := by
  obtain ⟨-, l, a, t, h⟩ := hx
  obtain ⟨l, rfl, h1, rfl⟩ := billNow_eq_ok.mp h
  have h0 : a ≠ 0 := by rintro rfl; simp at h1
  exact ⟨_, trBillNow_eq_ok.mpr ⟨h0, rfl⟩⟩

theorem expense_toTransfer {x : Expense} (hx : x.Built) : ∃ tr, x.toTransfer = .ok tr := by
  obtain ⟨hc, c, sg, h⟩ := hx
  obtain ⟨c, sg, rfl, rfl, hf, rfl⟩ := expenseNow_eq_ok.mp h
  have hne : c.source ≠ [] := by
    obtain ⟨a, src, l, rem, t, h, -⟩ := hc
    obtain ⟨_, _, e1, -, h1, h2, -, rfl⟩ := contentNow_eq_ok.mp h
    cases e1
    rintro h0
    simp only at h0
    subst h0
    have h3 : (sourceTotal []).toNat = 0 := rfl
    omega
  refine ⟨_, trExpenseNow_eq_ok.mpr ⟨by simpa using hne, ?_, rfl⟩⟩
  rintro h0
  simp only at h0
  subst h0
  simp only [List.forall₂_nil_right_iff] at hf
  exact hne hf

theorem trx_toTransfer {x : Transaction} (hx : x.Built) (ha : x.address = none) :
    ∃ tr, x.toTransfer = .ok tr := by
  obtain ⟨-, -, a, b, f, t, h⟩ := hx
  obtain ⟨hne, rfl⟩ := trxNow_eq_ok.mp h
  simp only at ha
  subst ha
  exact ⟨_, trTransactionNow_eq_ok.mpr ⟨by simpa using hne, rfl⟩⟩

theorem saveLock_safe (G : W.Good e) (X : W.Exact) {x : Lock} (hx : W.lock x) (K : Cov) :
    Safe W (Saved (.lock x.hash.str)) (saveLock x) K := by
  refine Safe.unlessFound (n := .lock _) (fun σ H => H.lock G hx) (fun σ y h => whole_of_read h)
    fun K' hK => ?_
  obtain ⟨tr, htr⟩ : ∃ tr, x.toTransfer = .ok tr := ⟨_, rfl⟩
  have hf : x.file = .ok tr.toJSON := by simp [Lock.file, htr]
  rw [htr]
  cases htr
  exact Safe.save (tracked_lock X hx hf) fun K' _ hc => hc.add_lock

theorem saveBill_safe (G : W.Good e) (X : W.Exact) {x : Bill} (hx : W.bill x) (K : Cov) :
    Safe W (Saved (.bill x.hash.str)) (saveBill x) K := by
  refine Safe.unlessFound (n := .bill _) (fun σ H => H.bill G hx) (fun σ y h => whole_of_read h)
    fun K' _ => ?_
  refine (saveLock_safe G X (G.bill_lock x hx) K').bindSaved fun K₁ _ h1 => ?_
  obtain ⟨tr, htr⟩ := bill_toTransfer (G.bill_built x hx)
  have hf : x.file = .ok tr.toJSON := by simp [Bill.file, htr]
  rw [htr]
  obtain ⟨-, rfl⟩ := trBillNow_eq_ok.mp htr
  exact Safe.save (tracked_bill X hx hf) fun K' hK hc => hc.add_bill X hx (hK _ h1)

theorem saveExpense_safe (G : W.Good e) (X : W.Exact) {x : Expense} (hx : W.expense x) (K : Cov) :
    Safe W (Saved (.expense x.hash.str)) (saveExpense x) K := by
  refine Safe.unlessFound (n := .expense _) (fun σ H => H.expense G hx)
    (fun σ y h => whole_of_read h) fun K' _ => ?_
  refine Safe.bind (fun _ _ h => by cases h.1) (fun _ _ h => by cases h.1)
    (Safe.forEach (n := fun b => .bill b.hash.str) fun b hb K =>
      saveBill_safe G X (G.expense_source x hx b hb) K) fun _ K₁ _ h1 => ?_
  refine (saveBill_safe G X (G.expense_dest x hx) K₁).bindSaved fun K₂ k2 h2 => ?_
  refine Safe.bind (fun _ _ h => by cases h.1) (fun _ _ h => by cases h.1)
    (Safe.forEach (n := fun b => .bill b.hash.str) fun b hb K =>
      saveBill_safe G X (G.expense_remaining x hx b (by simpa using hb)) K) fun _ K₃ k3 h3 => ?_
  obtain ⟨tr, htr⟩ := expense_toTransfer (G.expense_built x hx)
  have hf : x.file = .ok tr.toJSON := by simp [Expense.file, htr]
  rw [htr]
  obtain ⟨-, -, rfl⟩ := trExpenseNow_eq_ok.mp htr
  exact Safe.save (tracked_expense X hx hf) fun K' hK hc => hc.add_expense X hx
    ⟨fun b hb => hK _ (k3 _ (k2 _ (h1.2 b hb))), hK _ (k3 _ h2),
      fun b hb => hK _ (h3.2 b (by simpa using hb))⟩

theorem saveTrx_safe (G : W.Good e) (X : W.Exact) {x : Transaction} (hx : W.trx x) (K : Cov) :
    Safe W (Saved (.trx x.hash.str)) (saveTrx x) K := by
  refine Safe.unlessFound (n := .trx _) (fun σ H => H.trx G hx)
    (fun σ y h => whole_of_read h) fun K' _ => ?_
  refine Safe.bind (fun _ _ h => by cases h.1) (fun _ _ h => by cases h.1)
    (Safe.forEach (n := fun b => .expense b.hash.str) fun b hb K =>
      saveExpense_safe G X (G.trx_fees x hx b hb) K) fun _ K₁ _ h1 => ?_
  obtain ⟨tr, htr⟩ := trx_toTransfer (G.trx_built x hx) (G.trx_address x hx)
  have hf : x.file = .ok tr.toJSON := by simp [Transaction.file, htr]
  rw [htr]
  obtain ⟨-, rfl⟩ := trTransactionNow_eq_ok.mp htr
  exact Safe.save (tracked_trx X hx hf) fun K' hK hc => hc.add_trx X hx fun b hb => hK _ (h1.2 b hb)

omit [Sha512] in
theorem World.Exact.one (X : W.Exact) : W.OneGenesis e := fun x y hx hy => by rw [X.genesis x y hx hy]

theorem saveBlock_safe (G : W.Good e) (X : W.Exact) {x : Block} (hx : W.block x) (K : Cov) :
    Safe W (Saved (.block x.hash.str)) (saveBlock x) K := by
  refine Safe.unlessFound (n := .block _) (fun σ H => H.block G X.one hx)
    (fun σ y h => whole_of_read h) fun K' _ => ?_
  refine Safe.bind (fun _ _ h => by cases h.1) (fun _ _ h => by cases h.1)
    (Safe.forEach (n := fun b => .trx b.hash.str) fun b hb K =>
      saveTrx_safe G X (G.block_trx x hx b hb) K) fun _ K₁ _ h1 => ?_
  obtain ⟨tr, htr⟩ := block_toTransfer (G.block_built x hx) (G.block_length x hx)
  have hf : x.file = .ok tr.toJSON := by simp [Block.file, htr]
  rw [htr]
  have hh : tr.hash = x.hash := by
    obtain ⟨t, ht1, ht2⟩ := Outcome.bind_eq_ok.mp htr
    obtain ⟨-, rfl⟩ := trBlockNow_eq_ok.mp ht2
    rfl
  show Safe W _ (Prog.save _ _) K₁
  rw [hh]
  exact Safe.save (tracked_block X hx hf) fun K' hK hc => hc.add_block X hx fun b hb => hK _ (h1.2 b hb)

theorem saveMinedBlock_safe (G : W.Good e) (X : W.Exact) {x : MinedBlock} (hx : W.minedBlock x)
    (K : Cov) : Safe W (Saved (.minedBlock x.hash.str)) (saveMinedBlock x) K := by
  refine Safe.unlessFound (n := .minedBlock _) (fun σ H => H.minedBlock G X.one hx)
    (fun σ y h => whole_of_read h) fun K' _ => ?_
  refine (saveBlock_safe G X (G.minedBlock_block x hx) K').bindSaved fun K₁ _ h1 => ?_
  exact Safe.save (tracked_minedBlock X hx rfl) fun K' hK hc => hc.add_minedBlock X hx (hK _ h1)

theorem saveLink_safe (G : W.Good e) (X : W.Exact) {x : Link} (hx : W.link x)
    (K : Cov) : Safe W (Saved (.link x.hash.str)) (saveLink x) K := by
  refine Safe.unlessFound (n := .link _) (fun σ H => H.link G X.one hx)
    (fun σ y h => whole_of_read h) fun K' _ => ?_
  refine (saveBlock_safe G X (G.link_next x hx) K').bindSaved fun K₁ _ h1 => ?_
  exact Safe.save (tracked_link X hx rfl) fun K' hK hc => hc.add_link X hx (hK _ h1)

theorem saveMinedLink_safe (G : W.Good e) (X : W.Exact) {x : MinedLink} (hx : W.minedLink x)
    (K : Cov) : Safe W (Saved (.minedLink x.hash.str)) (saveMinedLink x) K := by
  refine Safe.unlessFound (n := .minedLink _) (fun σ H => H.minedLink G X.one hx)
    (fun σ y h => whole_of_read h) fun K' _ => ?_
  refine (saveLink_safe G X (G.minedLink_link x hx) K').bindSaved fun K₁ _ h1 => ?_
  exact Safe.save (tracked_minedLink X hx rfl) fun K' hK hc => hc.add_minedLink X hx (hK _ h1)

/-- The call did not panic, and when it returned nil the genesis is complete. -/
def SavedGenesis : Cov → Outcome Unit → Prop := fun K o =>
  (∀ c, o ≠ .crash c) ∧ (o = .ok () → K .genesis)

theorem saveGenesis_safe (G : W.Good e) (X : W.Exact) {x : Genesis} (hx : W.genesis x) (K : Cov) :
    Safe W SavedGenesis (saveGenesis x) K := by
  intro K' _ _ σ H hw
  rcases H.genesis' G X.one hx with ⟨y, hy, -⟩ | ⟨-, m, hm⟩
  · simp only [hy]
    exact ⟨fun c h => (by cases h), fun h => (by cases h)⟩
  · simp only [hm]
    refine (saveBill_safe G X (G.genesis_bill x hx) K').bindSaved fun K₁ _ h1 => ?_
    have hm := G.genesis_marshals x hx
    obtain ⟨-, base, incr, link, b, t, h⟩ := G.genesis_built x hx
    obtain ⟨b, rfl, h2, h3, h4, rfl⟩ := genesisNow_eq_ok.mp h
    have htr : Genesis.toTransfer ⟨fromBytes (itoaU base ++ (fmtF12 incr ++ (itoaU link ++
      b.hash.bytes))), b, base, incr, link, t⟩ = .ok _ := trGenesisNow_eq_ok.mpr ⟨h2, h3, h4, rfl⟩
    have hj : TrGenesis.toJSON ⟨fromBytes (itoaU base ++ (fmtF12 incr ++ (itoaU link ++
      b.hash.bytes))), b.hash, base, incr, link, t⟩ = .ok _ := if_pos hm
    rw [htr]
    simp only [Prog.lift, Prog.bind, hj]
    refine .inl ⟨.genesis, tracked_genesis X hx (by
      simp only [Genesis.file, htr, Outcome.bind_ok, hj]),
      fun K' hK hc => hc.add_genesis X hx (hK _ h1), fun c h => (by cases h), fun _ => .inr rfl⟩

/-- Nothing is said about the result. -/
def Anyway {α : Type} : Cov → Outcome α → Prop := fun _ _ => True

theorem Safe.lift {β : Type} {o : Outcome α} {f : α → Prog β} {K : Cov}
    (h : ∀ a, Safe W Anyway (f a) K) : Safe W Anyway ((Prog.lift o).bind f) K := by
  cases o with
  | ok a => exact h a
  | err m => trivial
  | crash c => trivial

theorem Safe.anyway {Q : Cov → Outcome α → Prop} {p : Prog α} {K : Cov} (h : Safe W Q p K) :
    Safe W Anyway p K := h.imp fun _ _ _ => trivial

theorem Safe.andThen {β : Type} {p : Prog α} {f : α → Prog β} {K : Cov} (h : Safe W Anyway p K)
    (hf : ∀ a K', Safe W Anyway (f a) K') : Safe W Anyway (p.bind f) K :=
  h.bind (fun _ _ _ => trivial) (fun _ _ _ => trivial) fun a K' _ _ => hf a K'

theorem saveChain_safe (G : W.Good e) (X : W.Exact) {x : Chain} (hx : W.minedLink x.head) (K : Cov) :
    Safe W Anyway (saveChain x) K :=
  (saveMinedLink_safe G X hx K).anyway.andThen fun _ _ => Safe.lift fun _ =>
    .inr ⟨untracked_chain _, trivial⟩

/-- What the operation guarantees: a save returns nil and leaves its file complete. -/
def Op.Done : Op → Cov → Outcome Unit → Prop
  | .lock x => Saved (.lock x.hash.str)
  | .bill x => Saved (.bill x.hash.str)
  | .expense x => Saved (.expense x.hash.str)
  | .genesis _ => SavedGenesis
  | .trx x => Saved (.trx x.hash.str)
  | .block x => Saved (.block x.hash.str)
  | .minedBlock x => Saved (.minedBlock x.hash.str)
  | .link x => Saved (.link x.hash.str)
  | .minedLink x => Saved (.minedLink x.hash.str)
  | .insert _ | .update _ _ | .state _ => Anyway

omit [Sha512] in
theorem Op.Done.up (op : Op) : Up op.Done := by
  cases op
  case genesis => exact fun K K' o hK h => ⟨h.1, fun ho => hK _ (h.2 ho)⟩
  case insert | update | state => exact fun _ _ _ _ _ => trivial
  all_goals exact Saved.up _

theorem Op.safe (G : W.Good e) (X : W.Exact) {op : Op} (h : op.In W) (K : Cov) :
    Safe W op.Done op.prog K := by
  cases op with
  | lock x => exact saveLock_safe G X h K
  | bill x => exact saveBill_safe G X h K
  | expense x => exact saveExpense_safe G X h K
  | genesis x => exact saveGenesis_safe G X h K
  | trx x => exact saveTrx_safe G X h K
  | block x => exact saveBlock_safe G X h K
  | minedBlock x => exact saveMinedBlock_safe G X h K
  | link x => exact saveLink_safe G X h K
  | minedLink x => exact saveMinedLink_safe G X h K
  | insert c =>
    obtain ⟨h1, h2, h3⟩ := h
    intro K' _ _ σ _ _
    show Safe W Anyway _ K'
    beta_reduce
    cases retrChain σ with
    | ok y => trivial
    | crash c => trivial
    | err m =>
      exact (saveGenesis_safe G X h1 K').anyway.andThen fun _ K' =>
        (saveMinedBlock_safe G X h2 K').anyway.andThen fun _ K' => saveChain_safe G X h3 K'
  | update a b =>
    exact Safe.lift fun _ => Safe.lift fun _ => saveChain_safe G X h K
  | state s =>
    intro K' _ _ σ _ _
    have hs : Safe W Anyway ((Prog.lift s.toTransfer).bind fun tr =>
        .save (fun σ => { σ with
          states := setFile σ.states (statePath tr.chain tr.height) (.json tr.toJSON) })
        (fun σ => { σ with states := setFile σ.states (statePath tr.chain tr.height) .torn })) K' :=
      Safe.lift fun tr => .inr ⟨untracked_state _ _, trivial⟩
    show Safe W Anyway _ K'
    simp only
    split
    · split
      · trivial
      · exact hs
    · exact hs
    · trivial

end

end Verif
