import Verif.Model.Store.Calls
import Verif.Model.Store.Reads

/-!
# Calls that run at the same time: retrievals whose files were read at different moments
-/

namespace Verif

/-- The file replaced. -/
def Store.put (σ : Store) : (n : Spot) → Option (Cell n.Content) → Store
  | .lock p, c => { σ with locks := fun q => if q = p then c else σ.locks q }
  | .bill p, c => { σ with bills := fun q => if q = p then c else σ.bills q }
  | .expense p, c => { σ with expenses := fun q => if q = p then c else σ.expenses q }
  | .genesis, c => { σ with genesis := c }
  | .trx p, c => { σ with trxs := fun q => if q = p then c else σ.trxs q }
  | .block p, c => { σ with blocks := fun q => if q = p then c else σ.blocks q }
  | .minedBlock p, c => { σ with minedBlocks := fun q => if q = p then c else σ.minedBlocks q }
  | .link p, c => { σ with links := fun q => if q = p then c else σ.links q }
  | .minedLink p, c => { σ with minedLinks := fun q => if q = p then c else σ.minedLinks q }
  | .chain, c => { σ with chain := c }
  | .state p, c => { σ with states := fun q => if q = p then c else σ.states q }

theorem Store.put_same (σ : Store) (n : Spot) (c : Option (Cell n.Content)) :
    (σ.put n c).file n = c := by
  cases n <;> simp [Store.put, Store.file]

theorem Store.put_ne (σ : Store) {n m : Spot} (c : Option (Cell n.Content)) (h : m ≠ n) :
    (σ.put n c).file m = σ.file m := by
  cases n <;> cases m <;> simp_all [Store.put, Store.file] <;> rfl

/-- The place of one of the files that refer to each other. -/
def FileName.spot : FileName → Spot
  | .lock p => .lock p
  | .bill p => .bill p
  | .expense p => .expense p
  | .genesis => .genesis
  | .trx p => .trx p
  | .block p => .block p
  | .minedBlock p => .minedBlock p
  | .link p => .link p
  | .minedLink p => .minedLink p

theorem FileName.spot_inj {f g : FileName} (h : f.spot = g.spot) : f = g := by
  cases f <;> cases g <;> simp_all [FileName.spot]

theorem Store.whole_iff (σ : Store) (f : FileName) : σ.whole f ↔ Readable (σ.file f.spot) := by
  cases f <;> exact Iff.rfl

/-- The places of the files that refer to each other. -/
def Spot.Kept (n : Spot) : Prop := ∃ f : FileName, n = f.spot

section
variable [Sha512] [C : Curve] {W : World}

/-- The content was written for an object of the world. -/
def Spot.Honest (W : World) : (n : Spot) → n.Content → Prop
  | .lock p, js => ∃ y, W.lock y ∧ p = y.hash.str ∧ y.file = .ok js
  | .bill p, js => ∃ y, W.bill y ∧ p = y.hash.str ∧ y.file = .ok js
  | .expense p, js => ∃ y, W.expense y ∧ p = y.hash.str ∧ y.file = .ok js
  | .genesis, js => ∃ y, W.genesis y ∧ y.file = .ok js
  | .trx p, js => ∃ y, W.trx y ∧ p = y.hash.str ∧ y.file = .ok js
  | .block p, js => ∃ y, W.block y ∧ p = y.hash.str ∧ y.file = .ok js
  | .minedBlock p, js => ∃ y, W.minedBlock y ∧ p = y.hash.str ∧ y.file = .ok js
  | .link p, js => ∃ y, W.link y ∧ p = y.hash.str ∧ y.file = .ok js
  | .minedLink p, js => ∃ y, W.minedLink y ∧ p = y.hash.str ∧ y.file = .ok js
  | .chain, _ => True
  | .state _, _ => True

theorem honest_iff {σ : Store} :
    Honest W σ ↔ ∀ n a, σ.file n = some (.json a) → n.Honest W a := by
  constructor
  · intro H n a h
    cases n with
    | lock p => exact H.locks p a h
    | bill p => exact H.bills p a h
    | expense p => exact H.expenses p a h
    | genesis => exact H.genesis a h
    | trx p => exact H.trxs p a h
    | block p => exact H.blocks p a h
    | minedBlock p => exact H.minedBlocks p a h
    | link p => exact H.links p a h
    | minedLink p => exact H.minedLinks p a h
    | chain => trivial
    | state p => trivial
  · intro h
    exact ⟨fun p => h (.lock p), fun p => h (.bill p), fun p => h (.expense p), h .genesis,
      fun p => h (.trx p), fun p => h (.block p), fun p => h (.minedBlock p), fun p => h (.link p),
      fun p => h (.minedLink p)⟩

theorem Spot.Honest.unique (X : W.Exact) {n : Spot} {a b : n.Content} (hn : n.Kept)
    (ha : n.Honest W a) (hb : n.Honest W b) : a = b := by
  have key {α : Type} {x y : Outcome α} {a b : α} (e : x = y) (h1 : x = .ok a) (h2 : y = .ok b) :
      a = b := by rw [h1, h2] at e; cases e; rfl
  obtain ⟨f, rfl⟩ := hn
  cases f with
  | genesis =>
    obtain ⟨x, hx, h1⟩ := ha
    obtain ⟨y, hy, h2⟩ := hb
    exact key (by rw [X.genesis x y hx hy]) h1 h2
  | lock p =>
    obtain ⟨x, hx, hp, h1⟩ := ha
    obtain ⟨y, hy, hq, h2⟩ := hb
    exact key (by rw [X.lock x y hx hy (Hash.str_injective (hp.symm.trans hq))]) h1 h2
  | bill p =>
    obtain ⟨x, hx, hp, h1⟩ := ha
    obtain ⟨y, hy, hq, h2⟩ := hb
    exact key (by rw [X.bill x y hx hy (Hash.str_injective (hp.symm.trans hq))]) h1 h2
  | expense p =>
    obtain ⟨x, hx, hp, h1⟩ := ha
    obtain ⟨y, hy, hq, h2⟩ := hb
    exact key (by rw [X.expense x y hx hy (Hash.str_injective (hp.symm.trans hq))]) h1 h2
  | trx p =>
    obtain ⟨x, hx, hp, h1⟩ := ha
    obtain ⟨y, hy, hq, h2⟩ := hb
    exact key (by rw [X.trx x y hx hy (Hash.str_injective (hp.symm.trans hq))]) h1 h2
  | block p =>
    obtain ⟨x, hx, hp, h1⟩ := ha
    obtain ⟨y, hy, hq, h2⟩ := hb
    exact key (by rw [X.block x y hx hy (Hash.str_injective (hp.symm.trans hq))]) h1 h2
  | minedBlock p =>
    obtain ⟨x, hx, hp, h1⟩ := ha
    obtain ⟨y, hy, hq, h2⟩ := hb
    exact key (by rw [X.minedBlock x y hx hy (Hash.str_injective (hp.symm.trans hq))]) h1 h2
  | link p =>
    obtain ⟨x, hx, hp, h1⟩ := ha
    obtain ⟨y, hy, hq, h2⟩ := hb
    exact key (by rw [X.link x y hx hy (Hash.str_injective (hp.symm.trans hq))]) h1 h2
  | minedLink p =>
    obtain ⟨x, hx, hp, h1⟩ := ha
    obtain ⟨y, hy, hq, h2⟩ := hb
    exact key (by rw [X.minedLink x y hx hy (Hash.str_injective (hp.symm.trans hq))]) h1 h2

/-! ## Retrievals that read every other file at most once -/

omit [Sha512] C in
/-- All files that are read, after those in `S`, refer to each other or are read for the first time. -/
def Rd.Once {α : Type} : Rd α → (Spot → Prop) → Prop
  | .ret _, _ => True
  | .ask n k, S => (n.Kept ∨ ¬ S n) ∧ ∀ a, (k a).Once fun m => S m ∨ m = n

omit [Sha512] C in
/-- All files that are read refer to each other. -/
def Rd.Plain {α : Type} : Rd α → Prop
  | .ret _ => True
  | .ask n k => n.Kept ∧ ∀ a, (k a).Plain

omit [Sha512] C in
theorem Rd.Plain.once {α : Type} {r : Rd α} : ∀ {S : Spot → Prop}, r.Plain → r.Once S := by
  induction r with
  | ret o => intro S _; trivial
  | ask n k ih => intro S h; exact ⟨.inl h.1, fun a => ih a (h.2 a)⟩

omit [Sha512] C in
theorem Rd.Once.anti {α : Type} {r : Rd α} : ∀ {S T : Spot → Prop}, (∀ n, T n → S n) → r.Once S →
    r.Once T := by
  induction r with
  | ret o => intro S T _ _; trivial
  | ask n k ih =>
    intro S T hT h
    exact ⟨h.1.imp id fun h1 h2 => h1 (hT n h2), fun a => ih a (fun m => .imp (hT m) id) (h.2 a)⟩

omit [Sha512] C in
theorem Rd.Plain.bind {α β : Type} {r : Rd α} {f : α → Rd β} (h : r.Plain) (hf : ∀ a, (f a).Plain) :
    (r.bind f).Plain := by
  induction r with
  | ret o =>
    cases o with
    | ok a => exact hf a
    | err m => trivial
    | crash c => trivial
  | ask n k ih => exact ⟨h.1, fun a => ih a (h.2 a)⟩

omit [Sha512] C in
theorem Rd.Plain.all {β γ : Type} {f : γ → Rd β} (h : ∀ x, (f x).Plain) (xs : List γ) :
    (Rd.all f xs).Plain := by
  induction xs with
  | nil => trivial
  | cons x xs ih => exact (h x).bind fun _ => ih.bind fun _ => trivial

omit [Sha512] C in
theorem Rd.Plain.opt {β γ : Type} {f : γ → Rd β} (h : ∀ x, (f x).Plain) (x : Option γ) :
    (Rd.opt f x).Plain := by
  cases x with
  | none => trivial
  | some x => exact (h x).bind fun _ => trivial

omit [Sha512] C in
theorem Rd.Plain.ret {α : Type} (o : Outcome α) : (Rd.ret o).Plain := trivial

omit [Sha512] C in
theorem Rd.Plain.file (f : FileName) : (Rd.file f.spot).Plain := ⟨⟨f, rfl⟩, fun _ => trivial⟩

omit C in
theorem readLock_plain (h : Hash) : (readLock h).Plain :=
  (Rd.Plain.file (.lock _)).bind fun _ => (Rd.Plain.ret _).bind fun _ => .ret _

omit C in
theorem readBill_plain (h : Hash) : (readBill h).Plain :=
  (Rd.Plain.file (.bill _)).bind fun _ => (Rd.Plain.ret _).bind fun _ =>
    (readLock_plain _).bind fun _ => .ret _

omit C in
theorem readGenesis_plain : readGenesis.Plain :=
  (Rd.Plain.file .genesis).bind fun _ => (Rd.Plain.ret _).bind fun _ =>
    (readBill_plain _).bind fun _ => .ret _

theorem readExpense_plain (h : Hash) : (readExpense h).Plain :=
  (Rd.Plain.file (.expense _)).bind fun _ => (Rd.Plain.ret _).bind fun _ =>
    (Rd.Plain.all readBill_plain _).bind fun _ => (readBill_plain _).bind fun _ =>
    (Rd.Plain.opt readBill_plain _).bind fun _ => (Rd.Plain.ret _).bind fun _ => .ret _

theorem readTrx_plain (h : Hash) : (readTrx h).Plain :=
  (Rd.Plain.file (.trx _)).bind fun _ => (Rd.Plain.ret _).bind fun _ =>
    (Rd.Plain.all readExpense_plain _).bind fun _ => .ret _

theorem readBlock_plain (h : Hash) : (readBlock h).Plain :=
  (Rd.Plain.file (.block _)).bind fun _ => (Rd.Plain.ret _).bind fun _ =>
    readGenesis_plain.bind fun _ => (Rd.Plain.ret _).bind fun _ =>
    (Rd.Plain.all readTrx_plain _).bind fun _ => .ret _

theorem readMinedBlock_plain (h : Hash) : (readMinedBlock h).Plain :=
  (Rd.Plain.file (.minedBlock _)).bind fun _ => (Rd.Plain.ret _).bind fun _ =>
    (readBlock_plain _).bind fun _ => .ret _

theorem readLink_plain (h : Hash) : (readLink h).Plain :=
  (Rd.Plain.file (.link _)).bind fun _ => (Rd.Plain.ret _).bind fun _ =>
    (readBlock_plain _).bind fun _ => .ret _

theorem readMinedLink_plain (h : Hash) : (readMinedLink h).Plain :=
  (Rd.Plain.file (.minedLink _)).bind fun _ => (Rd.Plain.ret _).bind fun _ =>
    (readLink_plain _).bind fun _ => .ret _

theorem Query.once (q : Query) : q.reads.Once fun _ => False := by
  cases q with
  | lock h => exact (readLock_plain h).once
  | bill h => exact (readBill_plain h).once
  | expense h => exact (readExpense_plain h).once
  | genesis => exact readGenesis_plain.once
  | trx h => exact (readTrx_plain h).once
  | block h => exact (readBlock_plain h).once
  | minedBlock h => exact (readMinedBlock_plain h).once
  | link h => exact (readLink_plain h).once
  | minedLink h => exact (readMinedLink_plain h).once
  | chain =>
    refine ⟨.inr id, fun a => Rd.Plain.once ?_⟩
    exact (Rd.Plain.ret (.ok a)).bind fun _ => (Rd.Plain.ret _).bind fun _ =>
      readGenesis_plain.bind fun _ => (Rd.Plain.ret _).bind fun _ =>
      (readMinedBlock_plain _).bind fun _ => (readMinedLink_plain _).bind fun _ => .ret _
  | state c n =>
    refine ⟨.inr id, fun a => Rd.Plain.once ?_⟩
    exact (Rd.Plain.ret (.ok a)).bind fun _ => (Rd.Plain.ret _).bind fun _ =>
      (Rd.Plain.ret _).bind fun _ => (Rd.Plain.all readTrx_plain _).bind fun _ => .ret _

/-! ## The result is that of a retrieval from one store -/

omit [Sha512] C in
theorem readCell_no_crash {α : Type} (c : Option (Cell α)) (x : Crash) : readCell c ≠ .crash x := by
  unfold readCell
  split <;> simp

/-- As `Safe`, in the middle of a retrieval. -/
def SafeRd (W : World) {α β : Type} (Q : Cov → Outcome β → Prop) (k : Outcome α → Prog β) :
    Rd α → Cov → Prop
  | .ret o, K => Safe W Q (k o) K
  | .ask n r, K => ∀ K' : Cov, (∀ g, K g → K' g) → K'.Closed W → ∀ σ, Honest W σ →
      (∀ g, σ.whole g → K' g) →
        (∀ a, readCell (σ.file n) = .ok a → SafeRd W Q k (r a) K') ∧
        ∀ m, readCell (σ.file n) = .err m → Safe W Q (k (.err m)) K'

theorem SafeRd.mono {α β : Type} {Q : Cov → Outcome β → Prop} (u : Up Q) {k : Outcome α → Prog β}
    {r : Rd α} {K K' : Cov} (h : SafeRd W Q k r K) (hK : ∀ g, K g → K' g) : SafeRd W Q k r K' := by
  cases r with
  | ret o => exact Safe.mono u h hK
  | ask n r => exact fun K'' hK' => h K'' fun g hg => hK' g (hK g hg)

theorem honest_put {σ : Store} (H : Honest W σ) {n : Spot} {c : Option (Cell n.Content)}
    (h : ∀ a, c = some (.json a) → n.Honest W a) : Honest W (σ.put n c) := by
  rw [honest_iff] at H ⊢
  intro m a hm
  by_cases e : m = n
  · subst e
    rw [Store.put_same] at hm
    exact h a hm
  · rw [Store.put_ne _ _ e] at hm
    exact H m a hm

omit [Sha512] C in
theorem whole_put {σ : Store} {n : Spot} {c : Option (Cell n.Content)} {K : Cov}
    (h : ∀ g, σ.whole g → K g) (hc : ∀ g : FileName, g.spot = n → Readable c → K g) :
    ∀ g, (σ.put n c).whole g → K g := by
  intro g hg
  rw [Store.whole_iff] at hg
  by_cases e : g.spot = n
  · subst e
    rw [Store.put_same] at hg
    exact hc g rfl hg
  · rw [Store.put_ne _ _ e] at hg
    exact h g ((Store.whole_iff σ g).mpr hg)

theorem SafeRd.of_views (X : W.Exact) {α β : Type} {Q : Cov → Outcome β → Prop}
    {k : Outcome α → Prog β} {r₀ : Rd α} {K₀ : Cov}
    (H : Safe W Q (.look fun σ => k (r₀.run σ)) K₀) (r : Rd α) : ∀ (ρ : Store) (K : Cov),
    (∀ g, K₀ g → K g) → K.Closed W → Honest W ρ → (∀ g, ρ.whole g → K g) →
    r.Once (fun n => Readable (ρ.file n)) →
    (∀ σ : Store, (∀ n a, ρ.file n = some (.json a) → σ.file n = some (.json a)) →
      r₀.run σ = r.run σ) →
    (∀ (n : Spot) (m : String) (σ : Store), Readable (ρ.file n) →
      (∀ n', n' ≠ n → ∀ a, ρ.file n' = some (.json a) → σ.file n' = some (.json a)) →
      readCell (σ.file n) = .err m → r₀.run σ = .err m) → SafeRd W Q k r K := by
  induction r with
  | ret o =>
    intro ρ K hK hc hρ hw _ A _
    have h1 := H K hK hc ρ hρ hw
    beta_reduce at h1
    rwa [A ρ fun _ _ h => h] at h1
  | ask n r ih =>
    intro ρ K hK hc hρ hw ho A B K' hK' hc' σ hσ hw'
    constructor
    · intro a ha
      have ha' := readCell_eq_ok.mp ha
      have hon := honest_iff.mp hσ n a ha'
      have old (b) (hb : ρ.file n = some (.json b)) : b = a := by
        rcases ho.1 with h | h
        · exact Spot.Honest.unique X h (honest_iff.mp hρ n b hb) hon
        · exact absurd ⟨b, hb⟩ h
      have up (m b) (hb : ρ.file m = some (.json b)) :
          (ρ.put n (some (.json a))).file m = some (.json b) := by
        by_cases e : m = n
        · subst e
          rw [Store.put_same, old b hb]
        · rw [Store.put_ne _ _ e, hb]
      refine ih a (ρ.put n (some (.json a))) K' (fun g hg => hK' g (hK g hg)) hc'
        (honest_put hρ fun b hb => by cases hb; exact hon)
        (whole_put (fun g hg => hK' g (hw g hg)) fun g hg _ => hw' g ?_)
        ((ho.2 a).anti fun m hm => ?_) (fun σ₁ h1 => ?_) fun m msg σ₁ h1 h2 h3 => ?_
      · subst hg
        exact (Store.whole_iff σ g).mpr ⟨a, ha'⟩
      · by_cases e : m = n
        · exact .inr e
        · rw [Store.put_ne _ _ e] at hm
          exact .inl hm
      · rw [A σ₁ fun m b hb => h1 m b (up m b hb), Rd.run,
          readCell_eq_ok.mpr (h1 n a (Store.put_same ρ n _))]
      · by_cases e : Readable (ρ.file m)
        · exact B m msg σ₁ e (fun n' hn' b hb => h2 n' hn' b (up n' b hb)) h3
        · obtain rfl : m = n := by
            by_contra e'
            rw [Store.put_ne _ _ e'] at h1
            exact e h1
          rw [A σ₁ fun m' b hb => ?_, Rd.run, h3]
          refine h2 m' ?_ b (up m' b hb)
          rintro rfl
          exact e ⟨b, hb⟩
    · intro m hm
      have hbad : ¬ Readable (σ.file n) := by
        rintro ⟨a, ha⟩
        rw [readCell_eq_ok.mpr ha] at hm
        cases hm
      have hr : r₀.run (ρ.put n (σ.file n)) = .err m := by
        by_cases e : Readable (ρ.file n)
        · exact B n m _ e (fun n' hn' b hb => by rw [Store.put_ne _ _ hn', hb])
            (by rw [Store.put_same, hm])
        · rw [A _ fun m' b hb => ?_, Rd.run, Store.put_same, hm]
          rw [Store.put_ne, hb]
          rintro rfl
          exact e ⟨b, hb⟩
      have h1 := H K' (fun g hg => hK' g (hK g hg)) hc' (ρ.put n (σ.file n))
        (honest_put hρ fun b hb => absurd ⟨b, hb⟩ hbad)
        (whole_put (fun g hg => hK' g (hw g hg)) fun g _ h => absurd h hbad)
      beta_reduce at h1
      rwa [hr] at h1

theorem Safe.reads (X : W.Exact) {α β : Type} {Q : Cov → Outcome β → Prop}
    {k : Outcome α → Prog β} {r : Rd α} (hr : r.Once fun _ => False) {K : Cov} (hK : K.Closed W)
    (H : Safe W Q (.look fun σ => k (r.run σ)) K) : SafeRd W Q k r K := by
  have he (n : Spot) : ¬ Readable (Store.empty.file n) := by
    rintro ⟨a, ha⟩
    cases n <;> cases ha
  refine SafeRd.of_views X H r .empty K (fun _ h => h) hK (Honest.empty W) (fun g hg => ?_)
    (hr.anti fun n hn => he n hn) (fun _ _ => rfl) fun n _ _ h => absurd h (he n)
  exact absurd ((Store.whole_iff _ g).mp hg) (he _)

end

end Verif
