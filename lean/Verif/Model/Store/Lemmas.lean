import Verif.Model.Store.Services
import Verif.Model.Piastres.EntityLemmas

/-!
# Reasoning about programs over the store
-/

namespace Verif

variable {α β : Type}

theorem Run.bind_inv : ∀ {p : Prog α} {f : α → Prog β} {σ σ' : Store} {r : Option (Outcome β)},
    Run (p.bind f) σ r σ' →
      (r = none ∧ Run p σ none σ') ∨
      (∃ a σ₁, Run p σ (some (.ok a)) σ₁ ∧ Run (f a) σ₁ r σ') ∨
      (∃ m, r = some (.err m) ∧ Run p σ (some (.err m)) σ') ∨
      (∃ c, r = some (.crash c) ∧ Run p σ (some (.crash c)) σ') := by
  intro p
  induction p with
  | ret o =>
    intro f σ σ' r h
    cases o with
    | ok a => exact .inr (.inl ⟨a, σ, .ret _ _, h⟩)
    | err m =>
      cases h with
      | ret => exact .inr (.inr (.inl ⟨m, rfl, .ret _ _⟩))
      | killed => exact .inl ⟨rfl, .killed _ _⟩
    | crash c =>
      cases h with
      | ret => exact .inr (.inr (.inr ⟨c, rfl, .ret _ _⟩))
      | killed => exact .inl ⟨rfl, .killed _ _⟩
  | look g ih =>
    intro f σ σ' r h
    cases h with
    | killed => exact .inl ⟨rfl, .killed _ _⟩
    | look h =>
      rcases ih _ h with ⟨h1, h2⟩ | ⟨a, σ₁, h1, h2⟩ | ⟨m, h1, h2⟩ | ⟨c, h1, h2⟩
      · exact .inl ⟨h1, .look h2⟩
      · exact .inr (.inl ⟨a, σ₁, .look h1, h2⟩)
      · exact .inr (.inr (.inl ⟨m, h1, .look h2⟩))
      · exact .inr (.inr (.inr ⟨c, h1, .look h2⟩))
  | write d t k ih =>
    intro f σ σ' r h
    cases h with
    | killed => exact .inl ⟨rfl, .killed _ _⟩
    | written h =>
      rcases ih _ h with ⟨h1, h2⟩ | ⟨a, σ₁, h1, h2⟩ | ⟨m, h1, h2⟩ | ⟨c, h1, h2⟩
      · exact .inl ⟨h1, .written h2⟩
      · exact .inr (.inl ⟨a, σ₁, .written h1, h2⟩)
      · exact .inr (.inr (.inl ⟨m, h1, .written h2⟩))
      · exact .inr (.inr (.inr ⟨c, h1, .written h2⟩))
    | failed h =>
      rcases ih _ h with ⟨h1, h2⟩ | ⟨a, σ₁, h1, h2⟩ | ⟨m, h1, h2⟩ | ⟨c, h1, h2⟩
      · exact .inl ⟨h1, .failed h2⟩
      · exact .inr (.inl ⟨a, σ₁, .failed h1, h2⟩)
      · exact .inr (.inr (.inl ⟨m, h1, .failed h2⟩))
      · exact .inr (.inr (.inr ⟨c, h1, .failed h2⟩))
    | tornWrite h =>
      rcases ih _ h with ⟨h1, h2⟩ | ⟨a, σ₁, h1, h2⟩ | ⟨m, h1, h2⟩ | ⟨c, h1, h2⟩
      · exact .inl ⟨h1, .tornWrite h2⟩
      · exact .inr (.inl ⟨a, σ₁, .tornWrite h1, h2⟩)
      · exact .inr (.inr (.inl ⟨m, h1, .tornWrite h2⟩))
      · exact .inr (.inr (.inr ⟨c, h1, .tornWrite h2⟩))

/-- The run without faults is one of the runs. -/
theorem Run.of_exec : ∀ (p : Prog α) (σ : Store), Run p σ (some (p.exec σ).1) (p.exec σ).2 := by
  intro p
  induction p with
  | ret o => intro σ; exact .ret _ _
  | look f ih => intro σ; exact .look (ih σ σ)
  | write d t k ih => intro σ; exact .written (ih true (d σ))

/-- A program that writes nothing leaves the store alone in every run. -/
theorem Run.quiet : ∀ {p : Prog α} {σ σ' : Store} {r : Option (Outcome α)}, p.Quiet σ →
    Run p σ r σ' → σ' = σ ∧ (r = none ∨ r = some (p.exec σ).1) := by
  intro p
  induction p with
  | ret o =>
    intro σ σ' r _ h
    cases h with
    | ret => exact ⟨rfl, .inr rfl⟩
    | killed => exact ⟨rfl, .inl rfl⟩
  | look f ih =>
    intro σ σ' r hq h
    cases h with
    | killed => exact ⟨rfl, .inl rfl⟩
    | look h => exact ih σ hq h
  | write d t k ih => intro σ σ' r hq; exact absurd hq (by simp [Prog.Quiet])

theorem exec_bind (p : Prog α) (f : α → Prog β) (σ : Store) :
    (p.bind f).exec σ =
      match p.exec σ with
      | (.ok a, σ₁) => (f a).exec σ₁
      | (.err m, σ₁) => (.err m, σ₁)
      | (.crash c, σ₁) => (.crash c, σ₁) := by
  induction p generalizing σ with
  | ret o => cases o <;> rfl
  | look g ih => simp only [Prog.bind, Prog.exec]; exact ih σ σ
  | write d t k ih => simp only [Prog.bind, Prog.exec]; exact ih true (d σ)

/-- All runs of `p` from `σ` end in stores satisfying `I`, and satisfy `P` when `p` returns a value
without error. -/
def Spec (p : Prog α) (σ : Store) (I : Store → Prop) (P : α → Store → Prop) : Prop :=
  ∀ r σ', Run p σ r σ' → I σ' ∧ ∀ a, r = some (.ok a) → P a σ'

theorem Spec.mono {p : Prog α} {σ : Store} {I J : Store → Prop} {P Q : α → Store → Prop}
    (h : Spec p σ I P) (hI : ∀ σ', I σ' → J σ') (hP : ∀ a σ', I σ' → P a σ' → Q a σ') :
    Spec p σ J Q := fun r σ' hr =>
  ⟨hI _ (h r σ' hr).1, fun a ha => hP a _ (h r σ' hr).1 ((h r σ' hr).2 a ha)⟩

theorem Spec.and {p : Prog α} {σ : Store} {I J : Store → Prop} {P Q : α → Store → Prop}
    (h : Spec p σ I P) (h' : Spec p σ J Q) :
    Spec p σ (fun σ' => I σ' ∧ J σ') (fun a σ' => P a σ' ∧ Q a σ') := fun r σ' hr =>
  ⟨⟨(h r σ' hr).1, (h' r σ' hr).1⟩, fun a ha => ⟨(h r σ' hr).2 a ha, (h' r σ' hr).2 a ha⟩⟩

theorem Spec.ret {o : Outcome α} {σ : Store} {I : Store → Prop} {P : α → Store → Prop}
    (hI : I σ) (hP : ∀ a, o = .ok a → P a σ) : Spec (.ret o) σ I P := by
  intro r σ' h
  cases h with
  | ret => exact ⟨hI, fun a ha => hP a (by simpa using ha)⟩
  | killed => exact ⟨hI, fun a ha => by simp at ha⟩

theorem Spec.look {f : Store → Prog α} {σ : Store} {I : Store → Prop} {P : α → Store → Prop}
    (hI : I σ) (h : Spec (f σ) σ I P) : Spec (.look f) σ I P := by
  intro r σ' hr
  cases hr with
  | killed => exact ⟨hI, fun a ha => by simp at ha⟩
  | look hr => exact h _ _ hr

theorem Spec.save {d t : Store → Store} {σ : Store} {I : Store → Prop} {P : Unit → Store → Prop}
    (hI : I σ) (hd : I (d σ)) (ht : I (t σ)) (hP : P () (d σ)) : Spec (.save d t) σ I P := by
  intro r σ' hr
  cases hr with
  | killed => exact ⟨hI, fun a ha => by simp at ha⟩
  | written hr =>
    cases hr with
    | ret => exact ⟨hd, fun a _ => hP⟩
    | killed => exact ⟨hd, fun a ha => by simp at ha⟩
  | failed hr =>
    cases hr with
    | ret => exact ⟨hI, fun a ha => by simp at ha⟩
    | killed => exact ⟨hI, fun a ha => by simp at ha⟩
  | tornWrite hr =>
    cases hr with
    | ret => exact ⟨ht, fun a ha => by simp at ha⟩
    | killed => exact ⟨ht, fun a ha => by simp at ha⟩

theorem Spec.bind {p : Prog α} {f : α → Prog β} {σ : Store} {I : Store → Prop}
    {P : α → Store → Prop} {Q : β → Store → Prop} (h : Spec p σ I P)
    (hf : ∀ a σ₁, I σ₁ → P a σ₁ → Spec (f a) σ₁ I Q) : Spec (p.bind f) σ I Q := by
  intro r σ' hr
  rcases hr.bind_inv with ⟨h1, h2⟩ | ⟨a, σ₁, h1, h2⟩ | ⟨m, h1, h2⟩ | ⟨c, h1, h2⟩
  · subst h1
    exact ⟨(h _ _ h2).1, fun a ha => by simp at ha⟩
  · exact hf a σ₁ (h _ _ h1).1 ((h _ _ h1).2 a rfl) _ _ h2
  · subst h1
    exact ⟨(h _ _ h2).1, fun a ha => by simp at ha⟩
  · subst h1
    exact ⟨(h _ _ h2).1, fun a ha => by simp at ha⟩

theorem Spec.lift {o : Outcome α} {f : α → Prog β} {σ : Store} {I : Store → Prop}
    {Q : β → Store → Prop} (hI : I σ) (hf : ∀ a, o = .ok a → Spec (f a) σ I Q) :
    Spec ((Prog.lift o).bind f) σ I Q :=
  Spec.bind (P := fun a σ₁ => o = .ok a ∧ σ₁ = σ)
    (Spec.ret (I := I) hI fun a ha => ⟨ha, rfl⟩) fun a σ₁ _ h => by
      obtain ⟨h, rfl⟩ := h
      exact hf a h

theorem Spec.unlessFound {f : Store → Outcome α} {rest : Prog Unit} {σ : Store} {I : Store → Prop}
    {P : Unit → Store → Prop} (hI : I σ) (hfound : ∀ x, f σ = .ok x → P () σ)
    (hrest : (∃ m, f σ = .err m) → Spec rest σ I P) : Spec (unlessFound f rest) σ I P := by
  refine Spec.look hI ?_
  cases h : f σ with
  | ok x => exact Spec.ret hI fun _ _ => hfound x h
  | err m => exact hrest ⟨m, h⟩
  | crash c => exact Spec.ret hI fun a ha => by cases ha

/-- Loops: each step may use what the previous ones established. -/
theorem Spec.forEach {γ : Type} {f : γ → Prog Unit} {I : Store → Prop} {D : γ → Store → Prop} :
    ∀ {xs : List γ} {σ : Store}, I σ →
      (∀ x ∈ xs, ∀ σ₁, I σ₁ → Spec (f x) σ₁ I
        (fun _ σ₂ => D x σ₂ ∧ ∀ y ∈ xs, D y σ₁ → D y σ₂)) →
      Spec (Prog.forEach f xs) σ I (fun _ σ' => (∀ x ∈ xs, D x σ') ∧ ∀ y ∈ xs, D y σ → D y σ')
  | [], σ, hI, _ => Spec.ret hI fun _ _ => by simp
  | x :: xs, σ, hI, h => by
    refine Spec.bind (h x (by simp) σ hI) fun _ σ₁ hI₁ hD => ?_
    have key : ∀ (ys : List γ), (∀ y ∈ ys, y ∈ x :: xs) → ∀ σ₁, I σ₁ →
        Spec (Prog.forEach f ys) σ₁ I (fun _ σ' => (∀ y ∈ ys, D y σ') ∧
          ∀ y ∈ x :: xs, D y σ₁ → D y σ') := by
      intro ys
      induction ys with
      | nil => intro _ σ₁ hI₁; exact Spec.ret hI₁ fun _ _ => by simp
      | cons y ys ih =>
        intro hys σ₁ hI₁
        refine Spec.bind (h y (hys y (by simp)) σ₁ hI₁) fun _ σ₂ hI₂ hD₂ => ?_
        refine (ih (fun z hz => hys z (by simp [hz])) σ₂ hI₂).mono (fun _ h => h)
          fun _ σ₃ _ hD₃ => ?_
        refine ⟨fun z hz => ?_, fun z hz hz' => hD₃.2 z hz (hD₂.2 z hz hz')⟩
        rcases List.mem_cons.mp hz with rfl | hz
        · exact hD₃.2 _ (hys _ (by simp)) hD₂.1
        · exact hD₃.1 z hz
    refine (key xs (fun y hy => by simp [hy]) σ₁ hI₁).mono (fun _ h => h) fun _ σ' _ hD' => ?_
    refine ⟨fun z hz => ?_, fun z hz hz' => hD'.2 z hz (hD.2 z hz hz')⟩
    rcases List.mem_cons.mp hz with rfl | hz
    · exact hD'.2 _ (by simp) hD.1
    · exact hD'.1 z hz

/-- Loops with an invariant only. -/
theorem Spec.forEach_inv {γ : Type} {f : γ → Prog Unit} {I : Store → Prop} :
    ∀ {xs : List γ} {σ : Store}, I σ →
      (∀ x ∈ xs, ∀ σ₁, I σ₁ → Spec (f x) σ₁ I (fun _ _ => True)) →
      Spec (Prog.forEach f xs) σ I (fun _ _ => True)
  | [], σ, hI, _ => Spec.ret hI fun _ _ => trivial
  | x :: xs, σ, hI, h =>
    Spec.bind (h x (by simp) σ hI) fun _ σ₁ hI₁ _ =>
      Spec.forEach_inv hI₁ fun y hy => h y (by simp [hy])

theorem mapO_mono {α β : Type} {f g : α → Outcome β} (h : ∀ a y, f a = .ok y → g a = .ok y)
    {xs : List α} {ys : List β} (hx : mapO f xs = .ok ys) : mapO g xs = .ok ys := by
  rw [mapO_eq_ok] at hx ⊢
  exact hx.imp fun a y => h a y

theorem optO_mono {α β : Type} {f g : α → Outcome β} (h : ∀ a y, f a = .ok y → g a = .ok y)
    {x : Option α} {y : Option β} (hx : optO f x = .ok y) : optO g x = .ok y := by
  rw [optO_eq_ok] at hx ⊢
  rcases hx with hx | ⟨a, b, h1, h2, h3⟩
  · exact .inl hx
  · exact .inr ⟨a, b, h1, h2, h a b h3⟩

theorem readCell_eq_ok {α : Type} {c : Option (Cell α)} {a : α} :
    readCell c = .ok a ↔ c = some (.json a) := by
  unfold readCell
  split <;> simp_all

section
variable [Sha512] [C : Curve]

/-- The files of everything retrievable in `σ` are the same in `σ'`. -/
structure Keep (σ σ' : Store) : Prop where
  locks : ∀ h x, retrLock σ h = .ok x → σ'.locks h.str = σ.locks h.str
  bills : ∀ h x, retrBill σ h = .ok x → σ'.bills h.str = σ.bills h.str
  expenses : ∀ h x, retrExpense σ h = .ok x → σ'.expenses h.str = σ.expenses h.str
  genesis : ∀ x, retrGenesis σ = .ok x → σ'.genesis = σ.genesis
  trxs : ∀ h x, retrTrx σ h = .ok x → σ'.trxs h.str = σ.trxs h.str
  blocks : ∀ h x, retrBlock σ h = .ok x → σ'.blocks h.str = σ.blocks h.str
  minedBlocks : ∀ h x, retrMinedBlock σ h = .ok x → σ'.minedBlocks h.str = σ.minedBlocks h.str
  links : ∀ h x, retrLink σ h = .ok x → σ'.links h.str = σ.links h.str
  minedLinks : ∀ h x, retrMinedLink σ h = .ok x → σ'.minedLinks h.str = σ.minedLinks h.str

theorem Keep.refl (σ : Store) : Keep σ σ :=
  ⟨fun _ _ _ => rfl, fun _ _ _ => rfl, fun _ _ _ => rfl, fun _ _ => rfl, fun _ _ _ => rfl,
    fun _ _ _ => rfl, fun _ _ _ => rfl, fun _ _ _ => rfl, fun _ _ _ => rfl⟩

namespace Keep
variable {σ σ' : Store} (k : Keep σ σ')
include k

theorem retrLock {h : Hash} {x : Lock} (hx : retrLock σ h = .ok x) : retrLock σ' h = .ok x := by
  have := k.locks h x hx
  unfold Verif.retrLock at hx ⊢
  rw [this]
  exact hx

theorem retrBill {h : Hash} {x : Bill} (hx : retrBill σ h = .ok x) : retrBill σ' h = .ok x := by
  have := k.bills h x hx
  simp only [Verif.retrBill, Outcome.bind_eq_ok] at hx ⊢
  obtain ⟨js, h1, tr, h2, l, h3, h4⟩ := hx
  exact ⟨js, this ▸ h1, tr, h2, l, k.retrLock h3, h4⟩

theorem retrGenesis {x : Genesis} (hx : retrGenesis σ = .ok x) : retrGenesis σ' = .ok x := by
  have := k.genesis x hx
  simp only [Verif.retrGenesis, Outcome.bind_eq_ok] at hx ⊢
  obtain ⟨js, h1, tr, h2, l, h3, h4⟩ := hx
  exact ⟨js, this ▸ h1, tr, h2, l, k.retrBill h3, h4⟩

theorem retrExpense {h : Hash} {x : Expense} (hx : retrExpense σ h = .ok x) :
    retrExpense σ' h = .ok x := by
  have := k.expenses h x hx
  simp only [Verif.retrExpense, Outcome.bind_eq_ok] at hx ⊢
  obtain ⟨js, h1, tr, h2, b, h3, d, h4, r, h5, h6⟩ := hx
  exact ⟨js, this ▸ h1, tr, h2, b, mapO_mono (fun _ _ => k.retrBill) h3, d, k.retrBill h4, r,
    optO_mono (fun _ _ => k.retrBill) h5, h6⟩

theorem retrTrx {h : Hash} {x : Transaction} (hx : retrTrx σ h = .ok x) :
    retrTrx σ' h = .ok x := by
  have := k.trxs h x hx
  simp only [Verif.retrTrx, Outcome.bind_eq_ok] at hx ⊢
  obtain ⟨js, h1, tr, h2, b, h3, h4⟩ := hx
  exact ⟨js, this ▸ h1, tr, h2, b, mapO_mono (fun _ _ => k.retrExpense) h3, h4⟩

theorem retrBlock {h : Hash} {x : Block} (hx : retrBlock σ h = .ok x) :
    retrBlock σ' h = .ok x := by
  have := k.blocks h x hx
  simp only [Verif.retrBlock, Outcome.bind_eq_ok] at hx ⊢
  obtain ⟨js, h1, tr, h2, g, h3, hs, h4, t, h5, h6⟩ := hx
  exact ⟨js, this ▸ h1, tr, h2, g, k.retrGenesis h3, hs, h4, t,
    mapO_mono (fun _ _ => k.retrTrx) h5, h6⟩

theorem retrMinedBlock {h : Hash} {x : MinedBlock} (hx : retrMinedBlock σ h = .ok x) :
    retrMinedBlock σ' h = .ok x := by
  have := k.minedBlocks h x hx
  simp only [Verif.retrMinedBlock, Outcome.bind_eq_ok] at hx ⊢
  obtain ⟨js, h1, tr, h2, l, h3, h4⟩ := hx
  exact ⟨js, this ▸ h1, tr, h2, l, k.retrBlock h3, h4⟩

theorem retrLink {h : Hash} {x : Link} (hx : retrLink σ h = .ok x) : retrLink σ' h = .ok x := by
  have := k.links h x hx
  simp only [Verif.retrLink, Outcome.bind_eq_ok] at hx ⊢
  obtain ⟨js, h1, tr, h2, l, h3, h4⟩ := hx
  exact ⟨js, this ▸ h1, tr, h2, l, k.retrBlock h3, h4⟩

theorem retrMinedLink {h : Hash} {x : MinedLink} (hx : retrMinedLink σ h = .ok x) :
    retrMinedLink σ' h = .ok x := by
  have := k.minedLinks h x hx
  simp only [Verif.retrMinedLink, Outcome.bind_eq_ok] at hx ⊢
  obtain ⟨js, h1, tr, h2, l, h3, h4⟩ := hx
  exact ⟨js, this ▸ h1, tr, h2, l, k.retrLink h3, h4⟩

theorem trans {σ'' : Store} (k' : Keep σ' σ'') : Keep σ σ'' where
  locks h x hx := (k'.locks h x (k.retrLock hx)).trans (k.locks h x hx)
  bills h x hx := (k'.bills h x (k.retrBill hx)).trans (k.bills h x hx)
  expenses h x hx := (k'.expenses h x (k.retrExpense hx)).trans (k.expenses h x hx)
  genesis x hx := (k'.genesis x (k.retrGenesis hx)).trans (k.genesis x hx)
  trxs h x hx := (k'.trxs h x (k.retrTrx hx)).trans (k.trxs h x hx)
  blocks h x hx := (k'.blocks h x (k.retrBlock hx)).trans (k.blocks h x hx)
  minedBlocks h x hx :=
    (k'.minedBlocks h x (k.retrMinedBlock hx)).trans (k.minedBlocks h x hx)
  links h x hx := (k'.links h x (k.retrLink hx)).trans (k.links h x hx)
  minedLinks h x hx := (k'.minedLinks h x (k.retrMinedLink hx)).trans (k.minedLinks h x hx)

theorem setLock {h : Hash} (hn : ∃ m, Verif.retrLock σ h = .err m) (c : Cell JTrLock) :
    Keep σ { σ' with locks := setFile σ'.locks h.str c } :=
  { k with
    locks := fun h' x hx => by
      obtain ⟨m, hn⟩ := hn
      have : h'.str ≠ h.str := fun e => by
        rw [Hash.str_injective e, hn] at hx; cases hx
      exact (setFile_ne _ _ this).trans (k.locks h' x hx) }

theorem setBill {h : Hash} (hn : ∃ m, Verif.retrBill σ h = .err m) (c : Cell JTrBill) :
    Keep σ { σ' with bills := setFile σ'.bills h.str c } :=
  { k with
    bills := fun h' x hx => by
      obtain ⟨m, hn⟩ := hn
      have : h'.str ≠ h.str := fun e => by
        rw [Hash.str_injective e, hn] at hx; cases hx
      exact (setFile_ne _ _ this).trans (k.bills h' x hx) }

theorem setExpense {h : Hash} (hn : ∃ m, Verif.retrExpense σ h = .err m) (c : Cell JTrExpense) :
    Keep σ { σ' with expenses := setFile σ'.expenses h.str c } :=
  { k with
    expenses := fun h' x hx => by
      obtain ⟨m, hn⟩ := hn
      have : h'.str ≠ h.str := fun e => by
        rw [Hash.str_injective e, hn] at hx; cases hx
      exact (setFile_ne _ _ this).trans (k.expenses h' x hx) }

theorem setGenesis (hn : ∃ m, Verif.retrGenesis σ = .err m) (c : Cell JTrGenesis) :
    Keep σ { σ' with genesis := some c } :=
  { k with
    genesis := fun x hx => by
      obtain ⟨m, hn⟩ := hn
      rw [hn] at hx; cases hx }

theorem setTrx {h : Hash} (hn : ∃ m, Verif.retrTrx σ h = .err m) (c : Cell JTrTransaction) :
    Keep σ { σ' with trxs := setFile σ'.trxs h.str c } :=
  { k with
    trxs := fun h' x hx => by
      obtain ⟨m, hn⟩ := hn
      have : h'.str ≠ h.str := fun e => by
        rw [Hash.str_injective e, hn] at hx; cases hx
      exact (setFile_ne _ _ this).trans (k.trxs h' x hx) }

theorem setBlock {h : Hash} (hn : ∃ m, Verif.retrBlock σ h = .err m) (c : Cell JTrBlock) :
    Keep σ { σ' with blocks := setFile σ'.blocks h.str c } :=
  { k with
    blocks := fun h' x hx => by
      obtain ⟨m, hn⟩ := hn
      have : h'.str ≠ h.str := fun e => by
        rw [Hash.str_injective e, hn] at hx; cases hx
      exact (setFile_ne _ _ this).trans (k.blocks h' x hx) }

theorem setMinedBlock {h : Hash} (hn : ∃ m, Verif.retrMinedBlock σ h = .err m)
    (c : Cell JTrMined) :
    Keep σ { σ' with minedBlocks := setFile σ'.minedBlocks h.str c } :=
  { k with
    minedBlocks := fun h' x hx => by
      obtain ⟨m, hn⟩ := hn
      have : h'.str ≠ h.str := fun e => by
        rw [Hash.str_injective e, hn] at hx; cases hx
      exact (setFile_ne _ _ this).trans (k.minedBlocks h' x hx) }

theorem setLink {h : Hash} (hn : ∃ m, Verif.retrLink σ h = .err m) (c : Cell JTrLink) :
    Keep σ { σ' with links := setFile σ'.links h.str c } :=
  { k with
    links := fun h' x hx => by
      obtain ⟨m, hn⟩ := hn
      have : h'.str ≠ h.str := fun e => by
        rw [Hash.str_injective e, hn] at hx; cases hx
      exact (setFile_ne _ _ this).trans (k.links h' x hx) }

theorem setMinedLink {h : Hash} (hn : ∃ m, Verif.retrMinedLink σ h = .err m) (c : Cell JTrMined) :
    Keep σ { σ' with minedLinks := setFile σ'.minedLinks h.str c } :=
  { k with
    minedLinks := fun h' x hx => by
      obtain ⟨m, hn⟩ := hn
      have : h'.str ≠ h.str := fun e => by
        rw [Hash.str_injective e, hn] at hx; cases hx
      exact (setFile_ne _ _ this).trans (k.minedLinks h' x hx) }

theorem setChain (c : Cell JTrChain) : Keep σ { σ' with chain := some c } := { k with }

theorem setState (p : Bytes) (c : Cell JTrState) :
    Keep σ { σ' with states := setFile σ'.states p c } := { k with }

end Keep

/-- A program that keeps everything from wherever it starts also does so as a part. -/
theorem Spec.keep_trans {p : Prog α} {σ σ₁ : Store} {P : α → Store → Prop}
    (h : Spec p σ₁ (Keep σ₁) P) (k : Keep σ σ₁) : Spec p σ₁ (Keep σ) P :=
  h.mono (fun _ k' => k.trans k') fun _ _ _ h => h

theorem saveLock_keep (l : Lock) (σ : Store) :
    Spec (saveLock l) σ (Keep σ) (fun _ _ => True) := by
  refine Spec.unlessFound (Keep.refl σ) (fun _ _ => trivial) fun hn => ?_
  refine Spec.lift (Keep.refl σ) fun tr htr => ?_
  have e : tr.hash = l.hash := by cases htr; rfl
  rw [e]
  exact Spec.save (Keep.refl σ) ((Keep.refl σ).setLock hn _) ((Keep.refl σ).setLock hn _) trivial

omit [Sha512] C in
theorem trBillNow_eq_ok {h l : Hash} {a : UInt64} {t : Time} {tr : TrBill} :
    trBillNow h l a t = .ok tr ↔ a ≠ 0 ∧ tr = ⟨h, l, a, t⟩ := by
  unfold trBillNow
  split <;> simp_all [eq_comm]

omit [Sha512] in
theorem trExpenseNow_eq_ok {h : Hash} {s : List Hash} {d : Hash} {g : List RingSignature}
    {r : Option Hash} {t : Time} {tr : TrExpense} :
    trExpenseNow h s d g r t = .ok tr ↔ s ≠ [] ∧ g ≠ [] ∧ tr = ⟨h, s, d, g, r, t⟩ := by
  unfold trExpenseNow
  cases s <;> cases g <;> simp [eq_comm]

omit [Sha512] C in
theorem trGenesisNow_eq_ok {h b : Hash} {n : UInt64} {i : Flt} {l : UInt64} {t : Time}
    {tr : TrGenesis} :
    trGenesisNow h b n i l t = .ok tr ↔ 0 < n.toNat ∧ i.le0 = false ∧ 0 < l.toNat ∧
      tr = ⟨h, b, n, i, l, t⟩ := by
  unfold trGenesisNow
  by_cases h1 : n ≤ 0
  · have : ¬ 0 < n.toNat := fun h' => (UInt64.not_le_zero.mpr h') h1
    simp [h1, this]
  · have h1' := UInt64.not_le_zero.mp h1
    by_cases h3 : l ≤ 0
    · have : ¬ 0 < l.toNat := fun h' => (UInt64.not_le_zero.mpr h') h3
      cases i.le0 <;> simp [h1, h3, this]
    · have h3' := UInt64.not_le_zero.mp h3
      cases i.le0 <;> simp [h1, h3, h1', h3', eq_comm]

omit [Sha512] C in
theorem trTransactionNow_eq_ok {h : Hash} {a b : Option Hash} {f : List Hash} {t : Time}
    {tr : TrTransaction} :
    trTransactionNow h a b f t = .ok tr ↔ a.toList ++ b.toList ++ f ≠ [] ∧
      tr = ⟨h, a, b, f, t⟩ := by
  unfold trTransactionNow
  cases a <;> cases b <;> cases f <;> simp [@eq_comm _ _ tr]

omit [Sha512] C in
theorem trBlockNow_eq_ok {h : Hash} {x : HashTree} {a n : UInt64} {t : Time} {tr : TrBlock} :
    trBlockNow h x a n t = .ok tr ↔ 0 < a.toNat ∧ tr = ⟨h, x, a, n, t⟩ := by
  unfold trBlockNow
  by_cases h1 : a ≤ 0
  · have : ¬ 0 < a.toNat := fun h' => (UInt64.not_le_zero.mpr h') h1
    simp [h1, this]
  · have h1' := UInt64.not_le_zero.mp h1
    simp [h1, h1', eq_comm]

omit [Sha512] C in
theorem trChainNow_eq_ok {h g r d : Hash} {n : UInt64} {t : Time} {tr : TrChain} :
    trChainNow h g r d n t = .ok tr ↔ 0 < n.toNat ∧ tr = ⟨h, g, r, d, n, t⟩ := by
  unfold trChainNow
  by_cases h1 : n ≤ 0
  · have : ¬ 0 < n.toNat := fun h' => (UInt64.not_le_zero.mpr h') h1
    simp [h1, this]
  · have h1' := UInt64.not_le_zero.mp h1
    simp [h1, h1', eq_comm]

theorem saveBill_keep (b : Bill) (σ : Store) :
    Spec (saveBill b) σ (Keep σ) (fun _ _ => True) := by
  refine Spec.unlessFound (Keep.refl σ) (fun _ _ => trivial) fun hn => ?_
  refine Spec.bind (saveLock_keep _ σ) fun _ σ₁ k₁ _ => ?_
  refine Spec.lift k₁ fun tr htr => ?_
  obtain ⟨-, rfl⟩ := trBillNow_eq_ok.mp htr
  exact Spec.save k₁ (k₁.setBill hn _) (k₁.setBill hn _) trivial

theorem saveGenesis_keep (g : Genesis) (σ : Store) :
    Spec (saveGenesis g) σ (Keep σ) (fun _ _ => True) := by
  refine Spec.look (Keep.refl σ) ?_
  cases hn : retrGenesis σ with
  | ok x => exact Spec.ret (Keep.refl σ) fun _ _ => trivial
  | crash c => exact Spec.ret (Keep.refl σ) fun _ _ => trivial
  | err m =>
    refine Spec.bind (saveBill_keep _ σ) fun _ σ₁ k₁ _ => ?_
    refine Spec.lift k₁ fun tr htr => ?_
    refine Spec.lift k₁ fun js hjs => ?_
    exact Spec.save k₁ (k₁.setGenesis ⟨m, hn⟩ _) (k₁.setGenesis ⟨m, hn⟩ _) trivial

theorem forEach_keep {γ : Type} {f : γ → Prog Unit}
    (h : ∀ x σ, Spec (f x) σ (Keep σ) (fun _ _ => True)) (xs : List γ) {σ σ₁ : Store}
    (k : Keep σ σ₁) : Spec (Prog.forEach f xs) σ₁ (Keep σ) (fun _ _ => True) :=
  Spec.forEach_inv k fun x _ σ₂ k₂ => (h x σ₂).keep_trans k₂

theorem saveExpense_keep (e : Expense) (σ : Store) :
    Spec (saveExpense e) σ (Keep σ) (fun _ _ => True) := by
  refine Spec.unlessFound (Keep.refl σ) (fun _ _ => trivial) fun hn => ?_
  refine Spec.bind (forEach_keep saveBill_keep _ (Keep.refl σ)) fun _ σ₁ k₁ _ => ?_
  refine Spec.bind ((saveBill_keep _ σ₁).keep_trans k₁) fun _ σ₂ k₂ _ => ?_
  refine Spec.bind (forEach_keep saveBill_keep _ k₂) fun _ σ₃ k₃ _ => ?_
  refine Spec.lift k₃ fun tr htr => ?_
  obtain ⟨-, -, rfl⟩ := trExpenseNow_eq_ok.mp htr
  exact Spec.save k₃ (k₃.setExpense hn _) (k₃.setExpense hn _) trivial

theorem saveTrx_keep (x : Transaction) (σ : Store) :
    Spec (saveTrx x) σ (Keep σ) (fun _ _ => True) := by
  refine Spec.unlessFound (Keep.refl σ) (fun _ _ => trivial) fun hn => ?_
  refine Spec.bind (forEach_keep saveExpense_keep _ (Keep.refl σ)) fun _ σ₁ k₁ _ => ?_
  refine Spec.lift k₁ fun tr htr => ?_
  obtain ⟨-, rfl⟩ := trTransactionNow_eq_ok.mp htr
  exact Spec.save k₁ (k₁.setTrx hn _) (k₁.setTrx hn _) trivial

theorem saveBlock_keep (b : Block) (σ : Store) :
    Spec (saveBlock b) σ (Keep σ) (fun _ _ => True) := by
  refine Spec.unlessFound (Keep.refl σ) (fun _ _ => trivial) fun hn => ?_
  refine Spec.bind (forEach_keep saveTrx_keep _ (Keep.refl σ)) fun _ σ₁ k₁ _ => ?_
  refine Spec.lift k₁ fun tr htr => ?_
  obtain ⟨x, -, htr⟩ := Outcome.bind_eq_ok.mp htr
  obtain ⟨-, rfl⟩ := trBlockNow_eq_ok.mp htr
  exact Spec.save k₁ (k₁.setBlock hn _) (k₁.setBlock hn _) trivial

theorem saveMinedBlock_keep (b : MinedBlock) (σ : Store) :
    Spec (saveMinedBlock b) σ (Keep σ) (fun _ _ => True) := by
  refine Spec.unlessFound (Keep.refl σ) (fun _ _ => trivial) fun hn => ?_
  refine Spec.bind (saveBlock_keep _ σ) fun _ σ₁ k₁ _ => ?_
  refine Spec.lift k₁ fun tr htr => ?_
  cases htr
  exact Spec.save k₁ (k₁.setMinedBlock hn _) (k₁.setMinedBlock hn _) trivial

theorem saveLink_keep (l : Link) (σ : Store) :
    Spec (saveLink l) σ (Keep σ) (fun _ _ => True) := by
  refine Spec.unlessFound (Keep.refl σ) (fun _ _ => trivial) fun hn => ?_
  refine Spec.bind (saveBlock_keep _ σ) fun _ σ₁ k₁ _ => ?_
  refine Spec.lift k₁ fun tr htr => ?_
  cases htr
  exact Spec.save k₁ (k₁.setLink hn _) (k₁.setLink hn _) trivial

theorem saveMinedLink_keep (l : MinedLink) (σ : Store) :
    Spec (saveMinedLink l) σ (Keep σ) (fun _ _ => True) := by
  refine Spec.unlessFound (Keep.refl σ) (fun _ _ => trivial) fun hn => ?_
  refine Spec.bind (saveLink_keep _ σ) fun _ σ₁ k₁ _ => ?_
  refine Spec.lift k₁ fun tr htr => ?_
  cases htr
  exact Spec.save k₁ (k₁.setMinedLink hn _) (k₁.setMinedLink hn _) trivial

theorem saveChain_keep (c : Chain) (σ : Store) :
    Spec (saveChain c) σ (Keep σ) (fun _ _ => True) := by
  refine Spec.bind (saveMinedLink_keep _ σ) fun _ σ₁ k₁ _ => ?_
  refine Spec.lift k₁ fun tr htr => ?_
  exact Spec.save k₁ (k₁.setChain _) (k₁.setChain _) trivial

theorem insertChain_keep (c : Chain) (σ : Store) :
    Spec (insertChain c) σ (Keep σ) (fun _ _ => True) := by
  refine Spec.unlessFound (Keep.refl σ) (fun _ _ => trivial) fun hn => ?_
  refine Spec.bind (saveGenesis_keep _ σ) fun _ σ₁ k₁ _ => ?_
  refine Spec.bind ((saveMinedBlock_keep _ σ₁).keep_trans k₁) fun _ σ₂ k₂ _ => ?_
  exact (saveChain_keep c σ₂).keep_trans k₂

theorem updateChain_keep (c c' : Chain) (σ : Store) :
    Spec (updateChain c c') σ (Keep σ) (fun _ _ => True) := by
  refine Spec.lift (Keep.refl σ) fun _ _ => ?_
  refine Spec.lift (Keep.refl σ) fun _ _ => ?_
  exact saveChain_keep c' σ

theorem saveState_keep (s : State) (σ : Store) :
    Spec (saveState s) σ (Keep σ) (fun _ _ => True) := by
  have hs : Spec ((Prog.lift s.toTransfer).bind fun tr =>
      Prog.save (fun σ => { σ with
          states := setFile σ.states (statePath tr.chain tr.height) (.json tr.toJSON) })
        (fun σ => { σ with states := setFile σ.states (statePath tr.chain tr.height) .torn })) σ
      (Keep σ) (fun _ _ => True) := by
    refine Spec.lift (Keep.refl σ) fun tr htr => ?_
    exact Spec.save (Keep.refl σ) ((Keep.refl σ).setState _ _) ((Keep.refl σ).setState _ _) trivial
  refine Spec.look (Keep.refl σ) ?_
  cases hn : retrState σ s.chain s.height with
  | ok x =>
    simp only
    split
    · exact Spec.ret (Keep.refl σ) fun _ _ => trivial
    · exact hs
  | crash c => exact Spec.ret (Keep.refl σ) fun _ _ => trivial
  | err m => exact hs

end

end Verif
