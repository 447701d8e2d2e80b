import Verif.Model.Store.Closed
import Verif.Spec.Concurrent

/-!
# Calls that run at the same time: the files that are or are about to be complete
-/

namespace Verif

/-- The files that refer to each other. -/
inductive FileName where
  | lock (p : Bytes)
  | bill (p : Bytes)
  | expense (p : Bytes)
  | genesis
  | trx (p : Bytes)
  | block (p : Bytes)
  | minedBlock (p : Bytes)
  | link (p : Bytes)
  | minedLink (p : Bytes)

/-- The file is complete. -/
def Store.whole (σ : Store) : FileName → Prop
  | .lock p => Readable (σ.locks p)
  | .bill p => Readable (σ.bills p)
  | .expense p => Readable (σ.expenses p)
  | .genesis => Readable σ.genesis
  | .trx p => Readable (σ.trxs p)
  | .block p => Readable (σ.blocks p)
  | .minedBlock p => Readable (σ.minedBlocks p)
  | .link p => Readable (σ.links p)
  | .minedLink p => Readable (σ.minedLinks p)

/-- The file exists. -/
def Store.there (σ : Store) : FileName → Prop
  | .lock p => σ.locks p ≠ none
  | .bill p => σ.bills p ≠ none
  | .expense p => σ.expenses p ≠ none
  | .genesis => σ.genesis ≠ none
  | .trx p => σ.trxs p ≠ none
  | .block p => σ.blocks p ≠ none
  | .minedBlock p => σ.minedBlocks p ≠ none
  | .link p => σ.links p ≠ none
  | .minedLink p => σ.minedLinks p ≠ none

/-- A set of files. -/
abbrev Cov := FileName → Prop

theorem readable_setFile_json {α : Type} {d : Bytes → Option (Cell α)} {p q : Bytes} {a : α} :
    Readable (setFile d p (.json a) q) ↔ q = p ∨ Readable (d q) := by
  by_cases h : q = p
  · subst h; simp [Readable]
  · simp [Readable, setFile, h]

theorem readable_setFile_torn {α : Type} {d : Bytes → Option (Cell α)} {p q : Bytes} :
    Readable (setFile d p .torn q) ↔ q ≠ p ∧ Readable (d q) := by
  by_cases h : q = p
  · subst h; simp [Readable]
  · simp [Readable, setFile, h]

theorem there_setFile {α : Type} {d : Bytes → Option (Cell α)} {p q : Bytes} {c : Cell α} :
    setFile d p c q ≠ none ↔ q = p ∨ d q ≠ none := by
  by_cases h : q = p
  · subst h; simp
  · simp [setFile, h]

theorem setFile_clean {α : Type} {d : Bytes → Option (Cell α)} {p : Bytes} {a : α}
    (h0 : d p ≠ none) (h : ∀ b, d p = some (.json b) → b = a) :
    setFile d p .torn = d ∨ setFile d p (.json a) = d := by
  cases hd : d p with
  | none => exact absurd hd h0
  | some c =>
    cases c with
    | torn => exact .inl (funext fun q => by by_cases hq : q = p <;> simp [setFile, hq, hd])
    | json b =>
      cases h b hd
      exact .inr (funext fun q => by by_cases hq : q = p <;> simp [setFile, hq, hd])

section
variable [Sha512] [C : Curve]

/-- Every file that an object of the set refers to is in the set. -/
structure Cov.Closed (W : World) (K : Cov) : Prop where
  bill : ∀ x, W.bill x → K (.bill x.hash.str) → K (.lock x.lock.hash.str)
  expense : ∀ x, W.expense x → K (.expense x.hash.str) →
    (∀ b ∈ x.content.source, K (.bill b.hash.str)) ∧ K (.bill x.content.dest.hash.str) ∧
      ∀ b, x.content.remaining = some b → K (.bill b.hash.str)
  genesis : ∀ x, W.genesis x → K .genesis → K (.bill x.bill.hash.str)
  trx : ∀ x, W.trx x → K (.trx x.hash.str) → ∀ f ∈ x.fees, K (.expense f.hash.str)
  block : ∀ x, W.block x → K (.block x.hash.str) → ∀ y ∈ x.trx, K (.trx y.hash.str)
  minedBlock : ∀ x, W.minedBlock x → K (.minedBlock x.hash.str) → K (.block x.block.hash.str)
  link : ∀ x, W.link x → K (.link x.hash.str) → K (.block x.next.hash.str)
  minedLink : ∀ x, W.minedLink x → K (.minedLink x.hash.str) → K (.link x.link.hash.str)

/-- The write replaces the file by the content of an object of the world. -/
structure Tracked (W : World) (d t : Store → Store) (f : FileName) : Prop where
  honest_done : ∀ σ, Honest W σ → Honest W (d σ)
  honest_torn : ∀ σ, Honest W σ → Honest W (t σ)
  whole_done : ∀ σ g, (d σ).whole g ↔ g = f ∨ σ.whole g
  whole_torn : ∀ σ g, (t σ).whole g ↔ g ≠ f ∧ σ.whole g
  there_done : ∀ σ g, (d σ).there g ↔ g = f ∨ σ.there g
  there_torn : ∀ σ g, (t σ).there g ↔ g = f ∨ σ.there g
  clean : ∀ σ, Honest W σ → σ.there f → t σ = σ ∨ d σ = σ

/-- The write concerns none of these files. -/
structure Untracked (W : World) (d t : Store → Store) : Prop where
  honest_done : ∀ σ, Honest W σ → Honest W (d σ)
  honest_torn : ∀ σ, Honest W σ → Honest W (t σ)
  whole_done : ∀ σ g, (d σ).whole g ↔ σ.whole g
  whole_torn : ∀ σ g, (t σ).whole g ↔ σ.whole g
  there_done : ∀ σ g, (d σ).there g ↔ σ.there g
  there_torn : ∀ σ g, (t σ).there g ↔ σ.there g

section
variable {W : World}

theorem tracked_lock (X : W.Exact) {x : Lock} (hx : W.lock x) {js : JTrLock} (hf : x.file = .ok js) :
    Tracked W (fun σ => { σ with locks := setFile σ.locks x.hash.str (.json js) })
      (fun σ => { σ with locks := setFile σ.locks x.hash.str .torn }) (.lock x.hash.str) where
  honest_done σ H := H.setLock hx _ fun js e => by cases e; exact hf
  honest_torn σ H := H.setLock hx _ fun js e => by cases e
  whole_done σ g := by cases g <;> simp [Store.whole, readable_setFile_json]
  whole_torn σ g := by cases g <;> simp [Store.whole, readable_setFile_torn]
  there_done σ g := by cases g <;> simp only [Store.there, there_setFile] <;> simp
  there_torn σ g := by cases g <;> simp only [Store.there, there_setFile] <;> simp
  clean σ H h := by
    refine (setFile_clean (a := js) h fun b hb => ?_).imp (fun e => ?_) fun e => ?_
    · obtain ⟨y, hy, hp, hy'⟩ := H.locks _ _ hb
      cases X.lock x y hx hy (Hash.str_injective hp)
      exact Outcome.ok.inj (hy'.symm.trans hf)
    · simp only [e]
    · simp only [e]

theorem tracked_bill (X : W.Exact) {x : Bill} (hx : W.bill x) {js : JTrBill} (hf : x.file = .ok js) :
    Tracked W (fun σ => { σ with bills := setFile σ.bills x.hash.str (.json js) })
      (fun σ => { σ with bills := setFile σ.bills x.hash.str .torn }) (.bill x.hash.str) where
  honest_done σ H := H.setBill hx _ fun js e => by cases e; exact hf
  honest_torn σ H := H.setBill hx _ fun js e => by cases e
  whole_done σ g := by cases g <;> simp [Store.whole, readable_setFile_json]
  whole_torn σ g := by cases g <;> simp [Store.whole, readable_setFile_torn]
  there_done σ g := by cases g <;> simp only [Store.there, there_setFile] <;> simp
  there_torn σ g := by cases g <;> simp only [Store.there, there_setFile] <;> simp
  clean σ H h := by
    refine (setFile_clean (a := js) h fun b hb => ?_).imp (fun e => ?_) fun e => ?_
    · obtain ⟨y, hy, hp, hy'⟩ := H.bills _ _ hb
      cases X.bill x y hx hy (Hash.str_injective hp)
      exact Outcome.ok.inj (hy'.symm.trans hf)
    · simp only [e]
    · simp only [e]

theorem tracked_expense (X : W.Exact) {x : Expense} (hx : W.expense x) {js : JTrExpense} (hf : x.file = .ok js) :
    Tracked W (fun σ => { σ with expenses := setFile σ.expenses x.hash.str (.json js) })
      (fun σ => { σ with expenses := setFile σ.expenses x.hash.str .torn }) (.expense x.hash.str) where
  honest_done σ H := H.setExpense hx _ fun js e => by cases e; exact hf
  honest_torn σ H := H.setExpense hx _ fun js e => by cases e
  whole_done σ g := by cases g <;> simp [Store.whole, readable_setFile_json]
  whole_torn σ g := by cases g <;> simp [Store.whole, readable_setFile_torn]
  there_done σ g := by cases g <;> simp only [Store.there, there_setFile] <;> simp
  there_torn σ g := by cases g <;> simp only [Store.there, there_setFile] <;> simp
  clean σ H h := by
    refine (setFile_clean (a := js) h fun b hb => ?_).imp (fun e => ?_) fun e => ?_
    · obtain ⟨y, hy, hp, hy'⟩ := H.expenses _ _ hb
      cases X.expense x y hx hy (Hash.str_injective hp)
      exact Outcome.ok.inj (hy'.symm.trans hf)
    · simp only [e]
    · simp only [e]

theorem tracked_trx (X : W.Exact) {x : Transaction} (hx : W.trx x) {js : JTrTransaction} (hf : x.file = .ok js) :
    Tracked W (fun σ => { σ with trxs := setFile σ.trxs x.hash.str (.json js) })
      (fun σ => { σ with trxs := setFile σ.trxs x.hash.str .torn }) (.trx x.hash.str) where
  honest_done σ H := H.setTrx hx _ fun js e => by cases e; exact hf
  honest_torn σ H := H.setTrx hx _ fun js e => by cases e
  whole_done σ g := by cases g <;> simp [Store.whole, readable_setFile_json]
  whole_torn σ g := by cases g <;> simp [Store.whole, readable_setFile_torn]
  there_done σ g := by cases g <;> simp only [Store.there, there_setFile] <;> simp
  there_torn σ g := by cases g <;> simp only [Store.there, there_setFile] <;> simp
  clean σ H h := by
    refine (setFile_clean (a := js) h fun b hb => ?_).imp (fun e => ?_) fun e => ?_
    · obtain ⟨y, hy, hp, hy'⟩ := H.trxs _ _ hb
      cases X.trx x y hx hy (Hash.str_injective hp)
      exact Outcome.ok.inj (hy'.symm.trans hf)
    · simp only [e]
    · simp only [e]

theorem tracked_block (X : W.Exact) {x : Block} (hx : W.block x) {js : JTrBlock} (hf : x.file = .ok js) :
    Tracked W (fun σ => { σ with blocks := setFile σ.blocks x.hash.str (.json js) })
      (fun σ => { σ with blocks := setFile σ.blocks x.hash.str .torn }) (.block x.hash.str) where
  honest_done σ H := H.setBlock hx _ fun js e => by cases e; exact hf
  honest_torn σ H := H.setBlock hx _ fun js e => by cases e
  whole_done σ g := by cases g <;> simp [Store.whole, readable_setFile_json]
  whole_torn σ g := by cases g <;> simp [Store.whole, readable_setFile_torn]
  there_done σ g := by cases g <;> simp only [Store.there, there_setFile] <;> simp
  there_torn σ g := by cases g <;> simp only [Store.there, there_setFile] <;> simp
  clean σ H h := by
    refine (setFile_clean (a := js) h fun b hb => ?_).imp (fun e => ?_) fun e => ?_
    · obtain ⟨y, hy, hp, hy'⟩ := H.blocks _ _ hb
      cases X.block x y hx hy (Hash.str_injective hp)
      exact Outcome.ok.inj (hy'.symm.trans hf)
    · simp only [e]
    · simp only [e]

theorem tracked_minedBlock (X : W.Exact) {x : MinedBlock} (hx : W.minedBlock x) {js : JTrMined} (hf : x.file = .ok js) :
    Tracked W (fun σ => { σ with minedBlocks := setFile σ.minedBlocks x.hash.str (.json js) })
      (fun σ => { σ with minedBlocks := setFile σ.minedBlocks x.hash.str .torn }) (.minedBlock x.hash.str) where
  honest_done σ H := H.setMinedBlock hx _ fun js e => by cases e; exact hf
  honest_torn σ H := H.setMinedBlock hx _ fun js e => by cases e
  whole_done σ g := by cases g <;> simp [Store.whole, readable_setFile_json]
  whole_torn σ g := by cases g <;> simp [Store.whole, readable_setFile_torn]
  there_done σ g := by cases g <;> simp only [Store.there, there_setFile] <;> simp
  there_torn σ g := by cases g <;> simp only [Store.there, there_setFile] <;> simp
  clean σ H h := by
    refine (setFile_clean (a := js) h fun b hb => ?_).imp (fun e => ?_) fun e => ?_
    · obtain ⟨y, hy, hp, hy'⟩ := H.minedBlocks _ _ hb
      cases X.minedBlock x y hx hy (Hash.str_injective hp)
      exact Outcome.ok.inj (hy'.symm.trans hf)
    · simp only [e]
    · simp only [e]

theorem tracked_link (X : W.Exact) {x : Link} (hx : W.link x) {js : JTrLink} (hf : x.file = .ok js) :
    Tracked W (fun σ => { σ with links := setFile σ.links x.hash.str (.json js) })
      (fun σ => { σ with links := setFile σ.links x.hash.str .torn }) (.link x.hash.str) where
  honest_done σ H := H.setLink hx _ fun js e => by cases e; exact hf
  honest_torn σ H := H.setLink hx _ fun js e => by cases e
  whole_done σ g := by cases g <;> simp [Store.whole, readable_setFile_json]
  whole_torn σ g := by cases g <;> simp [Store.whole, readable_setFile_torn]
  there_done σ g := by cases g <;> simp only [Store.there, there_setFile] <;> simp
  there_torn σ g := by cases g <;> simp only [Store.there, there_setFile] <;> simp
  clean σ H h := by
    refine (setFile_clean (a := js) h fun b hb => ?_).imp (fun e => ?_) fun e => ?_
    · obtain ⟨y, hy, hp, hy'⟩ := H.links _ _ hb
      cases X.link x y hx hy (Hash.str_injective hp)
      exact Outcome.ok.inj (hy'.symm.trans hf)
    · simp only [e]
    · simp only [e]

theorem tracked_minedLink (X : W.Exact) {x : MinedLink} (hx : W.minedLink x) {js : JTrMined} (hf : x.file = .ok js) :
    Tracked W (fun σ => { σ with minedLinks := setFile σ.minedLinks x.hash.str (.json js) })
      (fun σ => { σ with minedLinks := setFile σ.minedLinks x.hash.str .torn }) (.minedLink x.hash.str) where
  honest_done σ H := H.setMinedLink hx _ fun js e => by cases e; exact hf
  honest_torn σ H := H.setMinedLink hx _ fun js e => by cases e
  whole_done σ g := by cases g <;> simp [Store.whole, readable_setFile_json]
  whole_torn σ g := by cases g <;> simp [Store.whole, readable_setFile_torn]
  there_done σ g := by cases g <;> simp only [Store.there, there_setFile] <;> simp
  there_torn σ g := by cases g <;> simp only [Store.there, there_setFile] <;> simp
  clean σ H h := by
    refine (setFile_clean (a := js) h fun b hb => ?_).imp (fun e => ?_) fun e => ?_
    · obtain ⟨y, hy, hp, hy'⟩ := H.minedLinks _ _ hb
      cases X.minedLink x y hx hy (Hash.str_injective hp)
      exact Outcome.ok.inj (hy'.symm.trans hf)
    · simp only [e]
    · simp only [e]

theorem tracked_genesis (X : W.Exact) {x : Genesis} (hx : W.genesis x) {js : JTrGenesis}
    (hf : x.file = .ok js) :
    Tracked W (fun σ => { σ with genesis := some (.json js) })
      (fun σ => { σ with genesis := some .torn }) .genesis where
  honest_done σ H := H.setGenesis hx _ fun js e => by cases e; exact hf
  honest_torn σ H := H.setGenesis hx _ fun js e => by cases e
  whole_done σ g := by cases g <;> simp [Store.whole, Readable]
  whole_torn σ g := by cases g <;> simp [Store.whole, Readable]
  there_done σ g := by cases g <;> simp [Store.there]
  there_torn σ g := by cases g <;> simp [Store.there]
  clean σ H h := by
    cases hc : σ.genesis with
    | none => exact absurd hc h
    | some c =>
      cases c with
      | torn => left; rw [← hc]
      | json b =>
        obtain ⟨y, hy, hy'⟩ := H.genesis _ hc
        cases X.genesis x y hx hy
        cases Outcome.ok.inj (hy'.symm.trans hf)
        right; rw [← hc]

theorem untracked_chain (c : JTrChain) : Untracked W (fun σ => { σ with chain := some (.json c) })
    (fun σ => { σ with chain := some .torn }) where
  honest_done _ H := { H with }
  honest_torn _ H := { H with }
  whole_done σ g := by cases g <;> rfl
  whole_torn σ g := by cases g <;> rfl
  there_done σ g := by cases g <;> rfl
  there_torn σ g := by cases g <;> rfl

theorem untracked_state (p : Bytes) (c : JTrState) :
    Untracked W (fun σ => { σ with states := setFile σ.states p (.json c) })
      (fun σ => { σ with states := setFile σ.states p .torn }) where
  honest_done _ H := { H with }
  honest_torn _ H := { H with }
  whole_done σ g := by cases g <;> rfl
  whole_torn σ g := by cases g <;> rfl
  there_done σ g := by cases g <;> rfl
  there_torn σ g := by cases g <;> rfl

/-! ## Adding a file whose references are there -/

namespace Cov.Closed
variable {K : Cov} (k : K.Closed W)
include k

omit [Sha512] in
theorem add_lock {x : Lock}  :
    Cov.Closed W fun g => K g ∨ g = .lock x.hash.str where
  bill y hy := by
    rintro (hK | e)
    · exact .inl (k.bill y hy hK)
    · cases e
  expense y hy := by
    rintro (hK | e)
    · exact ⟨fun b hb => .inl ((k.expense y hy hK).1 b hb), .inl (k.expense y hy hK).2.1, fun b hb => .inl ((k.expense y hy hK).2.2 b hb)⟩
    · cases e
  genesis y hy := by
    rintro (hK | e)
    · exact .inl (k.genesis y hy hK)
    · cases e
  trx y hy := by
    rintro (hK | e)
    · exact fun b hb => .inl ((k.trx y hy hK) b hb)
    · cases e
  block y hy := by
    rintro (hK | e)
    · exact fun b hb => .inl ((k.block y hy hK) b hb)
    · cases e
  minedBlock y hy := by
    rintro (hK | e)
    · exact .inl (k.minedBlock y hy hK)
    · cases e
  link y hy := by
    rintro (hK | e)
    · exact .inl (k.link y hy hK)
    · cases e
  minedLink y hy := by
    rintro (hK | e)
    · exact .inl (k.minedLink y hy hK)
    · cases e

omit [Sha512] in
theorem add_bill (X : W.Exact) {x : Bill} (hx : W.bill x) (h : K (.lock x.lock.hash.str)) :
    Cov.Closed W fun g => K g ∨ g = .bill x.hash.str where
  bill y hy := by
    rintro (hK | e)
    · exact .inl (k.bill y hy hK)
    · cases X.bill y x hy hx (Hash.str_injective (by injection e))
      exact .inl (h)
  expense y hy := by
    rintro (hK | e)
    · exact ⟨fun b hb => .inl ((k.expense y hy hK).1 b hb), .inl (k.expense y hy hK).2.1, fun b hb => .inl ((k.expense y hy hK).2.2 b hb)⟩
    · cases e
  genesis y hy := by
    rintro (hK | e)
    · exact .inl (k.genesis y hy hK)
    · cases e
  trx y hy := by
    rintro (hK | e)
    · exact fun b hb => .inl ((k.trx y hy hK) b hb)
    · cases e
  block y hy := by
    rintro (hK | e)
    · exact fun b hb => .inl ((k.block y hy hK) b hb)
    · cases e
  minedBlock y hy := by
    rintro (hK | e)
    · exact .inl (k.minedBlock y hy hK)
    · cases e
  link y hy := by
    rintro (hK | e)
    · exact .inl (k.link y hy hK)
    · cases e
  minedLink y hy := by
    rintro (hK | e)
    · exact .inl (k.minedLink y hy hK)
    · cases e

omit [Sha512] in
theorem add_expense (X : W.Exact) {x : Expense} (hx : W.expense x) (h : (∀ b ∈ x.content.source, K (.bill b.hash.str)) ∧
    K (.bill x.content.dest.hash.str) ∧ ∀ b, x.content.remaining = some b → K (.bill b.hash.str)) :
    Cov.Closed W fun g => K g ∨ g = .expense x.hash.str where
  bill y hy := by
    rintro (hK | e)
    · exact .inl (k.bill y hy hK)
    · cases e
  expense y hy := by
    rintro (hK | e)
    · exact ⟨fun b hb => .inl ((k.expense y hy hK).1 b hb), .inl (k.expense y hy hK).2.1, fun b hb => .inl ((k.expense y hy hK).2.2 b hb)⟩
    · cases X.expense y x hy hx (Hash.str_injective (by injection e))
      exact ⟨fun b hb => .inl ((h).1 b hb), .inl (h).2.1, fun b hb => .inl ((h).2.2 b hb)⟩
  genesis y hy := by
    rintro (hK | e)
    · exact .inl (k.genesis y hy hK)
    · cases e
  trx y hy := by
    rintro (hK | e)
    · exact fun b hb => .inl ((k.trx y hy hK) b hb)
    · cases e
  block y hy := by
    rintro (hK | e)
    · exact fun b hb => .inl ((k.block y hy hK) b hb)
    · cases e
  minedBlock y hy := by
    rintro (hK | e)
    · exact .inl (k.minedBlock y hy hK)
    · cases e
  link y hy := by
    rintro (hK | e)
    · exact .inl (k.link y hy hK)
    · cases e
  minedLink y hy := by
    rintro (hK | e)
    · exact .inl (k.minedLink y hy hK)
    · cases e

omit [Sha512] in
theorem add_genesis (X : W.Exact) {x : Genesis} (hx : W.genesis x) (h : K (.bill x.bill.hash.str)) :
    Cov.Closed W fun g => K g ∨ g = .genesis where
  bill y hy := by
    rintro (hK | e)
    · exact .inl (k.bill y hy hK)
    · cases e
  expense y hy := by
    rintro (hK | e)
    · exact ⟨fun b hb => .inl ((k.expense y hy hK).1 b hb), .inl (k.expense y hy hK).2.1, fun b hb => .inl ((k.expense y hy hK).2.2 b hb)⟩
    · cases e
  genesis y hy := by
    rintro (hK | e)
    · exact .inl (k.genesis y hy hK)
    · cases X.genesis y x hy hx
      exact .inl (h)
  trx y hy := by
    rintro (hK | e)
    · exact fun b hb => .inl ((k.trx y hy hK) b hb)
    · cases e
  block y hy := by
    rintro (hK | e)
    · exact fun b hb => .inl ((k.block y hy hK) b hb)
    · cases e
  minedBlock y hy := by
    rintro (hK | e)
    · exact .inl (k.minedBlock y hy hK)
    · cases e
  link y hy := by
    rintro (hK | e)
    · exact .inl (k.link y hy hK)
    · cases e
  minedLink y hy := by
    rintro (hK | e)
    · exact .inl (k.minedLink y hy hK)
    · cases e

omit [Sha512] in
theorem add_trx (X : W.Exact) {x : Transaction} (hx : W.trx x) (h : ∀ f ∈ x.fees, K (.expense f.hash.str)) :
    Cov.Closed W fun g => K g ∨ g = .trx x.hash.str where
  bill y hy := by
    rintro (hK | e)
    · exact .inl (k.bill y hy hK)
    · cases e
  expense y hy := by
    rintro (hK | e)
    · exact ⟨fun b hb => .inl ((k.expense y hy hK).1 b hb), .inl (k.expense y hy hK).2.1, fun b hb => .inl ((k.expense y hy hK).2.2 b hb)⟩
    · cases e
  genesis y hy := by
    rintro (hK | e)
    · exact .inl (k.genesis y hy hK)
    · cases e
  trx y hy := by
    rintro (hK | e)
    · exact fun b hb => .inl ((k.trx y hy hK) b hb)
    · cases X.trx y x hy hx (Hash.str_injective (by injection e))
      exact fun b hb => .inl ((h) b hb)
  block y hy := by
    rintro (hK | e)
    · exact fun b hb => .inl ((k.block y hy hK) b hb)
    · cases e
  minedBlock y hy := by
    rintro (hK | e)
    · exact .inl (k.minedBlock y hy hK)
    · cases e
  link y hy := by
    rintro (hK | e)
    · exact .inl (k.link y hy hK)
    · cases e
  minedLink y hy := by
    rintro (hK | e)
    · exact .inl (k.minedLink y hy hK)
    · cases e

omit [Sha512] in
theorem add_block (X : W.Exact) {x : Block} (hx : W.block x) (h : ∀ y ∈ x.trx, K (.trx y.hash.str)) :
    Cov.Closed W fun g => K g ∨ g = .block x.hash.str where
  bill y hy := by
    rintro (hK | e)
    · exact .inl (k.bill y hy hK)
    · cases e
  expense y hy := by
    rintro (hK | e)
    · exact ⟨fun b hb => .inl ((k.expense y hy hK).1 b hb), .inl (k.expense y hy hK).2.1, fun b hb => .inl ((k.expense y hy hK).2.2 b hb)⟩
    · cases e
  genesis y hy := by
    rintro (hK | e)
    · exact .inl (k.genesis y hy hK)
    · cases e
  trx y hy := by
    rintro (hK | e)
    · exact fun b hb => .inl ((k.trx y hy hK) b hb)
    · cases e
  block y hy := by
    rintro (hK | e)
    · exact fun b hb => .inl ((k.block y hy hK) b hb)
    · cases X.block y x hy hx (Hash.str_injective (by injection e))
      exact fun b hb => .inl ((h) b hb)
  minedBlock y hy := by
    rintro (hK | e)
    · exact .inl (k.minedBlock y hy hK)
    · cases e
  link y hy := by
    rintro (hK | e)
    · exact .inl (k.link y hy hK)
    · cases e
  minedLink y hy := by
    rintro (hK | e)
    · exact .inl (k.minedLink y hy hK)
    · cases e

omit [Sha512] in
theorem add_minedBlock (X : W.Exact) {x : MinedBlock} (hx : W.minedBlock x) (h : K (.block x.block.hash.str)) :
    Cov.Closed W fun g => K g ∨ g = .minedBlock x.hash.str where
  bill y hy := by
    rintro (hK | e)
    · exact .inl (k.bill y hy hK)
    · cases e
  expense y hy := by
    rintro (hK | e)
    · exact ⟨fun b hb => .inl ((k.expense y hy hK).1 b hb), .inl (k.expense y hy hK).2.1, fun b hb => .inl ((k.expense y hy hK).2.2 b hb)⟩
    · cases e
  genesis y hy := by
    rintro (hK | e)
    · exact .inl (k.genesis y hy hK)
    · cases e
  trx y hy := by
    rintro (hK | e)
    · exact fun b hb => .inl ((k.trx y hy hK) b hb)
    · cases e
  block y hy := by
    rintro (hK | e)
    · exact fun b hb => .inl ((k.block y hy hK) b hb)
    · cases e
  minedBlock y hy := by
    rintro (hK | e)
    · exact .inl (k.minedBlock y hy hK)
    · cases X.minedBlock y x hy hx (Hash.str_injective (by injection e))
      exact .inl (h)
  link y hy := by
    rintro (hK | e)
    · exact .inl (k.link y hy hK)
    · cases e
  minedLink y hy := by
    rintro (hK | e)
    · exact .inl (k.minedLink y hy hK)
    · cases e

omit [Sha512] in
theorem add_link (X : W.Exact) {x : Link} (hx : W.link x) (h : K (.block x.next.hash.str)) :
    Cov.Closed W fun g => K g ∨ g = .link x.hash.str where
  bill y hy := by
    rintro (hK | e)
    · exact .inl (k.bill y hy hK)
    · cases e
  expense y hy := by
    rintro (hK | e)
    · exact ⟨fun b hb => .inl ((k.expense y hy hK).1 b hb), .inl (k.expense y hy hK).2.1, fun b hb => .inl ((k.expense y hy hK).2.2 b hb)⟩
    · cases e
  genesis y hy := by
    rintro (hK | e)
    · exact .inl (k.genesis y hy hK)
    · cases e
  trx y hy := by
    rintro (hK | e)
    · exact fun b hb => .inl ((k.trx y hy hK) b hb)
    · cases e
  block y hy := by
    rintro (hK | e)
    · exact fun b hb => .inl ((k.block y hy hK) b hb)
    · cases e
  minedBlock y hy := by
    rintro (hK | e)
    · exact .inl (k.minedBlock y hy hK)
    · cases e
  link y hy := by
    rintro (hK | e)
    · exact .inl (k.link y hy hK)
    · cases X.link y x hy hx (Hash.str_injective (by injection e))
      exact .inl (h)
  minedLink y hy := by
    rintro (hK | e)
    · exact .inl (k.minedLink y hy hK)
    · cases e

omit [Sha512] in
theorem add_minedLink (X : W.Exact) {x : MinedLink} (hx : W.minedLink x) (h : K (.link x.link.hash.str)) :
    Cov.Closed W fun g => K g ∨ g = .minedLink x.hash.str where
  bill y hy := by
    rintro (hK | e)
    · exact .inl (k.bill y hy hK)
    · cases e
  expense y hy := by
    rintro (hK | e)
    · exact ⟨fun b hb => .inl ((k.expense y hy hK).1 b hb), .inl (k.expense y hy hK).2.1, fun b hb => .inl ((k.expense y hy hK).2.2 b hb)⟩
    · cases e
  genesis y hy := by
    rintro (hK | e)
    · exact .inl (k.genesis y hy hK)
    · cases e
  trx y hy := by
    rintro (hK | e)
    · exact fun b hb => .inl ((k.trx y hy hK) b hb)
    · cases e
  block y hy := by
    rintro (hK | e)
    · exact fun b hb => .inl ((k.block y hy hK) b hb)
    · cases e
  minedBlock y hy := by
    rintro (hK | e)
    · exact .inl (k.minedBlock y hy hK)
    · cases e
  link y hy := by
    rintro (hK | e)
    · exact .inl (k.link y hy hK)
    · cases e
  minedLink y hy := by
    rintro (hK | e)
    · exact .inl (k.minedLink y hy hK)
    · cases X.minedLink y x hy hx (Hash.str_injective (by injection e))
      exact .inl (h)

end Cov.Closed

end

end

end Verif
