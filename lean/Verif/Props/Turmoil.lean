import Verif.Model.Store.Glimpses
import Verif.Props.Concurrent

/-!
# Calls at the same time with writes that fail: C138
-/

namespace Verif

section
variable [Sha512] [C : Curve] {W : World} {e : Time → Time}

/-- A condition on calls that their steps keep, and that makes them keep the store honest. -/
structure Call.Kind (W : World) (P : Call → Prop) : Prop where
  step : ∀ {c c' : Call} {σ σ' : Store}, P c → Honest W σ → c.Step σ c' σ' → Honest W σ' ∧ P c'
  fault : ∀ {c c' : Call} {σ σ' : Store}, P c → Honest W σ → c.Fault σ c' σ' → Honest W σ' ∧ P c'

theorem Beset.keeps {Ps : List (Call → Prop)} {cs cs' : List Call} {σ σ' : Store}
    (h : Beset cs σ cs' σ') (H : Honest W σ)
    (hc : List.Forall₂ (fun P c => Call.Kind W P ∧ P c) Ps cs) :
    Honest W σ' ∧ List.Forall₂ (fun P c => Call.Kind W P ∧ P c) Ps cs' := by
  induction h with
  | refl => exact ⟨H, hc⟩
  | step _ hs ih =>
    obtain ⟨H1, hc1⟩ := ih H
    obtain ⟨-, P, -, -, ⟨k, hP⟩, hr⟩ := forall₂_split hc1
    obtain ⟨H2, h2⟩ := k.step hP H1 hs
    exact ⟨H2, hr (fun _ _ h => h) ⟨k, h2⟩⟩
  | fault _ hs ih =>
    obtain ⟨H1, hc1⟩ := ih H
    obtain ⟨-, P, -, -, ⟨k, hP⟩, hr⟩ := forall₂_split hc1
    obtain ⟨H2, h2⟩ := k.fault hP H1 hs
    exact ⟨H2, hr (fun _ _ h => h) ⟨k, h2⟩⟩

/-- Every write of the call is for an object of the world. -/
def Call.Keeps (W : World) : Call → Prop
  | .next p => p.Keeps W
  | .reading _ _ k => ∀ o, (k o).Keeps W
  | .writing d t k => (∀ σ, Honest W σ → Honest W (d σ) ∧ Honest W (t σ)) ∧ ∀ b, (k b).Keeps W

theorem Call.keeps_kind : Call.Kind W (Call.Keeps W) where
  step := by
    intro c c' σ σ' h H hs
    cases hs with
    | begins q k => exact ⟨H, h⟩
    | reads q n r k => exact ⟨H, h⟩
    | ends q o k => exact ⟨H, h o⟩
    | opens d t k => exact ⟨(h.1 σ H).2, h⟩
    | writes d t k => exact ⟨(h.1 σ H).1, h.2 true⟩
    | mixes d t k => exact ⟨(h.1 σ H).2, h.2 true⟩
  fault := by
    intro c c' σ σ' h H hs
    cases hs with
    | refused d t k => exact ⟨H, h.2 false⟩
    | nothing d t k => exact ⟨H, h.2 false⟩
    | part d t k => exact ⟨(h.1 σ H).2, h.2 false⟩
    | whole d t k => exact ⟨(h.1 σ H).1, h.2 false⟩

theorem Op.all_keep (G : W.Good e) : ∀ {ops : List Op}, (∀ op ∈ ops, op.In W) →
    List.Forall₂ (fun P c => Call.Kind W P ∧ P c) (ops.map fun _ => Call.Keeps W)
      (ops.map fun op => .next op.proc)
  | [], _ => .nil
  | op :: ops, h => .cons ⟨Call.keeps_kind, Op.proc_keeps G (h op (by simp))⟩
      (Op.all_keep G fun o ho => h o (by simp [ho]))

theorem Turmoil.honest (G : W.Good e) {σ : Store} (h : Turmoil W σ) : Honest W σ := by
  induction h with
  | empty => exact Honest.empty W
  | round _ hop hb ih => exact (hb.keeps ih (Op.all_keep G hop)).1

/-- The retrieval returns such a value or an error, whatever is written between its reads. -/
def Rd.Yields (W : World) {α : Type} (P : α → Prop) : Rd α → Prop
  | .ret o => (∃ y, o = .ok y ∧ P y) ∨ ∃ m, o = .err m
  | .ask s k => ∀ a, s.Honest W a → Yields W P (k a)

theorem Rd.Gets.yields {α β : Type} {n : α → β} {z : β} {r : Rd α} (h : r.Gets W n z) :
    r.Yields W fun y => n y = z := by
  induction r with
  | ret o => exact h.imp id fun h => h.2
  | ask s k ih => exact fun a ha => ih a (h a ha)

theorem Op.yields (G : W.Good e) (O : W.OneGenesis e) {op : Op} (hop : op.In W) (hs : op.Saves) :
    op.query.reads.Yields W (op.Same e) := by
  cases op with
  | lock x => exact (readLock_gets G hop).yields
  | bill x => exact (readBill_gets G hop).yields
  | expense x => exact (readExpense_gets G hop).yields
  | genesis x => exact (readGenesis_gets G O hop).yields
  | trx x => exact (readTrx_gets G hop).yields
  | block x => exact (readBlock_gets G O hop).yields
  | minedBlock x => exact (readMinedBlock_gets G O hop).yields
  | link x => exact (readLink_gets G O hop).yields
  | minedLink x => exact (readMinedLink_gets G O hop).yields
  | insert c => exact hs.elim
  | update a b => exact hs.elim
  | state s => exact hs.elim

/-- A call that retrieves. -/
def Query.Asking (W : World) (q : Query) (P : q.Result → Prop) (f : Outcome q.Result → Outcome Unit)
    (c : Call) : Prop :=
  c = q.call f ∨ (∃ r : Rd q.Result, c = .reading q r (fun o => .ret (f o)) ∧ r.Yields W P) ∨
    ∃ o, c.Returned (f o) ∧ ((∃ y, o = .ok y ∧ P y) ∨ ∃ m, o = .err m)

theorem Query.asking_kind {q : Query} {P : q.Result → Prop} (h : q.reads.Yields W P)
    (f : Outcome q.Result → Outcome Unit) : Call.Kind W (q.Asking W P f) where
  step := by
    rintro c c' σ σ' (rfl | ⟨r, rfl, hr⟩ | ⟨o, rfl, ho⟩) H hs
    · cases hs
      exact ⟨H, .inr (.inl ⟨_, rfl, h⟩)⟩
    · cases hs with
      | reads _ n k =>
        refine ⟨H, .inr (.inl ⟨_, rfl, ?_⟩)⟩
        unfold Rd.after
        cases hc : readCell (σ.file n) with
        | ok a => exact hr a (honest_iff.mp H n a (readCell_eq_ok.mp hc))
        | err m => exact .inr ⟨m, rfl⟩
        | crash x => exact absurd hc (readCell_no_crash _ _)
      | ends _ o => exact ⟨H, .inr (.inr ⟨o, rfl, hr⟩)⟩
    · cases hs
  fault := by
    rintro c c' σ σ' (rfl | ⟨r, rfl, hr⟩ | ⟨o, rfl, ho⟩) H hs <;> cases hs

/-! ## C138 -/

/-- C138: an object is retrieved while any number of other calls are under way, whose writes may
fail, from a store left by any number of such rounds in which the process was killed. The retrieval
returns the object, or an error; it never panics and never returns anything else. -/
theorem C138_retrieved_is_right (G : W.Good e) (O : W.OneGenesis e) {σ σ' : Store}
    (H : Turmoil W σ) {ops : List Op} (hop : ∀ op ∈ ops, op.In W) {op : Op} (ho : op.In W)
    (hs : op.Saves) (f : Outcome op.query.Result → Outcome Unit) {c : Call} {cs : List Call}
    (h : Beset (op.query.call f :: ops.map fun op => .next op.proc) σ (c :: cs) σ')
    {r : Outcome Unit} (hr : c.Returned r) :
    ∃ o, r = f o ∧ ((∃ y, o = .ok y ∧ op.Same e y) ∨ ∃ m, o = .err m) := by
  have hk := (h.keeps (H.honest G) (.cons ⟨Query.asking_kind (Op.yields G O ho hs) f, .inl rfl⟩
    (Op.all_keep G hop))).2
  obtain ⟨⟨-, hc⟩, -⟩ := List.forall₂_cons.mp hk
  subst hr
  rcases hc with hc | ⟨r, hc, -⟩ | ⟨o, hc, ho⟩
  · cases hc
  · cases hc
  · injection hc with hc
    injection hc with hc
    exact ⟨o, hc, ho⟩

/-- C138: after any such rounds, an object that is saved again, now alone and without faults, is
saved without an error, and can be retrieved (a genesis: when none can be retrieved; blocks and what
contains them: when a genesis can be retrieved). -/
theorem C138_saving_again_repairs (G : W.Good e) {σ : Store} (H : Turmoil W σ) {op : Op}
    (hop : op.In W) (hs : op.Saves) (O : op.NeedsGenesis → W.OneGenesis e)
    (hg : op.NeedsGenesis → ∃ g, retrGenesis σ = .ok g)
    (hn : ∀ x, op = .genesis x → ∃ m, retrGenesis σ = .err m) :
    ∃ σ', op.prog.exec σ = (.ok (), σ') ∧ op.Found e σ' := by
  have he := op_exec G (H.honest G) hop hs O hn
  refine ⟨_, Prod.ext he rfl, ?_⟩
  have hr := Run.of_exec op.prog σ
  rw [he] at hr
  exact (op_found G O (H.honest G) hop hg _ _ hr).2 () rfl

end

section examples

theorem Together.beset [Sha512] [Curve] {cs cs' : List Call} {σ σ' : Store}
    (h : Together cs σ cs' σ') : Beset cs σ cs' σ' := by
  induction h with
  | refl => exact .refl _ _
  | step _ hs ih => exact ih.step hs

attribute [local instance] toyCurve toySha FloatText.decimal

/-- Tells whether something was retrieved. -/
def verdict {α : Type} : Outcome α → Outcome Unit
  | .ok _ => .ok ()
  | _ => .err "not found"

/-- C138: a lock is retrieved while it is saved. When the file is read before the content is
written, there is an error, otherwise the lock is found. When the process is killed in between, the
file stays empty. -/
example : ∃ (W : World) (l : Lock) (σ : Store), W.Good id ∧ W.OneGenesis id ∧ W.lock l ∧
    (∃ c σ', Beset [(Op.lock l).query.call verdict, .next (Op.lock l).proc] .empty
      [.next (.ret (.err "not found")), c] σ' ∧ c ≠ .next (.ret (.ok ()))) ∧
    (∃ σ', Beset [(Op.lock l).query.call verdict, .next (Op.lock l).proc] .empty
      [.next (.ret (.ok ())), .next (.ret (.ok ()))] σ') ∧
    Turmoil W σ ∧ σ.locks l.hash.str = some .torn ∧ ∃ m, retrLock σ l.hash = .err m := by
  obtain ⟨W, x, t, b, r, k, X, G, O, hx, ht, hg, hb, hr, -⟩ := toy_world_exact
  have hl : W.lock b.genesis.bill.lock := G.bill_lock _ (G.genesis_bill _ hg)
  generalize b.genesis.bill.lock = l at hl
  obtain ⟨c, h1, h2, -⟩ := lockRest_opens l
  have hn : ∃ m, retrLock .empty l.hash = .err m := ⟨_, rfl⟩
  have s1 := Together.lock (as := [(Op.lock l).query.call verdict]) (bs := []) hn (.refl _ .empty)
  have s2 := Together.step (as := [(Op.lock l).query.call verdict]) (bs := []) s1 (h1 _)
  have s3 := Together.step (as := [(Op.lock l).query.call verdict]) (bs := []) s2 (h2 _)
  have f1 := Together.finds (q := .lock l.hash) (k := fun o => .ret (verdict o)) (as := [])
    (bs := [c]) s2
  have f2 := Together.finds (q := .lock l.hash) (k := fun o => .ret (verdict o)) (as := [])
    (bs := [.next (.ret (.ok ()))]) s3
  rw [show (Query.reads (.lock l.hash)).run _ = _ from (run_readLock _ _).trans retrLock_torn] at f1
  obtain ⟨y, hy, -⟩ := (retrLock_file (p := False) (e := id) (js := l.json) (G.lock_built l hl)
      (σ := (Store.empty.putLock l .torn).putLock l (.json l.json)) rfl
      (by simp [Store.putLock])).exists
  rw [show (Query.reads (.lock l.hash)).run _ = _ from (run_readLock _ _).trans hy] at f2
  have u1 := Together.lock (as := []) (bs := []) hn (.refl _ .empty)
  have u2 := Together.step (as := []) (bs := []) u1 (h1 _)
  refine ⟨W, l, _, G, O, hl, ⟨c, _, f1.beset, ?_⟩, ⟨_, f2.beset⟩,
    .round (ops := [.lock l]) .empty (by simpa [Op.In] using hl) u2.beset, ?_, _, retrLock_torn⟩
  · rintro rfl
    cases h2 .empty
  · simp [Store.putLock]

end examples

end Verif
