import Verif.Spec.Power
import Verif.Props.Turmoil

/-!
# Power failures: C153
-/

namespace Verif

section
variable [Sha512] [C : Curve] {W : World} {e : Time → Time}

theorem Honest.loss {past : List Store} {σ : Store} (H : ∀ τ ∈ past, Honest W τ)
    (h : PowerLoss past σ) : Honest W σ := by
  refine honest_iff.mpr fun n a ha => ?_
  rcases h n with hn | hn | ⟨τ, hτ, hn⟩
  · rw [hn] at ha; cases ha
  · rw [hn] at ha; cases ha
  · exact honest_iff.mp (H τ hτ) n a (hn ▸ ha)

theorem Life.keeps (G : W.Good e) {cs : List Call} {past : List Store} {σ : Store}
    (h : Life W cs past σ) : Honest W σ ∧ (∀ τ ∈ past, Honest W τ) ∧ ∀ c ∈ cs, Call.Keeps W c := by
  induction h with
  | empty => exact ⟨Honest.empty W, by simp, by simp⟩
  | starts _ hop ih =>
    exact ⟨ih.1, ih.2.1, List.forall_mem_cons.mpr ⟨Op.proc_keeps G hop, ih.2.2⟩⟩
  | step _ hs ih =>
    obtain ⟨H, P, K⟩ := ih
    obtain ⟨H', k⟩ := Call.keeps_kind.step (K _ (by simp)) H hs
    refine ⟨H', List.forall_mem_cons.mpr ⟨H, P⟩, fun x hx => ?_⟩
    rcases List.mem_append.mp hx with hx | hx
    · exact K x (by simp [hx])
    · rcases List.mem_cons.mp hx with rfl | hx
      · exact k
      · exact K x (by simp [hx])
  | fault _ hs ih =>
    obtain ⟨H, P, K⟩ := ih
    obtain ⟨H', k⟩ := Call.keeps_kind.fault (K _ (by simp)) H hs
    refine ⟨H', List.forall_mem_cons.mpr ⟨H, P⟩, fun x hx => ?_⟩
    rcases List.mem_append.mp hx with hx | hx
    · exact K x (by simp [hx])
    · rcases List.mem_cons.mp hx with rfl | hx
      · exact k
      · exact K x (by simp [hx])
  | power _ hl ih =>
    have hp := List.forall_mem_cons.mpr ⟨ih.1, ih.2.1⟩
    exact ⟨Honest.loss hp hl, hp, by simp⟩

theorem forall₂_keeps : ∀ {cs : List Call}, (∀ c ∈ cs, Call.Keeps W c) →
    List.Forall₂ (fun P c => Call.Kind W P ∧ P c) (cs.map fun _ => Call.Keeps W) cs
  | [], _ => .nil
  | _ :: _, h => .cons ⟨Call.keeps_kind, h _ (by simp)⟩ (forall₂_keeps fun c hc => h c (by simp [hc]))

theorem Rd.Yields.run {α : Type} {P : α → Prop} {σ : Store} (H : Honest W σ) : ∀ {r : Rd α},
    r.Yields W P → (∃ y, r.run σ = .ok y ∧ P y) ∨ ∃ m, r.run σ = .err m
  | .ret _, h => h
  | .ask n k, h => by
    unfold Rd.run
    cases hc : readCell (σ.file n) with
    | ok a => exact Rd.Yields.run H (h a (honest_iff.mp H n a (readCell_eq_ok.mp hc)))
    | err m => exact .inr ⟨m, rfl⟩
    | crash x => exact absurd hc (readCell_no_crash _ _)

/-- Writing the whole content gives the same file whether it was emptied before or not. -/
def Proc.Truncates {α : Type} : Proc α → Prop
  | .ret _ => True
  | .query _ k => ∀ o, (k o).Truncates
  | .write d t k => (∀ σ, d (t σ) = d σ) ∧ ∀ b, (k b).Truncates

namespace Proc.Truncates
variable {α β : Type}

omit [Sha512] in
theorem bind {p : Proc α} {f : α → Proc β} (h : p.Truncates) (hf : ∀ a, (f a).Truncates) :
    (p.bind f).Truncates := by
  induction p with
  | ret o => cases o with
    | ok a => exact hf a
    | err m => trivial
    | crash c => trivial
  | query q k ih => exact fun o => ih o (h o)
  | write d t k ih => exact ⟨h.1, fun b => ih b (h.2 b)⟩

omit [Sha512] in
theorem forEach {γ : Type} {f : γ → Proc Unit} (h : ∀ x, (f x).Truncates) :
    ∀ xs : List γ, (Proc.forEach f xs).Truncates
  | [] => trivial
  | x :: xs => (h x).bind fun _ => forEach h xs

omit [Sha512] in
theorem unlessFound {q : Query} {rest : Proc Unit} (h : rest.Truncates) :
    (Proc.unlessFound q rest).Truncates := by
  intro o
  cases o with
  | ok a => trivial
  | err m => exact h
  | crash c => trivial

end Proc.Truncates

omit [Sha512] C in
theorem setFile_twice {α : Type} (d : Bytes → Option (Cell α)) (p : Bytes) (a b : Cell α) :
    setFile (setFile d p a) p b = setFile d p b := by
  funext q
  by_cases h : q = p <;> simp [setFile, h]

omit [Sha512] in
theorem procLock_truncates (x : Lock) : (procLock x).Truncates :=
  .unlessFound (.bind trivial fun _ => ⟨fun _ => by simp [setFile_twice], fun _ => trivial⟩)

omit [Sha512] in
theorem procBill_truncates (x : Bill) : (procBill x).Truncates :=
  .unlessFound (.bind (procLock_truncates _) fun _ => .bind trivial fun _ =>
    ⟨fun _ => by simp [setFile_twice], fun _ => trivial⟩)

omit [Sha512] in
theorem procGenesis_truncates (x : Genesis) : (procGenesis x).Truncates := by
  intro o
  cases o with
  | ok a => trivial
  | crash c => trivial
  | err m => exact .bind (procBill_truncates _) fun _ => .bind trivial fun _ => .bind trivial fun _ =>
      ⟨fun _ => rfl, fun _ => trivial⟩

omit [Sha512] in
theorem procExpense_truncates (x : Expense) : (procExpense x).Truncates :=
  .unlessFound (.bind (.forEach procBill_truncates _) fun _ => .bind (procBill_truncates _) fun _ =>
    .bind (.forEach procBill_truncates _) fun _ => .bind trivial fun _ =>
      ⟨fun _ => by simp [setFile_twice], fun _ => trivial⟩)

omit [Sha512] in
theorem procTrx_truncates (x : Transaction) : (procTrx x).Truncates :=
  .unlessFound (.bind (.forEach procExpense_truncates _) fun _ => .bind trivial fun _ =>
    ⟨fun _ => by simp [setFile_twice], fun _ => trivial⟩)

theorem procBlock_truncates (x : Block) : (procBlock x).Truncates :=
  .unlessFound (.bind (.forEach procTrx_truncates _) fun _ => .bind trivial fun _ =>
    ⟨fun _ => by simp [setFile_twice], fun _ => trivial⟩)

theorem procMinedBlock_truncates (x : MinedBlock) : (procMinedBlock x).Truncates :=
  .unlessFound (.bind (procBlock_truncates _) fun _ => .bind trivial fun _ =>
    ⟨fun _ => by simp [setFile_twice], fun _ => trivial⟩)

theorem procLink_truncates (x : Link) : (procLink x).Truncates :=
  .unlessFound (.bind (procBlock_truncates _) fun _ => .bind trivial fun _ =>
    ⟨fun _ => by simp [setFile_twice], fun _ => trivial⟩)

theorem procMinedLink_truncates (x : MinedLink) : (procMinedLink x).Truncates :=
  .unlessFound (.bind (procLink_truncates _) fun _ => .bind trivial fun _ =>
    ⟨fun _ => by simp [setFile_twice], fun _ => trivial⟩)

theorem procChain_truncates (x : Chain) : (procChain x).Truncates :=
  .bind (procMinedLink_truncates _) fun _ => .bind trivial fun _ => ⟨fun _ => rfl, fun _ => trivial⟩

theorem Op.proc_truncates (op : Op) : op.proc.Truncates := by
  cases op with
  | lock x => exact procLock_truncates x
  | bill x => exact procBill_truncates x
  | expense x => exact procExpense_truncates x
  | genesis x => exact procGenesis_truncates x
  | trx x => exact procTrx_truncates x
  | block x => exact procBlock_truncates x
  | minedBlock x => exact procMinedBlock_truncates x
  | link x => exact procLink_truncates x
  | minedLink x => exact procMinedLink_truncates x
  | insert c => exact .unlessFound (.bind (procGenesis_truncates _) fun _ =>
      .bind (procMinedBlock_truncates _) fun _ => procChain_truncates _)
  | update a b =>
    refine .bind (p := Proc.ret _) trivial fun _ => ?_
    exact .bind (p := Proc.ret _) trivial fun _ => procChain_truncates _
  | state s =>
    have hs : Proc.Truncates ((Proc.ret s.toTransfer).bind fun tr =>
      .save (fun σ => { σ with
          states := setFile σ.states (statePath tr.chain tr.height) (.json tr.toJSON) })
        (fun σ => { σ with states := setFile σ.states (statePath tr.chain tr.height) .torn })) :=
      .bind trivial fun _ => ⟨fun _ => by simp [setFile_twice], fun _ => trivial⟩
    intro o
    show Proc.Truncates _
    dsimp only
    split
    · split
      · trivial
      · exact hs
    · exact hs
    · trivial

/-- Among other calls, one call can run to its end. -/
theorem Life.runs {p : Proc Unit} (ht : p.Truncates) {cs : List Call} {past : List Store}
    {σ : Store} (h : Life W (.next p :: cs) past σ) :
    ∃ past', past ⊆ past' ∧
      Life W (.next (.ret (p.prog.exec σ).1) :: cs) past' (p.prog.exec σ).2 := by
  induction p generalizing past σ with
  | ret o => exact ⟨past, fun _ h => h, h⟩
  | query q k ih =>
    have key (r : Rd q.Result) : ∀ {past : List Store}, Life W (.reading q r k :: cs) past σ →
        ∃ past', past ⊆ past' ∧ Life W (.next (k (r.run σ)) :: cs) past' σ := by
      induction r with
      | ret o =>
        exact fun {past} h => ⟨σ :: past, List.subset_cons_self _ _, h.step (as := []) (.ends q o k σ)⟩
      | ask n r ih =>
        intro past h
        have h1 := h.step (as := []) (.reads q n r k σ)
        unfold Rd.after at h1
        unfold Rd.run
        cases hc : readCell (σ.file n) with
        | ok a =>
          rw [hc] at h1
          obtain ⟨past', hs, hl⟩ := ih a h1
          exact ⟨past', fun _ h => hs (by simp [h]), hl⟩
        | err m =>
          rw [hc] at h1
          exact ⟨_, fun _ h => by simp [h], h1.step (as := []) (.ends q _ k σ)⟩
        | crash c =>
          rw [hc] at h1
          exact ⟨_, fun _ h => by simp [h], h1.step (as := []) (.ends q _ k σ)⟩
    obtain ⟨p1, s1, h1⟩ := key _ (h.step (as := []) (.begins q k σ))
    obtain ⟨p2, s2, h2⟩ := ih _ (ht _) h1
    exact ⟨p2, fun _ h => s2 (s1 (by simp [h])), h2⟩
  | write d t k ih =>
    have h1 := h.step (as := []) (.opens d t k σ)
    have h2 := h1.step (as := []) (.writes d t k _)
    rw [ht.1 σ] at h2
    obtain ⟨p3, s3, h3⟩ := ih true (ht.2 true) h2
    exact ⟨p3, fun _ h => s3 (by simp [h]), h3⟩

/-- Among other calls, an operation can run to its end. -/
theorem Life.op {op : Op} (hop : op.In W) {cs : List Call} {past : List Store} {σ : Store}
    (h : Life W cs past σ) : ∃ past', past ⊆ past' ∧
      Life W (.next (.ret (op.prog.exec σ).1) :: cs) past' (op.prog.exec σ).2 := by
  have := (h.starts hop).runs op.proc_truncates
  rwa [op.proc_prog] at this

/-! ## C153 -/

/-- C153: after any number of calls at the same time, failed writes and power failures, the
retrieval of an object returns the object, or an error; it never panics and never returns anything
else. -/
theorem C153_retrieved_is_right (G : W.Good e) (O : W.OneGenesis e) {cs : List Call}
    {past : List Store} {σ : Store} (h : Life W cs past σ) {op : Op} (ho : op.In W)
    (hs : op.Saves) :
    (∃ y, op.query.reads.run σ = .ok y ∧ op.Same e y) ∨ ∃ m, op.query.reads.run σ = .err m :=
  Rd.Yields.run (h.keeps G).1 (Op.yields G O ho hs)

/-- C153: the same for a retrieval during which other calls go on. -/
theorem C153_retrieved_meanwhile_is_right (G : W.Good e) (O : W.OneGenesis e) {cs cs' : List Call}
    {past : List Store} {σ σ' : Store} (H : Life W cs past σ) {op : Op} (ho : op.In W)
    (hs : op.Saves) (f : Outcome op.query.Result → Outcome Unit) {c : Call}
    (h : Beset (op.query.call f :: cs) σ (c :: cs') σ') {r : Outcome Unit} (hr : c.Returned r) :
    ∃ o, r = f o ∧ ((∃ y, o = .ok y ∧ op.Same e y) ∨ ∃ m, o = .err m) := by
  obtain ⟨Hσ, -, K⟩ := H.keeps G
  have hk := (h.keeps Hσ (.cons ⟨Query.asking_kind (Op.yields G O ho hs) f, .inl rfl⟩
    (forall₂_keeps K))).2
  obtain ⟨⟨-, hc⟩, -⟩ := List.forall₂_cons.mp hk
  subst hr
  rcases hc with hc | ⟨r, hc, -⟩ | ⟨o, hc, ho⟩
  · cases hc
  · cases hc
  · injection hc with hc
    injection hc with hc
    exact ⟨o, hc, ho⟩

/-- C153: after all that, an object that is saved again is saved without an error, and can be
retrieved (a genesis: when none can be retrieved; blocks and what contains them: when a genesis can
be retrieved). -/
theorem C153_saving_again_repairs (G : W.Good e) {cs : List Call} {past : List Store} {σ : Store}
    (H : Life W cs past σ) {op : Op} (hop : op.In W) (hs : op.Saves)
    (O : op.NeedsGenesis → W.OneGenesis e)
    (hg : op.NeedsGenesis → ∃ g, retrGenesis σ = .ok g)
    (hn : ∀ x, op = .genesis x → ∃ m, retrGenesis σ = .err m) :
    ∃ σ', op.prog.exec σ = (.ok (), σ') ∧ op.Found e σ' := by
  have Hσ := (H.keeps G).1
  have he := op_exec G Hσ hop hs O hn
  refine ⟨_, Prod.ext he rfl, ?_⟩
  have hr := Run.of_exec op.prog σ
  rw [he] at hr
  exact (op_found G O Hσ hop hg _ _ hr).2 () rfl

theorem Op.Found.preserved {op : Op} {σ σ' : Store} (h : op.Found e σ) (p : Preserved σ σ') :
    op.Found e σ' := by
  cases op with
  | lock x => exact h.imp fun y hy => ⟨p.locks _ _ hy.1, hy.2⟩
  | bill x => exact h.imp fun y hy => ⟨p.bills _ _ hy.1, hy.2⟩
  | expense x => exact h.imp fun y hy => ⟨p.expenses _ _ hy.1, hy.2⟩
  | genesis x => exact h.imp fun y hy => ⟨p.genesis _ hy.1, hy.2⟩
  | trx x => exact h.imp fun y hy => ⟨p.trxs _ _ hy.1, hy.2⟩
  | block x => exact h.imp fun y hy => ⟨p.blocks _ _ hy.1, hy.2⟩
  | minedBlock x => exact h.imp fun y hy => ⟨p.minedBlocks _ _ hy.1, hy.2⟩
  | link x => exact h.imp fun y hy => ⟨p.links _ _ hy.1, hy.2⟩
  | minedLink x => exact h.imp fun y hy => ⟨p.minedLinks _ _ hy.1, hy.2⟩
  | insert c => trivial
  | update a b => trivial
  | state s => trivial

theorem execAll_repairs (G : W.Good e) (O : W.OneGenesis e) : ∀ {ops : List Op} {σ : Store},
    Honest W σ → (∃ g, retrGenesis σ = .ok g) →
    (∀ op ∈ ops, op.In W ∧ op.Saves ∧ ∀ x, op ≠ .genesis x) →
    Preserved σ (Op.execAll ops σ).2 ∧ (∀ r ∈ (Op.execAll ops σ).1, r = .ok ()) ∧
      ∀ op ∈ ops, op.Found e (Op.execAll ops σ).2
  | [], σ, _, _, _ => ⟨C32_histories_never_damage (.refl σ), by simp [Op.execAll], by simp⟩
  | op :: ops, σ, H, ⟨g, hg⟩, h => by
    obtain ⟨hop, hs, hn⟩ := h op (by simp)
    have he := op_exec G H hop hs (fun _ => O) fun x hx => absurd hx (hn x)
    have hr := Run.of_exec op.prog σ
    have hf := op_found G (fun _ => O) H hop (fun _ => ⟨g, hg⟩) _ _ hr
    have hp := (C32_saving_never_damages hr).1
    obtain ⟨p, ho, hF⟩ := execAll_repairs G O (ops := ops) hf.1 ⟨g, hp.genesis g hg⟩
      fun o ho => h o (by simp [ho])
    refine ⟨hp.trans p, List.forall_mem_cons.mpr ⟨he, ho⟩, List.forall_mem_cons.mpr ⟨?_, hF⟩⟩
    exact (hf.2 () (by rw [he])).preserved p

/-- C153: after all that, saving the genesis again when it is lost, and then any objects, one after
the other, repairs everything: every save returns nil, and at the end all of them can be retrieved,
together with everything that could be retrieved before. -/
theorem C153_saving_everything_again_repairs (G : W.Good e) (O : W.OneGenesis e) {cs : List Call}
    {past : List Store} {σ : Store} (H : Life W cs past σ) {g : Genesis} (hg : W.genesis g)
    (hn : ∃ m, retrGenesis σ = .err m) {ops : List Op}
    (hops : ∀ op ∈ ops, op.In W ∧ op.Saves ∧ ∀ x, op ≠ .genesis x) :
    (∀ r ∈ (Op.execAll (.genesis g :: ops) σ).1, r = .ok ()) ∧
      (∀ op ∈ .genesis g :: ops, op.Found e (Op.execAll (.genesis g :: ops) σ).2) ∧
      Preserved σ (Op.execAll (.genesis g :: ops) σ).2 := by
  have Hσ := (H.keeps G).1
  have he := op_exec (op := .genesis g) G Hσ hg trivial (fun _ => O) fun _ _ => hn
  have hr := Run.of_exec (Op.genesis g).prog σ
  have hf := op_found G (fun _ => O) Hσ (op := .genesis g) hg (fun h => h.elim) _ _ hr
  have hF := hf.2 () (by rw [he])
  obtain ⟨p, ho, hall⟩ := execAll_repairs G O hf.1 (hF.imp fun _ h => h.1) hops
  exact ⟨List.forall_mem_cons.mpr ⟨he, ho⟩, List.forall_mem_cons.mpr ⟨hF.preserved p, hall⟩,
    (C32_saving_never_damages hr).1.trans p⟩

/-- C153: the same when a genesis can still be retrieved. -/
theorem C153_saving_objects_again_repairs (G : W.Good e) (O : W.OneGenesis e) {cs : List Call}
    {past : List Store} {σ : Store} (H : Life W cs past σ) (hg : ∃ g, retrGenesis σ = .ok g)
    {ops : List Op} (hops : ∀ op ∈ ops, op.In W ∧ op.Saves ∧ ∀ x, op ≠ .genesis x) :
    (∀ r ∈ (Op.execAll ops σ).1, r = .ok ()) ∧ (∀ op ∈ ops, op.Found e (Op.execAll ops σ).2) ∧
      Preserved σ (Op.execAll ops σ).2 := by
  obtain ⟨p, ho, hF⟩ := execAll_repairs G O (H.keeps G).1 hg hops
  exact ⟨ho, hF, p⟩

/-- C153: whatever was saved, after a power failure everything can be gone. -/
theorem C153_everything_lost_neg {cs : List Call} {past : List Store} {σ : Store}
    (h : Life W cs past σ) :
    ∃ σ', Life W [] (σ :: past) σ' ∧ ∀ op : Op, ∃ m, op.query.reads.run σ' = .err m := by
  refine ⟨.empty, h.power fun n => .inl (by cases n <;> rfl), fun op => ?_⟩
  cases op <;> exact ⟨_, rfl⟩

/-- C153: a save returns nil and the object can be retrieved; after a power failure it cannot. -/
theorem C153_acknowledged_save_lost_neg (G : W.Good e) {cs : List Call} {past : List Store}
    {σ : Store} (H : Life W cs past σ) {op : Op} (hop : op.In W) (hs : op.Saves)
    (O : op.NeedsGenesis → W.OneGenesis e)
    (hg : op.NeedsGenesis → ∃ g, retrGenesis σ = .ok g)
    (hn : ∀ x, op = .genesis x → ∃ m, retrGenesis σ = .err m) :
    ∃ past' σ₁ σ₂, Life W (.next (.ret (.ok ())) :: cs) past' σ₁ ∧ op.Found e σ₁ ∧
      Life W [] (σ₁ :: past') σ₂ ∧ (∃ m, op.query.reads.run σ₂ = .err m) := by
  obtain ⟨σ₁, he, hf⟩ := C153_saving_again_repairs G H hop hs O hg hn
  obtain ⟨p, -, h⟩ := H.op hop
  rw [he] at h
  obtain ⟨σ₂, h2, hl⟩ := C153_everything_lost_neg h
  exact ⟨p, σ₁, σ₂, h, hf, h2, hl op⟩

/-- C153: after a power failure the files can be as they were at any earlier time; for example the
chain can be an earlier one. -/
theorem C153_earlier_files_come_back_neg {cs : List Call} {past : List Store} {σ τ : Store}
    (h : Life W cs past σ) (hτ : τ ∈ past) : Life W [] (σ :: past) τ :=
  h.power fun _ => .inr (.inr ⟨τ, by simp [hτ], rfl⟩)

/-- C153: after a power failure the file of a bill can be complete while the file of its lock is
lost, though it was written first; then the bill cannot be retrieved. -/
theorem C153_lock_of_bill_lost_neg {cs : List Call} {past : List Store} {σ : Store}
    (h : Life W cs past σ) {p : Bytes} {js : JTrBill} (hb : σ.bills p = some (.json js)) :
    ∃ σ', Life W [] (σ :: past) σ' ∧ σ'.bills p = some (.json js) ∧ σ'.locks = (fun _ => none) ∧
      ¬ Closed σ' ∧ ∀ h b, retrBill σ' h ≠ .ok b := by
  refine ⟨{ σ with locks := fun _ => none }, h.power fun n => ?_, hb, rfl, fun K => ?_, ?_⟩
  · cases n with
    | lock p => exact .inl rfl
    | _ => exact .inr (.inr ⟨σ, by simp, rfl⟩)
  · obtain ⟨_, hr⟩ := K.bills p js hb
    cases hr
  · intro h b hr
    simp only [retrBill] at hr
    obtain ⟨js, -, hr⟩ := Outcome.bind_eq_ok.mp hr
    obtain ⟨tr, -, hr⟩ := Outcome.bind_eq_ok.mp hr
    obtain ⟨l, hl, -⟩ := Outcome.bind_eq_ok.mp hr
    simp [retrLock, readCell] at hl
end

section examples

attribute [local instance] toyCurve toySha FloatText.decimal

/-- C153: a genesis and a mined block are saved. A power failure leaves the files as they are except
for the locks, which are lost. The mined block and the genesis cannot be retrieved then; saving both
again repairs the store. -/
example : ∃ (W : World) (b : MinedBlock) (g : Genesis) (cs : List Call) (past : List Store)
    (σ σ' : Store), W.Good id ∧ W.OneGenesis id ∧ (Op.minedBlock b).In W ∧ W.genesis g ∧
    Life W cs past σ ∧ (Op.minedBlock b).Found id σ ∧ Life W [] (σ :: past) σ' ∧
    (∃ m, retrGenesis σ' = .err m) ∧ (∃ p js, σ.bills p = some (.json js)) ∧
    (Op.minedBlock b).Found id (Op.execAll [.genesis g, .minedBlock b] σ').2 := by
  obtain ⟨W, x, t, b, r, k, X, G, O, hx, ht, hg, hb, hr, -⟩ := toy_world_exact
  have hn : ∃ m, retrGenesis Store.empty = .err m := ⟨_, rfl⟩
  obtain ⟨σ₁, e1, f1⟩ := C153_saving_again_repairs G .empty (op := .genesis b.genesis) hg trivial
    (fun h => h.elim) (fun h => h.elim) fun _ _ => hn
  obtain ⟨p1, -, l1⟩ := Life.op (op := .genesis b.genesis) hg (.empty (W := W))
  rw [e1] at l1
  obtain ⟨σ₂, e2, f2⟩ := C153_saving_again_repairs G l1 (op := .minedBlock r) hr trivial
    (fun _ => O) (fun _ => f1.imp fun _ h => h.1) fun _ h => by cases h
  obtain ⟨p2, -, l2⟩ := Life.op (op := .minedBlock r) hr l1
  rw [e2] at l2
  have hr2 := Run.of_exec (Op.minedBlock r).prog σ₁
  rw [e2] at hr2
  obtain ⟨g', hg', -⟩ := f1.preserved (C32_saving_never_damages hr2).1
  obtain ⟨js, -, h⟩ := Outcome.bind_eq_ok.mp hg'
  obtain ⟨tr, -, h⟩ := Outcome.bind_eq_ok.mp h
  obtain ⟨bl, h, -⟩ := Outcome.bind_eq_ok.mp h
  obtain ⟨jb, hj, -⟩ := Outcome.bind_eq_ok.mp h
  have hj := readCell_eq_ok.mp hj
  obtain ⟨σ₃, l3, -, -, -, hno⟩ := C153_lock_of_bill_lost_neg l2 hj
  have hng : ∃ m, retrGenesis σ₃ = .err m := by
    rcases C153_retrieved_is_right G O l3 (op := .genesis b.genesis) hg trivial with ⟨y, hy, -⟩ | h
    · rw [show (Op.genesis b.genesis).query.reads.run σ₃ = _ from run_readGenesis σ₃] at hy
      obtain ⟨js, -, h⟩ := Outcome.bind_eq_ok.mp hy
      obtain ⟨tr, -, h⟩ := Outcome.bind_eq_ok.mp h
      obtain ⟨bl, h, -⟩ := Outcome.bind_eq_ok.mp h
      exact absurd h (hno _ _)
    · rwa [show (Op.genesis b.genesis).query.reads.run σ₃ = _ from run_readGenesis σ₃] at h
  exact ⟨W, r, b.genesis, _, _, σ₂, σ₃, G, O, hr, hg, l2, f2, l3, hng, ⟨_, _, hj⟩,
    (C153_saving_everything_again_repairs G O l3 hg hng (ops := [.minedBlock r])
      (by simpa [Op.Saves, Op.In] using hr)).2.1 _ (by simp)⟩

end examples

end Verif
