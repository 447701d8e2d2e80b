import Verif.Model.Store.Views
import Verif.Props.Store
import Verif.Props.Text

/-!
# Calls at the same time: C137
-/

namespace Verif

section
variable [Sha512] [C : Curve] {W : World} {e : Time → Time}

/-- A call in the middle of its program keeps the guarantee. -/
def Call.Safe (W : World) (σ : Store) (K : Cov) (Q : Cov → Outcome Unit → Prop) : Call → Prop
  | .next p => Verif.Safe W Q p.prog K
  | .reading _ r k => SafeRd W Q (fun o => (k o).prog) r K
  | .writing d t k =>
    ((∃ f, Tracked W d t f ∧ σ.there f ∧ K f) ∨ Untracked W d t) ∧ Verif.Safe W Q (k true).prog K

/-- The call has the file open. -/
def Call.Opened (W : World) (f : FileName) (c : Call) : Prop :=
  ∃ d t p, c = .writing d t p ∧ Tracked W d t f

/-- What is true at every point: complete files belong to objects of the world, every reference
leads to a file that is complete or open, and every call keeps its guarantee. -/
structure Running (W : World) (K : Cov) (Qs : List (Cov → Outcome Unit → Prop)) (cs : List Call)
    (σ : Store) : Prop where
  honest : Honest W σ
  closed : K.Closed W
  within : ∀ g, σ.whole g → K g
  covered : ∀ g, K g → σ.whole g ∨ ∃ c ∈ cs, c.Opened W g
  calls : List.Forall₂ (fun Q c => Up Q ∧ c.Safe W σ K Q) Qs cs

omit [Sha512] C in
theorem forall₂_split {α β : Type} {R : α → β → Prop} : ∀ {as bs : List β} {c : β} {qs : List α},
    List.Forall₂ R qs (as ++ c :: bs) → ∃ q₁ q q₂, qs = q₁ ++ q :: q₂ ∧ R q c ∧
      ∀ {S : α → β → Prop}, (∀ q c, R q c → S q c) → ∀ {c'}, S q c' → List.Forall₂ S qs (as ++ c' :: bs)
  | [], bs, c, _, .cons (a := q) (l₁ := q₂) h t =>
    ⟨[], q, q₂, rfl, h, fun hS _ hc => .cons hc (t.imp fun _ _ h => hS _ _ h)⟩
  | a :: as, bs, c, _, .cons (a := q) (l₁ := qs) h t => by
    obtain ⟨q₁, q', q₂, e, hq, hs⟩ := forall₂_split t
    exact ⟨q :: q₁, q', q₂, by rw [e]; rfl, hq, fun hS _ hc => .cons (hS _ _ h) (hs hS hc)⟩

omit [Sha512] in
theorem Call.Safe.change {σ σ' : Store} {K K' : Cov} {Q : Cov → Outcome Unit → Prop} {c : Call}
    [Sha512] (u : Up Q) (h : c.Safe W σ K Q) (hσ : ∀ g, σ.there g → σ'.there g)
    (hK : ∀ g, K g → K' g) : c.Safe W σ' K' Q := by
  cases c with
  | next p => exact Verif.Safe.mono u h hK
  | reading q r k => exact SafeRd.mono u h hK
  | writing d t p =>
    exact ⟨h.1.imp (fun ⟨f, h1, h2, h3⟩ => ⟨f, h1, hσ f h2, hK f h3⟩) id, h.2.mono u hK⟩

theorem Running.step (X : W.Exact) {K : Cov} {Qs : List (Cov → Outcome Unit → Prop)} {as bs : List Call}
    {c c' : Call} {σ σ' : Store} (R : Running W K Qs (as ++ c :: bs) σ) (h : c.Step σ c' σ') :
    ∃ K', (∀ g, K g → K' g) ∧ Running W K' Qs (as ++ c' :: bs) σ' := by
  obtain ⟨q₁, Q, q₂, -, ⟨u, hQ⟩, hs⟩ := forall₂_split R.calls
  have others {f : FileName} {x : Call} (h : ∃ c₀ ∈ as ++ x :: bs, c₀.Opened W f)
      (hx : ¬ x.Opened W f) (y : Call) : ∃ c₀ ∈ as ++ y :: bs, c₀.Opened W f := by
    obtain ⟨c₀, h1, h2⟩ := h
    refine ⟨c₀, ?_, h2⟩
    simp only [List.mem_append, List.mem_cons] at h1 ⊢
    rcases h1 with h1 | rfl | h1
    · exact .inl h1
    · exact absurd h2 hx
    · exact .inr (.inr h1)
  have idle (f : FileName) (p : Proc Unit) : ¬ (Call.next p).Opened W f := by
    rintro ⟨_, _, _, h, -⟩
    cases h
  have busy (f : FileName) (q : Query) (r : Rd q.Result) (k : Outcome q.Result → Proc Unit) :
      ¬ (Call.reading q r k).Opened W f := by
    rintro ⟨_, _, _, h, -⟩
    cases h
  cases h with
  | begins q k =>
    refine ⟨K, fun _ h => h, R.honest, R.closed, R.within, fun g hg => (R.covered g hg).imp id
      fun h => others h (idle g _) _, hs (fun _ _ h => h) ⟨u, ?_⟩⟩
    exact Safe.reads X q.once R.closed hQ
  | reads q n r k =>
    refine ⟨K, fun _ h => h, R.honest, R.closed, R.within, fun g hg => (R.covered g hg).imp id
      fun h => others h (busy g _ _ _) _, hs (fun _ _ h => h) ⟨u, ?_⟩⟩
    obtain ⟨h1, h2⟩ := hQ K (fun _ h => h) R.closed σ R.honest R.within
    unfold Rd.after
    cases hc : readCell (σ.file n) with
    | ok a => exact h1 a hc
    | err m => exact h2 m hc
    | crash c => exact absurd hc (readCell_no_crash _ _)
  | ends q o k =>
    exact ⟨K, fun _ h => h, R.honest, R.closed, R.within, fun g hg => (R.covered g hg).imp id
      fun h => others h (busy g _ _ _) _, hs (fun _ _ h => h) ⟨u, hQ⟩⟩
  | opens d t k =>
    rcases hQ with ⟨f, ht, hc, hp⟩ | ⟨hu, hp⟩
    · refine ⟨fun g => K g ∨ g = f, fun _ => .inl, ht.honest_torn σ R.honest,
        hc K (fun _ h => h) R.closed, fun g hg => .inl (R.within g ((ht.whole_torn σ g).mp hg).2),
        fun g hg => ?_, hs (fun Q c h => ⟨h.1, h.2.change h.1
          (fun g hg => (ht.there_torn σ g).mpr (.inr hg)) fun _ => .inl⟩)
          ⟨u, .inl ⟨f, ht, (ht.there_torn σ f).mpr (.inl rfl), .inr rfl⟩, hp⟩⟩
      by_cases hgf : g = f
      · subst hgf
        exact .inr ⟨.writing d t k, by simp, d, t, _, rfl, ht⟩
      · rcases hg with hg | hg
        · exact (R.covered g hg).imp (fun h => (ht.whole_torn σ g).mpr ⟨hgf, h⟩)
            fun h => others h (idle g _) _
        · exact absurd hg hgf
    · refine ⟨K, fun _ h => h, hu.honest_torn σ R.honest, R.closed,
        fun g hg => R.within g ((hu.whole_torn σ g).mp hg), fun g hg => (R.covered g hg).imp
          (fun h => (hu.whole_torn σ g).mpr h) fun h => others h (idle g _) _,
        hs (fun Q c h => ⟨h.1, h.2.change h.1
          (fun g hg => (hu.there_torn σ g).mpr hg) fun _ h => h⟩) ⟨u, .inr hu, hp⟩⟩
  | writes d t p =>
    obtain ⟨hw, hp⟩ := hQ
    have cov (g : FileName) (h : (σ.whole g ∨ ∃ c₀ ∈ as ++ Call.writing d t p :: bs, c₀.Opened W g))
        (h1 : σ.whole g → (d σ).whole g) :
        (d σ).whole g ∨ ∃ c₀ ∈ as ++ Call.next (p true) :: bs, c₀.Opened W g := by
      rcases h with h | h
      · exact .inl (h1 h)
      · by_cases ho : (Call.writing d t p).Opened W g
        · obtain ⟨_, _, _, h2, h3⟩ := ho
          cases h2
          exact .inl ((h3.whole_done σ g).mpr (.inl rfl))
        · exact .inr (others h ho _)
    rcases hw with ⟨f, ht, hf, hK⟩ | hu
    · refine ⟨K, fun _ h => h, ht.honest_done σ R.honest, R.closed, fun g hg => ?_,
        fun g hg => cov g (R.covered g hg) fun h => (ht.whole_done σ g).mpr (.inr h),
        hs (fun Q c h => ⟨h.1, h.2.change h.1
          (fun g hg => (ht.there_done σ g).mpr (.inr hg)) fun _ h => h⟩) ⟨u, hp⟩⟩
      rcases (ht.whole_done σ g).mp hg with rfl | hg
      · exact hK
      · exact R.within g hg
    · exact ⟨K, fun _ h => h, hu.honest_done σ R.honest, R.closed,
        fun g hg => R.within g ((hu.whole_done σ g).mp hg),
        fun g hg => cov g (R.covered g hg) fun h => (hu.whole_done σ g).mpr h,
        hs (fun Q c h => ⟨h.1, h.2.change h.1
          (fun g hg => (hu.there_done σ g).mpr hg) fun _ h => h⟩) ⟨u, hp⟩⟩
  | mixes d t p _ h1 h2 =>
    obtain ⟨hw, hp⟩ := hQ
    rcases hw with ⟨f, ht, hf, hK⟩ | hu
    · exact ((ht.clean σ R.honest hf).elim h1 h2).elim
    · refine ⟨K, fun _ h => h, hu.honest_torn σ R.honest, R.closed,
        fun g hg => R.within g ((hu.whole_torn σ g).mp hg), fun g hg => ?_,
        hs (fun Q c h => ⟨h.1, h.2.change h.1
          (fun g hg => (hu.there_torn σ g).mpr hg) fun _ h => h⟩) ⟨u, hp⟩⟩
      rcases R.covered g hg with h | h
      · exact .inl ((hu.whole_torn σ g).mpr h)
      · by_cases ho : (Call.writing d t p).Opened W g
        · obtain ⟨_, _, _, h3, h4⟩ := ho
          cases h3
          have := (h4.whole_torn σ g).symm.trans (hu.whole_torn σ g)
          have h5 := (h4.whole_done σ g).symm.trans (hu.whole_done σ g)
          simp only [true_or, true_iff] at h5
          exact .inl ((hu.whole_torn σ g).mpr h5)
        · exact .inr (others h ho _)

theorem Running.together (X : W.Exact) {K : Cov} {Qs : List (Cov → Outcome Unit → Prop)} {cs cs' : List Call}
    {σ σ' : Store} (R : Running W K Qs cs σ) (h : Together cs σ cs' σ') :
    ∃ K', (∀ g, K g → K' g) ∧ Running W K' Qs cs' σ' := by
  induction h with
  | refl => exact ⟨K, fun _ h => h, R⟩
  | step _ hs ih =>
    obtain ⟨K₁, h1, R₁⟩ := ih R
    obtain ⟨K₂, h2, R₂⟩ := R₁.step X hs
    exact ⟨K₂, fun g hg => h2 g (h1 g hg), R₂⟩

/-- The complete files of a store without dangling references. -/
theorem Sane.cov (X : W.Exact) (G : W.Good e) {σ : Store} (S : Sane W σ) : Cov.Closed W σ.whole where
  bill x hx := by
    rintro ⟨js, hc⟩
    obtain ⟨y, hy, hp, hf⟩ := S.1.bills _ _ hc
    cases X.bill x y hx hy (Hash.str_injective hp)
    have := S.2.bills _ _ hc
    rwa [bill_file_eq hf] at this
  expense x hx := by
    rintro ⟨js, hc⟩
    obtain ⟨y, hy, hp, hf⟩ := S.1.expenses _ _ hc
    cases X.expense x y hx hy (Hash.str_injective hp)
    have := S.2.expenses _ _ hc
    rw [expense_file_eq hf] at this
    refine ⟨fun b hb => this.1 _ ?_, this.2.1, fun b hb => ?_⟩
    · simp only [List.map_map, List.mem_map, Function.comp_apply]
      exact ⟨b, hb, rfl⟩
    · have h3 := this.2.2
      simp only [hb, Option.map_some, optStr] at h3
      refine h3 ?_
      intro h0
      have := Hash.str_length b.hash
      rw [h0] at this
      simp at this
  genesis x hx := by
    rintro ⟨js, hc⟩
    obtain ⟨y, hy, hf⟩ := S.1.genesis _ hc
    cases X.genesis x y hx hy
    have := S.2.genesis _ hc
    rwa [genesis_file_eq hf] at this
  trx x hx := by
    rintro ⟨js, hc⟩ b hb
    obtain ⟨y, hy, hp, hf⟩ := S.1.trxs _ _ hc
    cases X.trx x y hx hy (Hash.str_injective hp)
    have := S.2.trxs _ _ hc
    rw [trx_file_eq hf] at this
    refine this _ ?_
    simp only [List.map_map, List.mem_map, Function.comp_apply]
    exact ⟨b, hb, rfl⟩
  block x hx := by
    rintro ⟨js, hc⟩ b hb
    obtain ⟨y, hy, hp, hf⟩ := S.1.blocks _ _ hc
    cases X.block x y hx hy (Hash.str_injective hp)
    obtain ⟨t, ht, hl⟩ := block_file_leaves (G.block_length x hx) hf
    have := S.2.blocks _ _ hc t ht
    have hm : b.hash.str ∈ (t.leaves.take js.amount.toNat).map JLeaf.headText := by
      rw [hl]
      simp only [List.map_map, List.mem_map, Function.comp_apply]
      exact ⟨b, hb, rfl⟩
    obtain ⟨l, hl1, hl2⟩ := List.mem_map.mp hm
    rw [← hl2]
    exact this l hl1
  minedBlock x hx := by
    rintro ⟨js, hc⟩
    obtain ⟨y, hy, hp, hf⟩ := S.1.minedBlocks _ _ hc
    cases X.minedBlock x y hx hy (Hash.str_injective hp)
    have := S.2.minedBlocks _ _ hc
    cases hf
    exact this
  link x hx := by
    rintro ⟨js, hc⟩
    obtain ⟨y, hy, hp, hf⟩ := S.1.links _ _ hc
    cases X.link x y hx hy (Hash.str_injective hp)
    have := S.2.links _ _ hc
    cases hf
    exact this
  minedLink x hx := by
    rintro ⟨js, hc⟩
    obtain ⟨y, hy, hp, hf⟩ := S.1.minedLinks _ _ hc
    cases X.minedLink x y hx hy (Hash.str_injective hp)
    have := S.2.minedLinks _ _ hc
    cases hf
    exact this

/-- When no call has a file open, every reference leads to a complete file. -/
theorem Running.sane {K : Cov} {Qs : List (Cov → Outcome Unit → Prop)} {cs : List Call} {σ : Store}
    (G : W.Good e) (R : Running W K Qs cs σ) (hi : ∀ c ∈ cs, c.Idle) :
    Sane W σ ∧ ∀ g, K g ↔ σ.whole g := by
  have hK (g : FileName) : K g ↔ σ.whole g := by
    refine ⟨fun h => ?_, R.within g⟩
    rcases R.covered g h with h | ⟨c, hc, d, t, p, rfl, -⟩
    · exact h
    · exact absurd rfl (hi _ hc d t p)
  obtain rfl : K = σ.whole := funext fun g => propext (hK g)
  have k := R.closed
  refine ⟨⟨R.honest, ?_⟩, hK⟩
  constructor
  · intro p js hc
    obtain ⟨y, hy, rfl, hf⟩ := R.honest.bills _ _ hc
    rw [bill_file_eq hf]
    exact k.bill y hy ⟨js, hc⟩
  · intro p js hc
    obtain ⟨y, hy, rfl, hf⟩ := R.honest.expenses _ _ hc
    obtain ⟨h1, h2, h3⟩ := k.expense y hy ⟨js, hc⟩
    rw [expense_file_eq hf]
    refine ⟨fun s hs => ?_, h2, fun h0 => ?_⟩
    · simp only [List.map_map, List.mem_map, Function.comp_apply] at hs
      obtain ⟨b, hb, rfl⟩ := hs
      exact h1 b hb
    · cases hr : y.content.remaining with
      | none => simp [hr, optStr] at h0
      | some b => simpa [optStr, Store.whole] using h3 b hr
  · intro js hc
    obtain ⟨y, hy, hf⟩ := R.honest.genesis _ hc
    rw [genesis_file_eq hf]
    exact k.genesis y hy ⟨js, hc⟩
  · intro p js hc f hf'
    obtain ⟨y, hy, rfl, hf⟩ := R.honest.trxs _ _ hc
    rw [trx_file_eq hf] at hf'
    simp only [List.map_map, List.mem_map, Function.comp_apply] at hf'
    obtain ⟨b, hb, rfl⟩ := hf'
    exact k.trx y hy ⟨js, hc⟩ b hb
  · intro p js hc t ht l hl
    obtain ⟨y, hy, rfl, hf⟩ := R.honest.blocks _ _ hc
    obtain ⟨t', ht', hl'⟩ := block_file_leaves (G.block_length y hy) hf
    obtain rfl : t = t' := Option.some.inj (ht.symm.trans ht')
    have : l.headText ∈ (y.trx.map Transaction.hash).map Hash.str := by
      rw [← hl']
      exact List.mem_map.mpr ⟨l, hl, rfl⟩
    simp only [List.map_map, List.mem_map, Function.comp_apply] at this
    obtain ⟨b, hb, hb'⟩ := this
    rw [← hb']
    exact k.block y hy ⟨js, hc⟩ b hb
  · intro p js hc
    obtain ⟨y, hy, rfl, hf⟩ := R.honest.minedBlocks _ _ hc
    cases hf
    exact k.minedBlock y hy ⟨_, hc⟩
  · intro p js hc
    obtain ⟨y, hy, rfl, hf⟩ := R.honest.links _ _ hc
    cases hf
    exact k.link y hy ⟨_, hc⟩
  · intro p js hc
    obtain ⟨y, hy, rfl, hf⟩ := R.honest.minedLinks _ _ hc
    cases hf
    exact k.minedLink y hy ⟨_, hc⟩

/-- What is saved in a store without dangling references can be retrieved. -/
theorem Sane.found (X : W.Exact) (G : W.Good e) {σ : Store} (S : Sane W σ) {op : Op} (hop : op.In W)
    (h : op.Done σ.whole (.ok ())) (hg : op.NeedsGenesis → ∃ g, retrGenesis σ = .ok g) :
    op.Found e σ := by
  cases op with
  | lock x => exact (S.lock G hop h.2).exists
  | bill x => exact (S.bill G hop h.2).exists
  | expense x => exact (S.expense G hop h.2).exists
  | genesis x =>
    obtain ⟨js, hc⟩ := h.2 rfl
    obtain ⟨y, hy, hf⟩ := S.1.genesis _ hc
    cases X.genesis x y hop hy
    exact (S.genesis G hc hy hf).exists
  | trx x => exact (S.trx G hop h.2).exists
  | block x =>
    exact (S.block G hop X.one (stored_genesis G X.one S.1 (hg trivial)
      (G.block_genesis _ hop)) h.2).exists
  | minedBlock x =>
    exact (S.minedBlock G hop X.one (stored_genesis G X.one S.1 (hg trivial)
      (G.block_genesis _ (G.minedBlock_block _ hop))) h.2).exists
  | link x =>
    exact (S.link G hop X.one (stored_genesis G X.one S.1 (hg trivial)
      (G.block_genesis _ (G.link_next _ hop))) h.2).exists
  | minedLink x =>
    exact (S.minedLink G hop X.one (stored_genesis G X.one S.1 (hg trivial)
      (G.block_genesis _ (G.link_next _ (G.minedLink_link _ hop)))) h.2).exists
  | insert c => trivial
  | update a b => trivial
  | state s => trivial

theorem genesis_of_block {σ : Store} {h : Hash} {x : Block} (hx : retrBlock σ h = .ok x) :
    ∃ g, retrGenesis σ = .ok g := by
  obtain ⟨_, -, h1⟩ := Outcome.bind_eq_ok.mp hx
  obtain ⟨_, -, h2⟩ := Outcome.bind_eq_ok.mp h1
  obtain ⟨g, h3, -⟩ := Outcome.bind_eq_ok.mp h2
  exact ⟨g, h3⟩

theorem genesis_of_link {σ : Store} {h : Hash} {x : Link} (hx : retrLink σ h = .ok x) :
    ∃ g, retrGenesis σ = .ok g := by
  obtain ⟨_, -, h1⟩ := Outcome.bind_eq_ok.mp hx
  obtain ⟨_, -, h2⟩ := Outcome.bind_eq_ok.mp h1
  obtain ⟨g, h3, -⟩ := Outcome.bind_eq_ok.mp h2
  exact genesis_of_block h3

theorem Op.Found.done {σ : Store} {op : Op} (h : op.Found e σ) (hs : op.Saves) :
    op.Done σ.whole (.ok ()) ∧ (op.NeedsGenesis → ∃ g, retrGenesis σ = .ok g) := by
  cases op with
  | lock x => obtain ⟨y, hy, -⟩ := h; exact ⟨⟨rfl, whole_of_read hy⟩, fun h => h.elim⟩
  | bill x => obtain ⟨y, hy, -⟩ := h; exact ⟨⟨rfl, whole_of_read hy⟩, fun h => h.elim⟩
  | expense x => obtain ⟨y, hy, -⟩ := h; exact ⟨⟨rfl, whole_of_read hy⟩, fun h => h.elim⟩
  | genesis x =>
    obtain ⟨y, hy, -⟩ := h
    exact ⟨⟨fun c h => (by cases h), fun _ => whole_of_read hy⟩, fun h => h.elim⟩
  | trx x => obtain ⟨y, hy, -⟩ := h; exact ⟨⟨rfl, whole_of_read hy⟩, fun h => h.elim⟩
  | block x =>
    obtain ⟨y, hy, -⟩ := h; exact ⟨⟨rfl, whole_of_read hy⟩, fun _ => genesis_of_block hy⟩
  | minedBlock x =>
    obtain ⟨y, hy, -⟩ := h
    refine ⟨⟨rfl, whole_of_read hy⟩, fun _ => ?_⟩
    obtain ⟨_, -, h1⟩ := Outcome.bind_eq_ok.mp hy
    obtain ⟨_, -, h2⟩ := Outcome.bind_eq_ok.mp h1
    obtain ⟨g, h3, -⟩ := Outcome.bind_eq_ok.mp h2
    exact genesis_of_block h3
  | link x =>
    obtain ⟨y, hy, -⟩ := h; exact ⟨⟨rfl, whole_of_read hy⟩, fun _ => genesis_of_link hy⟩
  | minedLink x =>
    obtain ⟨y, hy, -⟩ := h
    refine ⟨⟨rfl, whole_of_read hy⟩, fun _ => ?_⟩
    obtain ⟨_, -, h1⟩ := Outcome.bind_eq_ok.mp hy
    obtain ⟨_, -, h2⟩ := Outcome.bind_eq_ok.mp h1
    obtain ⟨g, h3, -⟩ := Outcome.bind_eq_ok.mp h2
    exact genesis_of_link h3
  | insert c => exact hs.elim
  | update a b => exact hs.elim
  | state s => exact hs.elim

theorem Running.start (X : W.Exact) (G : W.Good e) {σ : Store} (H : Orderly W σ) {ops : List Op}
    (hop : ∀ op ∈ ops, op.In W) :
    Running W σ.whole (ops.map Op.Done) (ops.map fun op => .next op.proc) σ := by
  have S := H.sane G fun _ => X.one
  refine ⟨S.1, S.cov X G, fun _ h => h, fun g h => .inl h, ?_⟩
  induction ops with
  | nil => exact .nil
  | cons op ops ih =>
    refine .cons ⟨Op.Done.up op, ?_⟩
      (ih fun op h => hop op (by simp [h]))
    show Verif.Safe W op.Done op.proc.prog σ.whole
    rw [op.proc_prog]
    exact Op.safe G X (hop op (by simp)) _

omit [Sha512] C in
theorem forall₂_of_map {α β γ : Type} {R : β → γ → Prop} {f : α → β} : ∀ {xs : List α} {ys : List γ},
    List.Forall₂ R (xs.map f) ys → List.Forall₂ (fun x y => x ∈ xs ∧ R (f x) y) xs ys
  | [], _, h => by cases h; exact .nil
  | x :: xs, _, h => by
    obtain ⟨b, u, h1, h2, rfl⟩ := List.forall₂_cons_left_iff.mp h
    exact .cons ⟨by simp, h1⟩ ((forall₂_of_map h2).imp fun _ _ h => ⟨by simp [h.1], h.2⟩)

/-! ## C137 -/

/-- C137: any number of calls at the same time, in any order of their steps, starting from a store
that an orderly history of operations with any faults left. No save of an object returns an error or
panics, except that saving a genesis can report that there is one already. -/
theorem C137_calls_at_once_succeed_partial (G : W.Good e) (X : W.Exact) {σ σ' : Store} (H : Orderly W σ)
    {ops : List Op} (hop : ∀ op ∈ ops, op.In W) {cs : List Call}
    (h : Together (ops.map fun op => .next op.proc) σ cs σ') :
    List.Forall₂ (fun op c => op.Saves → ∀ o, c.Returned o →
      o = .ok () ∨ ∃ g m, op = .genesis g ∧ o = .err m) ops cs := by
  obtain ⟨K, -, R⟩ := (Running.start X G H hop).together X h
  refine (forall₂_of_map R.calls).imp ?_
  rintro op c ⟨-, -, hQ⟩ hs o rfl
  cases op with
  | genesis g =>
    cases o with
    | ok a => exact .inl rfl
    | err m => exact .inr ⟨g, m, rfl, rfl⟩
    | crash c => exact absurd rfl (hQ.1 c)
  | insert c => exact hs.elim
  | update a b => exact hs.elim
  | state s => exact hs.elim
  | _ => exact .inl hQ.1

/-- C137: at every point at which no call has a file open, every object whose save has returned nil
can be retrieved by its hash (blocks and what contains them: when a genesis can be retrieved). -/
theorem C137_calls_at_once_take_effect_partial (G : W.Good e) (X : W.Exact) {σ σ' : Store}
    (H : Orderly W σ) {ops : List Op} (hop : ∀ op ∈ ops, op.In W) {cs : List Call}
    (h : Together (ops.map fun op => .next op.proc) σ cs σ') (hi : ∀ c ∈ cs, c.Idle) :
    List.Forall₂ (fun op c => c.Returned (.ok ()) →
      (op.NeedsGenesis → ∃ g, retrGenesis σ' = .ok g) → op.Found e σ') ops cs := by
  obtain ⟨K, -, R⟩ := (Running.start X G H hop).together X h
  obtain ⟨S, hK⟩ := R.sane G hi
  obtain rfl : K = σ'.whole := funext fun g => propext (hK g)
  refine (forall₂_of_map R.calls).imp ?_
  rintro op c ⟨ho, -, hQ⟩ rfl hg
  exact S.found X G (hop op ho) hQ hg

/-- C137: at every such point, everything that could be retrieved before the calls still can. -/
theorem C137_calls_at_once_keep_partial (G : W.Good e) (X : W.Exact) {σ σ' : Store}
    (H : Orderly W σ) {ops : List Op} (hop : ∀ op ∈ ops, op.In W) {cs : List Call}
    (h : Together (ops.map fun op => .next op.proc) σ cs σ') (hi : ∀ c ∈ cs, c.Idle)
    {old : Op} (hold : old.In W) (hf : old.Found e σ) : old.Found e σ' := by
  obtain ⟨K, hle, R⟩ := (Running.start X G H hop).together X h
  obtain ⟨S, hK⟩ := R.sane G hi
  obtain rfl : K = σ'.whole := funext fun g => propext (hK g)
  by_cases hs : old.Saves
  · obtain ⟨h1, h2⟩ := hf.done hs
    refine S.found X G hold (Op.Done.up old _ _ _ hle h1) fun hn => ?_
    obtain ⟨g, hg⟩ := h2 hn
    obtain ⟨js, hc⟩ : σ'.whole .genesis := hle .genesis (whole_of_read hg)
    obtain ⟨y, hy, hyf⟩ := S.1.genesis _ hc
    exact (S.genesis G hc hy hyf).exists.imp fun _ h => h.1
  · cases old <;> simp only [Op.Saves, not_true_eq_false, not_false_eq_true] at hs <;> trivial

/-- C137: a call that has not returned can go on, whatever the other calls have done. -/
theorem C137_calls_go_on (c : Call) (σ : Store) :
    (∃ o, c.Returned o) ∨ ∃ c' σ', c.Step σ c' σ' := by
  cases c with
  | next p =>
    cases p with
    | ret o => exact .inl ⟨o, rfl⟩
    | query q k => exact .inr ⟨_, _, .begins q k σ⟩
    | write d t k => exact .inr ⟨_, _, .opens d t k σ⟩
  | reading q r k =>
    cases r with
    | ret o => exact .inr ⟨_, _, .ends q o k σ⟩
    | ask n r => exact .inr ⟨_, _, .reads q n r k σ⟩
  | writing d t p => exact .inr ⟨_, _, .writes d t p σ⟩

/-- C137: no call goes on for ever, whatever the other calls do between its steps. -/
theorem C137_calls_end (c : Call) : Acc (fun c' c => ∃ σ σ', Call.Step c σ c' σ') c := by
  have next (p : Proc Unit) : Acc (fun c' c => ∃ σ σ', Call.Step c σ c' σ') (.next p) := by
    induction p with
    | ret o => exact ⟨_, fun _ ⟨_, _, h⟩ => by cases h⟩
    | query q k ih =>
      have reading (r : Rd q.Result) :
          Acc (fun c' c => ∃ σ σ', Call.Step c σ c' σ') (.reading q r k) := by
        induction r with
        | ret o => exact ⟨_, fun _ ⟨_, _, h⟩ => by cases h; exact ih _⟩
        | ask n r ihr =>
          refine ⟨_, fun _ ⟨σ, _, h⟩ => ?_⟩
          cases h
          unfold Rd.after
          cases readCell (σ.file n) with
          | ok a => exact ihr a
          | err m => exact ⟨_, fun _ ⟨_, _, h⟩ => by cases h; exact ih _⟩
          | crash c => exact ⟨_, fun _ ⟨_, _, h⟩ => by cases h; exact ih _⟩
      exact ⟨_, fun _ ⟨_, _, h⟩ => by cases h; exact reading _⟩
    | write d t k ih =>
      refine ⟨_, fun _ ⟨_, _, h⟩ => ?_⟩
      cases h
      exact ⟨_, fun _ ⟨_, _, h⟩ => by cases h <;> exact ih _⟩
  cases c with
  | next p => exact next p
  | writing d t p => exact ⟨_, fun _ ⟨_, _, h⟩ => by cases h <;> exact next _⟩
  | reading q r k =>
    induction r with
    | ret o => exact ⟨_, fun _ ⟨_, _, h⟩ => by cases h; exact next _⟩
    | ask n r ihr =>
      refine ⟨_, fun _ ⟨σ, _, h⟩ => ?_⟩
      cases h
      unfold Rd.after
      cases readCell (σ.file n) with
      | ok a => exact ihr a
      | err m => exact ⟨_, fun _ ⟨_, _, h⟩ => by cases h; exact next _⟩
      | crash c => exact ⟨_, fun _ ⟨_, _, h⟩ => by cases h; exact next _⟩

/-! ### Without these conditions -/

omit [Sha512] C in
/-- The content of the file of a lock. -/
def Lock.json (l : Lock) : JTrLock := ⟨l.hash.str, l.pubKeys.map Hash.str, l.createdOn⟩

omit [Sha512] C in
/-- The file of the lock replaced. -/
def Store.putLock (σ : Store) (l : Lock) (c : Cell JTrLock) : Store :=
  { σ with locks := setFile σ.locks l.hash.str c }

omit C in
theorem retrLock_torn {σ : Store} {l : Lock} :
    retrLock (σ.putLock l .torn) l.hash = .err "unexpected end of JSON input" := by
  simp only [retrLock, Store.putLock, setFile_same, readCell]
  rfl

/-- The retrieval that a save begins with, from its first step to its last, when nothing else
happens. -/
theorem Together.finds {cs as bs : List Call} {σ σ₁ : Store} {q : Query}
    {k : Outcome q.Result → Proc Unit} (h : Together cs σ (as ++ .next (.query q k) :: bs) σ₁) :
    Together cs σ (as ++ .next (k (q.reads.run σ₁)) :: bs) σ₁ := by
  have key (r : Rd q.Result) (h : Together cs σ (as ++ .reading q r k :: bs) σ₁) :
      Together cs σ (as ++ .next (k (r.run σ₁)) :: bs) σ₁ := by
    induction r with
    | ret o => exact h.step (.ends q o k σ₁)
    | ask n r ih =>
      have h1 := h.step (.reads q n r k σ₁)
      unfold Rd.after at h1
      unfold Rd.run
      cases hc : readCell (σ₁.file n) with
      | ok a => rw [hc] at h1; exact ih a h1
      | err m => rw [hc] at h1; exact h1.step (.ends q _ k σ₁)
      | crash c => rw [hc] at h1; exact h1.step (.ends q _ k σ₁)
  exact key _ (h.step (.begins q k σ₁))

/-- What the save of a lock does when the lock was not found, in two steps. -/
def lockRest (l : Lock) : Proc Unit :=
  .save (fun σ => σ.putLock l (.json l.json)) fun σ => σ.putLock l .torn

/-- The save of a lock that is not found. -/
theorem Together.lock {cs as bs : List Call} {σ σ₁ : Store} {l : Lock}
    (hn : ∃ m, retrLock σ₁ l.hash = .err m)
    (h : Together cs σ (as ++ .next (procLock l) :: bs) σ₁) :
    Together cs σ (as ++ .next (lockRest l) :: bs) σ₁ := by
  obtain ⟨m, hm⟩ := hn
  have := Together.finds (q := .lock l.hash) h
  rw [show (Query.reads (.lock l.hash)).run σ₁ = .err m from (run_readLock _ _).trans hm] at this
  exact this

/-- The lock file is opened. -/
theorem lockRest_opens (l : Lock) : ∃ c : Call,
    (∀ σ, (Call.next (lockRest l)).Step σ c (σ.putLock l .torn)) ∧
    (∀ σ, c.Step σ (.next (.ret (.ok ()))) (σ.putLock l (.json l.json))) ∧
    ∀ σ js, σ.locks l.hash.str = some (.json js) → js ≠ l.json →
      c.Step σ (.next (.ret (.ok ()))) (σ.putLock l .torn) := by
  refine ⟨_, fun σ => .opens _ _ _ _, fun σ => .writes _ _ _ _, fun σ js h1 h2 => .mixes _ _ _ _ ?_ ?_⟩
  · intro h
    have := congrFun (congrArg Store.locks h) l.hash.str
    simp [Store.putLock, h1] at this
  · intro h
    have := congrFun (congrArg Store.locks h) l.hash.str
    simp only [Store.putLock, setFile_same, h1, Option.some.injEq, Cell.json.injEq] at this
    exact h2 this.symm

/-- C137 (negation of "what was saved stays retrievable at every point"): two calls save the same
lock at the same time. One returns nil and the lock can be retrieved; then the other one opens the
file, and the lock cannot be retrieved any more. If that call is killed now, it stays so. -/
theorem C137_saved_lock_vanishes_neg {σ : Store} {l : Lock} (hl : l.Built)
    (hn : ∃ m, retrLock σ l.hash = .err m) :
    ∃ c₁ c₂ σ₁ σ₂, Together [.next (procLock l), .next (procLock l)] σ
        [c₁, .next (.ret (.ok ()))] σ₁ ∧ retrLock σ₁ l.hash = .ok l ∧
      Together [.next (procLock l), .next (procLock l)] σ [c₂, .next (.ret (.ok ()))] σ₂ ∧
      ∃ m, retrLock σ₂ l.hash = .err m := by
  obtain ⟨c, h1, h2, -⟩ := lockRest_opens l
  have t0 := Together.refl [.next (procLock l), .next (procLock l)] σ
  have t1 := Together.lock (as := []) (bs := [.next (procLock l)]) hn t0
  have t2 := Together.lock (as := [.next (lockRest l)]) (bs := []) hn t1
  have t3 := Together.step (as := [.next (lockRest l)]) (bs := []) t2 (h1 _)
  have t4 := Together.step (as := [.next (lockRest l)]) (bs := []) t3 (h2 _)
  have t5 := Together.step (as := []) (bs := [.next (.ret (.ok ()))]) t4 (h1 _)
  refine ⟨_, _, _, _, t4, ?_, t5, "unexpected end of JSON input", ?_⟩
  · obtain ⟨y, hy, hy'⟩ := (retrLock_file (p := False) (e := id) (js := l.json) hl
      (σ := (σ.putLock l .torn).putLock l (.json l.json)) rfl (by simp [Store.putLock])).exists
    rw [hy]
    exact congrArg _ hy'
  · exact retrLock_torn

/-- C137 (negation of "every object whose save has returned nil can be retrieved", for two objects
with the same hash and different times): two calls save two locks with the same keys that were built
at different times. Both return nil, no file is open, and neither lock can be retrieved: the file
contains the text of one lock followed by the end of the text of the other. -/
theorem C137_two_times_neg {σ : Store} {l₁ l₂ : Lock} (hh : l₁.hash = l₂.hash)
    (ht : l₁.createdOn ≠ l₂.createdOn) (hn : ∃ m, retrLock σ l₁.hash = .err m) :
    ∃ σ', Together [.next (procLock l₁), .next (procLock l₂)] σ
        [.next (.ret (.ok ())), .next (.ret (.ok ()))] σ' ∧
      (∃ m, retrLock σ' l₁.hash = .err m) ∧ ∃ m, retrLock σ' l₂.hash = .err m := by
  obtain ⟨c, h1, h2, -⟩ := lockRest_opens l₁
  obtain ⟨d, g1, -, g3⟩ := lockRest_opens l₂
  have t0 := Together.refl [.next (procLock l₁), .next (procLock l₂)] σ
  have t1 := Together.lock (as := []) (bs := [.next (procLock l₂)]) hn t0
  have t2 := Together.lock (as := [.next (lockRest l₁)]) (bs := []) (hh ▸ hn) t1
  have t3 := Together.step (as := []) (bs := [.next (lockRest l₂)]) t2 (h1 _)
  have t4 := Together.step (as := [c]) (bs := []) t3 (g1 _)
  have t5 := Together.step (as := []) (bs := [d]) t4 (h2 _)
  have t6 := Together.step (as := [.next (.ret (.ok ()))]) (bs := []) t5
    (g3 _ l₁.json (by simp [Store.putLock, hh]) (by
      intro h; injection h with _ _ h; exact ht h))
  exact ⟨_, t6, ⟨_, by rw [hh]; exact retrLock_torn⟩, ⟨_, retrLock_torn⟩⟩

end

section
variable [C : Curve] [FloatText]

omit C [FloatText] in
theorem renderMembers_last : ∀ ms : List (Bytes × Json), ∃ q, renderMembers ms = q ++ [125]
  | [] => ⟨[], rfl⟩
  | (k, v) :: ms => by
    obtain ⟨q, hq⟩ := renderMembers_last ms
    exact ⟨44 :: 34 :: (k ++ 34 :: 58 :: (v.render ++ q)), by simp [renderMembers, hq]⟩

omit C [FloatText] in
theorem render_obj_last : ∀ ms : List (Bytes × Json), ∃ q, (Json.obj ms).render = q ++ [125]
  | [] => ⟨[123], rfl⟩
  | (k, v) :: ms => by
    obtain ⟨q, hq⟩ := renderMembers_last ms
    exact ⟨123 :: 34 :: (k ++ 34 :: 58 :: (v.render ++ q)), by simp [Json.render, hq]⟩

/-- C137: the text of an object written over the longer text of another one is not read: neither as
the one nor as the other. -/
theorem C137_mixed_text_neg {op₁ op₂ : PutOp} (h₁ : op₁.Real) (h₂ : op₂.Real) {b₁ b₂ : Bytes}
    (t₁ : op₁.text = some b₁) (t₂ : op₂.text = some b₂) (hl : b₂.length < b₁.length) {α : Type}
    (c : Codec α) : c.read (b₂ ++ b₁.drop b₂.length) = none := by
  refine ((C124_tail_unreadable h₂ t₂).1 ?_).2 c
  obtain ⟨ms, -, rfl⟩ := op₁.text_obj h₁ t₁
  intro hb
  obtain ⟨q, hq⟩ := render_obj_last ms
  rw [hq] at hb hl
  have := hb 125 (by
    rw [List.drop_append_of_le_length (by simpa using Nat.lt_succ_iff.mp (by simpa using hl))]
    simp)
  revert this
  decide

end

section examples

/-- Among other calls, one call can run to its end. -/
theorem Together.runs [Sha512] [Curve] {cs as bs : List Call} {p : Proc Unit} {σ σ₁ : Store}
    (h : Together cs σ (as ++ .next p :: bs) σ₁) :
    ∃ o σ₂, Together cs σ (as ++ .next (.ret o) :: bs) σ₂ := by
  induction p generalizing σ₁ with
  | ret o => exact ⟨o, σ₁, h⟩
  | query q k ih => exact ih _ h.finds
  | write d t k ih => exact ih _ ((h.step (.opens d t k σ₁)).step (.writes _ _ _ _))

attribute [local instance] toyCurve toySha FloatText.decimal

/-- C137: two calls that save the same mined block. The first one looks, the second one then writes
all files and returns, and then the first one goes on. Both return nil and the mined block can be
retrieved. -/
example : ∃ (W : World) (r : MinedBlock) (σ σ₁ σ₂ : Store) (p : Proc Unit), W.Good id ∧ W.Exact ∧
    Orderly W σ ∧ (Op.minedBlock r).In W ∧ (∃ m, retrMinedBlock σ r.hash = .err m) ∧
    Together [.next (procMinedBlock r), .next (procMinedBlock r)] σ
      [.next p, .next (.ret (.ok ()))] σ₁ ∧ (∀ o, p ≠ .ret o) ∧
    Together [.next (procMinedBlock r), .next (procMinedBlock r)] σ
      [.next (.ret (.ok ())), .next (.ret (.ok ()))] σ₂ ∧ (Op.minedBlock r).Found id σ₂ := by
  obtain ⟨W, x, t, b, r, k, X, G, O, hx, ht, hg, hb, hr, -⟩ := toy_world_exact
  have hn : ∃ m, retrGenesis Store.empty = .err m := ⟨_, rfl⟩
  have h1 := saveGenesis_exec G (Honest.empty W) hg hn
  have r1 := Run.of_exec (saveGenesis b.genesis) .empty
  rw [h1] at r1
  have O1 : Orderly W ((saveGenesis b.genesis).exec .empty).2 :=
    Orderly.empty.step (op := .genesis b.genesis) hg (fun h => h.elim) r1
  have hf : (Op.genesis b.genesis).Found id ((saveGenesis b.genesis).exec .empty).2 :=
    C31_saved_is_retrievable G .empty (op := .genesis b.genesis) hg
      (fun h => h.elim) (fun h => h.elim) r1
  have hfr := saveGenesis_frame b.genesis .empty _ _ r1
  generalize ((saveGenesis b.genesis).exec .empty).2 = σ at *
  obtain ⟨m, hm⟩ : ∃ m, retrMinedBlock σ r.hash = .err m :=
    ⟨"no such file or directory", by
      simp [retrMinedBlock, hfr.1.minedBlocks, Store.empty, readCell]⟩
  have hop : ∀ op ∈ [Op.minedBlock r, .minedBlock r], op.In W := by simp [Op.In, hr]
  have t0 := Together.refl [.next (procMinedBlock r), .next (procMinedBlock r)] σ
  have t1 := Together.finds (q := .minedBlock r.hash) (as := []) (bs := [.next (procMinedBlock r)]) t0
  rw [show (Query.reads (.minedBlock r.hash)).run σ = .err m from
    (run_readMinedBlock _ _).trans hm] at t1
  obtain ⟨o₁, σ₁, t2⟩ := Together.runs (as := [_]) (bs := []) t1
  obtain ⟨o₂, σ₂, t3⟩ := Together.runs (as := []) (bs := [_]) t2
  have hs := C137_calls_at_once_succeed_partial G X O1 hop t3
  have hi : ∀ c ∈ [Call.next (.ret o₂), .next (.ret o₁)], c.Idle := by simp [Call.Idle]
  have hfd := C137_calls_at_once_take_effect_partial G X O1 hop t3 hi
  obtain ⟨g, hg', -⟩ := C137_calls_at_once_keep_partial G X O1 hop t3 hi (old := .genesis b.genesis) hg hf
  obtain ⟨s1, hs⟩ := List.forall₂_cons.mp hs
  obtain ⟨s2, -⟩ := List.forall₂_cons.mp hs
  obtain rfl : o₂ = .ok () := (s1 trivial _ rfl).resolve_right (by simp)
  obtain rfl : o₁ = .ok () := (s2 trivial _ rfl).resolve_right (by simp)
  have hF := (List.forall₂_cons.mp hfd).1 rfl fun _ => ⟨g, hg'⟩
  refine ⟨W, r, σ, σ₁, σ₂, _, G, X, O1, hr, ⟨m, hm⟩, t2, fun o h => ?_, t3, hF⟩
  simp [procBlock, Proc.unlessFound, Proc.bind] at h

/-- C137: two locks with the same keys and different times; their texts have different lengths. -/
example : ∃ (l₁ l₂ : Lock), l₁.Built ∧ l₂.Built ∧ l₁.hash = l₂.hash ∧ l₁.createdOn ≠ l₂.createdOn ∧
    (∃ m, retrLock .empty l₁.hash = .err m) :=
  ⟨toyLock 1, { toyLock 1 with createdOn := 1000000000 }, toyLock_built 1,
    ⟨some [toyHash 1], 1000000000,
      lockNow_eq_ok.mpr ⟨_, rfl, by simp, by simp, by simp [toyLock, fromBytes_hash]⟩⟩, rfl,
    by decide, _, rfl⟩

/-- C137: the texts of the two locks have different lengths. -/
example : ∃ b₁ b₂, (PutOp.lock ⟨toyHash 1, [toyHash 1], 500000000⟩).text = some b₁ ∧
    (PutOp.lock ⟨toyHash 1, [toyHash 1], 0⟩).text = some b₂ ∧ b₂.length < b₁.length := by
  refine ⟨_, _, rfl, rfl, ?_⟩
  decide +kernel

end examples

end Verif
