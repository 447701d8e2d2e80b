import Verif.Spec.Node
import Verif.Props.Accounts
import Verif.Props.Mining

/-!
# A node that is used through its applications: C155
-/

namespace Verif

section
variable [Sha512] [C : Curve] {P : IdentityPort}

theorem mineBlock_idle {σ : Store} (hc : ∀ c, retrChain σ ≠ .ok c) {E : MinerEnv} {trx : List Bytes}
    {r : Option (Outcome Unit)} {σ' : Store} (h : Run (mineBlock E trx) σ r σ') :
    σ' = σ ∧ r ≠ some (.ok ()) := by
  have : Spec (mineBlock E trx) σ (· = σ) (fun _ _ => False) :=
    Spec.bind (makeMinedBlock_spec E trx σ) fun k σ₁ h hk => by
      obtain ⟨c, _, h, -⟩ := hk
      exact absurd h (hc c)
  exact ⟨(this _ _ h).1, fun e => (this _ _ h).2 () e⟩

theorem mineLink_idle {σ : Store} (hc : ∀ c, retrChain σ ≠ .ok c) {E : MinerEnv} {prev next : Bytes}
    {r : Option (Outcome Unit)} {σ' : Store} (h : Run (mineLink E prev next) σ r σ') :
    σ' = σ ∧ r ≠ some (.ok ()) := by
  have : Spec (mineLink E prev next) σ (· = σ) (fun _ _ => False) :=
    Spec.bind (makeMinedLink_spec E prev next σ) fun k σ₁ h hk => by
      obtain ⟨c, _, h, -⟩ := hk
      exact absurd h (hc c)
  exact ⟨(this _ _ h).1, fun e => (this _ _ h).2 () e⟩

/-- C155 refuted: while no chain can be retrieved, no call of the applications changes a file, and neither
initialising the genesis nor mining a block or a link returns nil. -/
theorem C155_call_writes_no_file_neg {n n' : Host P} (hc : ∀ c, retrChain n.files ≠ .ok c) {u : Use}
    {r : Option (Outcome Unit)} (h : u.Gives n r n') :
    n'.files = n.files ∧ (u.OnChain → r ≠ some (.ok ())) := by
  cases h with
  | init h =>
    rename_i x pk bill t₁ t₂ now₁ now₂ r s σ
    obtain ⟨h1, h2⟩ := C58_init_never_succeeds_neg P n.ids n.files x pk bill t₁ t₂ now₁ now₂
    rw [h] at h1 h2
    cases h2
    exact ⟨rfl, fun _ e => h1 (Option.some.inj e)⟩
  | block h =>
    obtain ⟨h1, h2⟩ := mineBlock_idle hc h
    exact ⟨h1, fun _ => h2⟩
  | link h =>
    obtain ⟨h1, h2⟩ := mineLink_idle hc h
    exact ⟨h1, fun _ => h2⟩
  | _ => exact ⟨rfl, fun h => h.elim⟩

/-- C155 refuted: so in any number of calls, with any arguments and by any users, no file is ever
written. -/
theorem C155_no_file_ever_neg {n n' : Host P} (hc : ∀ c, retrChain n.files ≠ .ok c) {ok : Use → Prop}
    (h : Used ok n n') : n'.files = n.files := by
  induction h with
  | none => rfl
  | call _ _ hg ih => exact (C155_call_writes_no_file_neg (fun c => ih ▸ hc c) hg).1.trans ih

theorem no_chain_empty (c : Chain) : retrChain Store.empty ≠ .ok c := by
  intro h
  obtain ⟨js, hjs, -⟩ := C39_retrieved_genesis_differs_neg h
  cases hjs

/-- C155 refuted: a node that starts with nothing and is used through its applications never has a genesis,
a bill, a transaction, a block, a link or a chain; neither initialising the genesis nor mining returns nil at
any time. -/
theorem C155_applications_start_nothing_neg {n n' n'' : Host P} (hn : n.Fresh) {ok : Use → Prop}
    (h : Used ok n n') : n'.files = Store.empty ∧
      ∀ (u : Use) (r : Option (Outcome Unit)), u.OnChain → u.Gives n' r n'' → r ≠ some (.ok ()) := by
  have h0 : ∀ c, retrChain n.files ≠ .ok c := by rw [hn.2.2]; exact no_chain_empty
  have h1 := C155_no_file_ever_neg h0 h
  exact ⟨h1.trans hn.2.2, fun u r hu hg => (C155_call_writes_no_file_neg (h1 ▸ h0) hg).2 hu⟩

/-- No identity has a wallet. -/
def Penniless (s : P.S) : Prop := ∀ name seed i p, P.view s name seed = some (i, p) → i.wallets = []

omit [Sha512] in
theorem Penniless.set {v : IdentityView}
    (h : ∀ name seed i p, v name seed = some (i, p) → i.wallets = []) {nm sd : Bytes}
    {x : Option (Identity × Bytes)} (hx : ∀ i p, x = some (i, p) → i.wallets = []) :
    ∀ name seed i p, v.set nm sd x name seed = some (i, p) → i.wallets = [] := by
  intro name seed i p he
  unfold IdentityView.set at he
  split at he
  · exact hx i p he
  · exact h name seed i p he

omit [Sha512] in
theorem Penniless.update {s s' : P.S} (hs : Penniless s) {h : Hash} {i : Identity} (hi : i.wallets = [])
    {p q : Bytes} {r : Outcome Unit} (e : P.update s h i p q = (r, s')) : Penniless s' := by
  by_cases hr : (P.update s h i p q).1 = .ok ()
  · obtain ⟨n, sd, old, -, -, hv⟩ := P.update_ok hr
    rw [e] at hv
    unfold Penniless
    rw [hv]
    exact Penniless.set (Penniless.set hs (by simp)) (by rintro _ _ ⟨⟩; exact hi)
  · have := P.update_fails hr
    rw [e] at this
    exact (show s' = s from this) ▸ hs

theorem Use.Gives.penniless {n n' : Host P} {u : Use} (hu : u.Plain) {r : Option (Outcome Unit)}
    (h : u.Gives n r n') (hn : Penniless n.ids) : Penniless n'.ids := by
  have keep : ∀ {α : Type} {o : Outcome α} {f : α → Outcome Unit × P.S} {r : Outcome Unit} {s : P.S},
      withOk o n.ids f = (r, s) → (∀ a, o = .ok a → f a = (r, s) → Penniless s) → Penniless s := by
    intro α o f r s e hf
    cases o with
    | ok a => exact hf a rfl e
    | err m => cases e; exact hn
    | crash c => cases e; exact hn
  have look : ∀ {name p seed i}, P.retrieve n.ids name p seed = .ok i → i.wallets = [] :=
    fun h => hn _ _ _ _ (P.retrieve_ok.mp h)
  cases h with
  | newIdentity h =>
    rename_i name password seed root now₁ now₂ r s
    refine keep h fun i hi e => ?_
    obtain ⟨-, -, -, -, hi'⟩ := identityNow_eq_ok.mp hi
    by_cases hr : (P.insert n.ids i password).1 = .ok ()
    · obtain ⟨-, hv⟩ := P.insert_ok hr
      rw [e] at hv
      show Penniless s
      unfold Penniless
      rw [hv]
      exact Penniless.set hn (by rintro _ _ ⟨⟩; rw [hi'])
    · have := P.insert_fails hr
      rw [e] at this
      exact (show s = n.ids from this) ▸ hn
  | opened h => exact hn
  | refused h => exact hn
  | panicked h => exact hn
  | update hs h =>
    rename_i a u now₁ now₂ r s a' pre post
    unfold Session.update at h
    simp only at h
    have h2 : (withOk (P.retrieve n.ids a.name a.password a.seed) n.ids fun identity =>
        withOk (identityNow (u.seed.getD identity.seed) (u.name.getD identity.name)
          (u.root.getD identity.root) [] [] none none now₁ now₂) n.ids fun updated =>
        P.update n.ids identity.hash updated a.password (u.password.getD a.password)).2 = s := by
      split at h <;> simp only [Prod.mk.injEq] at h <;> exact h.2.1
    refine keep (Prod.ext rfl h2) fun i _ e => keep e fun j hj e => ?_
    obtain ⟨-, -, -, -, hj⟩ := identityNow_eq_ok.mp hj
    exact hn.update (by rw [hj]) e
  | delete hs h =>
    rename_i a r s
    refine keep h fun i hi e => ?_
    by_cases hr : (P.delete n.ids i a.password).1 = .ok ()
    · obtain ⟨_, -, hv⟩ := P.delete_ok hr
      rw [e] at hv
      show Penniless s
      unfold Penniless
      rw [hv]
      exact Penniless.set hn (by simp)
    · have := P.delete_fails hr
      rw [e] at this
      exact (show s = n.ids from this) ▸ hn
  | addBucket hs h =>
    refine keep h fun i hi e => ?_
    have hw := look hi
    exact Penniless.update hn (by exact hw) e
  | deleteBucket hs h =>
    refine keep h fun i hi e => ?_
    have hw := look hi
    exact Penniless.update hn (by exact hw) e
  | announce hs h =>
    exact keep h fun i hi e => keep e fun t _ e => keep e fun j hj e =>
      hn.update (hu.1 _ _ _ (look hi) hj) e
  | init h =>
    rename_i x pk bill t₁ t₂ now₁ now₂ r s σ
    have h2 := (C58_init_never_succeeds_neg P n.ids n.files x pk bill t₁ t₂ now₁ now₂).2
    rw [h] at h2
    cases h2
    exact hn
  | block h => exact hn
  | link h => exact hn

/-- C155 refuted: a node that starts with nothing and is used through its applications never has an identity
with a wallet, and no announcement with a fee ever returns nil. -/
theorem C155_nobody_has_money_neg {n n' n'' : Host P} (hn : n.Fresh) (h : Used Use.Plain n n') :
    (∀ name p seed i, P.retrieve n'.ids name p seed = .ok i → i.wallets = []) ∧
      ∀ (u : Use) (r : Option (Outcome Unit)), u.Plain → u.Pays → u.Gives n' r n'' → r ≠ some (.ok ()) := by
  have hp : Penniless n'.ids := by
    clear n''
    induction h with
    | none => intro name seed i p h; rw [hn.1] at h; cases h
    | call h hu hg ih => exact hg.penniless hu ih
  have look : ∀ {name p seed i}, P.retrieve n'.ids name p seed = .ok i → i.wallets = [] :=
    fun h => hp _ _ _ _ (P.retrieve_ok.mp h)
  refine ⟨fun _ _ _ _ => look, fun u r hu hpay hg e => ?_⟩
  cases hg with
  | announce hs h =>
    rename_i a I additional path fees now r s
    cases e
    obtain ⟨i, hi, e1, h1⟩ := withOk_eq_ok (b := ()) (by rw [← Session.bucket, h])
    obtain ⟨t, ht, -, -⟩ := withOk_eq_ok h1
    unfold bucketTransaction at ht
    simp only [Outcome.bind_eq_ok] at ht
    obtain ⟨b, -, es, hes, -⟩ := ht
    cases fees with
    | nil => exact hpay rfl
    | cons f fs =>
      obtain ⟨x, -, hx⟩ := mapO_mem_left hes f (by simp)
      obtain ⟨bills, hb, hx⟩ := Outcome.bind_eq_ok.mp hx
      rw [hu.2 i f.amount bills (look hi) hb] at hx
      unfold payFee at hx
      split at hx
      · cases hx
      · simp at hx
  | _ => exact hpay

/-- C155: while no chain can be retrieved, a call that does not return nil leaves everything as it was:
identities, sessions and files. -/
theorem C155_failed_calls_change_nothing_partial {n n' : Host P}
    (hc : ∀ c, retrChain n.files ≠ .ok c) {u : Use} {r : Option (Outcome Unit)} (h : u.Gives n r n')
    (hr : r ≠ some (.ok ())) : n' = n := by
  have hf := (C155_call_writes_no_file_neg hc h).1
  have keep : ∀ {α : Type} {o : Outcome α} {f : α → Outcome Unit × P.S} {r : Outcome Unit} {s : P.S},
      r ≠ .ok () → withOk o n.ids f = (r, s) → (∀ a, f a = (r, s) → s = n.ids) → s = n.ids := by
    intro α o f r s hr e hf
    cases o with
    | ok a => exact hf a e
    | err m => cases e; rfl
    | crash c => cases e; rfl
  have upd : ∀ {h i p q r s}, r ≠ Outcome.ok () → P.update n.ids h i p q = (r, s) → s = n.ids := by
    intro h i p q r s hr e
    have := P.update_fails (s := n.ids) (h := h) (i := i) (p := p) (q := q) (by rw [e]; exact hr)
    rw [e] at this
    exact this
  have fin : ∀ {s : P.S}, s = n.ids → ({ n with ids := s } : Host P) = n := by rintro _ rfl; rfl
  cases h with
  | newIdentity h =>
    have hr := fun e => hr (congrArg some e)
    refine fin (keep hr h fun i e => ?_)
    have := P.insert_fails (s := n.ids) (i := i) (by rw [e]; exact hr)
    rw [e] at this
    exact this
  | opened h => exact absurd rfl hr
  | refused h => rfl
  | panicked h => rfl
  | update hs h =>
    rename_i a u now₁ now₂ r s a' pre post
    have := C90_failed_update_changes_nothing (P := P) (a := a) (s := n.ids) (u := u) (now₁ := now₁)
      (now₂ := now₂) (by rw [h]; exact fun e => hr (congrArg some e))
    rw [h] at this
    cases this
    rw [← hs]
  | delete hs h =>
    rename_i a r s
    have hr := fun e => hr (congrArg some e)
    have := C106_failed_deletion (P := P) (a := a) (s := n.ids) (by rw [h]; exact hr)
    rw [h] at this
    exact fin this
  | addBucket hs h =>
    have hr := fun e => hr (congrArg some e)
    exact fin (keep hr h fun i e => upd hr e)
  | deleteBucket hs h =>
    have hr := fun e => hr (congrArg some e)
    exact fin (keep hr h fun i e => upd hr e)
  | announce hs h =>
    have hr := fun e => hr (congrArg some e)
    exact fin (keep hr h fun i e => keep hr e fun t e => keep hr e fun j e => upd hr e)
  | init h =>
    rename_i x pk bill t₁ t₂ now₁ now₂ r s σ
    have h2 := (C58_init_never_succeeds_neg P n.ids n.files x pk bill t₁ t₂ now₁ now₂).2
    rw [h] at h2
    cases h2
    rfl
  | block h => simp only at hf; rw [hf]
  | link h => simp only at hf; rw [hf]

end

section examples

attribute [local instance] toyCurve toySha

/-- C155: starting with nothing, Bob gets an identity, opens a session and asks for a genesis, which is
refused. -/
example : ∃ (n n' : Host referencePort) (i : Identity), n.Fresh ∧ Used Use.Plain n n' ∧
    n'.sessions = [⟨ascii "bob", ascii "x", ascii "x"⟩] ∧
    referencePort.retrieve n'.ids (ascii "bob") (ascii "x") (ascii "x") = .ok i ∧
    ∃ u : Use, u.OnChain ∧ u.Gives n' (some (.crash .nilDeref)) n' := by
  obtain ⟨s, i, h, bi, hv⟩ := toy_account (ascii "x") (ascii "x") (by decide)
  have hb : referencePort.view s (ascii "bob") (ascii "x") = some (i, ascii "x") := by rw [hv]; simp
  have ha : authenticate referencePort s (ascii "bob") (ascii "x") (ascii "x") =
      .ok ⟨ascii "bob", ascii "x", ascii "x"⟩ :=
    (C60_authenticate_exact_neg _ _ _ _ _).mpr ⟨⟨i, hb⟩, rfl⟩
  have hi := C58_init_panics_neg (P := referencePort) (i := i) (s := s) (σ := Store.empty)
    (a := ⟨ascii "bob", ascii "x", ascii "x", ascii "w", 9, 1, .fin 1, 1⟩) (pk := (toySc 1))
    (wb := fun b _ _ => .ok ⟨b.hash, b, (toySc 1), [], 0⟩) (t₁ := 0) (t₂ := 0) (now₁ := 0) (now₂ := 0)
    rfl (referencePort.retrieve_ok.mpr hb) (fun _ _ _ => ⟨_, rfl⟩) (by decide) (by decide) (by decide)
    (by decide) (by decide)
  have hs := (C58_init_never_succeeds_neg referencePort s Store.empty
    ⟨ascii "bob", ascii "x", ascii "x", ascii "w", 9, 1, .fin 1, 1⟩ (toySc 1)
    (fun b _ _ => .ok ⟨b.hash, b, (toySc 1), [], 0⟩) 0 0 0 0).2
  refine ⟨⟨noIdentities, [], Store.empty⟩, ⟨s, [⟨ascii "bob", ascii "x", ascii "x"⟩], Store.empty⟩, i,
    ⟨fun _ _ => rfl, rfl, rfl⟩, .call (.call .none (u := .newIdentity ..) trivial (.newIdentity h))
    (u := .authenticate ..) trivial (.opened ha), rfl, referencePort.retrieve_ok.mpr hb,
    .init _ _ _ _ _ _ _, trivial, .init (Prod.ext hi hs)⟩

end examples

end Verif
