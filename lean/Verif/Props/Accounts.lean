import Verif.Model.App.Identities
import Verif.Model.Piastres.EntityLemmas
import Verif.Props.Identities
import Verif.Props.Expense
import Verif.Props.Sig

/-!
# The applications that use identities: C58–C60, C90–C93
-/

namespace Verif

section
variable [C : Curve]

omit C in
theorem withOk_eq_ok {α β S : Type} {o : Outcome α} {s : S} {f : α → Outcome β × S} {b : β}
    (h : (withOk o s f).1 = .ok b) : ∃ a, o = .ok a ∧ withOk o s f = f a ∧ (f a).1 = .ok b := by
  cases o <;> simp_all [withOk]

variable [Sha512] (P : IdentityPort)

/-! ## C58: initialising the genesis -/

/-- C58 refuted: the genesis is never initialised: `Init` does not succeed, whatever its arguments,
the identities and the files are, and it changes neither the identities nor the files. -/
theorem C58_init_never_succeeds_neg (s : P.S) (σ : Store) (a : InitArgs) (pk : Scalar)
    (wb : Bill → Scalar → Time → Outcome WalletBill) (t₁ t₂ now₁ now₂ : Time) :
    (initGenesis P s σ a pk wb t₁ t₂ now₁ now₂).1 ≠ .ok () ∧
      (initGenesis P s σ a pk wb t₁ t₂ now₁ now₂).2 = (s, σ) := by
  have key : ∀ {α : Type} (o : Outcome α) (f : α → Outcome Unit × P.S × Store),
      (∀ a, (f a).1 ≠ .ok () ∧ (f a).2 = (s, σ)) →
      (withOk o (s, σ) f).1 ≠ .ok () ∧ (withOk o (s, σ) f).2 = (s, σ) := by
    intro α o f h
    cases o with
    | ok a => exact h a
    | err m => simp [withOk]
    | crash c => simp [withOk]
  unfold initGenesis
  split
  · simp
  · simp
  · refine key _ _ fun i => key _ _ fun k => key _ _ fun l => key _ _ fun b => key _ _ fun g =>
      key _ _ fun w => ?_
    cases h : walletNow a.walletName none [w] [] t₁ with
    | ok w' => exact absurd h (C58_no_wallet_neg _ _ _ _ _ _)
    | err m => simp [withOk]
    | crash c => simp [withOk]

/-- C58 refuted: with everything in order `Init` panics: there is no genesis yet, the identity is
found, the amount, the difficulties and the name of the wallet are given, and the bill of the wallet
can be built. -/
theorem C58_init_panics_neg {s : P.S} {σ : Store} {a : InitArgs} {pk : Scalar}
    {wb : Bill → Scalar → Time → Outcome WalletBill} {t₁ t₂ now₁ now₂ : Time} {m : String}
    {i : Identity} (hσ : retrGenesis σ = .err m) (hi : P.retrieve s a.name a.seed a.password = .ok i)
    (hw : ∀ b p t, ∃ w, wb b p t = .ok w) (ha : 0 < a.amount) (h1 : 0 < a.blockBase)
    (h2 : a.blockIncrease.le0 = false) (h3 : 0 < a.link) (hn : a.walletName ≠ []) :
    (initGenesis P s σ a pk wb t₁ t₂ now₁ now₂).1 = .crash .nilDeref := by
  unfold initGenesis
  rw [hσ]
  simp only [hi, withOk]
  obtain ⟨k, hk⟩ : ∃ k, appKeyHash (publicKey pk) = .ok k := by
    obtain ⟨k, l, h, -⟩ := C22_app_lock_is_built (publicKey pk) t₁
    exact ⟨k, h⟩
  have hl : lockNow (some [k]) t₁ = .ok ⟨fromBytes (hashesBytes [k]), [k], t₁⟩ :=
    lockNow_eq_ok.mpr ⟨_, rfl, by simp, by simp, rfl⟩
  rw [hk]
  simp only [hl]
  have hb : ∃ b, billNow (some ⟨fromBytes (hashesBytes [k]), [k], t₁⟩) a.amount t₁ = .ok b := by
    have h0 : (0 : UInt64).toNat < a.amount.toNat := UInt64.lt_iff_toNat_lt.mp ha
    exact ⟨_, billNow_eq_ok.mpr ⟨_, rfl, by simpa using h0, rfl⟩⟩
  obtain ⟨b, hb⟩ := hb
  simp only [hb]
  have hg : ∃ g, genesisNow a.blockBase a.blockIncrease a.link (some b) t₁ = .ok g := by
    unfold genesisNow
    rw [if_neg (UInt64.not_le.mpr h1), if_neg (by simp [h2]), if_neg (UInt64.not_le.mpr h3)]
    exact ⟨_, rfl⟩
  obtain ⟨g, hg⟩ := hg
  obtain ⟨w, hw⟩ := hw b pk t₁
  simp only [hg, hw, C58_wallet_without_statement_neg hn]

/-! ## C59 -/

variable {P}

theorem Session.update_ok {a a' : Session} {s s' : P.S} {u : IdentityUpdate} {now₁ now₂ : Time}
    (h : a.update P s u now₁ now₂ = (.ok (), s', a')) :
    ∃ i j, a.retrieve P s = .ok i ∧
      identityNow (u.seed.getD i.seed) (u.name.getD i.name) (u.root.getD i.root) [] [] none none
        now₁ now₂ = .ok j ∧
      P.update s i.hash j a.password (u.password.getD a.password) = (.ok (), s') ∧
      a' = { a with password := u.password.getD a.password } := by
  unfold Session.update at h
  simp only at h
  split at h
  · rename_i hr
    obtain ⟨i, hi, e1, h1⟩ := withOk_eq_ok hr
    obtain ⟨j, hj, e2, h2⟩ := withOk_eq_ok h1
    refine ⟨i, j, hi, hj, ?_, ?_⟩
    · rw [e1, e2] at h
      simp only [Prod.mk.injEq] at h
      exact Prod.ext h2 h.2.1
    · simp only [Prod.mk.injEq] at h
      exact h.2.2.symm
  · simp at h
  · simp at h

omit [Sha512] in
theorem IdentityPort.update_then_retrieve {s s' : P.S} {h : Hash} {i : Identity} {p q : Bytes}
    (e : P.update s h i p q = (.ok (), s')) : P.retrieve s' i.name q i.seed = .ok i := by
  obtain ⟨n, sd, old, -, -, hv⟩ := P.update_ok (s := s) (h := h) (i := i) (p := p) (q := q) (by rw [e])
  rw [e] at hv
  rw [P.retrieve_ok, hv]
  simp [IdentityView.set]

/-- C59 refuted: after a successful update, the identity found under its new name, seed and password
has no wallets and no buckets, whatever it had before, and its creation time is the time of the
update. -/
theorem C59_update_drops_wallets_neg {a a' : Session} {s s' : P.S} {u : IdentityUpdate}
    {now₁ now₂ : Time} (h : a.update P s u now₁ now₂ = (.ok (), s', a')) :
    ∃ i j, a.retrieve P s = .ok i ∧
      P.retrieve s' (u.name.getD i.name) (u.password.getD a.password) (u.seed.getD i.seed) = .ok j ∧
      j.wallets = [] ∧ j.buckets = [] ∧ j.createdOn = now₁ := by
  obtain ⟨i, j, hi, hj, hu, -⟩ := Session.update_ok h
  have hr := P.update_then_retrieve hu
  obtain ⟨-, -, -, -, rfl⟩ := identityNow_eq_ok.mp hj
  exact ⟨i, _, hi, hr, rfl, rfl, rfl⟩

/-- C59, what holds: the identity has the seed, name and root that were asked for, and the old ones
otherwise. Missing: the wallets and buckets. -/
theorem C59_update_sets_fields_partial {a a' : Session} {s s' : P.S} {u : IdentityUpdate}
    {now₁ now₂ : Time} (h : a.update P s u now₁ now₂ = (.ok (), s', a')) :
    ∃ i j, a.retrieve P s = .ok i ∧
      P.retrieve s' (u.name.getD i.name) (u.password.getD a.password) (u.seed.getD i.seed) = .ok j ∧
      j.seed = u.seed.getD i.seed ∧ j.name = u.name.getD i.name ∧ j.root = u.root.getD i.root ∧
      j.Built := by
  obtain ⟨i, j, hi, hj, hu, -⟩ := Session.update_ok h
  have hr := P.update_then_retrieve hu
  have hb : j.Built := ⟨_, _, _, _, _, _, _, _, _, hj⟩
  obtain ⟨-, -, -, -, rfl⟩ := identityNow_eq_ok.mp hj
  exact ⟨i, _, hi, hr, rfl, rfl, rfl, hb⟩

/-! ## C60 -/

omit [Sha512] in
/-- C60: what `Authenticate` looks for: an identity with this name whose seed is the given
*password* and whose password is the given *seed*. -/
theorem C60_authenticate_exact_neg (s : P.S) (name seed password : Bytes) (a : Session) :
    authenticate P s name seed password = .ok a ↔
      (∃ i, P.view s name password = some (i, seed)) ∧ a = ⟨name, password, password⟩ := by
  unfold authenticate
  simp only [Outcome.bind_eq_ok, P.retrieve_ok, Outcome.ok.injEq]
  constructor
  · rintro ⟨i, h, rfl⟩
    obtain ⟨h1, h2⟩ := P.names h
    exact ⟨⟨i, h⟩, by rw [h1, h2]⟩
  · rintro ⟨⟨i, h⟩, rfl⟩
    obtain ⟨h1, h2⟩ := P.names h
    exact ⟨i, h, by rw [h1, h2]⟩

/-- C60 refuted: a user who creates an identity, where there was none with this name, cannot
authenticate with the name, seed and password used, unless seed and password are the same. -/
theorem C60_new_identity_cannot_authenticate_neg {s s' : P.S} {name password seed root : Bytes}
    {now₁ now₂ : Time} (hs : ∀ sd, P.view s name sd = none)
    (h : newIdentity P s name password seed root now₁ now₂ = (.ok (), s')) (hne : seed ≠ password)
    (a : Session) : authenticate P s' name seed password ≠ .ok a := by
  intro ha
  obtain ⟨⟨i, hi⟩, -⟩ := (C60_authenticate_exact_neg _ _ _ _ _).mp ha
  unfold newIdentity at h
  obtain ⟨j, hj, e, hins⟩ := withOk_eq_ok (b := ()) (by rw [h])
  rw [e] at h
  obtain ⟨-, hv⟩ := P.insert_ok hins
  rw [h] at hv
  obtain ⟨-, -, -, -, rfl⟩ := identityNow_eq_ok.mp hj
  simp only at hv
  rw [hv] at hi
  simp [IdentityView.set, hs, hne.symm] at hi

omit [Sha512] in
/-- C60 refuted: whatever is given to `Authenticate`, the session it returns can find an identity
only if the same text was given for seed and password. -/
theorem C60_session_needs_equal_secrets_neg {s : P.S} {name seed password : Bytes} {a : Session}
    {i : Identity} (h : authenticate P s name seed password = .ok a) (hi : a.retrieve P s = .ok i) :
    seed = password := by
  obtain ⟨⟨j, hj⟩, rfl⟩ := (C60_authenticate_exact_neg _ _ _ _ _).mp h
  unfold Session.retrieve at hi
  rw [P.retrieve_ok] at hi
  simp only at hi
  rw [hj] at hi
  simp only [Option.some.injEq, Prod.mk.injEq] at hi
  exact hi.2

/-- C60, what holds: with the same text for seed and password, a new identity can be authenticated
and the session finds it. Missing: different texts. -/
theorem C60_equal_secrets_partial {s s' : P.S} {name secret root : Bytes} {now₁ now₂ : Time}
    (h : newIdentity P s name secret secret root now₁ now₂ = (.ok (), s')) :
    ∃ a i, authenticate P s' name secret secret = .ok a ∧ a.retrieve P s' = .ok i ∧
      i.name = name ∧ i.seed = secret ∧ i.root = root := by
  unfold newIdentity at h
  obtain ⟨j, hj, e, hins⟩ := withOk_eq_ok (b := ()) (by rw [h])
  rw [e] at h
  obtain ⟨-, hv⟩ := P.insert_ok hins
  rw [h] at hv
  obtain ⟨-, -, -, -, rfl⟩ := identityNow_eq_ok.mp hj
  simp only at hv
  have hv' := congrFun (congrFun hv name) secret
  simp only [IdentityView.set, and_self, if_true] at hv'
  refine ⟨⟨name, secret, secret⟩, _, (C60_authenticate_exact_neg _ _ _ _ _).mpr ⟨⟨_, hv'⟩, rfl⟩,
    P.retrieve_ok.mpr hv', rfl, rfl, rfl⟩

/-! ## C90 -/

/-- C90 refuted: after a successful change of the name or the seed, the session that made the change
does not find the identity any more. (It may find an identity only if it still finds the old one,
because another identity with the same hash and password was replaced.) -/
theorem C90_session_loses_identity_neg {a a' : Session} {s s' : P.S} {u : IdentityUpdate}
    {now₁ now₂ : Time} (h : a.update P s u now₁ now₂ = (.ok (), s', a')) {i : Identity}
    (hi : a.retrieve P s = .ok i) (hu : u.name.getD i.name ≠ i.name ∨ u.seed.getD i.seed ≠ i.seed)
    (hone : ∀ n sd j, P.view s n sd = some (j, a.password) → j.hash = i.hash →
      n = a.name ∧ sd = a.seed) (j : Identity) : a'.retrieve P s' ≠ .ok j := by
  obtain ⟨i', u', hi', hu', hup, rfl⟩ := Session.update_ok h
  obtain rfl := Outcome.ok.inj (hi'.symm.trans hi)
  obtain ⟨n, sd, old, ho, hoh, hv⟩ := P.update_ok (s := s) (h := i'.hash) (i := u') (p := a.password)
    (q := u.password.getD a.password) (by rw [hup])
  obtain ⟨rfl, rfl⟩ := hone n sd old ho hoh
  rw [hup] at hv
  have hn := P.names (P.retrieve_ok.mp hi)
  obtain ⟨-, -, -, -, rfl⟩ := identityNow_eq_ok.mp hu'
  intro hj
  unfold Session.retrieve at hj
  rw [P.retrieve_ok, hv] at hj
  have : ¬ (a.name = u.name.getD i'.name ∧ a.seed = u.seed.getD i'.seed) := by
    rintro ⟨e1, e2⟩
    rw [← e1, ← e2, hn.1, hn.2] at hu
    simp at hu
  simp [IdentityView.set, this] at hj

/-- C90, what holds: after a successful update of the root or the password only, the session finds
the updated identity. Missing: changes of the name and the seed. -/
theorem C90_session_keeps_identity_partial {a a' : Session} {s s' : P.S} {u : IdentityUpdate}
    {now₁ now₂ : Time} (h : a.update P s u now₁ now₂ = (.ok (), s', a')) (hn : u.name = none)
    (hs : u.seed = none) :
    ∃ i j, a.retrieve P s = .ok i ∧ a'.retrieve P s' = .ok j ∧ j.name = i.name ∧ j.seed = i.seed ∧
      j.root = u.root.getD i.root := by
  obtain ⟨i, j, hi, hj, hu, rfl⟩ := Session.update_ok h
  have hr := P.update_then_retrieve hu
  have hna := P.names (P.retrieve_ok.mp hi)
  obtain ⟨-, -, -, -, e⟩ := identityNow_eq_ok.mp hj
  have e1 : j.name = i.name := by rw [e, hn]; rfl
  have e2 : j.seed = i.seed := by rw [e, hs]; rfl
  refine ⟨i, j, hi, ?_, e1, e2, by rw [e]⟩
  rw [e1, e2, hna.1, hna.2] at hr
  exact hr

/-- C90: a failed update changes neither the identities nor the session. -/
theorem C90_failed_update_changes_nothing {a : Session} {s : P.S} {u : IdentityUpdate}
    {now₁ now₂ : Time} (h : (a.update P s u now₁ now₂).1 ≠ .ok ()) :
    (a.update P s u now₁ now₂).2 = (s, a) := by
  unfold Session.update at h ⊢
  simp only at h ⊢
  have key : ∀ {α : Type} (o : Outcome α) (f : α → Outcome Unit × P.S),
      (∀ x, (f x).1 ≠ .ok () → (f x).2 = s) → (withOk o s f).1 ≠ .ok () → (withOk o s f).2 = s := by
    intro α o f hf hw
    cases o with
    | ok x => exact hf x hw
    | err m => rfl
    | crash c => rfl
  have := key (P.retrieve s a.name a.password a.seed) (fun identity =>
    withOk (identityNow (u.seed.getD identity.seed) (u.name.getD identity.name)
        (u.root.getD identity.root) [] [] none none now₁ now₂) s fun updated =>
      P.update s identity.hash updated a.password (u.password.getD a.password))
    (fun i => key _ _ fun j => P.update_fails)
  split at h
  · simp at h
  · rename_i hm
    simp [this (by rw [hm]; simp)]
  · rename_i hm
    simp [this (by rw [hm]; simp)]

/-! ## C91 -/

/-- C91 refuted: no fee is ever paid. The signatures are made over the content of the expense, but
the locks of the bills ask for signatures over their own hash. If a fee is paid nevertheless, with keys up to
`largestFactor`, for every bill used the signature closes both rings: the hash of the content with the last
commitment and the hash of the lock with the last commitment get the same challenge though the hashes
differ, or the texts of content and lock are an explicit collision. -/
theorem C91_fee_never_paid_neg {additional : Int} {f : FeeRun} {bills : List WalletBill}
    {e : Expense} (h : payFee additional f bills = .ok e)
    (hb : ∀ b ∈ bills, b.bill.lock.Built ∧ b.pk.Fits) :
    bills ≠ [] ∧ List.Forall₂ (fun (b : WalletBill) (sig : RingSignature) =>
      (∃ p q, commitmentAt e.content.hash.str sig.ring sig.s sig.e (sig.ring.length - 1) = some p ∧
        commitmentAt b.bill.lock.hash.str sig.ring sig.s sig.e (sig.ring.length - 1) = some q ∧
        e.content.hash ≠ b.bill.lock.hash ∧
        C.hashF (e.content.hash.str ++ ptStr p) = C.hashF (b.bill.lock.hash.str ++ ptStr q)) ∨
      ShaCollision e.content.hashedText b.bill.lock.hashedText ∨
      ShaPassThrough b.bill.lock.hashedText e.content.hashedText) bills e.signatures := by
  unfold payFee at h
  split at h
  · simp at h
  split at h
  · simp at h
  rename_i hlen
  refine ⟨by rintro rfl; simp at hlen, ?_⟩
  simp only [Outcome.bind_eq_ok] at h
  obtain ⟨keys, -, rem, -, content, hc, sigs, hs, he⟩ := h
  obtain ⟨_, _, e1, e2, hun, rfl⟩ := expenseNow_eq_ok.mp he
  cases e1; cases e2
  obtain ⟨src, l, e1, e2, -, -, -, hcontent⟩ := contentNow_eq_ok.mp hc
  cases e1
  have hsrc : content.source = bills.map WalletBill.bill := by rw [hcontent]
  rw [hsrc] at hun
  rw [mapO_eq_ok] at hs
  have htext : content.hashedText = l.hash.bytes ++ itoaU f.amount ++
      hashesBytes ((bills.map WalletBill.bill).map Bill.hash ++ [rem.hash]) := by
    rw [hcontent]
    simp [Content.hashedText, hashesBytes, Function.comp_def]
  have hhash : content.hash = fromBytes content.hashedText := by
    rw [htext, hcontent]
    simp [contentData, hashesBytes, Function.comp_def]
  have h64 : content.hashedText.length % 64 ≠ 0 := by
    rw [htext]
    simp only [List.length_append, hashesBytes_length, l.hash.len]
    have h1 : 0 < (itoaU f.amount).length := List.length_pos_iff.mpr (itoaU_ne_nil _)
    have h2 := itoaU_length f.amount
    omega
  -- for one bill and its signature
  have key : ∀ b ∈ bills, ∀ sig, ringSign b.pk content.hash.str b.ringKeys = .ok sig →
      b.bill.lock.unlock sig = .ok () →
      (∃ p q, commitmentAt content.hash.str sig.ring sig.s sig.e (sig.ring.length - 1) = some p ∧
        commitmentAt b.bill.lock.hash.str sig.ring sig.s sig.e (sig.ring.length - 1) = some q ∧
        content.hash ≠ b.bill.lock.hash ∧
        C.hashF (content.hash.str ++ ptStr p) = C.hashF (b.bill.lock.hash.str ++ ptStr q)) ∨
      ShaCollision content.hashedText b.bill.lock.hashedText ∨
      ShaPassThrough b.bill.lock.hashedText content.hashedText := by
    intro b hbm sig hsig hopen
    obtain ⟨⟨k, t, hl⟩, hfit⟩ := hb b hbm
    have hring : sig.ring ≠ [] := C20_unlock_needs_ring k t _ hl sig hopen
    have hv1 : sig.verify content.hash.str = .ok true := by
      by_cases hm : publicKey b.pk ∈ b.ringKeys
      · obtain ⟨sig', g1, -, g2⟩ := C14_ring_sign_verifies_partial b.pk hfit content.hash.str b.ringKeys hm
        rw [hsig] at g1
        cases g1
        exact g2
      · obtain ⟨m, hm⟩ := (C14_ring_sign_fails_iff b.pk content.hash.str b.ringKeys).1.mpr hm
        rw [hm] at hsig
        cases hsig
    have hv2 := (unlock_eq_ok.mp hopen).2
    by_cases heq : content.hash = b.bill.lock.hash
    · right
      obtain ⟨ks, -, -, -, hl⟩ := lockNow_eq_ok.mp hl
      have hlt : b.bill.lock.hashedText = hashesBytes ks := by rw [hl]; rfl
      have hlh : b.bill.lock.hash = fromBytes (hashesBytes ks) := by rw [hl]
      rw [hhash, hlh, ← hlt] at heq
      have hl64 : b.bill.lock.hashedText.length % 64 = 0 := by
        rw [hlt, hashesBytes_length]; omega
      rcases fromBytes_eq_red' heq with e | e | e | e
      · exact absurd (e ▸ hl64) h64
      · exact .inl e
      · exact absurd (by rw [e.1]) h64
      · exact .inr e
    · left
      obtain ⟨p, q, g1, g2, g3, -⟩ :=
        C16_nonempty_ring_binds_message_partial sig _ _ hring hv1 hv2
      exact ⟨p, q, g1, g2, heq, g3⟩
  clear hc he hcontent htext hhash hb hlen hsrc
  induction bills generalizing sigs with
  | nil => cases hs; exact .nil
  | cons b bs ih =>
    cases hs with
    | cons h1 h2 =>
      rw [List.map_cons] at hun
      cases hun with
      | cons g1 g2 =>
        exact .cons (key b (by simp) _ h1 g1) (ih _ h2 g2 fun b hb => key b (by simp [hb]))

/-- C91 refuted: paying exactly what the bills are worth is always refused, because a lock for the
remaining amount is always given. -/
theorem C91_exact_amount_neg {additional : Int} {f : FeeRun} {bills : List WalletBill}
    (h : f.amount = sourceTotal (bills.map WalletBill.bill)) (e : Expense) :
    payFee additional f bills ≠ .ok e := by
  intro hp
  unfold payFee at hp
  split at hp
  · simp at hp
  split at hp
  · simp at hp
  simp only [Outcome.bind_eq_ok] at hp
  obtain ⟨keys, -, rem, -, content, hc, -⟩ := hp
  obtain ⟨_, _, e1, -, -, -, hiff, -⟩ := contentNow_eq_ok.mp hc
  cases e1
  rw [← h] at hiff
  simp at hiff

/-- C91 refuted: without bills, or when no additional keys are configured, paying a fee panics. -/
theorem C91_no_bills_panics_neg {additional : Int} {f : FeeRun} {bills : List WalletBill}
    (h : additional ≤ 0 ∨ bills = []) : ∃ c, payFee additional f bills = .crash c := by
  unfold payFee
  split
  · exact ⟨_, rfl⟩
  · rcases h with h | rfl
    · contradiction
    · simp

/-- C91 refuted for the whole call: `Bucket` of an identity and a bucket that exist panics, and saves
nothing, if there are fees and the wallets give no bills for the first of them. -/
theorem C91_bucket_panics_neg {a : Session} {I : IdentityParts} {additional : Int} {s : P.S}
    {path : Bytes} {f : FeeRun} {fees : List FeeRun} {now : Time} {i : Identity} {b : IdBucket}
    (hi : a.retrieve P s = .ok i) (hb : I.fetchBucket i path = .ok b)
    (hf : I.fetchBills i f.amount = .ok []) :
    ∃ c, a.bucket P I additional s path (f :: fees) now = (.crash c, s) := by
  obtain ⟨c, hc⟩ := C91_no_bills_panics_neg (additional := additional) (f := f) (bills := []) (.inr rfl)
  refine ⟨c, ?_⟩
  have hx : bucketTransaction I additional i path (f :: fees) now = .crash c := by
    unfold bucketTransaction
    rw [hb]
    simp only [Outcome.bind_ok, mapO, hf, hc, Outcome.bind_crash]
  unfold Session.bucket
  rw [show P.retrieve s a.name a.password a.seed = .ok i from hi]
  simp only [withOk, hx]

/-! ## C92 -/

/-- C92 refuted: the transaction that announces a bucket carries the hash of the *path* of the
bucket, whatever the bucket contains. -/
theorem C92_transaction_names_path_neg {I : IdentityParts} {additional : Int} {i : Identity}
    {path : Bytes} {fees : List FeeRun} {now : Time} {x : Transaction} {b : IdBucket}
    (h : bucketTransaction I additional i path fees now = .ok x)
    (hf : I.fetchBucket i path = .ok b) (hb : b.Built) :
    x.bucket = some (fromBytes b.absolutePath) := by
  unfold bucketTransaction at h
  simp only [Outcome.bind_eq_ok] at h
  obtain ⟨b', hb', fs, -, hx⟩ := h
  obtain rfl := Outcome.ok.inj (hf.symm.trans hb')
  obtain ⟨-, rfl⟩ := trxNow_eq_ok.mp hx
  obtain ⟨_, _, _, _, _, _, hb⟩ := hb
  obtain ⟨-, -, _, _, -, -, rfl⟩ := idBucketNow_eq_ok.mp hb
  rfl

/-- C92, what holds: without fees, a transaction is made for every bucket that is found, and it
carries the hash of the identity's bucket. Missing: that this hash has to do with the content. -/
theorem C92_transaction_made_partial {I : IdentityParts} {additional : Int} {i : Identity}
    {path : Bytes} {now : Time} {b : IdBucket} (hf : I.fetchBucket i path = .ok b) :
    ∃ x, bucketTransaction I additional i path [] now = .ok x ∧ x.bucket = some b.hash ∧
      x.fees = [] ∧ x.createdOn = now := by
  obtain ⟨x, hx⟩ : ∃ x, trxNow none (some b.hash) [] now = .ok x :=
    ⟨_, trxNow_eq_ok.mpr ⟨by simp, rfl⟩⟩
  refine ⟨x, ?_, ?_⟩
  · unfold bucketTransaction
    rw [hf]
    exact hx
  · obtain ⟨-, rfl⟩ := trxNow_eq_ok.mp hx
    exact ⟨rfl, rfl, rfl⟩

/-! ## C106: creating and deleting identities -/

/-- C106: after a successful `NewIdentity` there is an identity under the name and seed, where there
was none; it opens with the password given and no other, has the root given and neither wallets nor
buckets, and every other identity is as it was. -/
theorem C106_creation {s s' : P.S} {name password seed root : Bytes} {now₁ now₂ : Time}
    (h : newIdentity P s name password seed root now₁ now₂ = (.ok (), s')) :
    name ≠ [] ∧ seed ≠ [] ∧ root ≠ [] ∧ P.view s name seed = none ∧
    (∃ i, (∀ p j, P.retrieve s' name p seed = .ok j ↔ p = password ∧ j = i) ∧ i.Built ∧
      i.name = name ∧ i.seed = seed ∧ i.root = root ∧ i.wallets = [] ∧ i.buckets = []) ∧
    ∀ n p sd j, (n, sd) ≠ (name, seed) →
      (P.retrieve s' n p sd = .ok j ↔ P.retrieve s n p sd = .ok j) := by
  unfold newIdentity at h
  obtain ⟨i, hi, e, hins⟩ := withOk_eq_ok (b := ()) (by rw [h])
  rw [e] at h
  obtain ⟨hno, hv⟩ := P.insert_ok hins
  rw [h] at hv
  have hb : i.Built := ⟨_, _, _, _, _, _, _, _, _, hi⟩
  obtain ⟨g1, g2, g3, -, hi⟩ := identityNow_eq_ok.mp hi
  have e1 : i.name = name := by rw [hi]
  have e2 : i.seed = seed := by rw [hi]
  have e3 : i.root = root := by rw [hi]
  have e4 : i.wallets = [] := by rw [hi]
  have e5 : i.buckets = [] := by rw [hi]
  rw [e1, e2] at hno hv
  refine ⟨g2, g1, g3, hno, ⟨i, fun p j => ?_, hb, e1, e2, e3, e4, e5⟩, fun n p sd j hne => ?_⟩
  · rw [P.retrieve_ok]
    simp only [hv, IdentityView.set, and_self, if_true, Option.some.injEq, Prod.mk.injEq]
    constructor
    · rintro ⟨rfl, rfl⟩; exact ⟨rfl, rfl⟩
    · rintro ⟨rfl, rfl⟩; exact ⟨rfl, rfl⟩
  · have : ¬ (n = name ∧ sd = seed) := fun ⟨a, b⟩ => hne (by rw [a, b])
    rw [P.retrieve_ok, P.retrieve_ok]
    simp [hv, IdentityView.set, this]

/-- C106: `NewIdentity` never replaces an identity: with a name and seed that are taken it fails, and
when it fails, nothing changes. -/
theorem C106_creation_never_replaces {s : P.S} {name password seed root : Bytes} {now₁ now₂ : Time} :
    (P.view s name seed ≠ none → (newIdentity P s name password seed root now₁ now₂).1 ≠ .ok ()) ∧
    ((newIdentity P s name password seed root now₁ now₂).1 ≠ .ok () →
      (newIdentity P s name password seed root now₁ now₂).2 = s) := by
  constructor
  · intro hv h
    exact hv (C106_creation (s' := (newIdentity P s name password seed root now₁ now₂).2)
      (Prod.ext h rfl)).2.2.2.1
  · unfold newIdentity
    cases identityNow seed name root [] [] none none now₁ now₂ with
    | ok i => exact P.insert_fails
    | err m => simp [withOk]
    | crash c => simp [withOk]

omit [Sha512] in
/-- C106: after a successful `Delete` the identity of the session is gone, under every password, and
every other identity is as it was. Only a session that found the identity can have deleted it. -/
theorem C106_deletion {a : Session} {s s' : P.S} (h : a.delete P s = (.ok (), s')) :
    (∃ i, a.retrieve P s = .ok i) ∧ (∀ p j, P.retrieve s' a.name p a.seed ≠ .ok j) ∧
    ∀ n p sd j, (n, sd) ≠ (a.name, a.seed) →
      (P.retrieve s' n p sd = .ok j ↔ P.retrieve s n p sd = .ok j) := by
  unfold Session.delete at h
  obtain ⟨i, hi, e, hdel⟩ := withOk_eq_ok (b := ()) (by rw [h])
  rw [e] at h
  obtain ⟨old, -, hv⟩ := P.delete_ok hdel
  rw [h] at hv
  obtain ⟨e1, e2⟩ := P.names (P.retrieve_ok.mp hi)
  rw [e1, e2] at hv
  refine ⟨⟨i, hi⟩, fun p j => ?_, fun n p sd j hne => ?_⟩
  · rw [Ne, P.retrieve_ok]
    simp [hv, IdentityView.set]
  · have : ¬ (n = a.name ∧ sd = a.seed) := fun ⟨a, b⟩ => hne (by rw [a, b])
    rw [P.retrieve_ok, P.retrieve_ok]
    simp [hv, IdentityView.set, this]

omit [Sha512] in
/-- C106: a failed `Delete` changes nothing. -/
theorem C106_failed_deletion {a : Session} {s : P.S} (h : (a.delete P s).1 ≠ .ok ()) :
    (a.delete P s).2 = s := by
  unfold Session.delete at h ⊢
  revert h
  cases P.retrieve s a.name a.password a.seed with
  | ok i => exact P.delete_fails
  | err m => simp [withOk]
  | crash c => simp [withOk]

/-! ## C107: what `Bucket` records -/

/-- C107: the transaction of a bucket has one expense per fee asked for, in the same order, each
paying the amount of its fee to the lock of its fee with the bills fetched for that amount; it has no
other expenses, and its bucket is the one found under the path. -/
theorem C107_every_fee_paid {I : IdentityParts} {additional : Int} {i : Identity} {path : Bytes}
    {fees : List FeeRun} {now : Time} {x : Transaction}
    (h : bucketTransaction I additional i path fees now = .ok x) :
    (∃ b, I.fetchBucket i path = .ok b ∧ x.bucket = some b.hash) ∧ x.createdOn = now ∧
    List.Forall₂ (fun (f : FeeRun) (e : Expense) => e.content.dest.amount = f.amount ∧
      e.content.dest.lock = f.lock ∧
      ∃ bills, I.fetchBills i f.amount = .ok bills ∧
        e.content.source = bills.map WalletBill.bill) fees x.fees := by
  unfold bucketTransaction at h
  simp only [Outcome.bind_eq_ok] at h
  obtain ⟨b, hb, es, hes, hx⟩ := h
  obtain ⟨-, rfl⟩ := trxNow_eq_ok.mp hx
  refine ⟨⟨b, hb, rfl⟩, rfl, ?_⟩
  rw [mapO_eq_ok] at hes
  refine hes.imp fun f e hfe => ?_
  rw [Outcome.bind_eq_ok] at hfe
  obtain ⟨bills, hbills, hp⟩ := hfe
  unfold payFee at hp
  split at hp
  · simp at hp
  split at hp
  · simp at hp
  simp only [Outcome.bind_eq_ok] at hp
  obtain ⟨keys, -, rem, -, content, hc, sigs, -, he⟩ := hp
  obtain ⟨_, _, e1, e2, -, he⟩ := expenseNow_eq_ok.mp he
  cases e1; cases e2
  obtain ⟨src, l, e1, e2, -, -, -, hcontent⟩ := contentNow_eq_ok.mp hc
  cases e1; cases e2
  rw [he, hcontent]
  exact ⟨rfl, rfl, bills, hbills, rfl⟩

/-- C107: after a successful `Bucket`, the identity kept under its name and seed, with the password of
the session, is what the wallets of the identity made of it with that transaction. -/
theorem C107_transaction_recorded {a : Session} {I : IdentityParts} {additional : Int} {s s' : P.S}
    {path : Bytes} {fees : List FeeRun} {now : Time}
    (h : a.bucket P I additional s path fees now = (.ok (), s')) :
    ∃ i x i', a.retrieve P s = .ok i ∧ bucketTransaction I additional i path fees now = .ok x ∧
      I.transact i x = .ok i' ∧ P.retrieve s' i'.name a.password i'.seed = .ok i' ∧
      (i'.name = i.name → i'.seed = i.seed → a.retrieve P s' = .ok i') := by
  unfold Session.bucket at h
  obtain ⟨i, hi, e1, h1⟩ := withOk_eq_ok (b := ()) (by rw [h])
  obtain ⟨x, hx, e2, h2⟩ := withOk_eq_ok h1
  obtain ⟨i', hi', e3, h3⟩ := withOk_eq_ok h2
  rw [e1, e2, e3] at h
  have hr := P.update_then_retrieve h
  refine ⟨i, x, i', hi, hx, hi', hr, fun g1 g2 => ?_⟩
  obtain ⟨n1, n2⟩ := P.names (P.retrieve_ok.mp hi)
  rw [g1, g2, n1, n2] at hr
  exact hr

/-- C107: a failed `Bucket` changes nothing. -/
theorem C107_failed_bucket {a : Session} {I : IdentityParts} {additional : Int} {s : P.S}
    {path : Bytes} {fees : List FeeRun} {now : Time}
    (h : (a.bucket P I additional s path fees now).1 ≠ .ok ()) :
    (a.bucket P I additional s path fees now).2 = s := by
  unfold Session.bucket at h ⊢
  revert h
  cases P.retrieve s a.name a.password a.seed with
  | ok i =>
    simp only [withOk]
    cases bucketTransaction I additional i path fees now with
    | ok x =>
      simp only
      cases I.transact i x with
      | ok i' => exact P.update_fails
      | err m => simp
      | crash c => simp
    | err m => simp
    | crash c => simp
  | err m => simp [withOk]
  | crash c => simp [withOk]

/-! ## C127: what is left of the bills that pay a fee -/

omit [Sha512] in
theorem ringKeysFrom_zero (i : Nat) (ps : List C.Pt) : ringKeysFrom 0 i ps = ps := by
  induction ps generalizing i with
  | nil => rfl
  | cons p ps ih =>
    rw [ringKeysFrom, if_neg (by omega), ih]

omit [Sha512] in
theorem ringKeysFrom_pos {m : Int} (hm : 1 ≤ m) (ps : List C.Pt) : ringKeysFrom m 0 ps = [] := by
  cases ps with
  | nil => rfl
  | cons p ps => rw [ringKeysFrom, if_pos (by simpa using hm)]

/-- C127: what is left of the bills after a fee goes to a lock with a new key; the keys of the rings
of the bills are with it only if the random number is smaller than the number of bills, and then all
of them are. -/
theorem C127_rest_keys {additional : Int} {f : FeeRun} {bills : List WalletBill} {e : Expense}
    (h : payFee additional f bills = .ok e) (hs : ∀ l, (f.shuffle l).Perm l) :
    ∃ r, e.content.remaining = some r ∧
      r.amount = sourceTotal (bills.map WalletBill.bill) - f.amount ∧
      r.lock.pubKeys.Perm (((if bills.length ≤ f.random then [] else
        bills.flatMap WalletBill.ringKeys) ++ [publicKey f.remaining]).map
          fun p => Sha512.sum (C.enc p)) := by
  unfold payFee at h
  split at h
  · simp at h
  split at h
  · simp at h
  rename_i hlen
  simp only [Outcome.bind_eq_ok] at h
  obtain ⟨keys, hk, rem, hr, content, hc, sigs, -, he⟩ := h
  obtain ⟨_, _, e1, e2, -, he⟩ := expenseNow_eq_ok.mp he
  cases e1; cases e2
  obtain ⟨src, l, e1, e2, -, -, -, hcontent⟩ := contentNow_eq_ok.mp hc
  cases e1; cases e2
  obtain ⟨_, e1, -, -, hr⟩ := lockNow_eq_ok.mp hr
  cases e1
  rw [he, hcontent]
  refine ⟨_, rfl, rfl, ?_⟩
  rw [hr]
  rw [mapO_ok_of (g := fun p => Sha512.sum (C.enc p)) fun p _ => by
    unfold appKeyHash fromString ptStr
    rw [hexDecode_hexEncode]
    simp only [Outcome.ok.injEq]
    rw [fromBytes_of_ne (by rw [C.enc_len]; decide)]] at hk
  cases hk
  refine (List.Perm.map _ (hs _)).trans (.of_eq ?_)
  congr 2
  split
  · rename_i hle
    have : 1 ≤ ((f.random / bills.length : Nat) : Int) := by
      have := Nat.div_pos hle (by omega)
      omega
    rw [List.flatMap_eq_nil_iff]
    exact fun b _ => ringKeysFrom_pos this _
  · rename_i hle
    have : ((f.random / bills.length : Nat) : Int) = 0 := by
      rw [Nat.div_eq_of_lt (by omega)]; rfl
    rw [this]
    exact List.flatMap_congr fun b _ => ringKeysFrom_zero 0 _

/-- C127 refuted: when the random number is not smaller than the number of bills, what is left of
them is locked to the new key alone. -/
theorem C127_rest_to_new_key_neg {additional : Int} {f : FeeRun} {bills : List WalletBill}
    {e : Expense} (h : payFee additional f bills = .ok e) (hs : ∀ l, (f.shuffle l).Perm l)
    (hr : bills.length ≤ f.random) :
    ∃ r, e.content.remaining = some r ∧ 0 < r.amount.toNat ∧
      r.lock.pubKeys = [Sha512.sum (C.enc (publicKey f.remaining))] := by
  obtain ⟨r, h1, h2, h3⟩ := C127_rest_keys h hs
  rw [if_pos hr] at h3
  refine ⟨r, h1, ?_, List.perm_singleton.mp h3⟩
  rw [h2]
  unfold payFee at h
  split at h
  · simp at h
  split at h
  · simp at h
  simp only [Outcome.bind_eq_ok] at h
  obtain ⟨keys, -, rem, -, content, hc, -⟩ := h
  obtain ⟨src, l, e1, e2, -, g1, g2, -⟩ := contentNow_eq_ok.mp hc
  cases e1
  rw [UInt64.toNat_sub_of_le _ _ (UInt64.le_iff_toNat_le.mpr g1)]
  have : ¬ f.amount.toNat = (sourceTotal (bills.map WalletBill.bill)).toNat := by
    simpa using g2
  omega

/-- C127 refuted: two bills with a key in common in their rings cannot pay a fee together, when the
random number is smaller than their number. -/
theorem C127_common_ring_key_refused_neg {additional : Int} {f : FeeRun} {bills : List WalletBill}
    (hs : ∀ l, (f.shuffle l).Perm l) (hr : f.random < bills.length)
    (hd : ¬ (bills.flatMap WalletBill.ringKeys).Nodup) (e : Expense) :
    payFee additional f bills ≠ .ok e := by
  intro h
  obtain ⟨r, h1, -, h3⟩ := C127_rest_keys h hs
  rw [if_neg (by omega)] at h3
  have hn : r.lock.pubKeys.Nodup := by
    unfold payFee at h
    split at h
    · simp at h
    split at h
    · simp at h
    simp only [Outcome.bind_eq_ok] at h
    obtain ⟨keys, -, rem, hl, content, hc, sigs, -, he⟩ := h
    obtain ⟨_, _, e1, e2, -, he⟩ := expenseNow_eq_ok.mp he
    cases e1; cases e2
    obtain ⟨src, l, e1, e2, -, -, -, hcontent⟩ := contentNow_eq_ok.mp hc
    cases e1; cases e2
    obtain ⟨_, e1, -, g, hl⟩ := lockNow_eq_ok.mp hl
    cases e1
    rw [he, hcontent] at h1
    simp only [Option.map_some, Option.some.injEq] at h1
    rw [← h1, hl]
    exact g
  have := (h3.nodup_iff.mp hn).of_map
  exact hd (List.nodup_append.mp this).1

/-- C127 refuted: the new key is kept nowhere. Whatever `Bucket` answers and saves depends on its
public half only. -/
theorem C127_new_key_not_kept_neg (a : Session) (I : IdentityParts) (additional : Int) (s : P.S)
    (path : Bytes) (fees : List FeeRun) (now : Time) (key : FeeRun → Scalar)
    (hk : ∀ f ∈ fees, publicKey (key f) = publicKey f.remaining) :
    a.bucket P I additional s path (fees.map fun f => { f with remaining := key f }) now =
      a.bucket P I additional s path fees now := by
  have hpay : ∀ f ∈ fees, ∀ bills, payFee additional { f with remaining := key f } bills =
      payFee additional f bills := by
    intro f hf bills
    unfold payFee
    simp only [hk f hf]
  have hmap : ∀ (identity : Identity), mapO (fun f : FeeRun => do
        let bills ← I.fetchBills identity f.amount
        payFee additional f bills) (fees.map fun f => { f with remaining := key f }) =
      mapO (fun f : FeeRun => do
        let bills ← I.fetchBills identity f.amount
        payFee additional f bills) fees := by
    intro identity
    clear hk
    induction fees with
    | nil => rfl
    | cons f fs ih =>
      simp only [List.map_cons, mapO]
      rw [ih fun g hg => hpay g (by simp [hg])]
      simp only [hpay f (by simp)]
  unfold Session.bucket bucketTransaction
  simp only [hmap]

/-! ## C93 -/

omit [Sha512] in
/-- C93: after a bucket was added, the identity has it, besides everything it had before. -/
theorem C93_add_bucket {a : Session} {s s' : P.S} {b : IdBucket}
    (h : a.addBucket P s b = (.ok (), s')) :
    ∃ i j, a.retrieve P s = .ok i ∧ a.retrieve P s' = .ok j ∧ j.buckets = i.buckets ++ [b] ∧
      j.wallets = i.wallets ∧ j.seed = i.seed ∧ j.name = i.name ∧ j.root = i.root := by
  unfold Session.addBucket at h
  obtain ⟨i, hi, e, hu⟩ := withOk_eq_ok (b := ()) (by rw [h])
  rw [e] at h
  have hr := P.update_then_retrieve h
  have hn := P.names (P.retrieve_ok.mp hi)
  simp only [hn] at hr
  exact ⟨i, _, hi, hr, rfl, rfl, hn.2.symm, hn.1.symm, rfl⟩

/-- C93 refuted: the hash of the identity is not updated when a bucket is added: it is not the hash
of the identity any more, unless there is a collision. -/
theorem C93_hash_not_updated_neg {a : Session} {s s' : P.S} {b : IdBucket} {i j : Identity}
    (h : a.addBucket P s b = (.ok (), s')) (hi : a.retrieve P s = .ok i)
    (hj : a.retrieve P s' = .ok j) (hb : i.Built) :
    j.hash = i.hash ∧ (j.Built → ShaCollision i.hashedText j.hashedText ∨
      ShaPassThrough i.hashedText j.hashedText ∨ ShaPassThrough j.hashedText i.hashedText) := by
  unfold Session.addBucket at h
  obtain ⟨i', hi', e, hu⟩ := withOk_eq_ok (b := ()) (by rw [h])
  obtain rfl := Outcome.ok.inj (hi.symm.trans hi')
  rw [e] at h
  have hr := P.update_then_retrieve h
  have hn := P.names (P.retrieve_ok.mp hi)
  simp only [hn] at hr
  obtain rfl := Outcome.ok.inj (hr.symm.trans hj)
  refine ⟨rfl, fun hj => ?_⟩
  have hj := identity_hash_eq hj
  simp only at hj
  rcases fromBytes_eq_red' ((identity_hash_eq hb).symm.trans hj) with e | e | e | e
  · have := congrArg List.length e
    rw [Identity.hashedText, Identity.hashedText] at this
    simp only [hn, List.length_append, List.map_append, List.flatten_append, List.map_cons,
      List.map_nil, List.flatten_cons, b.hash.len] at this
    omega
  · exact .inl e
  · exact .inr (.inl e)
  · exact .inr (.inr e)

omit [Sha512] in
/-- C93: deleting removes exactly the buckets whose recorded path is the given text; the others stay in their
order and number. -/
theorem C93_delete_bucket {a : Session} {s s' : P.S} {path : Bytes}
    (h : a.deleteBucket P s path = (.ok (), s')) :
    ∃ i j, a.retrieve P s = .ok i ∧ a.retrieve P s' = .ok j ∧
      (∀ b, b ∈ j.buckets ↔ b ∈ i.buckets ∧ b.absolutePath ≠ path) ∧ j.buckets.Sublist i.buckets ∧
      j.buckets.length + i.buckets.countP (fun b => b.absolutePath = path) = i.buckets.length ∧
      j.wallets = i.wallets ∧ j.seed = i.seed ∧ j.name = i.name ∧ j.root = i.root := by
  unfold Session.deleteBucket at h
  obtain ⟨i, hi, e, hu⟩ := withOk_eq_ok (b := ()) (by rw [h])
  rw [e] at h
  have hr := P.update_then_retrieve h
  have hn := P.names (P.retrieve_ok.mp hi)
  simp only [hn] at hr
  exact ⟨i, _, hi, hr, by simp, List.filter_sublist, by
    rw [List.length_eq_countP_add_countP (l := i.buckets) (fun b => decide (b.absolutePath = path)), Nat.add_comm,
      ← List.countP_eq_length_filter]; simp, rfl,
    hn.2.symm, hn.1.symm, rfl⟩

/-- C93 refuted: a bucket that was added for a path that is not written in its shortest absolute form
is not removed by deleting that same path, though deleting succeeds. -/
theorem C93_delete_same_path_neg {a : Session} {s s' : P.S} {path : Bytes} {i : Identity}
    {cwd : Path} {d : Disk} {bk : Option Bucket} {k : Option Bytes} {t : Time} {b : IdBucket}
    (hb : idBucketNow cwd d bk path k t = .ok b) (hp : pathText (absolute cwd path) ≠ path)
    (h : a.deleteBucket P s path = (.ok (), s')) (hi : a.retrieve P s = .ok i) (hm : b ∈ i.buckets) :
    ∃ j, a.retrieve P s' = .ok j ∧ b ∈ j.buckets := by
  obtain ⟨i', j, hi', hj, hbs, -⟩ := C93_delete_bucket h
  obtain rfl := Outcome.ok.inj (hi.symm.trans hi')
  obtain ⟨-, -, _, _, -, -, rfl⟩ := idBucketNow_eq_ok.mp hb
  exact ⟨j, hj, (hbs _).mpr ⟨hm, hp⟩⟩

end

section reference
variable [C : Curve]

/-- A repository and service of identities that meets the contract. -/
noncomputable def referencePort : IdentityPort := by
  classical
  exact {
    S := { v : IdentityView // ∀ {n sd i p}, v n sd = some (i, p) → i.name = n ∧ i.seed = sd }
    view := fun s => s.1
    names := fun {s} _ _ _ _ h => s.2 h
    retrieve := fun s n p sd =>
      match s.1 n sd with
      | some (i, q) => if q = p then .ok i else .err "wrong password"
      | none => .err "not found"
    retrieve_ok := by
      intro s n p sd i
      split
      · rename_i j q h
        rw [h]
        split
        · rename_i e; simp [e]
        · rename_i e
          simp [e]
      · rename_i h; simp [h]
    insert := fun s i p =>
      match s.1 i.name i.seed with
      | none => (.ok (), ⟨s.1.set i.name i.seed (some (i, p)), by
          intro n sd j q h
          unfold IdentityView.set at h
          split at h
          · rename_i e; cases h; exact ⟨e.1.symm, e.2.symm⟩
          · exact s.2 h⟩)
      | some _ => (.err "exists", s)
    insert_ok := by
      intro s i p h
      split at h
      · rename_i e; exact ⟨e, rfl⟩
      · cases h
    insert_fails := by
      intro s i p h
      split at h
      · exact absurd rfl h
      · rfl
    update := fun s h i p q =>
      if e : ∃ x : Bytes × Bytes × Identity, s.1 x.1 x.2.1 = some (x.2.2, p) ∧ x.2.2.hash = h then
        (.ok (), ⟨(s.1.set e.choose.1 e.choose.2.1 none).set i.name i.seed (some (i, q)), by
          intro n sd j q h
          unfold IdentityView.set at h
          split at h
          · rename_i e; cases h; exact ⟨e.1.symm, e.2.symm⟩
          · split at h
            · cases h
            · exact s.2 h⟩)
      else (.err "not found", s)
    update_ok := by
      intro s h i p q he
      split at he
      · rename_i e
        exact ⟨_, _, _, e.choose_spec.1, e.choose_spec.2, by rw [dif_pos e]⟩
      · cases he
    update_fails := by
      intro s h i p q he
      split at he
      · exact absurd rfl he
      · rename_i e; rw [dif_neg e]
    delete := fun s i p =>
      match s.1 i.name i.seed with
      | some (_, q) =>
        if q = p then (.ok (), ⟨s.1.set i.name i.seed none, by
          intro n sd j q h
          unfold IdentityView.set at h
          split at h
          · cases h
          · exact s.2 h⟩)
        else (.err "wrong password", s)
      | none => (.err "not found", s)
    delete_ok := by
      intro s i p h
      split at h
      · rename_i o q e
        split at h
        · rename_i e'; subst e'; exact ⟨o, e, by simp⟩
        · cases h
      · cases h
    delete_fails := by
      intro s i p h
      split at h
      · split at h
        · exact absurd rfl h
        · rename_i e; simp [e]
      · rfl }

/-- No identities. -/
def noIdentities : (referencePort (C := C)).S := ⟨fun _ _ => none, by simp⟩

theorem reference_insert {s : (referencePort (C := C)).S} {i : Identity} {p : Bytes}
    (h : referencePort.view s i.name i.seed = none) : (referencePort.insert s i p).1 = .ok () := by
  have h' : s.1 i.name i.seed = none := h
  unfold referencePort
  simp [h']

theorem reference_update {s : (referencePort (C := C)).S} {i j : Identity} {n sd p q : Bytes}
    (h : referencePort.view s n sd = some (i, p)) :
    (referencePort.update s i.hash j p q).1 = .ok () := by
  have h' : s.1 n sd = some (i, p) := h
  have : ∃ x : Bytes × Bytes × Identity, s.1 x.1 x.2.1 = some (x.2.2, p) ∧ x.2.2.hash = i.hash :=
    ⟨(n, sd, i), h', rfl⟩
  unfold referencePort
  simp only [dif_pos this]

theorem reference_delete {s : (referencePort (C := C)).S} {i : Identity} {p : Bytes} {old : Identity}
    (h : referencePort.view s i.name i.seed = some (old, p)) :
    (referencePort.delete s i p).1 = .ok () := by
  have h' : s.1 i.name i.seed = some (old, p) := h
  unfold referencePort
  simp [h']

end reference

section examples

attribute [local instance] toyCurve toySha

/-- An identity is created; with equal secrets it can be authenticated, and its name changed. -/
theorem toy_account (secret seed : Bytes) (h : seed ≠ []) : ∃ s i,
    newIdentity referencePort noIdentities (ascii "bob") secret seed (ascii "/") 1 1 = (.ok (), s) ∧
      i.Built ∧ referencePort.view s = (fun n sd =>
        if n = ascii "bob" ∧ sd = seed then some (i, secret) else none) := by
  obtain ⟨i, hi⟩ : ∃ i, identityNow seed (ascii "bob") (ascii "/") [] [] none none 1 1 = .ok i :=
    ⟨_, identityNow_eq_ok.mpr ⟨h, by decide, by decide, by simp, rfl⟩⟩
  have bi : i.Built := ⟨_, _, _, _, _, _, _, _, _, hi⟩
  have hins := reference_insert (s := noIdentities) (i := i) (p := secret) rfl
  refine ⟨(referencePort.insert noIdentities i secret).2, i, ?_, bi, ?_⟩
  · unfold newIdentity
    rw [hi]
    exact Prod.ext hins rfl
  · rw [(referencePort.insert_ok hins).2]
    obtain ⟨-, -, -, -, rfl⟩ := identityNow_eq_ok.mp hi
    rfl

/-- C59, C60, C90: a name is changed, and the session is lost. -/
example : ∃ s a s' a', authenticate referencePort s (ascii "bob") (ascii "x") (ascii "x") = .ok a ∧
    a.update referencePort s { name := some (ascii "eve") } 2 2 = (.ok (), s', a') ∧
    ∀ j, a'.retrieve referencePort s' ≠ .ok j := by
  obtain ⟨s, i, -, bi, hv⟩ := toy_account (ascii "x") (ascii "x") (by decide)
  have hb : referencePort.view s (ascii "bob") (ascii "x") = some (i, ascii "x") := by rw [hv]; simp
  have hn := referencePort.names hb
  have hi : Session.retrieve referencePort ⟨ascii "bob", ascii "x", ascii "x"⟩ s = .ok i :=
    referencePort.retrieve_ok.mpr hb
  obtain ⟨j, hj⟩ : ∃ j, identityNow i.seed (ascii "eve") i.root [] [] none none 2 2 = .ok j := by
    obtain ⟨_, _, _, _, _, _, _, _, _, bi⟩ := bi
    obtain ⟨h1, -, h3, -, rfl⟩ := identityNow_eq_ok.mp bi
    exact ⟨_, identityNow_eq_ok.mpr ⟨h1, by decide, h3, by simp, rfl⟩⟩
  have hu := reference_update (j := j) (q := ascii "x") hb
  have hup : Session.update referencePort ⟨ascii "bob", ascii "x", ascii "x"⟩ s
      { name := some (ascii "eve") } 2 2 =
      (.ok (), (referencePort.update s i.hash j (ascii "x") (ascii "x")).2,
        ⟨ascii "bob", ascii "x", ascii "x"⟩) := by
    unfold Session.retrieve at hi
    unfold Session.update
    simp only [hi, withOk, Option.getD_none, Option.getD_some, hj]
    rw [hu]
  refine ⟨s, _, _, _, (C60_authenticate_exact_neg _ _ _ _ _).mpr ⟨⟨i, hb⟩, rfl⟩, hup,
    C90_session_loses_identity_neg hup hi (.inl ?_) ?_⟩
  · rw [hn.1]; decide
  · intro n sd j hj _
    rw [hv] at hj
    simp only at hj
    split at hj
    · assumption
    · cases hj

/-- C60: with different secrets. -/
example : ∃ s, newIdentity referencePort noIdentities (ascii "bob") (ascii "pw") (ascii "sd") (ascii "/")
      1 1 = (.ok (), s) ∧
    (∀ a, authenticate referencePort s (ascii "bob") (ascii "sd") (ascii "pw") ≠ .ok a) ∧
    ∃ a, authenticate referencePort s (ascii "bob") (ascii "pw") (ascii "sd") = .ok a ∧
      ∀ i, a.retrieve referencePort s ≠ .ok i := by
  obtain ⟨s, i, h, bi, hv⟩ := toy_account (ascii "pw") (ascii "sd") (by decide)
  have hb : referencePort.view s (ascii "bob") (ascii "sd") = some (i, ascii "pw") := by rw [hv]; simp
  have ha := (C60_authenticate_exact_neg _ _ _ _ _).mpr ⟨⟨i, hb⟩, rfl⟩
  exact ⟨s, h, C60_new_identity_cannot_authenticate_neg (fun _ => rfl) h (by decide), _, ha,
    fun j hj => absurd (C60_session_needs_equal_secrets_neg ha hj) (by decide)⟩

/-- C93: a bucket is added under the text `/.`, which is not its shortest form; deleting `/.`
does not remove it. -/
example : ∃ (a : Session) (s s' s'' : (referencePort).S) (i j : Identity) (b : IdBucket), i.Built ∧
    a.retrieve referencePort s = .ok i ∧
    idBucketNow [] [([], .dir)] (some ⟨fromBytes [1], [], 1⟩) [47, 46] (some [1]) 5 = .ok b ∧
    a.addBucket referencePort s b = (.ok (), s') ∧
    a.deleteBucket referencePort s' [47, 46] = (.ok (), s'') ∧
    a.retrieve referencePort s'' = .ok j ∧ b ∈ j.buckets := by
  obtain ⟨s, i, -, bi, hv⟩ := toy_account (ascii "x") (ascii "x") (by decide)
  have hb : referencePort.view s (ascii "bob") (ascii "x") = some (i, ascii "x") := by rw [hv]; simp
  obtain ⟨b, eb⟩ : ∃ b, idBucketNow [] [([], .dir)] (some ⟨fromBytes [1], [], 1⟩) [47, 46] (some [1])
    5 = .ok b := ⟨_, rfl⟩
  let a : Session := ⟨ascii "bob", ascii "x", ascii "x"⟩
  have hi : a.retrieve referencePort s = .ok i := referencePort.retrieve_ok.mpr hb
  have hadd : ∃ s', a.addBucket referencePort s b = (.ok (), s') := by
    refine ⟨(a.addBucket referencePort s b).2, ?_⟩
    unfold Session.retrieve at hi
    unfold Session.addBucket
    simp only [hi, withOk]
    exact Prod.ext (reference_update hb) rfl
  obtain ⟨s', hadd⟩ := hadd
  obtain ⟨i₁, i₂, h1, h2, h3, -⟩ := C93_add_bucket hadd
  obtain rfl := Outcome.ok.inj (hi.symm.trans h1)
  have hdel : ∃ s'', a.deleteBucket referencePort s' [47, 46] = (.ok (), s'') := by
    refine ⟨(a.deleteBucket referencePort s' [47, 46]).2, ?_⟩
    have hb' := referencePort.retrieve_ok.mp h2
    unfold Session.retrieve at h2
    unfold Session.deleteBucket
    simp only [h2, withOk]
    exact Prod.ext (reference_update hb') rfl
  obtain ⟨s'', hdel⟩ := hdel
  obtain ⟨j, hj, hm⟩ := C93_delete_same_path_neg (b := b) eb (by decide) hdel h2 (by rw [h3]; simp)
  exact ⟨a, s, s', s'', i, j, b, bi, hi, eb, hadd, hdel, hj, hm⟩

/-- C91: the toy curve has nothing but collisions, so there a fee can be paid. -/
theorem toy_fee (n : Nat) : ∃ (f : FeeRun) (b : WalletBill) (e : Expense),
    (b.bill.lock.Built ∧ b.pk.Fits) ∧
    payFee 1 f [b] = .ok e ∧ f.random = n ∧ f.shuffle = id := by
  let ring : List (ZMod 5) := [publicKey (toySc 1), publicKey (toySc 2)]
  obtain ⟨l, sig, hl, -, -⟩ := C21_unlock_complete_partial ring (by decide) (toySc 2) (by decide)
    (by simp [ring]) 0
  let b : WalletBill := ⟨fromBytes [], ⟨fromBytes [], l, 5, 0⟩, toySc 2, ring, 0⟩
  let f : FeeRun := ⟨3, toyLock 1, n, toySc 3, id, 0, 0⟩
  have hkeys : ∃ keys, mapO appKeyHash ((if n = 0 then ring else []) ++ [publicKey (toySc 3)]) =
      .ok keys ∧ keys ≠ [] ∧ keys.Nodup := by
    split
    · exact ⟨_, rfl, by simp, by decide⟩
    · exact ⟨_, rfl, by simp, by decide⟩
  obtain ⟨keys, hk, hk1, hk2⟩ := hkeys
  have hrem := lockNow_eq_ok (t := 0) (keys := some keys).mpr ⟨_, rfl, hk1, hk2, rfl⟩
  obtain ⟨c, hc⟩ : ∃ c, contentNow 3 (some [b.bill]) (some (toyLock 1))
      (some ⟨fromBytes (hashesBytes keys), keys, 0⟩) 0 = .ok c := by
    have h : sourceTotal [b.bill] = 5 := by simp [sourceTotal, b]
    exact ⟨_, contentNow_eq_ok.mpr ⟨_, _, rfl, rfl, by decide, by rw [h]; decide,
      by rw [h]; simp, rfl⟩⟩
  obtain ⟨sig, hs, hsr, hsv⟩ := C14_ring_sign_verifies_partial (toySc 2) (by decide) c.hash.str ring
    (by simp [ring])
  have hopen : l.unlock sig = .ok () := by
    obtain ⟨_, e, -, -, rfl⟩ := lockNow_eq_ok.mp hl
    cases e
    refine unlock_eq_ok.mpr ⟨fun k => ?_, ?_⟩
    · rw [hsr]
      simp [ringKey]
    · rw [C85_verify_iff_ring_closes] at hsv ⊢
      obtain ⟨h1, es, h2, h3, h4⟩ := hsv
      refine ⟨h1, es, h2, h3, fun i hr hs => ?_⟩
      rw [h4 i hr hs]
      refine congrArg _ ?_
      show (((_ ++ _ : Bytes).length + 1 : Nat) : ZMod 5) = (((_ ++ _ : Bytes).length + 1 : Nat) : ZMod 5)
      simp only [List.length_append, Hash.str_length]
  obtain ⟨e, he⟩ : ∃ e, expenseNow (some c) (some [sig]) = .ok e := by
    obtain ⟨src, l', e1, e2, -, -, -, hcontent⟩ := contentNow_eq_ok.mp hc
    cases e1
    refine ⟨_, expenseNow_eq_ok.mpr ⟨_, _, rfl, rfl, ?_, rfl⟩⟩
    rw [hcontent]
    exact .cons hopen .nil
  refine ⟨f, b, e, ⟨⟨_, _, hl⟩, (by decide : (toySc 2).Fits)⟩, ?_, rfl, rfl⟩
  have hring : ([b].flatMap fun b => ringKeysFrom ((f.random / [b].length : Nat) : Int) 0 b.ringKeys) =
      if n = 0 then ring else [] := by
    split
    · simp [ringKeysFrom, b, f, ring, *]
    · rw [List.flatMap_eq_nil_iff]
      refine fun b _ => ringKeysFrom_pos ?_ _
      simp only [List.length_singleton, Nat.div_one, f]
      omega
  unfold payFee
  simp only [show ¬ (1 : Int) ≤ 0 by decide, if_false, List.length_singleton, one_ne_zero]
  have hk' : mapO appKeyHash (f.shuffle (([b].flatMap fun b =>
      ringKeysFrom ((f.random / [b].length : Nat) : Int) 0 b.ringKeys) ++ [publicKey f.remaining])) =
      .ok keys := by rw [hring]; exact hk
  have hs' : mapO (fun b : WalletBill => ringSign b.pk c.hash.str b.ringKeys) [b] = .ok [sig] :=
    mapO_eq_ok.mpr (.cons hs .nil)
  simp only [List.length_singleton] at hk'
  rw [hk', Outcome.bind_ok]
  show (lockNow (some keys) 0 >>= _) = _
  rw [hrem, Outcome.bind_ok]
  show (contentNow 3 (some [b.bill]) (some (toyLock 1))
      (some ⟨fromBytes (hashesBytes keys), keys, 0⟩) 0 >>= _) = _
  rw [hc, Outcome.bind_ok, hs', Outcome.bind_ok]
  exact he

/-- C127: a fee is paid, and what is left goes to the new key alone. -/
example : ∃ (f : FeeRun) (b : WalletBill) (e : Expense) (r : Bill), payFee 1 f [b] = .ok e ∧
    e.content.remaining = some r ∧ r.lock.pubKeys = [Sha512.sum (toyCurve.enc (publicKey f.remaining))] := by
  obtain ⟨f, b, e, -, h, h1, h2⟩ := toy_fee 1
  obtain ⟨r, h3, -, h4⟩ := C127_rest_to_new_key_neg h (fun l => by rw [h2]; rfl)
    (by rw [h1]; simp)
  exact ⟨f, b, e, r, h, h3, h4⟩

/-- C127: a fee is paid, and the keys of the ring are kept for what is left. -/
example : ∃ (f : FeeRun) (b : WalletBill) (e : Expense) (r : Bill), payFee 1 f [b] = .ok e ∧
    e.content.remaining = some r ∧ r.lock.pubKeys.length = b.ringKeys.length + 1 := by
  obtain ⟨f, b, e, -, h, h1, h2⟩ := toy_fee 0
  obtain ⟨r, h3, -, h4⟩ := C127_rest_keys h (fun l => by rw [h2]; rfl)
  refine ⟨f, b, e, r, h, h3, ?_⟩
  rw [h4.length_eq, h1]
  simp

/-- C58: everything is in order, and `Init` panics. -/
example : ∃ s, (initGenesis referencePort s Store.empty
    ⟨ascii "bob", ascii "x", ascii "x", ascii "wallet", 5, 1, .fin 1, 1⟩ (toySc 1)
    (fun b pk t => .ok ⟨b.hash, b, pk, [], t⟩) 1 1 1 1).1 = .crash .nilDeref := by
  obtain ⟨s, i, -, bi, hv⟩ := toy_account (ascii "x") (ascii "x") (by decide)
  have hb : referencePort.view s (ascii "bob") (ascii "x") = some (i, ascii "x") := by rw [hv]; simp
  exact ⟨s, C58_init_panics_neg (i := i) _ rfl (referencePort.retrieve_ok.mpr hb)
    (fun _ _ _ => ⟨_, rfl⟩) (by decide) (by decide) (by decide) (by decide) (by decide)⟩

/-- C92: two directories with different content and the same path give the same transaction. -/
example : ∃ x y, bucketTransaction ⟨fun _ _ => idBucketNow [] [([], .dir)] (some ⟨fromBytes [1], [], 1⟩)
      [47] (some [1]) 5, fun _ _ => .ok [], fun i _ => .ok i⟩ 1
      ⟨fromBytes [], [], [], [], [], [], 0, 0⟩ [47] [] 7 = .ok x ∧
    bucketTransaction ⟨fun _ _ => idBucketNow [] [([], .dir)] (some ⟨fromBytes [2], [], 1⟩)
      [47] (some [2]) 5, fun _ _ => .ok [], fun i _ => .ok i⟩ 1
      ⟨fromBytes [], [], [], [], [], [], 0, 0⟩ [47] [] 7 = .ok y ∧
    x.bucket = y.bucket ∧ x.hash = y.hash := by
  obtain ⟨x, hx, h1, -, -⟩ := C92_transaction_made_partial (additional := 1) (now := 7) (path := [47])
    (I := ⟨fun _ _ => idBucketNow [] [([], .dir)] (some ⟨fromBytes [1], [], 1⟩)
      [47] (some [1]) 5, fun _ _ => .ok [], fun i _ => .ok i⟩)
    (i := ⟨fromBytes [], [], [], [], [], [], 0, 0⟩) rfl
  obtain ⟨y, hy, h2, -, -⟩ := C92_transaction_made_partial (additional := 1) (now := 7) (path := [47])
    (I := ⟨fun _ _ => idBucketNow [] [([], .dir)] (some ⟨fromBytes [2], [], 1⟩)
      [47] (some [2]) 5, fun _ _ => .ok [], fun i _ => .ok i⟩)
    (i := ⟨fromBytes [], [], [], [], [], [], 0, 0⟩) rfl
  refine ⟨x, y, hx, hy, by rw [h1, h2], ?_⟩
  have := hx.symm.trans (show _ = .ok y from hy)
  rw [Outcome.ok.inj this]

/-- C106: an identity is created, another creation with its name and seed is refused, and its session
deletes it. -/
example : ∃ s s' : (referencePort).S, newIdentity referencePort noIdentities (ascii "bob") (ascii "pw")
      (ascii "sd") (ascii "/") 1 1 = (.ok (), s) ∧
    (newIdentity referencePort s (ascii "bob") (ascii "other") (ascii "sd") (ascii "/") 2 2).1 ≠ .ok () ∧
    Session.delete referencePort ⟨ascii "bob", ascii "pw", ascii "sd"⟩ s = (.ok (), s') ∧
    ∀ j, Session.retrieve referencePort ⟨ascii "bob", ascii "pw", ascii "sd"⟩ s' ≠ .ok j := by
  obtain ⟨s, i, h, bi, hv⟩ := toy_account (ascii "pw") (ascii "sd") (by decide)
  have hb : referencePort.view s (ascii "bob") (ascii "sd") = some (i, ascii "pw") := by rw [hv]; simp
  obtain ⟨e1, e2⟩ := referencePort.names hb
  have hd : (referencePort.delete s i (ascii "pw")).1 = .ok () := reference_delete (by rw [e1, e2]; exact hb)
  have hdel : Session.delete referencePort ⟨ascii "bob", ascii "pw", ascii "sd"⟩ s =
      (.ok (), (referencePort.delete s i (ascii "pw")).2) := by
    unfold Session.delete
    simp only [referencePort.retrieve_ok.mpr hb, withOk]
    exact Prod.ext hd rfl
  exact ⟨s, _, h, C106_creation_never_replaces.1 (by rw [hb]; simp), hdel,
    fun j => (C106_deletion hdel).2.1 _ j⟩

/-- C107: a fee is paid, and the transaction is recorded. -/
example : ∃ (I : IdentityParts) (a : Session) (s s' : (referencePort).S) (f : FeeRun),
    a.bucket referencePort I 1 s [47] [f] 7 = (.ok (), s') := by
  obtain ⟨s, i, -, bi, hv⟩ := toy_account (ascii "x") (ascii "x") (by decide)
  have hb : referencePort.view s (ascii "bob") (ascii "x") = some (i, ascii "x") := by rw [hv]; simp
  obtain ⟨f, b, e, -, hf, -⟩ := toy_fee 0
  obtain ⟨k, ek⟩ : ∃ k, idBucketNow [] [([], .dir)] (some ⟨fromBytes [1], [], 1⟩) [47] (some [1])
    5 = .ok k := ⟨_, rfl⟩
  let I : IdentityParts := ⟨fun _ _ => .ok k, fun _ _ => .ok [b],
    fun i x => .ok { i with lastUpdatedOn := x.createdOn }⟩
  have hx : ∃ x, bucketTransaction I 1 i [47] [f] 7 = .ok x := by
    unfold bucketTransaction
    have : mapO (fun f : FeeRun => do
        let bills ← I.fetchBills i f.amount
        payFee 1 f bills) [f] = .ok [e] := mapO_eq_ok.mpr (.cons hf .nil)
    rw [this]
    obtain ⟨x, hx⟩ : ∃ x, trxNow none (some k.hash) [e] 7 = .ok x :=
      ⟨_, trxNow_eq_ok.mpr ⟨by simp, rfl⟩⟩
    exact ⟨x, hx⟩
  obtain ⟨x, hx⟩ := hx
  refine ⟨I, ⟨ascii "bob", ascii "x", ascii "x"⟩, s, (referencePort.update s i.hash
    { i with lastUpdatedOn := x.createdOn } (ascii "x") (ascii "x")).2, f, ?_⟩
  unfold Session.bucket
  simp only [referencePort.retrieve_ok.mpr hb, withOk, hx, I]
  exact Prod.ext (reference_update hb) rfl

/-- C91: an identity that exists and wallets without bills. -/
example : ∃ (I : IdentityParts) (a : Session) (s : (referencePort).S) (f : FeeRun) (i : Identity) (k : IdBucket),
    a.retrieve referencePort s = .ok i ∧ I.fetchBucket i [47] = .ok k ∧ I.fetchBills i f.amount = .ok [] := by
  obtain ⟨s, i, -, bi, hv⟩ := toy_account (ascii "x") (ascii "x") (by decide)
  have hb : referencePort.view s (ascii "bob") (ascii "x") = some (i, ascii "x") := by rw [hv]; simp
  obtain ⟨f, b, e, -, hf, -⟩ := toy_fee 0
  obtain ⟨k, ek⟩ : ∃ k, idBucketNow [] [([], .dir)] (some ⟨fromBytes [1], [], 1⟩) [47] (some [1])
    5 = .ok k := ⟨_, rfl⟩
  exact ⟨⟨fun _ _ => .ok k, fun _ _ => .ok [], fun i _ => .ok i⟩, ⟨ascii "bob", ascii "x", ascii "x"⟩, s, f, i,
    k, referencePort.retrieve_ok.mpr hb, rfl, rfl⟩

end examples

end Verif
