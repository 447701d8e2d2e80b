import Verif.Spec.Identities
import Verif.Props.Buckets
import Verif.Props.Toy

/-!
# Identities, wallets and statements: C58, C61, C68, C86–C89
-/

namespace Verif

section
variable [C : Curve] [Sha512]

/-! ## Builders -/

theorem entryNow_eq_ok {n : Bytes} {x : Option (List Transaction)} {d : Bytes} {t : Time} {e : Entry} :
    entryNow n x d t = .ok e ↔ n ≠ [] ∧ ∃ l, x = some l ∧ l ≠ [] ∧
      e = ⟨fromBytes (n ++ hashesBytes (l.map Transaction.hash)), n, l, d, t⟩ := by
  unfold entryNow
  by_cases hn : n = []
  · simp [hn]
  · rw [if_neg hn]
    cases x with
    | none => simp
    | some l =>
      have : ([n] ++ l.map fun c => c.hash.bytes).flatten =
          n ++ hashesBytes (l.map Transaction.hash) := by
        simp [hashesBytes, Function.comp_def]
      by_cases hl : l = []
      · simp [hl]
      · have h0 : ¬ l.length ≤ 0 := by simpa using hl
        simp only [if_neg h0, Outcome.ok.injEq, Option.some.injEq, fromMultiBytes, this]
        constructor
        · rintro rfl; exact ⟨hn, l, rfl, hl, rfl⟩
        · rintro ⟨-, l', rfl, -, rfl⟩; rfl

theorem statementNow_eq {i o : List Entry} {t : Time} :
    statementNow i o t = .ok ⟨fromBytes (hashesBytes (i.map Entry.hash ++ o.map Entry.hash)), i, o, t⟩ := by
  simp [statementNow, fromMultiBytes, hashesBytes, Function.comp_def]

omit [Sha512] in
theorem identityData_flatten (s n r : Bytes) (w : List Wallet) (b : List IdBucket) :
    (identityData s n r w b).flatten =
      s ++ n ++ r ++ hashesBytes (w.map Wallet.hash ++ b.map IdBucket.hash) := by
  simp [identityData, hashesBytes, Function.comp_def]

theorem identityNow_eq_ok {s n r : Bytes} {w : List Wallet} {b : List IdBucket} {c l : Option Time}
    {t₁ t₂ : Time} {i : Identity} :
    identityNow s n r w b c l t₁ t₂ = .ok i ↔ s ≠ [] ∧ n ≠ [] ∧ r ≠ [] ∧
      c.getD t₁ ≤ l.getD t₂ ∧
      i = ⟨fromBytes (s ++ n ++ r ++ hashesBytes (w.map Wallet.hash ++ b.map IdBucket.hash)),
        s, n, r, w, b, c.getD t₁, l.getD t₂⟩ := by
  unfold identityNow
  simp only [Outcome.guardNot_bind_eq_ok, List.isEmpty_eq_false_iff, fromMultiBytes,
    identityData_flatten, MutableBuilder.now]
  by_cases h : c.getD t₁ > l.getD t₂
  · simp [h]
  · simp only [h, if_false, Outcome.bind_ok, Outcome.ok.injEq]
    constructor
    · rintro ⟨a, b', c', rfl⟩; exact ⟨a, b', c', not_lt.mp h, rfl⟩
    · rintro ⟨a, b', c', -, rfl⟩; exact ⟨a, b', c', rfl⟩

/-! ## C58 -/

/-- C58 refuted: with a name and a statement, building a wallet always fails. -/
theorem C58_wallet_with_statement_neg {name : Bytes} (hn : name ≠ []) (st : Statement)
    (bills : List WalletBill) (d : Bytes) (t : Time) :
    walletNow name (some st) bills d t =
      .err "the statement is mandatory in order to build a Wallet instance" := by
  have : name.isEmpty = false := by simpa using hn
  simp [walletNow, this]

/-- C58 refuted: with a name and without statement, building a wallet panics. -/
theorem C58_wallet_without_statement_neg {name : Bytes} (hn : name ≠ []) (bills : List WalletBill)
    (d : Bytes) (t : Time) : walletNow name none bills d t = .crash .nilDeref := by
  have : name.isEmpty = false := by simpa using hn
  simp [walletNow, this]

/-- C58 refuted: no wallet is ever built. -/
theorem C58_no_wallet_neg (name : Bytes) (st : Option Statement) (bills : List WalletBill)
    (d : Bytes) (t : Time) (w : Wallet) : walletNow name st bills d t ≠ .ok w := by
  cases hn : name.isEmpty <;> cases st <;> simp [walletNow, hn]

omit C [Sha512] in
/-- C58 refuted: no wallet that could be stored is ever built. -/
theorem C58_no_transfer_wallet_neg (hash : Option Hash) (name : Bytes) (bills : Option (List Hash))
    (st : Option Hash) (d : Bytes) (t : Time) (w : TrWallet) :
    trWalletNow hash name bills st d t ≠ .ok w := by
  cases hash <;> cases hn : name.isEmpty <;> cases st <;> simp [trWalletNow, hn]

omit C in
/-- C58 refuted: no stored wallet can be read. -/
theorem C58_no_stored_wallet_neg (js : JTrWallet) (w : TrWallet) : trWalletFromJSON js ≠ .ok w := by
  intro h
  simp only [trWalletFromJSON, Outcome.bind_eq_ok] at h
  obtain ⟨_, -, _, -, _, -, w', h, -⟩ := h
  exact C58_no_transfer_wallet_neg _ _ _ _ _ _ _ h

/-! ## C61 -/

/-- C61 refuted: the fields of an identity are not separated. Identities with the same text
`seed ++ name ++ root` and the same list of hashes of wallets and buckets have the same hash. -/
theorem C61_fields_ambiguous_neg {i j : Identity} (hi : i.Built) (hj : j.Built)
    (ht : i.seed ++ i.name ++ i.root = j.seed ++ j.name ++ j.root)
    (hl : i.wallets.map Wallet.hash ++ i.buckets.map IdBucket.hash =
      j.wallets.map Wallet.hash ++ j.buckets.map IdBucket.hash) : i.hash = j.hash := by
  obtain ⟨_, _, _, _, _, _, _, _, _, hi⟩ := hi
  obtain ⟨_, _, _, _, _, _, _, _, _, hj⟩ := hj
  obtain ⟨-, -, -, -, rfl⟩ := identityNow_eq_ok.mp hi
  obtain ⟨-, -, -, -, rfl⟩ := identityNow_eq_ok.mp hj
  simp only at ht hl ⊢
  rw [ht, hl]

/-- C61 refuted: if seed, name and root have 64 bytes together and there are no wallets and buckets,
the hash is not a hash: it consists of the seed, the name and the root. -/
theorem C61_hash_shows_seed_neg {i : Identity} (hi : i.Built) (hw : i.wallets = [])
    (hb : i.buckets = []) (h : i.seed.length + i.name.length + i.root.length = 64) :
    i.hash.bytes = i.seed ++ i.name ++ i.root := by
  obtain ⟨_, _, _, _, _, _, _, _, _, hi⟩ := hi
  obtain ⟨-, -, -, -, rfl⟩ := identityNow_eq_ok.mp hi
  simp only at hw hb h ⊢
  subst hw hb
  rw [fromBytes_of_len (by simp; omega)]
  simp

omit [Sha512] in
private theorem hashedText_eq (i : Identity) : i.hashedText = i.seed ++ i.name ++ i.root ++
    hashesBytes (i.wallets.map Wallet.hash ++ i.buckets.map IdBucket.hash) := by
  simp [Identity.hashedText, hashesBytes, Function.comp_def]

/-- The hash of an identity is taken over its text. -/
theorem identity_hash_eq {i : Identity} (h : i.Built) : i.hash = fromBytes i.hashedText := by
  obtain ⟨_, _, _, _, _, _, _, _, _, h⟩ := h
  obtain ⟨-, -, -, -, rfl⟩ := identityNow_eq_ok.mp h
  rw [hashedText_eq]

/-- C61, exactly when two identities have the same hash: when the texts of their seeds, names, roots and
hashes of wallets and buckets, written one after the other without separation, are the same, unless these two
texts are an explicit collision. -/
theorem C61_same_hash_iff_partial {i j : Identity} (hi : i.Built) (hj : j.Built) :
    (i.hash = j.hash ↔ i.hashedText = j.hashedText) ∨ ShaCollision i.hashedText j.hashedText ∨
      ShaPassThrough i.hashedText j.hashedText ∨ ShaPassThrough j.hashedText i.hashedText := by
  rw [identity_hash_eq hi, identity_hash_eq hj]
  by_cases h : fromBytes i.hashedText = fromBytes j.hashedText
  · rcases fromBytes_eq_red' h with e | e | e | e
    · exact .inl (iff_of_true h e)
    · exact .inr (.inl e)
    · exact .inr (.inr (.inl e))
    · exact .inr (.inr (.inr e))
  · exact .inl (iff_of_false h fun e => h (congrArg _ e))

/-- C61, what holds: identities with the same hash whose fields have the same lengths have the same
seed, name and root, and the same list of hashes of wallets and buckets, or a collision was found.
Missing: the lengths of the fields, and which hashes belong to wallets. -/
theorem C61_hash_binds_fields_partial {i j : Identity} (hi : i.Built) (hj : j.Built)
    (h : i.hash = j.hash) (hs : i.seed.length = j.seed.length) (hn : i.name.length = j.name.length)
    (hr : i.root.length = j.root.length) :
    (i.seed = j.seed ∧ i.name = j.name ∧ i.root = j.root ∧
      i.wallets.map Wallet.hash ++ i.buckets.map IdBucket.hash =
        j.wallets.map Wallet.hash ++ j.buckets.map IdBucket.hash) ∨
    ShaCollision i.hashedText j.hashedText ∨ ShaPassThrough i.hashedText j.hashedText ∨
      ShaPassThrough j.hashedText i.hashedText := by
  obtain ⟨_, _, _, _, _, _, _, _, _, hi⟩ := hi
  obtain ⟨_, _, _, _, _, _, _, _, _, hj⟩ := hj
  obtain ⟨-, -, -, -, rfl⟩ := identityNow_eq_ok.mp hi
  obtain ⟨-, -, -, -, rfl⟩ := identityNow_eq_ok.mp hj
  simp only at h hs hn hr
  have ht := hashedText_eq
  rcases fromBytes_eq_red' h with e | e | e | e
  · left
    obtain ⟨e1, e2⟩ := List.append_inj e (by simp [hs, hn, hr])
    obtain ⟨e1, e3⟩ := List.append_inj e1 (by simp [hs, hn])
    obtain ⟨e1, e4⟩ := List.append_inj e1 hs
    exact ⟨e1, e4, e3, hashesBytes_injective e2⟩
  · exact .inr (.inl (by rw [ht, ht]; exact e))
  · exact .inr (.inr (.inl (by rw [ht, ht]; exact e)))
  · exact .inr (.inr (.inr (by rw [ht, ht]; exact e)))

/-- C61, what holds: without wallets and buckets, the hash determines the fields if they have the
same lengths, or there is a SHA-512 collision. Missing: the lengths. -/
theorem C61_hash_binds_bare_identity_partial {i j : Identity} (hi : i.Built) (hj : j.Built)
    (h : i.hash = j.hash) (hs : i.seed.length = j.seed.length) (hn : i.name.length = j.name.length)
    (hr : i.root.length = j.root.length) (hwi : i.wallets = []) (hbi : i.buckets = [])
    (hwj : j.wallets = []) (hbj : j.buckets = []) :
    (i.seed = j.seed ∧ i.name = j.name ∧ i.root = j.root) ∨
      ShaCollision (i.seed ++ i.name ++ i.root) (j.seed ++ j.name ++ j.root) := by
  obtain ⟨_, _, _, _, _, _, _, _, _, hi⟩ := hi
  obtain ⟨_, _, _, _, _, _, _, _, _, hj⟩ := hj
  obtain ⟨-, -, -, -, rfl⟩ := identityNow_eq_ok.mp hi
  obtain ⟨-, -, -, -, rfl⟩ := identityNow_eq_ok.mp hj
  simp only at h hs hn hr hwi hbi hwj hbj ⊢
  subst hwi hbi hwj hbj
  simp only [List.map_nil, List.append_nil, hashesBytes_nil] at h
  have key : ∀ {x y : Bytes}, x.length = y.length → ShaPassThrough x y → False :=
    fun hl hp => hp.2.1 (hl ▸ hp.1)
  rcases fromBytes_eq_red' h with e | e | e | e
  · left
    obtain ⟨e1, e3⟩ := List.append_inj e (by simp [hs, hn])
    obtain ⟨e1, e4⟩ := List.append_inj e1 hs
    exact ⟨e1, e4, e3⟩
  · exact .inr e
  · exact (key (by simp [hs, hn, hr]) e).elim
  · exact (key (by simp [hs, hn, hr]) e).elim

/-! ## C68 -/

/-- C68 refuted: the sides are not marked. Statements with the same entries in the same order have
the same hash wherever the line between incoming and outgoing is. -/
theorem C68_sides_ambiguous_neg {s s' : Statement} (hs : s.Built) (hs' : s'.Built)
    (h : s.incoming ++ s.outgoing = s'.incoming ++ s'.outgoing) : s.hash = s'.hash := by
  obtain ⟨⟨_, _, _, hs⟩, -⟩ := hs
  obtain ⟨⟨_, _, _, hs'⟩, -⟩ := hs'
  rw [statementNow_eq] at hs hs'
  obtain rfl := Outcome.ok.inj hs
  obtain rfl := Outcome.ok.inj hs'
  simp only at h ⊢
  rw [← List.map_append, ← List.map_append, h]

/-- C68 refuted: a sole entry can change sides. -/
theorem C68_sole_entry_changes_sides_neg {s s' : Statement} (hs : s.Built) (hs' : s'.Built)
    {e : Entry} (h : s.incoming = [e] ∧ s.outgoing = []) (h' : s'.incoming = [] ∧ s'.outgoing = [e]) :
    s.hash = s'.hash :=
  C68_sides_ambiguous_neg hs hs' (by rw [h.1, h.2, h'.1, h'.2]; rfl)

/-- C68 refuted: the description of an entry is in no hash. -/
theorem C68_description_unhashed_neg {e e' : Entry} (h : e.Built) (h' : e'.Built)
    (hn : e.name = e'.name) (hx : e.trx = e'.trx) : e.hash = e'.hash := by
  obtain ⟨_, _, _, _, h⟩ := h
  obtain ⟨_, _, _, _, h'⟩ := h'
  obtain ⟨-, _, -, -, rfl⟩ := entryNow_eq_ok.mp h
  obtain ⟨-, _, -, -, rfl⟩ := entryNow_eq_ok.mp h'
  simp only at hn hx ⊢
  rw [hn, hx]

/-- C68 refuted: the name of an entry is not separated from its transactions. An entry whose name
ends with the bytes of a hash has the same hash as one with the shorter name and one more
transaction with that hash. -/
theorem C68_name_ambiguous_neg {e e' : Entry} (h : e.Built) (h' : e'.Built) {x : Transaction}
    (hn : e.name = e'.name ++ x.hash.bytes) (hx : e'.trx = x :: e.trx) : e.hash = e'.hash := by
  obtain ⟨_, _, _, _, h⟩ := h
  obtain ⟨_, _, _, _, h'⟩ := h'
  obtain ⟨-, _, -, -, rfl⟩ := entryNow_eq_ok.mp h
  obtain ⟨-, _, -, -, rfl⟩ := entryNow_eq_ok.mp h'
  simp only at hn hx ⊢
  rw [hn, hx]
  simp

/-- C68, what holds: statements with the same hash have the same hashes of entries in the same
order, or a collision was found; with the same number of incoming entries they have the same on each
side. Missing: where the line between the sides is. -/
theorem C68_hash_binds_entries_partial {s s' : Statement} (hs : s.Built) (hs' : s'.Built)
    (h : s.hash = s'.hash) :
    ((s.incoming ++ s.outgoing).map Entry.hash = (s'.incoming ++ s'.outgoing).map Entry.hash ∧
      (s.incoming.length = s'.incoming.length →
        s.incoming.map Entry.hash = s'.incoming.map Entry.hash ∧
        s.outgoing.map Entry.hash = s'.outgoing.map Entry.hash)) ∨
    ShaCollision s.hashedText s'.hashedText ∨ ShaPassThrough s.hashedText s'.hashedText ∨
      ShaPassThrough s'.hashedText s.hashedText := by
  obtain ⟨⟨_, _, _, hs⟩, -⟩ := hs
  obtain ⟨⟨_, _, _, hs'⟩, -⟩ := hs'
  rw [statementNow_eq] at hs hs'
  obtain rfl := Outcome.ok.inj hs
  obtain rfl := Outcome.ok.inj hs'
  have ht : ∀ s : Statement, s.hashedText =
      hashesBytes (s.incoming.map Entry.hash ++ s.outgoing.map Entry.hash) := by
    intro s; simp [Statement.hashedText, hashesBytes, Function.comp_def]
  rw [ht, ht]
  simp only at h ⊢
  rcases fromBytes_eq_red' h with e | e | e | e
  · left
    have := hashesBytes_injective e
    refine ⟨by simpa using this, fun hl => ?_⟩
    exact List.append_inj this (by simpa using hl)
  · exact .inr (.inl e)
  · exact .inr (.inr (.inl e))
  · exact .inr (.inr (.inr e))

/-- C68, what holds: entries with the same hash and names of the same length have the same name and
the same hashes of transactions, or a collision was found. Missing: the length of the name, the
description. -/
theorem C68_hash_binds_entry_partial {e e' : Entry} (h : e.Built) (h' : e'.Built)
    (hh : e.hash = e'.hash) (hl : e.name.length = e'.name.length) :
    (e.name = e'.name ∧ e.trx.map Transaction.hash = e'.trx.map Transaction.hash) ∨
    ShaCollision e.hashedText e'.hashedText := by
  obtain ⟨_, _, _, _, h⟩ := h
  obtain ⟨_, _, _, _, h'⟩ := h'
  obtain ⟨hn, l, -, hl0, rfl⟩ := entryNow_eq_ok.mp h
  obtain ⟨hn', l', -, hl0', rfl⟩ := entryNow_eq_ok.mp h'
  have ht : ∀ e : Entry, e.hashedText = e.name ++ hashesBytes (e.trx.map Transaction.hash) := by
    intro e; simp [Entry.hashedText, hashesBytes, Function.comp_def]
  rw [ht, ht]
  simp only at hh hl ⊢
  have key : ∀ {n : Bytes} {l : List Transaction}, n ≠ [] → l ≠ [] →
      (n ++ hashesBytes (l.map Transaction.hash)).length ≠ 64 := by
    intro n l hn hl
    have := List.length_pos_iff.mpr hn
    have := List.length_pos_iff.mpr hl
    rw [List.length_append, hashesBytes_length, List.length_map]
    omega
  rcases fromBytes_eq_red (key hn hl0) (key hn' hl0') hh with e | e
  · left
    obtain ⟨e1, e2⟩ := List.append_inj e hl
    exact ⟨e1, hashesBytes_injective e2⟩
  · exact .inr e

/-! ## C86: storing identities -/

omit C in
theorem mapO_fromString_str (l : List Hash) : mapO fromString (l.map Hash.str) = .ok l := by
  rw [mapO_eq_ok]
  induction l with
  | nil => simp
  | cons a l ih => exact .cons (fromString_str a) ih

omit C in
theorem hashesIfAny_str (l : Option (List Hash)) :
    hashesIfAny ((l.getD []).map Hash.str) = .ok (keepNonEmpty l) := by
  cases l with
  | none => simp [hashesIfAny, keepNonEmpty]
  | some l =>
    cases l with
    | nil => simp [hashesIfAny, keepNonEmpty]
    | cons a l =>
      have := mapO_fromString_str (a :: l)
      simp only [hashesIfAny, keepNonEmpty, Option.getD_some, this]
      simp

omit C [Sha512] in
theorem keepNonEmpty_getD {α : Type} (l : Option (List α)) : (keepNonEmpty l).getD [] = l.getD [] := by
  rcases l with _ | _ | _ <;> rfl

omit C [Sha512] in
theorem trIdentityNow_eq_ok {h : Option Hash} {s n r : Bytes} {w b : Option (List Hash)}
    {c l : Option Time} {t₁ t₂ : Time} {i : TrIdentity} :
    trIdentityNow h s n r w b c l t₁ t₂ = .ok i ↔ ∃ hash, h = some hash ∧ s ≠ [] ∧ n ≠ [] ∧ r ≠ [] ∧
      c.getD t₁ ≤ l.getD t₂ ∧ i = ⟨hash, s, n, r, w, b, c.getD t₁, l.getD t₂⟩ := by
  unfold trIdentityNow
  cases h with
  | none => simp
  | some hash =>
    simp only [Outcome.require, Outcome.bind_ok, Outcome.guardNot_bind_eq_ok,
      List.isEmpty_eq_false_iff, MutableBuilder.now, Option.some.injEq, exists_eq_left']
    by_cases h : c.getD t₁ > l.getD t₂
    · simp [h]
    · simp only [h, if_false, Outcome.bind_ok, Outcome.ok.injEq]
      constructor
      · rintro ⟨a, b', c', rfl⟩; exact ⟨a, b', c', not_lt.mp h, rfl⟩
      · rintro ⟨a, b', c', -, rfl⟩; exact ⟨a, b', c', rfl⟩

omit C [Sha512] in
theorem TrIdentity.Built.texts {i : TrIdentity} (h : i.Built) :
    i.seed ≠ [] ∧ i.name ≠ [] ∧ i.root ≠ [] ∧ i.createdOn ≤ i.lastUpdatedOn := by
  obtain ⟨_, _, _, _, _, _, _, _, _, _, h⟩ := h
  obtain ⟨_, -, a, b, c, d, rfl⟩ := trIdentityNow_eq_ok.mp h
  exact ⟨a, b, c, d⟩

omit C in
/-- What comes back of an identity. -/
theorem trIdentity_json {i : TrIdentity} (h : i.Built) {t₁ t₂ : Time} (ht : i.createdOn ≤ t₂) :
    trIdentityFromJSON i.toJSON t₁ t₂ = .ok ⟨i.hash, jsonText i.seed,
      jsonText i.name, jsonText i.root, keepNonEmpty i.wallets,
      keepNonEmpty i.buckets, i.createdOn, t₂⟩ := by
  obtain ⟨hs, hn, hr, -⟩ := h.texts
  simp only [trIdentityFromJSON, TrIdentity.toJSON, fromString_str, hashesIfAny_str, Outcome.bind_ok]
  rw [trIdentityNow_eq_ok]
  exact ⟨_, rfl, jsonText_ne_nil hs, jsonText_ne_nil hn,
    jsonText_ne_nil hr, ht, rfl⟩

omit C in
/-- C86, what holds: an identity whose texts are valid UTF-8, read back under its hash and its seed
when the clock is not before its creation, is the same in everything but the time of the last
update. Missing: that time, other texts. -/
theorem C86_identity_survives_partial {i : TrIdentity} (h : i.Built) (hs : Utf8 i.seed)
    (hn : Utf8 i.name) (hr : Utf8 i.root) (σ : IdentityFiles) {t₁ t₂ : Time}
    (ht : i.createdOn ≤ t₂) :
    ∃ j, retrTrIdentity (saveTrIdentity i σ) i.hash i.seed t₁ t₂ = .ok j ∧ SameIdentity i j := by
  refine ⟨⟨i.hash, jsonText i.seed, jsonText i.name,
    jsonText i.root, keepNonEmpty i.wallets, keepNonEmpty i.buckets, i.createdOn, t₂⟩, ?_, ?_⟩
  · simp only [retrTrIdentity, saveTrIdentity, setFile_same, readCell, Outcome.bind_ok]
    exact trIdentity_json h ht
  · constructor <;> simp [jsonText_of_utf8, hs, hn, hr, keepNonEmpty_getD]

omit C in
/-- C86 refuted: the time of the last update is replaced by the time of reading. -/
theorem C86_update_time_lost_neg {js : JTrIdentity} {t₁ t₂ : Time} {j : TrIdentity}
    (h : trIdentityFromJSON js t₁ t₂ = .ok j) : j.lastUpdatedOn = t₂ := by
  simp only [trIdentityFromJSON, Outcome.bind_eq_ok] at h
  obtain ⟨_, -, _, -, _, -, h⟩ := h
  obtain ⟨_, -, -, -, -, -, rfl⟩ := trIdentityNow_eq_ok.mp h
  rfl

omit C in
/-- C86 refuted: a stored identity cannot be read while the clock is before its creation. -/
theorem C86_clock_behind_neg (i : TrIdentity) (σ : IdentityFiles) {t₁ t₂ : Time}
    (ht : t₂ < i.createdOn) (j : TrIdentity) :
    retrTrIdentity (saveTrIdentity i σ) i.hash i.seed t₁ t₂ ≠ .ok j := by
  simp only [retrTrIdentity, saveTrIdentity, setFile_same, readCell, Outcome.bind_ok]
  intro h
  simp only [trIdentityFromJSON, Outcome.bind_eq_ok] at h
  obtain ⟨_, -, _, -, _, -, h⟩ := h
  obtain ⟨_, -, -, -, -, h, -⟩ := trIdentityNow_eq_ok.mp h
  exact absurd h (not_le.mpr ht)

omit C in
/-- C86 refuted: a name that is not valid UTF-8 does not come back. -/
theorem C86_invalid_name_neg {i : TrIdentity} (hn : ¬ Utf8 i.name) (σ : IdentityFiles) {t₁ t₂ : Time}
    {j : TrIdentity} (h : retrTrIdentity (saveTrIdentity i σ) i.hash i.seed t₁ t₂ = .ok j) :
    j.name ≠ i.name := by
  simp only [retrTrIdentity, saveTrIdentity, setFile_same, readCell, Outcome.bind_ok] at h
  simp only [trIdentityFromJSON, Outcome.bind_eq_ok] at h
  obtain ⟨_, -, _, -, _, -, h⟩ := h
  obtain ⟨_, -, -, -, -, -, rfl⟩ := trIdentityNow_eq_ok.mp h
  intro e
  exact hn (e ▸ jsonText_utf8 _)

/-! ## C87: files of identities -/

omit C in
theorem identityFile_eq {h h' : Hash} {s s' : Bytes} (e : identityFile h s = identityFile h' s') :
    (h = h' ∧ s = s') ∨ ShaCollision (h.str ++ s) (h'.str ++ s') := by
  have e := Hash.str_injective e
  by_cases hx : h.str ++ s = h'.str ++ s'
  · left
    obtain ⟨a, b⟩ := List.append_inj hx (by rw [h.str_length, h'.str_length])
    exact ⟨Hash.str_injective a, b⟩
  · refine .inr ⟨hx, ?_, ?_, e⟩ <;> rw [List.length_append, Hash.str_length] <;> omega

omit C in
theorem identityFilesAfter_file (ops : List IdentityOp) (h : Hash) (s : Bytes) :
    identityFilesAfter ops (identityFile h s) =
      (lastSaved ops h s).map (fun i => Cell.json i.toJSON) ∨ FileClash ops h s := by
  by_cases hc : FileClash ops h s
  · exact .inr hc
  left
  have inj : ∀ op ∈ ops, identityFile h s = identityFile op.identity.hash op.identity.seed ↔
      op.identity.hash = h ∧ op.identity.seed = s := by
    intro op hop
    constructor
    · intro e
      rcases identityFile_eq e with ⟨a, b⟩ | e
      · exact ⟨a.symm, b.symm⟩
      · exact (hc ⟨op, hop, e⟩).elim
    · rintro ⟨rfl, rfl⟩; rfl
  clear hc
  unfold identityFilesAfter lastSaved
  suffices key : ∀ (σ : IdentityFiles) (r : Option TrIdentity),
      σ (identityFile h s) = r.map (fun i => Cell.json i.toJSON) →
      (ops.foldl (fun σ op => op.run σ) σ) (identityFile h s) =
        (ops.foldl (fun r op => match op with
          | .save i => if i.hash = h ∧ i.seed = s then some i else r
          | .delete i => if i.hash = h ∧ i.seed = s then none else r) r).map
            (fun i => Cell.json i.toJSON) from key _ _ rfl
  induction ops with
  | nil => intro σ r e; exact e
  | cons op ops ih =>
    intro σ r e
    rw [List.foldl_cons, List.foldl_cons]
    refine ih (fun op h => inj op (List.mem_cons_of_mem _ h)) _ _ ?_
    have inj := inj op List.mem_cons_self
    cases op with
    | save i =>
      simp only [IdentityOp.identity] at inj
      simp only [IdentityOp.run, saveTrIdentity, setFile, inj]
      split <;> simp [e]
    | delete i =>
      simp only [IdentityOp.identity] at inj
      simp only [IdentityOp.run, deleteTrIdentity]
      split
      · rename_i hf
        split
        · rename_i hm
          rw [inj.mpr hm]; exact hf
        · exact e
      · simp only [inj]
        split <;> simp [e]

omit C in
/-- C87: after any sequence of saves and deletions, reading under a hash and a seed gives the
identity last saved under this hash and this seed, or the names of two files collide. -/
theorem C87_reads_last_save (ops : List IdentityOp) {h : Hash} {s : Bytes} {i : TrIdentity}
    (hl : lastSaved ops h s = some i) (hi : i.Built) (hs : Utf8 i.seed) (hn : Utf8 i.name)
    (hr : Utf8 i.root) {t₁ t₂ : Time} (ht : i.createdOn ≤ t₂) :
    (∃ j, retrTrIdentity (identityFilesAfter ops) h s t₁ t₂ = .ok j ∧ SameIdentity i j) ∨
      FileClash ops h s := by
  rcases identityFilesAfter_file ops h s with e | e
  · left
    refine ⟨⟨i.hash, jsonText i.seed, jsonText i.name,
      jsonText i.root, keepNonEmpty i.wallets, keepNonEmpty i.buckets, i.createdOn, t₂⟩, ?_, ?_⟩
    · simp only [retrTrIdentity, e, hl, Option.map_some, readCell, Outcome.bind_ok]
      exact trIdentity_json hi ht
    · constructor <;> simp [jsonText_of_utf8, hs, hn, hr, keepNonEmpty_getD]
  · exact .inr e

omit C in
/-- C87: nothing is read under a hash and a seed under which nothing was saved, or what was saved
last was deleted, unless the names of two files collide; in particular the seed is needed. -/
theorem C87_nothing_else_is_read (ops : List IdentityOp) {h : Hash} {s : Bytes}
    (hl : lastSaved ops h s = none) (t₁ t₂ : Time) :
    (∃ m, retrTrIdentity (identityFilesAfter ops) h s t₁ t₂ = .err m) ∨ FileClash ops h s := by
  rcases identityFilesAfter_file ops h s with e | e
  · left
    simp [retrTrIdentity, e, hl, readCell]
  · exact .inr e

omit C in
/-- C87: deleting succeeds exactly for identities that are stored, unless the names of two files
collide. -/
theorem C87_delete (ops : List IdentityOp) (i : TrIdentity) :
    ((deleteTrIdentity i (identityFilesAfter ops)).1 = .ok () ↔
      (lastSaved ops i.hash i.seed).isSome) ∨ FileClash ops i.hash i.seed := by
  rcases identityFilesAfter_file ops i.hash i.seed with e | e
  · left
    unfold deleteTrIdentity
    rw [e]
    cases lastSaved ops i.hash i.seed <;> simp
  · exact .inr e

/-! ## C88: other records -/

omit C [Sha512] in
/-- C88: an entry is refused without a hash, a name or any transaction, and keeps what it is given
otherwise. -/
theorem C88_entry_exact {e : TrEntry} {h : Option Hash} {n : Bytes} {x : Option (List Hash)}
    {d : Bytes} {t : Time} : trEntryNow h n x d t = .ok e ↔
      h = some e.hash ∧ n = e.name ∧ n ≠ [] ∧ x = some e.trx ∧ e.trx ≠ [] ∧
        d = e.description ∧ t = e.createdOn := by
  simp only [trEntryNow, Outcome.bind_eq_ok, Outcome.require_eq_ok, Outcome.guardNot_eq_ok, exists_const,
    Outcome.ok.injEq]
  constructor
  · rintro ⟨hash, rfl, h1, trx, rfl, h2, rfl⟩
    exact ⟨rfl, rfl, by simpa using h1, rfl, by simpa using h2, rfl, rfl⟩
  · rintro ⟨rfl, rfl, h1, rfl, h2, rfl, rfl⟩
    exact ⟨_, rfl, by simpa using h1, _, rfl, by simpa using h2, rfl⟩

omit C in
/-- C88: an entry with valid UTF-8 texts survives JSON. -/
theorem C88_entry_survives {e : TrEntry} {h : Option Hash} {n : Bytes} {x : Option (List Hash)}
    {d : Bytes} {t : Time} (he : trEntryNow h n x d t = .ok e) (hn : Utf8 e.name)
    (hd : Utf8 e.description) : trEntryFromJSON e.toJSON = .ok e := by
  simp only [trEntryNow, Outcome.bind_eq_ok, Outcome.require_eq_ok, Outcome.guardNot_eq_ok, exists_const,
    Outcome.ok.injEq] at he
  obtain ⟨hash, rfl, h1, trx, rfl, h2, rfl⟩ := he
  simp only at hn hd
  simp [trEntryFromJSON, TrEntry.toJSON, mapO_fromString_str, jsonText_of_utf8, hn, hd, trEntryNow,
    Outcome.require, h1, h2]

omit C in
/-- C88: a statement survives JSON. -/
theorem C88_statement_survives {s : TrStatement} {h : Option Hash} {i o : Option (List Hash)}
    {t : Time} (hs : trStatementNow h i o t = .ok s) : trStatementFromJSON s.toJSON = .ok s := by
  simp only [trStatementNow, Outcome.bind_eq_ok, Outcome.require_eq_ok, Outcome.ok.injEq] at hs
  obtain ⟨hash, rfl, rfl⟩ := hs
  have key : ∀ l : Option (List Hash), keepNonEmpty (keepNonEmpty l) = keepNonEmpty l := by
    rintro (_ | _ | _) <;> rfl
  simp [trStatementFromJSON, TrStatement.toJSON, hashesIfAny_str, trStatementNow, Outcome.require, key]

/-- C88: a bill of a wallet survives JSON, up to the encoding of its keys: they are the same numbers
and, up to `largestFactor`, belong to the same public keys. -/
theorem C88_wallet_bill_survives_partial {b : TrWalletBill} {h l : Option Hash} {k : Option (List Scalar)}
    {t : Time} (hb : trWalletBillNow h l k t = .ok b) :
    ∃ b', trWalletBillFromJSON b.toJSON = .ok b' ∧ b'.hash = b.hash ∧ b'.bill = b.bill ∧
      b'.createdOn = b.createdOn ∧ b'.pks.map C.val = b.pks.map C.val ∧
      ((∀ x ∈ b.pks, x.Fits) → b'.pks.map publicKey = b.pks.map publicKey) := by
  simp only [trWalletBillNow, Outcome.bind_eq_ok, Outcome.require_eq_ok, Outcome.guardNot_eq_ok, exists_const,
    Outcome.ok.injEq] at hb
  obtain ⟨hash, rfl, bill, rfl, pks, rfl, h1, rfl⟩ := hb
  have hp : mapO toPrivateKey (pks.map scStr) = .ok (pks.map normSc) := by
    rw [mapO_eq_ok]
    clear h1
    induction pks with
    | nil => simp
    | cons a l ih => exact .cons (fromStringToScalar_scStr a) ih
  refine ⟨⟨hash, bill, pks.map normSc, t⟩, ?_, rfl, rfl, rfl, ?_, ?_⟩
  · simp only [trWalletBillFromJSON, TrWalletBill.toJSON, fromString_str, Outcome.bind_ok, hp,
      trWalletBillNow, Outcome.require]
    cases pks with
    | nil => simp at h1
    | cons a l => simp
  · simp [normSc, C.val_canon, Function.comp_def]
  · intro hf
    simp only [List.map_map, Function.comp_def]
    refine List.map_congr_left fun s hs => ?_
    rw [publicKey, publicKey, normSc, mul_base_eff, eff_canon, mul_base (hf s hs)]

/-- C88: a cancel survives JSON, up to the encoding of the scalars in its signatures. -/
theorem C88_cancel_survives {c : TrCancel} {h e l : Option Hash} {s : Option (List RingSignature)}
    {t : Time} (hc : trCancelNow h e l s t = .ok c) :
    trCancelFromJSON c.toJSON =
      .ok ⟨c.hash, c.expense, c.lock, c.signatures.map RingSignature.reduced, c.createdOn⟩ := by
  simp only [trCancelNow, Outcome.bind_eq_ok, Outcome.require_eq_ok, Outcome.guardNot_eq_ok, exists_const,
    Outcome.ok.injEq] at hc
  obtain ⟨hash, rfl, ex, rfl, lock, rfl, sigs, rfl, h1, rfl⟩ := hc
  have hp : mapO toRingSignature (sigs.map RingSignature.str) =
      .ok (sigs.map RingSignature.reduced) := by
    rw [mapO_eq_ok]
    clear h1
    induction sigs with
    | nil => simp
    | cons a l ih => exact .cons (toRingSignature_str a) ih
  simp only [trCancelFromJSON, TrCancel.toJSON, fromString_str, Outcome.bind_ok, hp, trCancelNow,
    Outcome.require]
  cases sigs with
  | nil => simp at h1
  | cons a l => simp

/-! ## C89: buckets of identities -/

omit C in
theorem idBucketNow_eq_ok {cwd : Path} {d : Disk} {b : Option Bucket} {p : Bytes} {k : Option Bytes}
    {t : Time} {x : IdBucket} :
    idBucketNow cwd d b p k t = .ok x ↔ p ≠ [] ∧ d.missing (absolute cwd p) = false ∧
      ∃ b' k', b = some b' ∧ k = some k' ∧
        x = ⟨fromBytes (pathText (absolute cwd p)), b', pathText (absolute cwd p), k', t⟩ := by
  unfold idBucketNow
  simp only [Outcome.bind_eq_ok, Outcome.require_eq_ok, Outcome.guardNot_eq_ok, exists_const,
    Outcome.ok.injEq, List.isEmpty_eq_false_iff]
  constructor
  · rintro ⟨b', rfl, h1, k', rfl, h2, rfl⟩; exact ⟨h1, h2, _, _, rfl, rfl, rfl⟩
  · rintro ⟨h1, h2, b', k', rfl, rfl, rfl⟩; exact ⟨_, rfl, h1, _, rfl, h2, rfl⟩

/-- An identity's bucket that comes out of the builder. -/
def IdBucket.Built (x : IdBucket) : Prop := ∃ cwd d b p k t, idBucketNow cwd d b p k t = .ok x

omit C in
/-- C89 refuted: the hash of an identity's bucket depends on the path alone, whatever the bucket
contains and whatever key it is encrypted with. -/
theorem C89_content_unhashed_neg {x y : IdBucket} (hx : x.Built) (hy : y.Built)
    (h : x.absolutePath = y.absolutePath) : x.hash = y.hash := by
  obtain ⟨_, _, _, _, _, _, hx⟩ := hx
  obtain ⟨_, _, _, _, _, _, hy⟩ := hy
  obtain ⟨-, -, _, _, -, -, rfl⟩ := idBucketNow_eq_ok.mp hx
  obtain ⟨-, -, _, _, -, -, rfl⟩ := idBucketNow_eq_ok.mp hy
  exact congrArg fromBytes h

omit C in
/-- C89, what holds: buckets with the same hash have the same path, or a collision was found.
Missing: the bucket and the key. -/
theorem C89_hash_binds_path_partial {x y : IdBucket} (hx : x.Built) (hy : y.Built)
    (h : x.hash = y.hash) :
    x.absolutePath = y.absolutePath ∨ ShaCollision x.absolutePath y.absolutePath ∨
      ShaPassThrough x.absolutePath y.absolutePath ∨ ShaPassThrough y.absolutePath x.absolutePath := by
  obtain ⟨_, _, _, _, _, _, hx⟩ := hx
  obtain ⟨_, _, _, _, _, _, hy⟩ := hy
  obtain ⟨-, -, _, _, -, -, rfl⟩ := idBucketNow_eq_ok.mp hx
  obtain ⟨-, -, _, _, -, -, rfl⟩ := idBucketNow_eq_ok.mp hy
  exact fromBytes_eq_red' h

end

section examples
attribute [local instance] toySha toyCurve

/-- Without wallets and buckets. -/
def bareIdentity (seed name root : Bytes) : Outcome Identity :=
  identityNow seed name root [] [] none none 3 4

/-- The fields of `("ab", "c", "d")` and `("a", "bc", "d")` differ; the hashes do not. -/
example : ∃ i j, bareIdentity (ascii "ab") (ascii "c") (ascii "d") = .ok i ∧
    bareIdentity (ascii "a") (ascii "bc") (ascii "d") = .ok j ∧ i.Built ∧ j.Built ∧
    i.seed ≠ j.seed ∧ i.hash = j.hash := by
  obtain ⟨i, hi⟩ : ∃ i, bareIdentity (ascii "ab") (ascii "c") (ascii "d") = .ok i := ⟨_, rfl⟩
  obtain ⟨j, hj⟩ : ∃ j, bareIdentity (ascii "a") (ascii "bc") (ascii "d") = .ok j := ⟨_, rfl⟩
  have bi : i.Built := ⟨_, _, _, _, _, _, _, _, _, hi⟩
  have bj : j.Built := ⟨_, _, _, _, _, _, _, _, _, hj⟩
  refine ⟨i, j, hi, hj, bi, bj, ?_⟩
  obtain rfl := Outcome.ok.inj hi
  obtain rfl := Outcome.ok.inj hj
  exact ⟨by decide, C61_fields_ambiguous_neg bi bj rfl rfl⟩

/-- A 62-byte seed with a one-letter name and root is visible in the hash. -/
example : ∃ i, bareIdentity (List.replicate 62 120) [97] [47] = .ok i ∧
    i.hash.bytes = List.replicate 62 120 ++ [97] ++ [47] := by
  obtain ⟨i, hi⟩ : ∃ i, bareIdentity (List.replicate 62 120) [97] [47] = .ok i := ⟨_, rfl⟩
  have bi : i.Built := ⟨_, _, _, _, _, _, _, _, _, hi⟩
  refine ⟨i, hi, ?_⟩
  obtain rfl := Outcome.ok.inj hi
  exact C61_hash_shows_seed_neg bi rfl rfl rfl

/-- Fields of the same lengths, different hashes. -/
example : ∃ i j, bareIdentity (ascii "ab") (ascii "c") (ascii "d") = .ok i ∧
    bareIdentity (ascii "ab") (ascii "x") (ascii "d") = .ok j ∧ i.hash ≠ j.hash := by
  refine ⟨_, _, rfl, rfl, ?_⟩
  intro h
  have := congrArg Hash.bytes h
  revert this
  decide

/-- A transaction that refers to a bucket. -/
def toyIdTrx (n : UInt8) : Transaction := ⟨fromBytes [n], none, some (fromBytes [n]), [], 1⟩

/-- A statement with a sole entry, on one side and on the other, and with another description. -/
example : ∃ e e' s s' : _, entryNow (ascii "rent") (some [toyIdTrx 1]) [] 5 = .ok e ∧
    entryNow (ascii "rent") (some [toyIdTrx 1]) (ascii "paid") 5 = .ok e' ∧ e.hash = e'.hash ∧
    statementNow [e] [] 6 = .ok s ∧ statementNow [] [e] 6 = .ok s' ∧ s.Built ∧ s'.Built ∧
    s.hash = s'.hash := by
  have he : Entry.Built _ := ⟨ascii "rent", some [toyIdTrx 1], [], 5, rfl⟩
  have he' : Entry.Built _ := ⟨ascii "rent", some [toyIdTrx 1], ascii "paid", 5, rfl⟩
  have hs : ∀ i o : List Entry, (∀ e ∈ i, e.Built) → (∀ e ∈ o, e.Built) → Statement.Built
      ⟨fromBytes (hashesBytes (i.map Entry.hash ++ o.map Entry.hash)), i, o, 6⟩ :=
    fun i o h h' => ⟨⟨i, o, 6, statementNow_eq⟩, h, h'⟩
  refine ⟨_, _, _, _, rfl, rfl, C68_description_unhashed_neg he he' rfl rfl, statementNow_eq,
    statementNow_eq, hs _ _ ?_ ?_, hs _ _ ?_ ?_, C68_sole_entry_changes_sides_neg (hs _ _ ?_ ?_)
      (hs _ _ ?_ ?_) ⟨rfl, rfl⟩ ⟨rfl, rfl⟩⟩
  all_goals intro e h
  all_goals simp at h
  all_goals exact h ▸ he

/-- The name takes over the hash of a transaction. -/
example : ∃ e e', entryNow (ascii "rent" ++ (toyIdTrx 1).hash.bytes) (some [toyIdTrx 2]) [] 5 = .ok e ∧
    entryNow (ascii "rent") (some [toyIdTrx 1, toyIdTrx 2]) [] 5 = .ok e' ∧ e.hash = e'.hash := by
  obtain ⟨i, hi⟩ : ∃ i, entryNow (ascii "rent" ++ (toyIdTrx 1).hash.bytes) (some [toyIdTrx 2]) [] 5 =
    .ok i := ⟨_, rfl⟩
  obtain ⟨j, hj⟩ : ∃ j, entryNow (ascii "rent") (some [toyIdTrx 1, toyIdTrx 2]) [] 5 = .ok j := ⟨_, rfl⟩
  have bi : i.Built := ⟨_, _, _, _, hi⟩
  have bj : j.Built := ⟨_, _, _, _, hj⟩
  refine ⟨i, j, hi, hj, ?_⟩
  obtain rfl := Outcome.ok.inj hi
  obtain rfl := Outcome.ok.inj hj
  exact C68_name_ambiguous_neg (x := toyIdTrx 1) bi bj rfl rfl

/-- An identity that can be stored. -/
def toyIdentity (name : Bytes) : TrIdentity :=
  ⟨fromBytes name, ascii "seed", name, ascii "/", some [fromBytes [7]], none, 3, 4⟩

theorem toyIdentity_built {name : Bytes} (h : name ≠ []) : (toyIdentity name).Built :=
  ⟨some (fromBytes name), ascii "seed", name, ascii "/", some [fromBytes [7]], none, some 3, some 4,
    0, 0, trIdentityNow_eq_ok.mpr ⟨_, rfl, by decide, h, by decide, by decide, rfl⟩⟩

theorem utf8_ascii_of {s : Bytes} (h : s.all (· < 128) = true) : Utf8 s :=
  utf8_of_ascii fun b hb => by
    have := List.all_eq_true.mp h b hb
    simpa [UInt8.lt_iff_toNat_lt] using this

/-- Saved, read under its seed; read under another seed, or by another name, nothing is found. -/
example : (∃ j, retrTrIdentity (saveTrIdentity (toyIdentity (ascii "me")) fun _ => none)
      (fromBytes (ascii "me")) (ascii "seed") 9 9 = .ok j ∧ SameIdentity (toyIdentity (ascii "me")) j ∧
      j.lastUpdatedOn = 9) ∧
    lastSaved [.save (toyIdentity (ascii "me"))] (fromBytes (ascii "me")) (ascii "seed") =
      some (toyIdentity (ascii "me")) ∧
    lastSaved [.save (toyIdentity (ascii "me"))] (fromBytes (ascii "me")) (ascii "other") = none ∧
    lastSaved [.save (toyIdentity (ascii "me")), .delete (toyIdentity (ascii "me"))]
      (fromBytes (ascii "me")) (ascii "seed") = none := by
  refine ⟨?_, by decide, by decide, by decide⟩
  obtain ⟨j, h, hj⟩ := C86_identity_survives_partial (toyIdentity_built (name := ascii "me") (by decide))
    (utf8_ascii_of (by decide)) (utf8_ascii_of (by decide)) (utf8_ascii_of (by decide))
    (fun _ => none) (t₁ := 9) (t₂ := 9) (by decide)
  refine ⟨j, h, hj, ?_⟩
  simp only [retrTrIdentity, saveTrIdentity, setFile_same, readCell, Outcome.bind_ok] at h
  exact C86_update_time_lost_neg h

/-- Before its creation, or with a name that is not UTF-8. -/
example : (∀ j, retrTrIdentity (saveTrIdentity (toyIdentity (ascii "me")) fun _ => none)
      (fromBytes (ascii "me")) (ascii "seed") 2 2 ≠ .ok j) ∧ ¬ Utf8 (toyIdentity [255]).name := by
  refine ⟨C86_clock_behind_neg (toyIdentity (ascii "me")) _ (by decide), ?_⟩
  rw [← jsonText_eq_iff]
  simp only [toyIdentity]
  rw [jsonText]
  decide

/-- The builders of the other records succeed. -/
example : (∃ e, trEntryNow (some (fromBytes [1])) (ascii "rent") (some [fromBytes [2]]) [] 5 = .ok e) ∧
    (∃ s, trStatementNow (some (fromBytes [1])) (some []) (some [fromBytes [2]]) 5 = .ok s) ∧
    (∃ b, trWalletBillNow (some (fromBytes [1])) (some (fromBytes [2])) (some [toySc 3]) 5 = .ok b) ∧
    (∃ c, trCancelNow (some (fromBytes [1])) (some (fromBytes [2])) (some (fromBytes [3]))
      (some [⟨[], [], toySc 1⟩]) 5 = .ok c) :=
  ⟨⟨_, rfl⟩, ⟨_, rfl⟩, ⟨_, rfl⟩, ⟨_, rfl⟩⟩

/-- Two buckets of the same directory. -/
example : ∃ x y, idBucketNow [] [([], .dir)] (some ⟨fromBytes [1], [], 1⟩) [47] (some [1]) 5 = .ok x ∧
    idBucketNow [] [([], .dir)] (some ⟨fromBytes [2], [], 1⟩) [47] (some [2]) 5 = .ok y ∧
    x.bucket.hash ≠ y.bucket.hash ∧ x.hash = y.hash := by
  obtain ⟨i, hi⟩ : ∃ i, idBucketNow [] [([], .dir)] (some ⟨fromBytes [1], [], 1⟩) [47] (some [1]) 5 =
    .ok i := ⟨_, rfl⟩
  obtain ⟨j, hj⟩ : ∃ j, idBucketNow [] [([], .dir)] (some ⟨fromBytes [2], [], 1⟩) [47] (some [2]) 5 =
    .ok j := ⟨_, rfl⟩
  have bi : i.Built := ⟨_, _, _, _, _, _, hi⟩
  have bj : j.Built := ⟨_, _, _, _, _, _, hj⟩
  refine ⟨i, j, hi, hj, ?_⟩
  obtain rfl := Outcome.ok.inj hi
  obtain rfl := Outcome.ok.inj hj
  refine ⟨fun h => ?_, C89_content_unhashed_neg bi bj rfl⟩
  have := congrArg Hash.bytes h
  revert this
  decide

end examples

end Verif
