import Verif.Props.Accounts
import Verif.Props.Exact
import Verif.Props.Expense
import Verif.Props.Files
import Verif.Spec.Inside

/-!
# More exact forms of claims that hold with conditions: C25, C27, C59, C72, C81, C86, C90, C92
-/

namespace Verif

section
variable [Sha512]

omit [Sha512] in
theorem trueTotal_sublist {a b : List Bill} (h : a.Sublist b) (hp : ∀ x ∈ b, 0 < x.amount.toNat) :
    trueTotal a ≤ trueTotal b ∧ (trueTotal b ≤ trueTotal a → a = b) := by
  induction h with
  | slnil => simp
  | @cons a b x _ ih =>
    obtain ⟨h1, -⟩ := ih fun y hy => hp y (by simp [hy])
    have h2 := hp x (by simp)
    have h3 : trueTotal (x :: b) = x.amount.toNat + trueTotal b := by simp [trueTotal]
    exact ⟨by omega, fun h => by omega⟩
  | @cons_cons a b x _ ih =>
    obtain ⟨h1, h2⟩ := ih fun y hy => hp y (by simp [hy])
    have h3 : ∀ l, trueTotal (x :: l) = x.amount.toNat + trueTotal l := by simp [trueTotal]
    rw [h3, h3]
    exact ⟨by omega, fun h => by rw [h2 (by omega)]⟩

/-- C25, exactly when the payout is covered by the bills, each counted once: when no bill is listed twice
(with a total below `2^64`, and bills of positive amounts, as the builder makes them). -/
theorem C25_covered_iff (a : UInt64) (src : List Bill) (l r : Option Lock) (t : Time) (c : Content)
    (h : contentNow a (some src) l r t = .ok c) (hp : ∀ b ∈ src, 0 < b.amount.toNat)
    (hlt : trueTotal src < 2 ^ 64) :
    c.dest.amount.toNat + c.change ≤ distinctTotal src ↔ (src.map Bill.hash).Nodup := by
  refine ⟨fun hle => ?_, C25_never_above_distinct_total_partial a src l r t c h⟩
  obtain ⟨_, l', e1, e2, -⟩ := contentNow_eq_ok.mp h
  subst e2
  rw [C24_conservation_exact _ _ _ _ _ _ h hlt] at hle
  have h1 := (trueTotal_sublist (List.pwFilter_sublist src) hp).2 hle
  have h2 := List.pwFilter_eq_self.mp h1
  exact List.pairwise_map.mpr h2

variable [C : Curve] {P : IdentityPort}

/-- C27: what else holds: a signature is bound to the hash of the lock it opens. If it opens a second lock,
the second has the same keys and the same hash, or the two hashes, each followed by the last commitment, are
different texts with the same challenge. -/
theorem C27_signature_bound_to_lock_partial {l₁ l₂ : Lock} (hb : l₁.Built) {sig : RingSignature}
    (h₁ : l₁.unlock sig = .ok ()) (h₂ : l₂.unlock sig = .ok ()) :
    (∀ k, k ∈ l₁.pubKeys ↔ k ∈ l₂.pubKeys) ∧
    (l₁.hash = l₂.hash ∨
      ∃ p p' : C.Pt, commitmentAt l₁.hash.str sig.ring sig.s sig.e (sig.ring.length - 1) = some p ∧
        commitmentAt l₂.hash.str sig.ring sig.s sig.e (sig.ring.length - 1) = some p' ∧
        l₁.hash.str ++ ptStr p ≠ l₂.hash.str ++ ptStr p' ∧
        C.hashF (l₁.hash.str ++ ptStr p) = C.hashF (l₂.hash.str ++ ptStr p')) := by
  refine ⟨C27_signature_bound_to_keys_partial l₁ l₂ sig h₁ h₂, ?_⟩
  obtain ⟨keys, t, hk⟩ := hb
  obtain ⟨p, p', e1, e2, e3, -⟩ := C16_nonempty_ring_binds_message_partial sig _ _
    (C20_unlock_needs_ring keys t l₁ hk sig h₁) (unlock_eq_ok.mp h₁).2 (unlock_eq_ok.mp h₂).2
  by_cases hh : l₁.hash = l₂.hash
  · exact .inl hh
  · refine .inr ⟨p, p', e1, e2, fun e => hh (Hash.str_injective ?_), e3⟩
    exact List.append_inj_left e (by rw [Hash.str_length, Hash.str_length])

/-- C59, exactly when an update keeps wallets and buckets: when there were none. -/
theorem C59_kept_iff {a a' : Session} {s s' : P.S} {u : IdentityUpdate} {now₁ now₂ : Time}
    (h : a.update P s u now₁ now₂ = (.ok (), s', a')) {i j : Identity} (hi : a.retrieve P s = .ok i)
    (hj : P.retrieve s' (u.name.getD i.name) (u.password.getD a.password) (u.seed.getD i.seed) = .ok j) :
    (j.wallets = i.wallets ∧ j.buckets = i.buckets) ↔ i.wallets = [] ∧ i.buckets = [] := by
  obtain ⟨i', j', h1, h2, h3, h4, -⟩ := C59_update_drops_wallets_neg h
  obtain rfl := Outcome.ok.inj (h1.symm.trans hi)
  obtain rfl := Outcome.ok.inj (h2.symm.trans hj)
  rw [h3, h4]
  exact ⟨fun h => ⟨h.1.symm, h.2.symm⟩, fun h => ⟨h.1.symm, h.2.symm⟩⟩

/-- C90, exactly when the session that made an update still finds an identity: when neither the name nor
the seed was changed. -/
theorem C90_session_follows_iff {a a' : Session} {s s' : P.S} {u : IdentityUpdate}
    {now₁ now₂ : Time} (h : a.update P s u now₁ now₂ = (.ok (), s', a')) {i : Identity}
    (hi : a.retrieve P s = .ok i)
    (hone : ∀ n sd j, P.view s n sd = some (j, a.password) → j.hash = i.hash →
      n = a.name ∧ sd = a.seed) :
    (∃ j, a'.retrieve P s' = .ok j) ↔ u.name.getD i.name = i.name ∧ u.seed.getD i.seed = i.seed := by
  constructor
  · rintro ⟨j, hj⟩
    by_contra hn
    refine C90_session_loses_identity_neg h hi ?_ hone j hj
    tauto
  · rintro ⟨h1, h2⟩
    obtain ⟨i', j, hi', hj, hu, rfl⟩ := Session.update_ok h
    obtain rfl := Outcome.ok.inj (hi'.symm.trans hi)
    have hr := P.update_then_retrieve hu
    have hna := P.names (P.retrieve_ok.mp hi)
    obtain ⟨-, -, -, -, e⟩ := identityNow_eq_ok.mp hj
    have e1 : j.name = i'.name := by rw [e]; exact h1
    have e2 : j.seed = i'.seed := by rw [e]; exact h2
    rw [e1, e2, hna.1, hna.2] at hr
    exact ⟨j, hr⟩

omit C in
/-- C86, exactly when a saved identity comes back the same in everything but the time of the last update:
when its texts are valid UTF-8 and the clock is not before its creation. -/
theorem C86_survives_iff {i : TrIdentity} (h : i.Built) (σ : IdentityFiles) (t₁ t₂ : Time) :
    (∃ j, retrTrIdentity (saveTrIdentity i σ) i.hash i.seed t₁ t₂ = .ok j ∧ SameIdentity i j) ↔
      Utf8 i.seed ∧ Utf8 i.name ∧ Utf8 i.root ∧ i.createdOn ≤ t₂ := by
  constructor
  · rintro ⟨j, hj, hs⟩
    have hc : i.createdOn ≤ t₂ := by
      by_contra hn
      exact C86_clock_behind_neg i σ (not_le.mp hn) j hj
    simp only [retrTrIdentity, saveTrIdentity, setFile_same, readCell, Outcome.bind_ok] at hj
    simp only [trIdentityFromJSON, Outcome.bind_eq_ok] at hj
    obtain ⟨_, -, _, -, _, -, hj⟩ := hj
    obtain ⟨_, -, -, -, -, -, rfl⟩ := trIdentityNow_eq_ok.mp hj
    have h1 := hs.seed
    have h2 := hs.name
    have h3 := hs.root
    exact ⟨h1 ▸ jsonText_utf8 _, h2 ▸ jsonText_utf8 _, h3 ▸ jsonText_utf8 _, hc⟩
  · rintro ⟨h1, h2, h3, h4⟩
    exact C86_identity_survives_partial h h1 h2 h3 σ h4

end

/-- C72, exactly for which private keys the text is read as a key with the same public key: those up to
`largestFactor`. -/
theorem C72_same_key_iff [C : Curve] (x : Scalar) (hF : ∀ t : Nat, 0 < t → t ≤ 16 → (t : C.F) ≠ 0) :
    (∃ x', toPrivateKey (scStr x) = .ok x' ∧ publicKey x' = publicKey x) ↔ x.Fits := by
  constructor
  · rintro ⟨x', h1, h2⟩
    by_contra hx
    obtain ⟨-, x'', h3, h4⟩ := C72_large_private_keys_neg x hx hF
    obtain rfl := Outcome.ok.inj (h3.symm.trans h1)
    exact h4 h2
  · intro hx
    obtain ⟨-, x', h1, h2, -⟩ := C72_key_text_round_trip_partial C.base x
    exact ⟨x', h1, h2 hx⟩

/-! ## C81 -/

theorem goesUp_cons (n : Bytes) (l : List Bytes) :
    goesUp (n :: l) = goesUp l + if n = [46, 46] then 1 else 0 := by
  simp [goesUp, List.count_cons]

theorem goesDown_cons (n : Bytes) (l : List Bytes) :
    goesDown (n :: l) = goesDown l + if n ≠ [] ∧ n ≠ [46] ∧ n ≠ [46, 46] then 1 else 0 := by
  simp [goesDown, List.countP_cons]

theorem splitOn_mem_length {sep : UInt8} : ∀ {s p : Bytes}, p ∈ splitOn sep s → p.length ≤ s.length := by
  intro s
  induction s with
  | nil => intro p hp; simp [splitOn] at hp; simp [hp]
  | cons c s ih =>
    intro p hp
    unfold splitOn at hp
    split at hp
    · rcases List.mem_cons.mp hp with rfl | h
      · simp
      · have := ih h; simp; omega
    · split at hp
      · rename_i h1 h2
        exact absurd h2 (splitOn_ne_nil _ _)
      · rename_i q qs hq
        rcases List.mem_cons.mp hp with rfl | h
        · have := ih (p := q) (by rw [hq]; simp)
          simpa using this
        · have := ih (p := p) (by rw [hq]; simp [h])
          simp; omega

theorem walk_inside : ∀ (l : List Bytes) (p q : Path),
    (∀ k, goesUp (l.take k) ≤ goesDown (l.take k) + q.length) → p <+: l.foldl walk (p ++ q)
  | [], p, q, _ => by simp
  | n :: l, p, q, h => by
    rw [List.foldl_cons]
    by_cases h1 : n = [] ∨ n = [46]
    · rw [walk, if_pos h1]
      refine walk_inside l p q fun k => ?_
      have := h (k + 1)
      rcases h1 with rfl | rfl <;> simpa [goesUp, goesDown] using this
    · rw [walk, if_neg h1]
      by_cases h2 : n = [46, 46]
      · rw [if_pos h2]
        subst h2
        have hq : q ≠ [] := by
          rintro rfl
          have := h 1
          simp [goesUp, goesDown] at this
        rw [List.dropLast_append_of_ne_nil hq]
        refine walk_inside l p _ fun k => ?_
        have := h (k + 1)
        have hq' := List.length_pos_iff.mpr hq
        simp only [List.take_succ_cons, goesUp_cons, goesDown_cons, List.length_dropLast] at this ⊢
        simp at this
        omega
      · rw [if_neg h2, List.append_assoc]
        refine walk_inside l p _ fun k => ?_
        have := h (k + 1)
        push Not at h1
        simp only [List.take_succ_cons, goesUp_cons, goesDown_cons, List.length_append,
          List.length_singleton] at this ⊢
        simp [h2, h1] at this
        omega

theorem walk_fresh {x : Bytes} : ∀ (l : List Bytes) (p : Path), x ∉ l → x ∉ p → x ∉ l.foldl walk p
  | [], p, _, hp => by simpa using hp
  | n :: l, p, hl, hp => by
    rw [List.foldl_cons]
    simp only [List.mem_cons, not_or] at hl
    refine walk_fresh l _ hl.2 ?_
    unfold walk
    split
    · exact hp
    · split
      · exact fun h => hp (List.mem_of_mem_dropLast h)
      · simp [hp, hl.1]

theorem walk_outside {x : Bytes} : ∀ (l : List Bytes) (q : Path), x ∉ l → x ∉ q →
    (∃ k, goesDown (l.take k) + q.length < goesUp (l.take k)) → x ∉ l.foldl walk (x :: q)
  | [], q, _, _, ⟨k, hk⟩ => by simp [goesUp, goesDown] at hk
  | n :: l, q, hl, hq, ⟨k, hk⟩ => by
    obtain ⟨k, rfl⟩ : ∃ m, k = m + 1 := by
      cases k with
      | zero => simp [goesUp, goesDown] at hk
      | succ k => exact ⟨k, rfl⟩
    rw [List.foldl_cons]
    simp only [List.mem_cons, not_or] at hl
    by_cases h1 : n = [] ∨ n = [46]
    · rw [walk, if_pos h1]
      refine walk_outside l q hl.2 hq ⟨k, ?_⟩
      rcases h1 with rfl | rfl <;> simpa [goesUp, goesDown] using hk
    · rw [walk, if_neg h1]
      by_cases h2 : n = [46, 46]
      · rw [if_pos h2]
        subst h2
        by_cases hqn : q = []
        · subst hqn
          exact walk_fresh l _ hl.2 (by simp)
        · rw [List.dropLast_cons_of_ne_nil hqn]
          refine walk_outside l _ hl.2 (fun h => hq (List.mem_of_mem_dropLast h)) ⟨k, ?_⟩
          have hq' := List.length_pos_iff.mpr hqn
          simp only [List.take_succ_cons, goesUp_cons, goesDown_cons, List.length_dropLast] at hk ⊢
          simp at hk
          omega
      · rw [if_neg h2, List.cons_append]
        refine walk_outside l _ hl.2 (by simp [hq, hl.1]) ⟨k, ?_⟩
        push Not at h1
        simp only [List.take_succ_cons, goesUp_cons, goesDown_cons, List.length_append,
          List.length_singleton] at hk ⊢
        simp [h2, h1] at hk
        omega

/-- C81, exactly which relative paths stay below the base directory whatever it is: those that never go
up more often than they have gone down. -/
theorem C81_inside_iff (rel : Bytes) :
    (∀ w : Place, w.base ≠ [] → w.resolve [] <+: w.resolve rel) ↔ StaysBelow rel := by
  constructor
  · intro h
    by_contra hn
    unfold StaysBelow at hn
    push Not at hn
    obtain ⟨x, hx⟩ : ∃ x : Bytes, x = List.replicate (rel.length + 3) 97 := ⟨_, rfl⟩
    have hx0 : 47 ∉ x := by rw [hx]; simp
    have hxl : x ∉ splitOn 47 rel := by
      intro hm
      have := splitOn_mem_length hm
      rw [hx, List.length_replicate] at this
      omega
    have hw := h ⟨[], 47 :: x⟩ (by simp)
    unfold Place.resolve at hw
    rw [absolute_joinText (.inl (by simp)), absolute_joinText (.inl (by simp))] at hw
    have hx1 : absolute [] (47 :: x) = [x] := by
      have hs : splitOn 47 (47 :: x) = [[], x] := by
        have := splitOn_joinWith (sep := 47) (ps := [[], x]) (by simp) (by simp [hx0])
        simpa [joinWith] using this
      have h1 : x ≠ [] := by rw [hx]; simp
      have h2 : x.length = rel.length + 3 := by rw [hx]; simp
      have h3 : x ≠ [46] := by intro h; rw [h] at h2; simp at h2
      have h4 : x ≠ [46, 46] := by intro h; rw [h] at h2; simp at h2
      simp [absolute, hs, walk, h1, h3, h4]
    have hs0 : splitOn 47 ([] : Bytes) = [[]] := rfl
    simp only [hx1, hs0] at hw
    have := walk_outside (splitOn 47 rel) [] hxl (by simp) (by simpa using hn)
    exact this (hw.mem (by simp [walk]))
  · intro h w hb
    unfold Place.resolve
    rw [absolute_joinText (.inl hb), absolute_joinText (.inl hb)]
    have hs0 : splitOn 47 ([] : Bytes) = [[]] := rfl
    have := walk_inside (splitOn 47 rel) (absolute w.cwd w.base) [] (by simpa [StaysBelow] using h)
    rw [hs0]
    simpa [walk] using this

/-! ## C92 -/

/-- C92, exactly when the transaction that announces a bucket carries the hash of the bucket: when that is
the hash of the path. -/
theorem C92_names_content_iff [Sha512] [C : Curve] {I : IdentityParts} {additional : Int} {i : Identity}
    {path : Bytes} {fees : List FeeRun} {now : Time} {x : Transaction} {b : IdBucket}
    (h : bucketTransaction I additional i path fees now = .ok x)
    (hf : I.fetchBucket i path = .ok b) (hb : b.Built) :
    x.bucket = some b.bucket.hash ↔ b.bucket.hash = fromBytes b.absolutePath := by
  rw [C92_transaction_names_path_neg h hf hb]
  simp [eq_comm]

section examples
attribute [local instance] toyCurve toySha

/-- C27: a lock and a signature that opens it; the lock built at another time is opened as well. -/
example : ∃ (l₁ l₂ : Lock) (sig : RingSignature), l₁.Built ∧ l₁ ≠ l₂ ∧ l₁.unlock sig = .ok () ∧
    l₂.unlock sig = .ok () := by
  obtain ⟨l, sig, h1, h2⟩ := toy_openable
  refine ⟨l, { l with createdOn := l.createdOn + 1 }, sig, h1, fun e => ?_, h2, ?_⟩
  · have := congrArg Lock.createdOn e
    simp at this
  · exact unlock_eq_ok.mpr (unlock_eq_ok.mp h2)

/-- C25: two bills; and one bill listed twice. -/
example (src : List Bill) (hs : src = [toyBill 1 5, toyBill 2 7] ∨ src = [toyBill 1 6, toyBill 1 6]) :
    ∃ c, contentNow 10 (some src) (some (toyLock 3)) (some (toyLock 4)) 0 = .ok c ∧
      (c.dest.amount.toNat + c.change ≤ distinctTotal src ↔ src = [toyBill 1 5, toyBill 2 7]) := by
  have hp : (∀ b ∈ src, 0 < b.amount.toNat) ∧ trueTotal src = 12 ∧ sourceTotal src = 12 ∧ src ≠ [] := by
    rcases hs with rfl | rfl <;> simp [toyBill, trueTotal, sourceTotal]
  obtain ⟨c, hc⟩ : ∃ c, contentNow 10 (some src) (some (toyLock 3)) (some (toyLock 4)) 0 = .ok c :=
    ⟨_, contentNow_eq_ok.mpr ⟨_, _, rfl, rfl, by decide, by rw [hp.2.2.1]; decide,
      by rw [hp.2.2.1]; simp, rfl⟩⟩
  refine ⟨c, hc, ?_⟩
  rw [C25_covered_iff _ _ _ _ _ _ hc hp.1 (by omega)]
  rcases hs with rfl | rfl
  · have : (toyBill 1 5).hash ≠ (toyBill 2 7).hash := by decide +kernel
    simp [this]
  · simp [toyBill]

/-- C86: with texts of ASCII, from the time of creation on. -/
example (t : Time) : (∃ j, retrTrIdentity (saveTrIdentity (toyIdentity (ascii "me")) fun _ => none)
      (toyIdentity (ascii "me")).hash (toyIdentity (ascii "me")).seed t t = .ok j ∧
      SameIdentity (toyIdentity (ascii "me")) j) ↔ (toyIdentity (ascii "me")).createdOn ≤ t := by
  rw [C86_survives_iff (toyIdentity_built (by decide))]
  have h1 : Utf8 (toyIdentity (ascii "me")).seed := utf8_ascii_of (by decide)
  have h2 : Utf8 (toyIdentity (ascii "me")).name := utf8_ascii_of (by decide)
  have h3 : Utf8 (toyIdentity (ascii "me")).root := utf8_ascii_of (by decide)
  simp [h1, h2, h3]

/-- C72: on a curve of 17 points, the largest raw scalar is not read back as the same key. -/
example : ∃ C : Curve, (∀ t : Nat, 0 < t → t ≤ 16 → (t : C.F) ≠ 0) ∧ (toySc 2).Fits ∧ ¬ bigSc.Fits ∧
    (∃ x', toPrivateKey (scStr (toySc 2)) = .ok x' ∧ publicKey x' = publicKey (toySc 2)) ∧
    ¬ ∃ x', toPrivateKey (scStr bigSc) = .ok x' ∧ publicKey x' = publicKey bigSc :=
  ⟨toyCurve17, toy17_digits, by decide, bigSc_large,
    (@C72_same_key_iff toyCurve17 _ toy17_digits).mpr (by decide),
    fun h => bigSc_large ((@C72_same_key_iff toyCurve17 _ toy17_digits).mp h)⟩

/-- C59, C90: the root of a new account is changed; the wallets were none, and the session stays. -/
example : ∃ s a s' a', authenticate referencePort s (ascii "bob") (ascii "x") (ascii "x") = .ok a ∧
    a.update referencePort s { root := some (ascii "/r") } 2 2 = (.ok (), s', a') ∧
    (∃ j, a'.retrieve referencePort s' = .ok j ∧ j.wallets = [] ∧ j.buckets = []) := by
  obtain ⟨s, i, -, bi, hv⟩ := toy_account (ascii "x") (ascii "x") (by decide)
  have hb : referencePort.view s (ascii "bob") (ascii "x") = some (i, ascii "x") := by rw [hv]; simp
  have hn := referencePort.names hb
  have hi : Session.retrieve referencePort ⟨ascii "bob", ascii "x", ascii "x"⟩ s = .ok i :=
    referencePort.retrieve_ok.mpr hb
  obtain ⟨j, hj⟩ : ∃ j, identityNow i.seed i.name (ascii "/r") [] [] none none 2 2 = .ok j := by
    obtain ⟨_, _, _, _, _, _, _, _, _, bi⟩ := bi
    obtain ⟨h1, h2, h3, -, rfl⟩ := identityNow_eq_ok.mp bi
    exact ⟨_, identityNow_eq_ok.mpr ⟨h1, h2, by decide, by simp, rfl⟩⟩
  have hu := reference_update (j := j) (q := ascii "x") hb
  have hup : Session.update referencePort ⟨ascii "bob", ascii "x", ascii "x"⟩ s
      { root := some (ascii "/r") } 2 2 =
      (.ok (), (referencePort.update s i.hash j (ascii "x") (ascii "x")).2,
        ⟨ascii "bob", ascii "x", ascii "x"⟩) := by
    unfold Session.retrieve at hi
    unfold Session.update
    simp only [hi, withOk, Option.getD_none, Option.getD_some, hj]
    rw [hu]
  obtain ⟨k, hk⟩ := (C90_session_follows_iff hup hi (by
    intro n sd j hj _
    rw [hv] at hj
    simp only at hj
    split at hj
    · assumption
    · cases hj)).mpr ⟨rfl, rfl⟩
  refine ⟨s, _, _, _, (C60_authenticate_exact_neg _ _ _ _ _).mpr ⟨⟨i, hb⟩, rfl⟩, hup, k, hk, ?_⟩
  obtain ⟨i', j', h1, h2, h3, h4, -⟩ := C59_update_drops_wallets_neg hup
  obtain rfl := Outcome.ok.inj (h1.symm.trans hi)
  simp only [Option.getD_none, hn.1, hn.2] at h2
  obtain rfl := Outcome.ok.inj (h2.symm.trans hk)
  exact ⟨h3, h4⟩

/-- C81: `a/../b` stays below every directory, `a/../../b` does not. -/
example : (∀ w : Place, w.base ≠ [] → w.resolve [] <+: w.resolve (ascii "a/../b")) ∧
    ¬ ∀ w : Place, w.base ≠ [] → w.resolve [] <+: w.resolve (ascii "a/../../b") := by
  rw [C81_inside_iff, C81_inside_iff]
  have h1 : splitOn 47 (ascii "a/../b") = [[97], [46, 46], [98]] := by decide
  have h2 : splitOn 47 (ascii "a/../../b") = [[97], [46, 46], [46, 46], [98]] := by decide
  constructor
  · intro k
    rw [h1]
    match k with
    | 0 | 1 | 2 => decide
    | k + 3 => simp [goesUp, goesDown]
  · intro h
    have := h 3
    rw [h2] at this
    exact absurd this (by decide)

/-- C92: a bucket whose transaction does not name it. -/
example : ∃ (I : IdentityParts) (i : Identity) (x : Transaction) (b : IdBucket), b.Built ∧
    bucketTransaction I 1 i [47] [] 7 = .ok x ∧ x.bucket ≠ some b.bucket.hash := by
  obtain ⟨b, hb⟩ : ∃ b, idBucketNow [] [([], .dir)] (some ⟨fromBytes [1], [], 1⟩) [47] (some [1]) 5 =
    .ok b := ⟨_, rfl⟩
  obtain ⟨x, hx, -⟩ := C92_transaction_made_partial (additional := 1) (now := 7) (path := [47])
    (I := ⟨fun _ _ => .ok b, fun _ _ => .ok [], fun i _ => .ok i⟩)
    (i := ⟨fromBytes [], [], [], [], [], [], 0, 0⟩) rfl
  have bb : b.Built := ⟨_, _, _, _, _, _, hb⟩
  refine ⟨_, _, x, b, bb, hx, fun h => ?_⟩
  have := (C92_names_content_iff hx rfl bb).mp h
  obtain ⟨-, -, _, _, h1, -, rfl⟩ := idBucketNow_eq_ok.mp hb
  cases h1
  have : fromBytes [1] = fromBytes (pathText (absolute [] [47])) := this
  exact absurd this (by decide +kernel)

end examples

end Verif
