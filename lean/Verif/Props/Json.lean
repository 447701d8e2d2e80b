import Verif.Base.Json.FloatText
import Verif.Model.Json.Memory
import Verif.Model.Piastres.EntityLemmas
import Verif.Spec.Json
import Verif.Props.Entities
import Verif.Props.Sig

/-!
# JSON forms of the piastres entities (C29, C30, C67)
-/

namespace Verif

section
variable [Sha512]

theorem mapO_fromString (l : List Hash) : mapO fromString (l.map Hash.str) = .ok l := by
  rw [mapO_eq_ok]
  induction l with
  | nil => simp
  | cons a l ih => simp

omit [Sha512] in
/-- A loop over a list of encoded objects gives the objects back. -/
theorem mapO_map_ok {α β γ : Type} {f : β → Outcome γ} {g : α → β} {k : α → γ} {l : List α}
    (h : ∀ x ∈ l, f (g x) = .ok (k x)) : mapO f (l.map g) = .ok (l.map k) := by
  rw [mapO_eq_ok]
  induction l with
  | nil => simp
  | cons a l ih =>
    simp only [List.map_cons, List.forall₂_cons]
    exact ⟨h a (by simp), ih fun x hx => h x (by simp [hx])⟩

theorem optFromString_optStr (h : Option Hash) : optFromString (optStr h) = .ok h := by
  cases h with
  | none => simp [optFromString, optStr]
  | some h =>
    have : h.str ≠ [] := by
      intro e
      have := Hash.str_length h
      rw [e] at this
      simp at this
    simp [optFromString, optStr, this, optO]

/-! ## C29 -/

/-- C29: locks. -/
theorem C29_lock_round_trip (l : Lock) (h : l.Built) : lockFromJSON (some l.toJSON) = .ok l := by
  obtain ⟨keys, t, h⟩ := h
  obtain ⟨ks, rfl, h1, h2, rfl⟩ := lockNow_eq_ok.mp h
  simp only [lockFromJSON, Lock.toJSON, Outcome.deref_some, Outcome.bind_ok, mapO_fromString]
  exact h

/-- C29: bills. -/
theorem C29_bill_round_trip (b : Bill) (h : b.Built) : billFromJSON (some b.toJSON) = .ok b := by
  obtain ⟨hl, l, a, t, h⟩ := h
  obtain ⟨l, rfl, h1, rfl⟩ := billNow_eq_ok.mp h
  simp only [billFromJSON, Bill.toJSON, Outcome.deref_some, Outcome.bind_ok,
    C29_lock_round_trip l hl]
  exact h

/-- C29: expense contents. -/
theorem C29_content_round_trip (c : Content) (h : c.Built) :
    contentFromJSON (some c.toJSON) = .ok c := by
  obtain ⟨a, src, l, rem, t, h, hs, hl, hr⟩ := h
  obtain ⟨_, _, e, e', h1, h2, h3, rfl⟩ := contentNow_eq_ok.mp h
  cases e; cases e'
  have hd : billFromJSON (some (Bill.toJSON ⟨fromBytes (l.hash.bytes ++ itoaU a), l, a, t⟩)) =
      .ok ⟨fromBytes (l.hash.bytes ++ itoaU a), l, a, t⟩ :=
    C29_bill_round_trip _ ⟨hl, some l, a, t, billNow_eq_ok.mpr ⟨l, rfl, h1, rfl⟩⟩
  have hsrc : mapO billFromJSON (src.map fun b => some b.toJSON) = .ok src := by
    have := mapO_map_ok (f := billFromJSON) (g := fun b : Bill => some b.toJSON) (k := id) (l := src)
      fun b hb => C29_bill_round_trip b (hs b hb)
    simpa using this
  cases rem with
  | none =>
    simp only [contentFromJSON, Content.toJSON, Outcome.deref_some, Outcome.bind_ok, hd, hsrc,
      Option.map_none, optO_none]
    exact h
  | some r =>
    have hlt := (sourceTotal src).toNat_lt
    have hne : a.toNat ≠ (sourceTotal src).toNat := fun e => by simpa using h3.mpr e
    have hsub : (sourceTotal src - a).toNat = (sourceTotal src).toNat - a.toNat :=
      UInt64.toNat_sub_of_le _ _ (UInt64.le_iff_toNat_le.mpr h2)
    have hrem : billFromJSON (some (Bill.toJSON
        ⟨fromBytes (r.hash.bytes ++ itoaU (sourceTotal src - a)), r, sourceTotal src - a, t⟩)) =
        .ok ⟨fromBytes (r.hash.bytes ++ itoaU (sourceTotal src - a)), r, sourceTotal src - a, t⟩ :=
      C29_bill_round_trip _ ⟨hr r rfl, some r, _, t, billNow_eq_ok.mpr ⟨r, rfl, by omega, rfl⟩⟩
    simp only [contentFromJSON, Content.toJSON, Outcome.deref_some, Outcome.bind_ok, hd, hsrc,
      Option.map_some, optO, hrem]
    exact h

/-- C29: geneses. -/
theorem C29_genesis_round_trip (g : Genesis) (h : g.Built) :
    genesisFromJSON (some g.toJSON) = .ok g := by
  obtain ⟨hb, base, incr, link, b, t, h⟩ := h
  obtain ⟨b, rfl, -, -, -, rfl⟩ := genesisNow_eq_ok.mp h
  simp only [genesisFromJSON, Genesis.toJSON, Outcome.deref_some, Outcome.bind_ok,
    C29_bill_round_trip b hb]
  exact h

/-- C29: addresses. -/
theorem C29_address_round_trip (a : Address) (h : a.Built) :
    addressFromJSON (some a.toJSON) = .ok a := by
  obtain ⟨s, r, j, t, h⟩ := h
  obtain ⟨h1, rfl⟩ := addressNow_eq_ok.mp h
  simp only [addressFromJSON, Address.toJSON, Outcome.deref_some, Outcome.bind_ok,
    optFromString_optStr, mapO_fromString]
  exact h

variable [C : Curve]

omit [Sha512] in
theorem normSc_canon (a : C.F) : normSc (C.canon a) = C.canon a := by simp [normSc, C.val_canon]

omit [Sha512] in
theorem reduced_str (sig : RingSignature) : sig.reduced.str = sig.str := by
  have hn : ∀ s : Scalar, scStr (normSc s) = scStr s := by
    intro s; simp [scStr, normSc, C.val_canon]
  simp only [RingSignature.str, RingSignature.reduced, List.map_map, Function.comp_def, hn]

omit [Sha512] in
theorem ringVerifyLoop_reduced (msg : Bytes) : ∀ (ring : List C.Pt) (s : List Scalar) (e : Scalar),
    (∀ x ∈ s, x.Fits) → ringVerifyLoop msg ring (s.map normSc) e = ringVerifyLoop msg ring s e
  | [], _, _, _ => rfl
  | _ :: _, [], _, _ => rfl
  | p :: ps, s :: ss, e, hf => by
    simp only [List.map_cons, ringVerifyLoop]
    rw [ringVerifyLoop_reduced msg ps ss _ fun x hx => hf x (by simp [hx])]
    have : ringStep msg (normSc s) e p = ringStep msg s e p := by
      simp only [ringStep, normSc]
      rw [mul_base_eff, eff_canon, mul_base (hf s (by simp))]
    rw [this]

omit [Sha512] in
/-- A verified signature over a non-empty ring has a reduced challenge. -/
theorem verify_canonical_e {sig : RingSignature} {msg : Bytes} (hr : sig.ring ≠ [])
    (h : sig.verify msg = .ok true) : ∃ a, sig.e = C.canon a := by
  have key : ∀ (ring : List C.Pt) (s : List Scalar) (e e' : Scalar), ring ≠ [] →
      ringVerifyLoop msg ring s e = .ok e' → ∃ a, e' = C.canon a := by
    intro ring
    induction ring with
    | nil => intro s e e' h; exact absurd rfl h
    | cons p ps ih =>
      intro s e e' _ h
      cases s with
      | nil => simp [ringVerifyLoop] at h
      | cons x xs =>
        simp only [ringVerifyLoop] at h
        cases ps with
        | nil =>
          simp only [ringVerifyLoop, Outcome.ok.injEq] at h
          exact ⟨_, h.symm⟩
        | cons q qs => exact ih xs _ _ (by simp) h
  unfold RingSignature.verify at h
  split at h
  · rename_i e he
    simp only [Outcome.ok.injEq, decide_eq_true_eq] at h
    rw [h]
    exact key _ _ _ _ hr he
  · cases h
  · cases h

/-- Reducing the scalars keeps a signature that opens a lock. -/
theorem unlock_reduced {l : Lock} (hl : l.Built) {sig : RingSignature} (hf : sig.Fits)
    (h : l.unlock sig = .ok ()) : l.unlock sig.reduced = .ok () := by
  rw [unlock_eq_ok] at h ⊢
  refine ⟨h.1, ?_⟩
  obtain ⟨keys, t, hk⟩ := hl
  obtain ⟨ks, rfl, h1, -, rfl⟩ := lockNow_eq_ok.mp hk
  obtain ⟨k, ks', rfl⟩ := List.exists_cons_of_ne_nil h1
  have hne : sig.ring ≠ [] := by
    obtain ⟨p, hp, -⟩ := (h.1 k).mp (by simp)
    exact List.ne_nil_of_mem hp
  obtain ⟨a, ha⟩ := verify_canonical_e hne h.2
  have he : normSc sig.e = sig.e := by rw [ha, normSc_canon]
  have hv := h.2
  unfold RingSignature.verify at hv ⊢
  simp only [RingSignature.reduced, he, ringVerifyLoop_reduced _ _ _ _ hf]
  exact hv

/-- C29: expenses whose scalars are at most `largestFactor`, with these in reduced encoding. -/
theorem C29_expense_round_trip_partial (e : Expense) (h : e.Built) (hfit : e.Fits) :
    expenseFromJSON (some e.toJSON) = .ok e.reduced := by
  obtain ⟨hc, c, sigs, h⟩ := h
  obtain ⟨c, sg, rfl, rfl, hf, rfl⟩ := expenseNow_eq_ok.mp h
  have hs : mapO toRingSignature (sg.map RingSignature.str) = .ok (sg.map RingSignature.reduced) :=
    mapO_map_ok fun s _ => toRingSignature_str s
  simp only [expenseFromJSON, Expense.toJSON, Outcome.deref_some, Outcome.bind_ok,
    C29_content_round_trip c hc, hs]
  refine expenseNow_eq_ok.mpr ⟨_, _, rfl, rfl, ?_, ?_⟩
  · have hb : ∀ b ∈ c.source, b.lock.Built := by
      obtain ⟨a, src, l, rem, t, h, hs, -⟩ := hc
      obtain ⟨_, _, e, -, -, -, -, rfl⟩ := contentNow_eq_ok.mp h
      cases e
      exact fun b hb => (hs b hb).1
    have hfit2 : ∀ s ∈ sg, s.Fits := hfit
    clear h hc hs hfit
    revert hb
    generalize c.source = src at hf
    intro hb
    induction hf with
    | nil => simp
    | cons h1 _ ih =>
      simp only [List.map_cons, List.forall₂_cons]
      exact ⟨unlock_reduced (hb _ (by simp)) (hfit2 _ (by simp)) h1,
        ih (fun s h => hfit2 s (by simp [h])) fun b h => hb b (by simp [h])⟩
  · simp [Expense.reduced, List.map_map, Function.comp_def, reduced_str]

omit [Sha512] in
private theorem ringVerifyLoop_append (msg : Bytes) (p : C.Pt) (t : Scalar) :
    ∀ (ring : List C.Pt) (s : List Scalar) (e : Scalar), ring.length = s.length →
      ∃ e', ringVerifyLoop msg ring s e = .ok e' ∧
        ringVerifyLoop msg (ring ++ [p]) (s ++ [t]) e = .ok (ringStep msg t e' p)
  | [], [], e, _ => ⟨e, by simp [ringVerifyLoop]⟩
  | q :: qs, u :: us, e, h => by
    simpa [ringVerifyLoop] using ringVerifyLoop_append msg p t qs us (ringStep msg u e q)
      (by simpa using h)
  | [], _ :: _, _, h => by simp at h
  | _ :: _, [], _, h => by simp at h

omit [Sha512] in
/-- A valid signature whose last scalar is small can be changed so that it stays valid but is not
after reading back its text, unless the hash function has a collision at the last commitments. -/
private theorem exists_unstable {sig : RingSignature} {msg : Bytes} {ring : List C.Pt} {y last : Scalar}
    {pre : List Scalar} (hv : sig.verify msg = .ok true) (hring : sig.ring = ring ++ [publicKey y])
    (hs : sig.s = pre ++ [last]) (hlen : ring.length = pre.length) (hf : sig.Fits)
    (hsmall : leNat last.raw < 7 * 16 ^ 62)
    (hF : ∀ t : Nat, 0 < t → t ≤ 16 → (t : C.F) ≠ 0) :
    ∃ sig' : RingSignature, sig'.ring = sig.ring ∧ sig'.verify msg = .ok true ∧
      (sig'.reduced.verify msg ≠ .ok true ∨
        ∃ p q : C.Pt, commitmentAt msg sig'.ring sig'.s sig'.e ring.length = some p ∧
          commitmentAt msg sig'.reduced.ring sig'.reduced.s sig'.reduced.e ring.length = some q ∧
          p ≠ q ∧ C.hashF (msg ++ ptStr p) = C.hashF (msg ++ ptStr q)) := by
  obtain ⟨big, hbig, hmul⟩ := exists_inflated last hsmall
  obtain ⟨a, ha⟩ := verify_canonical_e (by simp [hring]) hv
  obtain ⟨rg, sc, e⟩ := sig
  simp only at hring hs ha
  subst hring hs ha
  have heff : eff (C := C) big = eff last := by rw [eff, eff, hmul]
  obtain ⟨e', h1, h2⟩ := ringVerifyLoop_append msg (publicKey y) last ring pre (C.canon a) hlen
  obtain ⟨e'', g1, g2⟩ := ringVerifyLoop_append msg (publicKey y) big ring pre (C.canon a) hlen
  rw [h1] at g1
  cases g1
  have hstep : ringStep msg big e' (publicKey y) = ringStep msg last e' (publicKey y) := by
    simp only [ringStep, mul_base_eff, heff]
  have hlast : C.canon a = ringStep msg last e' (publicKey y) := by
    simpa [RingSignature.verify, h2] using hv
  refine ⟨⟨ring ++ [publicKey y], pre ++ [big], C.canon a⟩, rfl, ?_, ?_⟩
  · simp [RingSignature.verify, g2, hstep, ← hlast]
  · by_cases hred : RingSignature.verify (RingSignature.reduced
        ⟨ring ++ [publicKey y], pre ++ [big], C.canon a⟩) msg = .ok true
    · right
      obtain ⟨e'', k1, k2⟩ := ringVerifyLoop_append msg (publicKey y) (normSc big) ring
        (pre.map normSc) (C.canon a) (by simpa using hlen)
      rw [ringVerifyLoop_reduced _ _ _ _ fun x hx => hf x (by simp [hx]), h1] at k1
      cases k1
      have hfin : C.canon a = ringStep msg (normSc big) e' (publicKey y) := by
        simpa [RingSignature.verify, RingSignature.reduced, normSc_canon, k2] using hred
      have heq : ringStep msg big e' (publicKey y) = ringStep msg (normSc big) e' (publicKey y) :=
        hstep.trans (hlast.symm.trans hfin)
      have hat : ∀ (pre' : List Scalar) (t : Scalar), ring.length = pre'.length →
          ringVerifyLoop msg ring pre' (C.canon a) = .ok e' →
          commitmentAt msg (ring ++ [publicKey y]) (pre' ++ [t]) (C.canon a) ring.length =
            some (C.add (C.mul t C.base) (C.mul e' (publicKey y))) := by
        intro pre' t hl hv'
        have h3 : challengeAt msg (ring ++ [publicKey y]) (pre' ++ [t]) (C.canon a) ring.length = e' := by
          have := ringVerifyLoop_challengeAt msg ring pre' (C.canon a) hl.le
          rw [hv', Outcome.ok.injEq] at this
          rw [this]
          exact challengeAt_append msg ring [publicKey y] pre' [t] (C.canon a) hl _ le_rfl
        have a1 : (ring ++ [publicKey y])[ring.length]? = some (publicKey y) := by simp
        have a2 : (pre' ++ [t])[ring.length]? = some t := by rw [hl]; simp
        rw [commitmentAt, h3, a1, a2]
      have hk1 : ringVerifyLoop msg ring (pre.map normSc) (C.canon a) = .ok e' := by
        rw [ringVerifyLoop_reduced _ _ _ _ fun x hx => hf x (by simp [hx]), h1]
      refine ⟨_, _, hat pre big hlen h1, ?_, ?_, canon_injective heq⟩
      · have := hat (pre.map normSc) (normSc big) (by simpa using hlen) hk1
        simpa [RingSignature.reduced, normSc_canon] using this
      · intro h
        simp only [publicKey, mul_base_eff, mul_pt_eff, add_pt, normSc, eff_canon] at h
        have hne := eff_ne_val (C := C) (s := big) (not_fits_of_le (by omega)) hF
        exact hne (add_right_cancel (pt_injective h))
    · exact .inl hred

/-- C29 (negation of "every expense survives"): from an expense whose first signature has a small
last scalar, anyone can make another expense with the same content, accepted by the builder, that is
lost when written as JSON and read back: a signature no longer opens its bill, unless the hash
function of the signatures has a collision: the two different last commitments of the signature before
and after get the same hash. No private key is needed. -/
theorem C29_large_scalar_neg (e : Expense) (h : e.Built) (hfit : e.Fits) (sig : RingSignature)
    (rest : List RingSignature) (hsigs : e.signatures = sig :: rest) (ring : List C.Pt) (y : Scalar)
    (pre : List Scalar) (last : Scalar) (hring : sig.ring = ring ++ [publicKey y])
    (hs : sig.s = pre ++ [last]) (hlen : ring.length = pre.length)
    (hsmall : leNat last.raw < 7 * 16 ^ 62) (hF : ∀ t : Nat, 0 < t → t ≤ 16 → (t : C.F) ≠ 0) :
    ∃ e' : Expense, e'.Built ∧ e'.content = e.content ∧
      ((∀ x, expenseFromJSON (some e'.toJSON) ≠ .ok x) ∨
        ∃ b sig' p q, e.content.source.head? = some b ∧ e'.signatures = sig' :: rest ∧
          commitmentAt b.lock.hash.str sig'.ring sig'.s sig'.e ring.length = some p ∧
          commitmentAt b.lock.hash.str sig'.reduced.ring sig'.reduced.s sig'.reduced.e ring.length =
            some q ∧
          p ≠ q ∧ C.hashF (b.lock.hash.str ++ ptStr p) = C.hashF (b.lock.hash.str ++ ptStr q)) := by
  obtain ⟨hc, c, sigs, h⟩ := h
  obtain ⟨c, sg, rfl, rfl, hf, rfl⟩ := expenseNow_eq_ok.mp h
  simp only at hsigs hc
  subst hsigs
  cases hsrc : c.source with
  | nil => rw [hsrc] at hf; simp at hf
  | cons b bs =>
    rw [hsrc, List.forall₂_cons] at hf
    have hopen := unlock_eq_ok.mp hf.1
    obtain ⟨sig', k1, k2, k3⟩ := exists_unstable hopen.2 hring hs hlen (hfit sig (by simp)) hsmall hF
    have hopen' : b.lock.unlock sig' = .ok () := unlock_eq_ok.mpr ⟨by rw [k1]; exact hopen.1, k2⟩
    have hnow := (expenseNow_eq_ok (c := some c) (sigs := some (sig' :: rest))).mpr
      ⟨_, _, rfl, rfl, by rw [hsrc]; exact .cons hopen' hf.2, rfl⟩
    refine ⟨_, ⟨hc, _, _, hnow⟩, rfl, ?_⟩
    rcases k3 with k3 | ⟨p, q, k3⟩
    · left
      intro x hx
      have hm : mapO toRingSignature ((sig' :: rest).map RingSignature.str) =
          .ok ((sig' :: rest).map RingSignature.reduced) :=
        mapO_map_ok fun s _ => toRingSignature_str s
      simp only [expenseFromJSON, Expense.toJSON, Outcome.deref_some, Outcome.bind_ok,
        C29_content_round_trip c hc, hm] at hx
      obtain ⟨_, _, e1, e2, hf', -⟩ := expenseNow_eq_ok.mp hx
      cases e1; cases e2
      rw [hsrc, List.map_cons, List.forall₂_cons] at hf'
      exact k3 (unlock_eq_ok.mp hf'.1).2
    · exact .inr ⟨b, sig', p, q, by simp, rfl, k3⟩

/-- C29: transactions whose scalars are at most `largestFactor`, with these in reduced encoding. -/
theorem C29_transaction_round_trip_partial (x : Transaction) (h : x.Built) (hfit : x.Fits) :
    trxFromJSON (some x.toJSON) = .ok x.reduced := by
  obtain ⟨ha, hf, a, b, f, t, h⟩ := h
  obtain ⟨hne, rfl⟩ := trxNow_eq_ok.mp h
  have hfees : mapO expenseFromJSON (f.map fun e => some e.toJSON) = .ok (f.map Expense.reduced) :=
    mapO_map_ok fun e he => C29_expense_round_trip_partial e (hf e he) (hfit e he)
  have haddr : optO (fun a => addressFromJSON (some a)) (a.map Address.toJSON) = .ok a := by
    cases a with
    | none => rfl
    | some a => simp [optO, C29_address_round_trip a (ha a rfl)]
  simp only [trxFromJSON, Transaction.toJSON, Outcome.deref_some, Outcome.bind_ok,
    optFromString_optStr, hfees, haddr]
  have hh : (f.map Expense.reduced).map Expense.hash = f.map Expense.hash := by
    simp [List.map_map, Function.comp_def, Expense.reduced]
  refine trxNow_eq_ok.mpr ⟨by rw [hh]; exact hne, ?_⟩
  rw [hh]
  rfl

/-- C29: blocks whose scalars are at most `largestFactor`, with these in reduced encoding. -/
theorem C29_block_round_trip_partial (b : Block) (h : b.Built) (hfit : b.Fits) :
    blockFromJSON (some b.toJSON) = .ok b.reduced := by
  obtain ⟨hg, hx, g, n, x, t, h⟩ := h
  obtain ⟨g, x, rfl, rfl, hne, rfl⟩ := blockNow_eq_ok.mp h
  have htrx : mapO trxFromJSON (x.map fun e => some e.toJSON) = .ok (x.map Transaction.reduced) :=
    mapO_map_ok fun e he => C29_transaction_round_trip_partial e (hx e he) (hfit e he)
  simp only [blockFromJSON, Block.toJSON, Outcome.deref_some, Outcome.bind_ok, htrx,
    C29_genesis_round_trip g hg]
  have hh : (x.map Transaction.reduced).map Transaction.hash = x.map Transaction.hash := by
    simp [List.map_map, Function.comp_def, Transaction.reduced]
  refine blockNow_eq_ok.mpr ⟨_, _, rfl, rfl, by simpa using hne, ?_⟩
  rw [hh]
  rfl

/-- C29: links whose scalars are at most `largestFactor`, with these in reduced encoding. -/
theorem C29_link_round_trip_partial (l : Link) (h : l.Built) (hfit : l.Fits) :
    linkFromJSON (some l.toJSON) = .ok l.reduced := by
  obtain ⟨hn, p, n, i, t, h⟩ := h
  obtain ⟨p, n, rfl, rfl, rfl⟩ := linkNow_eq_ok.mp h
  simp only [linkFromJSON, Link.toJSON, Outcome.deref_some, Outcome.bind_ok, fromString_str,
    C29_block_round_trip_partial n hn hfit]
  exact linkNow_eq_ok.mpr ⟨_, _, rfl, rfl, rfl⟩

/-- C29: mined links whose scalars are at most `largestFactor`, with these in reduced encoding. -/
theorem C29_mined_link_round_trip_partial (l : MinedLink) (h : l.Built) (hfit : l.Fits) :
    minedLinkFromJSON (some l.toJSON) = .ok l.reduced := by
  obtain ⟨hn, hu, k, m, t, h⟩ := h
  obtain ⟨k, rfl, rfl⟩ := minedLinkNow_eq_ok.mp h
  simp only [minedLinkFromJSON, MinedLink.toJSON, Outcome.deref_some, Outcome.bind_ok,
    jsonText_of_utf8 hu, C29_link_round_trip_partial k hn hfit]
  exact minedLinkNow_eq_ok.mpr ⟨_, rfl, rfl⟩

/-- C29: the builder takes any mining text, and one that is not valid UTF-8 does not survive. -/
theorem C29_invalid_mining_text_neg (k : Link) (hk : k.Built) (hf : k.Fits) (m : Bytes) (hm : ¬ Utf8 m) (t : Time)
    (l : MinedLink) (hl : minedLinkNow (some k) m t = .ok l) :
    ∃ l', minedLinkFromJSON (some l.toJSON) = .ok l' ∧ l'.mining ≠ l.mining := by
  obtain ⟨k, e, rfl⟩ := minedLinkNow_eq_ok.mp hl
  cases e
  simp only [minedLinkFromJSON, MinedLink.toJSON, Outcome.deref_some, Outcome.bind_ok,
    C29_link_round_trip_partial k hk hf]
  exact ⟨_, minedLinkNow_eq_ok.mpr ⟨_, rfl, rfl⟩, fun h => hm ((jsonText_eq_iff _).mp h)⟩

omit [Sha512] in
theorem reduced_of_canonical {sig : RingSignature} (h : sig.Canonical) : sig.reduced = sig := by
  obtain ⟨hs, a, ha⟩ := h
  have : sig.s.map normSc = sig.s := by
    conv_rhs => rw [← List.map_id sig.s]
    apply List.map_congr_left
    intro s hs'
    obtain ⟨b, rfl⟩ := hs s hs'
    simpa using normSc_canon b
  have he : normSc sig.e = sig.e := by rw [ha, normSc_canon]
  cases sig
  simp only [RingSignature.reduced] at this he ⊢
  rw [this, he]

omit [Sha512] C in
private theorem map_eq_self {α : Type} {f : α → α} {l : List α} (h : ∀ x ∈ l, f x = x) :
    l.map f = l := by
  conv_rhs => rw [← List.map_id l]
  exact List.map_congr_left fun x hx => by simpa using h x hx

omit [Sha512] in
theorem Expense.reduced_of_canonical {e : Expense} (h : e.Canonical) : e.reduced = e := by
  have : e.signatures.map RingSignature.reduced = e.signatures :=
    map_eq_self fun s hs => Verif.reduced_of_canonical (h s hs)
  cases e
  simp only [Expense.reduced] at this ⊢
  rw [this]

omit [Sha512] in
theorem Transaction.reduced_of_canonical {x : Transaction} (h : x.Canonical) : x.reduced = x := by
  have : x.fees.map Expense.reduced = x.fees :=
    map_eq_self fun s hs => Expense.reduced_of_canonical (h s hs)
  cases x
  simp only [Transaction.reduced] at this ⊢
  rw [this]

omit [Sha512] in
theorem Block.reduced_of_canonical {b : Block} (h : b.Canonical) : b.reduced = b := by
  have : b.trx.map Transaction.reduced = b.trx :=
    map_eq_self fun s hs => Transaction.reduced_of_canonical (h s hs)
  cases b
  simp only [Block.reduced] at this ⊢
  rw [this]

omit [Sha512] in
/-- C29: when all scalars are in reduced encoding, as in every signature made by `RingSign`
(`C29_ring_sign_canonical`), reducing changes nothing: the round trips above give back equal
objects. -/
theorem C29_reduced_of_canonical (e : Expense) (x : Transaction) (b : Block) :
    (e.Canonical → e.reduced = e) ∧ (x.Canonical → x.reduced = x) ∧
    (b.Canonical → b.reduced = b) :=
  ⟨Expense.reduced_of_canonical, Transaction.reduced_of_canonical, Block.reduced_of_canonical⟩

omit [Sha512] in
/-- C29: signatures made by `RingSign` have reduced scalars. -/
theorem C29_ring_sign_canonical (x : Scalar) (msg : Bytes) (ring : List C.Pt) (sig : RingSignature)
    (h : ringSign x msg ring = .ok sig) : sig.Canonical := by
  have h1 := C15_signed_round_trip x msg ring sig h
  rw [toRingSignature_str] at h1
  cases sig with
  | mk r s e =>
    simp only [Outcome.ok.injEq, RingSignature.mk.injEq, true_and] at h1
    refine ⟨?_, _, h1.2.symm⟩
    intro y hy
    rw [← h1.1, List.mem_map] at hy
    obtain ⟨z, -, rfl⟩ := hy
    exact ⟨_, rfl⟩

/-! ## C30 -/

omit C in
/-- C30: decoded locks, bills, contents, geneses and addresses come out of the builders, at every
level, so their hashes are computed from the decoded fields. -/
theorem C30_decoded_built :
    (∀ js l, lockFromJSON js = .ok l → l.Built) ∧
    (∀ js b, billFromJSON js = .ok b → b.Built) ∧
    (∀ js c, contentFromJSON js = .ok c → c.Built) ∧
    (∀ js g, genesisFromJSON js = .ok g → g.Built) ∧
    (∀ js a, addressFromJSON js = .ok a → a.Built) := by
  have hl : ∀ js l, lockFromJSON js = .ok l → l.Built := by
    intro js l h
    simp only [lockFromJSON, Outcome.bind_eq_ok] at h
    obtain ⟨ins, -, ks, -, h⟩ := h
    exact ⟨_, _, h⟩
  have hb : ∀ js b, billFromJSON js = .ok b → b.Built := by
    intro js b h
    simp only [billFromJSON, Outcome.bind_eq_ok] at h
    obtain ⟨ins, -, l, h1, h⟩ := h
    obtain ⟨_, e, -, rfl⟩ := billNow_eq_ok.mp h
    cases e
    exact ⟨hl _ _ h1, _, _, _, h⟩
  refine ⟨hl, hb, ?_, ?_, ?_⟩
  · intro js c h
    simp only [contentFromJSON, Outcome.bind_eq_ok] at h
    obtain ⟨ins, -, src, h1, d, h2, r, h3, h⟩ := h
    refine ⟨_, _, _, _, _, h, ?_, (hb _ _ h2).1, ?_⟩
    · intro b hbm
      obtain ⟨x, -, hx⟩ := mapO_mem_right h1 b hbm
      exact hb _ _ hx
    · intro k hk
      rcases optO_eq_ok.mp h3 with ⟨-, rfl⟩ | ⟨a, b, -, rfl, h4⟩
      · simp at hk
      · simp only [Option.map_some, Option.some.injEq] at hk
        exact hk ▸ (hb _ _ h4).1
  · intro js g h
    simp only [genesisFromJSON, Outcome.bind_eq_ok] at h
    obtain ⟨ins, -, b, h1, h⟩ := h
    obtain ⟨_, e, -, -, -, rfl⟩ := genesisNow_eq_ok.mp h
    cases e
    exact ⟨hb _ _ h1, _, _, _, _, _, h⟩
  · intro js a h
    simp only [addressFromJSON, Outcome.bind_eq_ok] at h
    obtain ⟨ins, -, s, -, r, -, j, -, h⟩ := h
    exact ⟨_, _, _, _, h⟩

/-- C30: the same for expenses (whose signatures have therefore been checked again), transactions,
blocks, links and mined links. -/
theorem C30_decoded_built_signed :
    (∀ js e, expenseFromJSON js = .ok e → e.Built) ∧
    (∀ js x, trxFromJSON js = .ok x → x.Built) ∧
    (∀ js b, blockFromJSON js = .ok b → b.Built) ∧
    (∀ js l, linkFromJSON js = .ok l → l.Built) ∧
    (∀ js l, minedLinkFromJSON js = .ok l → l.Built) := by
  obtain ⟨-, -, hcnt, hgen, haddr⟩ := C30_decoded_built
  have he : ∀ js e, expenseFromJSON js = .ok e → e.Built := by
    intro js e h
    simp only [expenseFromJSON, Outcome.bind_eq_ok] at h
    obtain ⟨ins, -, c, h1, s, -, h⟩ := h
    obtain ⟨_, _, e', -, -, rfl⟩ := expenseNow_eq_ok.mp h
    cases e'
    exact ⟨hcnt _ _ h1, _, _, h⟩
  have hx : ∀ js x, trxFromJSON js = .ok x → x.Built := by
    intro js x h
    simp only [trxFromJSON, Outcome.bind_eq_ok] at h
    obtain ⟨ins, -, b, -, f, h1, a, h2, h⟩ := h
    obtain ⟨-, rfl⟩ := trxNow_eq_ok.mp h
    refine ⟨?_, ?_, _, _, _, _, h⟩
    · intro k hk
      rcases optO_eq_ok.mp h2 with ⟨-, rfl⟩ | ⟨a, b, -, rfl, h4⟩
      · simp at hk
      · cases hk
        exact haddr _ _ h4
    · intro e hem
      obtain ⟨y, -, hy⟩ := mapO_mem_right h1 e hem
      exact he _ _ hy
  have hb : ∀ js b, blockFromJSON js = .ok b → b.Built := by
    intro js b h
    simp only [blockFromJSON, Outcome.bind_eq_ok] at h
    obtain ⟨ins, -, x, h1, g, h2, h⟩ := h
    obtain ⟨_, _, e, e', -, rfl⟩ := blockNow_eq_ok.mp h
    cases e; cases e'
    refine ⟨hgen _ _ h2, ?_, _, _, _, _, h⟩
    intro e hem
    obtain ⟨y, -, hy⟩ := mapO_mem_right h1 e hem
    exact hx _ _ hy
  have hl : ∀ js l, linkFromJSON js = .ok l → l.Built := by
    intro js l h
    simp only [linkFromJSON, Outcome.bind_eq_ok] at h
    obtain ⟨ins, -, p, -, n, h1, h⟩ := h
    obtain ⟨_, _, e, e', rfl⟩ := linkNow_eq_ok.mp h
    cases e; cases e'
    exact ⟨hb _ _ h1, _, _, _, _, h⟩
  refine ⟨he, hx, hb, hl, ?_⟩
  intro js l h
  simp only [minedLinkFromJSON, Outcome.bind_eq_ok] at h
  obtain ⟨ins, -, k, h1, h⟩ := h
  obtain ⟨_, e, rfl⟩ := minedLinkNow_eq_ok.mp h
  cases e
  exact ⟨hl _ _ h1, jsonText_utf8 _, _, _, _, h⟩

/-- C30: the recomputed hashes, spelled out. No hash of a decoded object is taken from the JSON
structure. -/
theorem C30_hash_recomputed :
    (∀ js l, lockFromJSON js = .ok l → l.hash = fromBytes (hashesBytes l.pubKeys)) ∧
    (∀ js b, billFromJSON js = .ok b → b.hash = fromBytes (b.lock.hash.bytes ++ itoaU b.amount)) ∧
    (∀ js g, genesisFromJSON js = .ok g → g.hash = fromBytes (itoaU g.blockBase ++
      (fmtF12 g.blockIncrease ++ (itoaU g.link ++ g.bill.hash.bytes)))) ∧
    (∀ js e, expenseFromJSON js = .ok e → e.hash = fromBytes (e.content.hash.bytes ++
      (e.signatures.map RingSignature.str).flatten)) ∧
    (∀ js x, trxFromJSON js = .ok x → x.hash = fromBytes (hashesBytes x.parts)) ∧
    (∀ js b, blockFromJSON js = .ok b → b.hash = fromBytes (b.genesis.hash.bytes ++
      (itoaU b.additional ++ hashesBytes (b.trx.map Transaction.hash)))) ∧
    (∀ js l, linkFromJSON js = .ok l → l.hash = fromBytes (l.prevLink.bytes ++
      (l.next.hash.bytes ++ itoaU l.index))) ∧
    (∀ js l, minedLinkFromJSON js = .ok l → l.hash = fromBytes (l.link.hash.bytes ++ l.mining)) := by
  obtain ⟨hl, hb, -, hg, -⟩ := C30_decoded_built
  obtain ⟨he, hx, hbl, hlk, hml⟩ := C30_decoded_built_signed
  refine ⟨?_, ?_, ?_, ?_, ?_, ?_, ?_, ?_⟩
  · intro js l h
    obtain ⟨_, _, h⟩ := hl _ _ h
    obtain ⟨_, -, -, -, rfl⟩ := lockNow_eq_ok.mp h
    rfl
  · intro js l h
    obtain ⟨-, _, _, _, h⟩ := hb _ _ h
    obtain ⟨_, -, -, rfl⟩ := billNow_eq_ok.mp h
    rfl
  · intro js l h
    obtain ⟨-, _, _, _, _, _, h⟩ := hg _ _ h
    obtain ⟨_, -, -, -, -, rfl⟩ := genesisNow_eq_ok.mp h
    rfl
  · intro js l h
    obtain ⟨-, _, _, h⟩ := he _ _ h
    obtain ⟨_, _, -, -, -, rfl⟩ := expenseNow_eq_ok.mp h
    rfl
  · intro js l h
    obtain ⟨-, -, _, _, _, _, h⟩ := hx _ _ h
    obtain ⟨-, rfl⟩ := trxNow_eq_ok.mp h
    rfl
  · intro js l h
    obtain ⟨-, -, _, _, _, _, h⟩ := hbl _ _ h
    obtain ⟨_, _, -, -, -, rfl⟩ := blockNow_eq_ok.mp h
    rfl
  · intro js l h
    obtain ⟨-, _, _, _, _, h⟩ := hlk _ _ h
    obtain ⟨_, _, -, -, rfl⟩ := linkNow_eq_ok.mp h
    rfl
  · intro js l h
    obtain ⟨-, -, _, _, _, h⟩ := hml _ _ h
    obtain ⟨_, -, rfl⟩ := minedLinkNow_eq_ok.mp h
    rfl

/-- C30: a JSON structure without its nested object makes the decoder panic. -/
theorem C30_missing_part_panics (a : UInt64) (t : Time) (incr : Flt) (base link : UInt64)
    (sigs : List Bytes) (m : Bytes) (p : Hash) (src : List Bill) (hs : ∀ b ∈ src, b.Built)
    (rem : Option JSONBill) (trx : List Transaction) (hx : ∀ x ∈ trx, x.Built)
    (hf : ∀ x ∈ trx, x.Fits) :
    billFromJSON (some ⟨none, a, t⟩) = .crash .nilDeref ∧
    contentFromJSON (some ⟨src.map fun b => some b.toJSON, none, rem, t⟩) = .crash .nilDeref ∧
    genesisFromJSON (some ⟨none, link, base, incr, t⟩) = .crash .nilDeref ∧
    expenseFromJSON (some ⟨none, sigs⟩) = .crash .nilDeref ∧
    blockFromJSON (some ⟨none, trx.map fun x => some x.toJSON, a, t⟩) = .crash .nilDeref ∧
    linkFromJSON (some ⟨p.str, none, a, t⟩) = .crash .nilDeref ∧
    minedLinkFromJSON (some ⟨none, m, t⟩) = .crash .nilDeref := by
  have h1 : mapO billFromJSON (src.map fun b => some b.toJSON) = .ok (src.map id) :=
    mapO_map_ok fun b hb => C29_bill_round_trip b (hs b hb)
  have h2 : mapO trxFromJSON (trx.map fun b => some b.toJSON) = .ok (trx.map Transaction.reduced) :=
    mapO_map_ok fun b hb => C29_transaction_round_trip_partial b (hx b hb) (hf b hb)
  refine ⟨?_, ?_, ?_, ?_, ?_, ?_, ?_⟩
  · simp [billFromJSON, lockFromJSON]
  · simp [contentFromJSON, h1, billFromJSON]
  · simp [genesisFromJSON, billFromJSON]
  · simp [expenseFromJSON, contentFromJSON]
  · simp [blockFromJSON, h2, genesisFromJSON]
  · simp [linkFromJSON, blockFromJSON]
  · simp [minedLinkFromJSON, linkFromJSON]

/-- From a lock and a signature that opens it, an expense. -/
theorem exists_expense {l : Lock} (hl : l.Built) {sig : RingSignature} (h : l.unlock sig = .ok ()) :
    ∃ e : Expense, e.Built ∧ e.signatures = [sig] := by
  have hb := billNow_eq_ok (t := 0).mpr ⟨l, rfl, (by decide : 0 < (5 : UInt64).toNat), rfl⟩
  have hs : ∀ b : Bill, b.amount = 5 → sourceTotal [b] = 5 := by
    intro b hb; simp [sourceTotal, hb]
  have hcn := contentNow_eq_ok (rem := none) (t := 0).mpr ⟨[⟨fromBytes (l.hash.bytes ++ itoaU 5), l, 5, 0⟩], l, rfl,
    rfl, (by decide : 0 < (5 : UInt64).toNat), by rw [hs _ rfl], by rw [hs _ rfl]; simp, rfl⟩
  refine ⟨_, ⟨⟨_, _, _, _, _, hcn, ?_, hl, by simp⟩, _, _,
    expenseNow_eq_ok.mpr ⟨_, [sig], rfl, rfl, by simpa using h, rfl⟩⟩, rfl⟩
  intro b hb'
  simp only [List.mem_singleton] at hb'
  subst hb'
  exact ⟨hl, _, _, _, hb⟩

/-! ## C67 -/

variable [FloatText]

/-- C67 (negation of "`Decode` fails on texts that encode no mined link"): `Decode` returns an error
exactly on texts that are not base64. On base64 of a text that is no JSON object of the right shape
it returns, with a nil error, an empty link whose `Hash` panics. -/
theorem C67_decode_drops_errors_neg (text : Bytes) :
    ((decodeMinedLink text).isErr = true ↔ b64Decode text = none) ∧
    (∀ js, b64Decode text = some js → jMinedLinkC.read js = none →
      decodeMinedLink text = .ok none) ∧
    (∀ js, b64Decode text = some js → parseJson js = none → decodeMinedLink text = .ok none) ∧
    (decodedHash none = .crash .nilDeref) := by
  refine ⟨?_, ?_, ?_, rfl⟩
  · unfold decodeMinedLink
    cases b64Decode text with
    | none => simp
    | some js =>
      cases hu : jMinedLinkC.read js with
      | none => simp [hu]
      | some ins =>
        simp only [hu, reduceCtorEq, iff_false]
        cases minedLinkFromJSON (some ins) <;> simp
  · intro js h1 h2
    simp [decodeMinedLink, h1, h2]
  · intro js h1 h2
    simp [decodeMinedLink, h1, Codec.read, h2]

omit [Sha512] C in
theorem minedLink_text_ne_nil {l : JSONMinedLink} {js : Bytes} (h : jMinedLinkC.text l = some js) :
    js ≠ [] := by
  unfold Codec.text jMinedLinkC structC at h
  simp only [Option.map_map, Option.map_eq_some_iff, Function.comp] at h
  obtain ⟨ms, -, rfl⟩ := h
  cases ms <;> simp [Json.render]

omit [Sha512] C [FloatText] in
theorem b64Encode_ne_nil {b : Bytes} (h : b ≠ []) : b64Encode b ≠ [] := by
  intro e
  have h1 := b64Decode_encode b
  rw [e] at h1
  have h2 : b64Decode [] = some [] := b64Decode_encode []
  rw [h2] at h1
  exact h (Option.some.inj h1).symm

omit [Sha512] in
/-- `Encode` writes the JSON text exactly if there is one. -/
theorem encode_eq (l : MinedLink) :
    (encodeMinedLink l = .ok [] ↔ ¬ jMinedLinkC.Writes l.toJSON) ∧
    ∀ js, jMinedLinkC.text l.toJSON = some js → encodeMinedLink l = .ok (b64Encode js) := by
  rw [Codec.writes_iff]
  unfold encodeMinedLink
  cases h : jMinedLinkC.text l.toJSON with
  | none => simp
  | some js =>
    have := b64Encode_ne_nil (minedLink_text_ne_nil h)
    simp [this]

/-- C67 (negation, `Encode`): when the link cannot be marshalled, that is when the difficulty in its
genesis is NaN or infinite or one of its times is not in the years 0 to 9999, and only then, `Encode`
returns the empty text with a nil error; decoding it gives the empty link. -/
theorem C67_encode_drops_errors_neg (l : MinedLink) :
    (encodeMinedLink l = .ok [] ↔
      ¬ (l.link.next.genesis.blockIncrease.marshals = true ∧ ∀ t ∈ l.times, Dated t)) ∧
    decodeMinedLink (C := C) [] = .ok none := by
  refine ⟨?_, ?_⟩
  · rw [(encode_eq l).1, jMinedLinkC_writes]
  · have hd : b64Decode [] = some [] := b64Decode_encode []
    exact (C67_decode_drops_errors_neg []).2.2.1 [] hd rfl

/-- C67: encoding a mined link with a finite difficulty and times in the years 0 to 9999 and decoding
the text returns the link, with the scalars of its signatures in reduced encoding. -/
theorem C67_encode_decode_partial (l : MinedLink) (hl : l.Built) (hf : l.Fits)
    (hq : l.link.next.genesis.blockIncrease.IsFloat)
    (hm : l.link.next.genesis.blockIncrease.marshals = true) (ht : ∀ t ∈ l.times, Dated t) :
    ∃ text, text ≠ [] ∧ encodeMinedLink l = .ok text ∧
      decodeMinedLink text = .ok (some l.reduced) := by
  obtain ⟨js, h⟩ := Codec.writes_iff.mp ((jMinedLinkC_writes l).mpr ⟨hm, ht⟩)
  refine ⟨b64Encode js, b64Encode_ne_nil (minedLink_text_ne_nil h), (encode_eq l).2 js h, ?_⟩
  have hg : jMinedLinkC.Good l.toJSON := by
    refine jMinedLinkC_good _ ?_
    rintro k ⟨⟩ b ⟨⟩ g ⟨⟩
    exact hq
  have hu : jMinedLinkC.norm l.toJSON = l.toJSON := by
    rw [jMinedLinkC_norm, jsonText_of_utf8 hl.2.1]
    rfl
  have hr := hg.read h
  rw [hu] at hr
  unfold decodeMinedLink
  rw [b64Decode_encode]
  simp only [hr, C29_mined_link_round_trip_partial l hl hf]

/-- C67: what `Decode` returns, when it returns a link, has been rebuilt: its hash is computed from
its content. -/
theorem C67_decoded_built (text : Bytes) (l : MinedLink)
    (h : decodeMinedLink text = .ok (some l)) : l.Built := by
  unfold decodeMinedLink at h
  split at h
  · cases h
  · split at h
    · cases h
    · split at h
      · rename_i k hk
        cases h
        exact C30_decoded_built_signed.2.2.2.2 _ _ hk
      · cases h
      · cases h

end

section examples

attribute [local instance] toyCurve toySha

theorem toyGenesis_built : toyGenesis.Built :=
  ⟨toyBill_built 1 5 (by decide), _, _, _, _, _, toyGenesis_now⟩

theorem toyTrx_built (n : UInt8) : (toyTrx n).Built :=
  ⟨by simp [toyTrx], by simp [toyTrx], _, _, _, _, toyTrx_now n⟩

/-- A toy block with two transactions. -/
def toyBlock : Block :=
  ⟨fromBytes (toyGenesis.hash.bytes ++ (itoaU 4 ++
    hashesBytes ([toyTrx 1, toyTrx 2].map Transaction.hash))), toyGenesis, 4, [toyTrx 1, toyTrx 2], 0⟩

theorem toyBlock_built : toyBlock.Built := by
  refine ⟨toyGenesis_built, ?_, _, _, _, _, blockNow_eq_ok (n := 4) (t := 0).mpr ⟨_, _, rfl, rfl,
    by simp, rfl⟩⟩
  intro x hx
  simp only [toyBlock, List.mem_cons, List.not_mem_nil, or_false] at hx
  rcases hx with rfl | rfl <;> exact toyTrx_built _

/-- A toy link to that block. -/
def toyLink : Link :=
  ⟨fromBytes ((toyHash 1).bytes ++ (toyBlock.hash.bytes ++ itoaU 7)), toyHash 1, toyBlock, 7, 0⟩

theorem toyLink_built : toyLink.Built :=
  ⟨toyBlock_built, _, _, _, _, linkNow_eq_ok (i := 7) (t := 0).mpr ⟨_, _, rfl, rfl, rfl⟩⟩

/-- The mined form of the toy link. -/
def toyMinedLink : MinedLink := ⟨fromBytes (toyLink.hash.bytes ++ [48]), toyLink, [48], 0⟩

/-- C29, C30, C67: built blocks, links and mined links exist. -/
theorem toyMinedLink_built : toyMinedLink.Built :=
  ⟨toyLink_built, utf8_of_ascii (by decide), _, _, _, minedLinkNow_eq_ok (m := [48]) (t := 0).mpr ⟨_, rfl, rfl⟩⟩

theorem toyMinedLink_fits : toyMinedLink.Fits := by
  simp [MinedLink.Fits, Link.Fits, Block.Fits, toyMinedLink, toyLink, toyBlock, Transaction.Fits,
    toyTrx]

/-- C29: a single byte FF is no valid text. -/
example : ¬ Utf8 [255] := fun h => absurd ((jsonText_eq_iff _).mpr h) (by
  rw [jsonText]; simp [runeSize, inRange])

/-- C29: an expense with a real ring signature round-trips to an equal expense. -/
example : ∃ e : Expense, e.Built ∧ e.signatures ≠ [] ∧ e.Canonical := by
  obtain ⟨l, sig, h1, h2, h3⟩ := C21_unlock_complete_partial [publicKey (toySc 1),
    publicKey (toySc 2)] (by decide) (toySc 2) (by decide) (by simp) 0
  have hc := C29_ring_sign_canonical _ _ _ _ h2
  obtain ⟨e, he, hs⟩ := exists_expense ⟨_, _, h1⟩ h3
  refine ⟨e, he, by simp [hs], ?_⟩
  intro s hs'
  rw [hs, List.mem_singleton] at hs'
  rw [hs']
  exact hc

/-- C29: an expense that can be changed into one that does not survive. -/
example : ∃ (C : Curve) (e : Expense) (sig : RingSignature) (ring : List C.Pt) (y : Scalar)
    (pre : List Scalar) (last : Scalar), e.Built ∧ e.Fits ∧ e.signatures = [sig] ∧
      sig.ring = ring ++ [publicKey y] ∧ sig.s = pre ++ [last] ∧ ring.length = pre.length ∧
      leNat last.raw < 7 * 16 ^ 62 ∧ ∀ t : Nat, 0 < t → t ≤ 16 → (t : C.F) ≠ 0 := by
  let _ := toyCurve17
  obtain ⟨l, sig, h1, h2, h3⟩ := C21_unlock_complete_partial [publicKey (toySc 1),
    publicKey (toySc 2)] (by decide) (toySc 2) (by decide) (by simp) 0
  obtain ⟨hc, -⟩ := C29_ring_sign_canonical _ _ _ _ h2
  obtain ⟨sig', g1, g2, g3, -⟩ := ringSign_verifies (toySc 2) l.hash.str [publicKey (toySc 1),
    publicKey (toySc 2)] (by simp)
  rw [h2] at g1
  cases g1
  obtain ⟨e, he, hs⟩ := exists_expense ⟨_, _, h1⟩ h3
  obtain ⟨a, b, hab⟩ : ∃ a b, sig.s = [a, b] := by
    match h : sig.s with
    | [a, b] => exact ⟨a, b, rfl⟩
    | [] | [_] | _ :: _ :: _ :: _ => simp [h] at g3
  refine ⟨toyCurve17, e, sig, [publicKey (toySc 1)], toySc 2, [a], b, he, ?_, hs, g2, hab, by simp, ?_,
    toy17_digits⟩
  · intro s hs' x hx
    rw [hs, List.mem_singleton] at hs'
    rw [hs'] at hx
    obtain ⟨v, rfl⟩ := hc x hx
    exact toyCurve17.canon_fits v
  · obtain ⟨v, rfl⟩ := hc b (by simp [hab])
    have : ∀ v : ZMod 17, leNat (toyCurve17.canon v).raw < 7 * 16 ^ 62 := by decide
    exact this v

/-- C67: the toy link is encoded and decoded. -/
example : ∃ (_F : FloatText) (text : Bytes), text ≠ [] ∧ encodeMinedLink toyMinedLink = .ok text ∧
    decodeMinedLink text = .ok (some toyMinedLink.reduced) := by
  let _ := FloatText.decimal
  refine ⟨_, C67_encode_decode_partial _ toyMinedLink_built toyMinedLink_fits ?_ rfl ?_⟩
  · refine ⟨⟨1, -1, by norm_num, by norm_num, ?_⟩, ?_⟩
    · norm_num
    · rw [abs_of_pos (by norm_num)]
      exact lt_of_lt_of_le (by norm_num) (one_le_pow₀ (n := 1024) (by norm_num : (1 : ℚ) ≤ 2))
  · have h0 : Dated 0 := by decide
    intro t ht
    suffices t = 0 by rw [this]; exact h0
    simpa [MinedLink.times, Link.times, Block.times, Genesis.times, Bill.times, Lock.times,
      Transaction.times, toyMinedLink, toyLink, toyBlock, toyGenesis, toyTrx, toyBill, toyLock] using ht

/-- C67: a difficulty that is not finite. -/
example : Flt.nan.marshals = false := rfl

/-- C67: malformed texts give empty links. -/
example [FloatText] : decodeMinedLink (C := toyCurve) (b64Encode [2]) = .ok none :=
  (C67_decode_drops_errors_neg _).2.2.1 [2] (b64Decode_encode _) (by decide +kernel)

end examples

end Verif
