import Verif.Model.SigLemmas
import Verif.Props.Toy
import Verif.Spec.Ring

/-!
# Properties of `libs/cryptography/pk/signature` (C12 - C18, C71, C72, C85)
-/

namespace Verif

section
variable [C : Curve]

/-! ## C12 -/

/-- What `Sign` makes. -/
private def made (x : Scalar) (msg : Bytes) : Signature :=
  ⟨C.mul (genK x msg) C.base, C.canon (C.val (genK x msg) - C.val (C.canon
    (C.val (createHash (msg ++ ptStr (C.mul (genK x msg) C.base))) * C.val x)))⟩

private theorem signed (x : Scalar) (msg nonce : Bytes)
    (hn : C.hashF (nonce ++ ptStr (C.mul (genK x msg) C.base)) ≠ 0) :
    sign x msg nonce = .ok (made x msg) := by
  have hv : (made x msg).verify nonce = true := by
    simp only [made, Signature.verify, Signature.publicKey, beq_iff_eq]
    simp only [mul_base_eff, sub_pt, mul_pt_eff, createHash, C.val_canon, eff_canon] at hn ⊢
    congr 2
    field_simp
    ring
  simp only [made] at hv ⊢
  simp [sign, createSignature, hv]

private theorem recovered (x : Scalar) (msg : Bytes)
    (hm : C.hashF (msg ++ ptStr (C.mul (genK x msg) C.base)) ≠ 0) :
    (made x msg).publicKey msg = pt (C.val x) := by
  have hk : eff (genK x msg) = C.val (genK x msg) := eff_of_fits (C.canon_fits _)
  simp only [made, Signature.publicKey]
  simp only [mul_base_eff, sub_pt, mul_pt_eff, createHash, C.val_canon, eff_canon, hk] at hm ⊢
  congr 1
  field_simp
  ring

/-- C12: for every private key `x` up to `largestFactor` and message, and every nonce drawn inside the
constructor, if the challenges of message and nonce are not zero then `Sign` succeeds and the public
key recovered from the signature is the signer's. -/
theorem C12_sign_recovers_public_key_partial (x : Scalar) (hx : x.Fits) (msg nonce : Bytes)
    (hm : C.hashF (msg ++ ptStr (C.mul (genK x msg) C.base)) ≠ 0)
    (hn : C.hashF (nonce ++ ptStr (C.mul (genK x msg) C.base)) ≠ 0) :
    ∃ sig, sign x msg nonce = .ok sig ∧ sig.publicKey msg = publicKey x := by
  refine ⟨_, signed x msg nonce hn, ?_⟩
  rw [publicKey, mul_base hx]
  exact recovered x msg hm

/-- C12 (negation of "for every private key"): every private key above `largestFactor`, which
`ToPrivateKey` accepts (C72), signs, but the public key recovered from its signatures is never its
own. -/
theorem C12_large_private_keys_neg (x : Scalar) (hx : ¬ x.Fits)
    (hF : ∀ t : Nat, 0 < t → t ≤ 16 → (t : C.F) ≠ 0) (msg nonce : Bytes)
    (hm : C.hashF (msg ++ ptStr (C.mul (genK x msg) C.base)) ≠ 0)
    (hn : C.hashF (nonce ++ ptStr (C.mul (genK x msg) C.base)) ≠ 0) :
    ∃ sig, sign x msg nonce = .ok sig ∧ sig.publicKey msg ≠ publicKey x := by
  refine ⟨_, signed x msg nonce hn, ?_⟩
  rw [recovered x msg hm, publicKey, mul_base_eff]
  exact fun h => eff_ne_val hx hF (pt_injective h).symm

/-! ## C13 -/

/-- C13 (negation of "Verify rejects forgeries"): any multiple of the base point together with any
scalar, chosen without any private key, passes `Verify` for every nonce with a nonzero challenge,
so the constructor accepts it; the pair then counts as a signature of every message by some key. -/
theorem C13_verify_accepts_forgeries_neg (k : C.F) (s : Scalar) (nonce : Bytes)
    (hn : C.hashF (nonce ++ ptStr (C.mul (C.canon k) C.base)) ≠ 0) :
    Signature.verify ⟨C.mul (C.canon k) C.base, s⟩ nonce = true ∧
    createSignature (C.mul (C.canon k) C.base) s nonce = .ok ⟨C.mul (C.canon k) C.base, s⟩ := by
  have hv : Signature.verify ⟨C.mul (C.canon k) C.base, s⟩ nonce = true := by
    simp only [Signature.verify, Signature.publicKey, beq_iff_eq]
    simp only [mul_base_eff, sub_pt, mul_pt_eff, createHash, C.val_canon, eff_canon] at hn ⊢
    congr 2
    field_simp
    ring
  exact ⟨hv, by simp [createSignature, hv]⟩

/-- C13: conversely the only way to be rejected (for multiples of the base point) is a zero
challenge together with `r` different from `s * G`: the verdict says nothing about who signed. -/
theorem C13_verify_exact (k : C.F) (s : Scalar) (nonce : Bytes) :
    Signature.verify ⟨C.mul (C.canon k) C.base, s⟩ nonce = true ↔
      (C.hashF (nonce ++ ptStr (C.mul (C.canon k) C.base)) ≠ 0 ∨
        C.mul s C.base = C.mul (C.canon k) C.base) := by
  by_cases hn : C.hashF (nonce ++ ptStr (C.mul (C.canon k) C.base)) = 0
  · simp only [Signature.verify, Signature.publicKey, beq_iff_eq, createHash, hn, ne_eq,
      not_true_eq_false, false_or]
    simp only [mul_base_eff, sub_pt, mul_pt_eff, C.val_canon, eff_canon]
    simp only [zero_mul, sub_zero]
    exact ⟨fun h => enc_injective h, fun h => by rw [h]⟩
  · simp [hn, (C13_verify_accepts_forgeries_neg k s nonce hn).1]

/-! ## C14 -/

/-- C14: for every private key up to `largestFactor`, message and ring containing the signer's public key
(at any position, any number of times, among arbitrary other points), `RingSign` succeeds, keeps the
ring, and the signature verifies on the message. -/
theorem C14_ring_sign_verifies_partial (x : Scalar) (hx : x.Fits) (msg : Bytes) (ring : List C.Pt)
    (h : publicKey x ∈ ring) :
    ∃ sig, ringSign x msg ring = .ok sig ∧ sig.ring = ring ∧ sig.verify msg = .ok true := by
  obtain ⟨sig, h1, h2, -, -, h3⟩ := ringSign_verifies x msg ring h
  exact ⟨sig, h1, h2, h3 hx⟩

/-- C14 (negation of "for every private key"): with every private key above `largestFactor`, which
`ToPrivateKey` accepts (C72), `RingSign` succeeds on the ring of its own public key, but the signature
does not verify unless the challenge is zero or the hash function has a collision: the message with the
commitment `(s + e*x)*G` that was signed and the message with the different commitment `s*G + e*P` that is
checked have the same hash. -/
theorem C14_large_private_keys_neg (x : Scalar) (hx : ¬ x.Fits)
    (hF : ∀ t : Nat, 0 < t → t ≤ 16 → (t : C.F) ≠ 0) (msg : Bytes) :
    ∃ sig s, ringSign x msg [publicKey x] = .ok sig ∧ sig.s = [s] ∧ s.Fits ∧ sig.e.Fits ∧
      (sig.verify msg = .ok false ∨
        (sig.verify msg = .ok true ∧ (sig.e = C.canon 0 ∨
          C.mul (C.canon (C.val s + C.val sig.e * C.val x)) C.base ≠
              C.add (C.mul s C.base) (C.mul sig.e (publicKey x)) ∧
            C.hashF (msg ++ ptStr (C.mul (C.canon (C.val s + C.val sig.e * C.val x)) C.base)) =
              C.hashF (msg ++ ptStr (C.add (C.mul s C.base) (C.mul sig.e (publicKey x))))))) := by
  have hk : eff (genK x msg) = C.val (genK x msg) := eff_of_fits (C.canon_fits _)
  have hp : pkEquals (publicKey x) (publicKey x) = true := pkEquals_iff.mpr rfl
  refine ⟨⟨[publicKey x], [C.canon (C.val (genK x msg) - C.val (C.canon (C.val (createHash (msg ++
    ptStr (C.mul (genK x msg) C.base))) * C.val x)))], createHash (msg ++
    ptStr (C.mul (genK x msg) C.base))⟩, _, ?_, rfl, C.canon_fits _, C.canon_fits _, ?_⟩
  · simp [ringSign, signerIndex, hp, ringLoop, mapO, Outcome.deref]
  · simp only [RingSignature.verify, ringVerifyLoop, ringStep, publicKey, mul_base_eff, mul_pt_eff,
      add_pt, C.val_canon, createHash, eff_canon, hk, Outcome.ok.injEq, decide_eq_false_iff_not,
      decide_eq_true_eq]
    set e := C.hashF (msg ++ ptStr (pt (C.val (genK x msg)))) with he
    by_cases h : C.canon e = C.canon (C.hashF (msg ++
        ptStr (pt (C.val (genK x msg) - e * C.val x + e * eff x))))
    · refine .inr ⟨h, ?_⟩
      by_cases h0 : e = 0
      · exact .inl (by rw [h0])
      · rw [sub_add_cancel]
        refine .inr ⟨fun hpq => ?_, he.symm.trans (canon_injective h)⟩
        have := pt_injective hpq
        have h' : e * (eff x - C.val x) = 0 := by linear_combination -this
        rcases mul_eq_zero.mp h' with h' | h'
        · exact h0 h'
        · exact eff_ne_val hx hF (sub_eq_zero.mp h')
    · exact .inl h

/-- C14: `RingSign` fails, with an error, exactly when the public key is not in the ring. -/
theorem C14_ring_sign_fails_iff (x : Scalar) (msg : Bytes) (ring : List C.Pt) :
    ((∃ m, ringSign x msg ring = .err m) ↔ publicKey x ∉ ring) ∧
    ∀ c, ringSign x msg ring ≠ .crash c := by
  by_cases h : publicKey x ∈ ring
  · obtain ⟨sig, h1, -⟩ := ringSign_verifies x msg ring h
    rw [h1]
    simp [h]
  · have : signerIndex (publicKey x) ring = none := signerIndex_none.mpr h
    simp [ringSign, this, h]

/-! ## C85 -/

private theorem ringVerifyLoop_eq_ok (msg : Bytes) :
    ∀ (ring : List C.Pt) (s : List Scalar) (e e' : Scalar),
      ringVerifyLoop msg ring s e = .ok e' ↔ ring.length ≤ s.length ∧
        ∃ es : Nat → Scalar, es 0 = e ∧ es ring.length = e' ∧
          ∀ i (hr : i < ring.length) (hs : i < s.length),
            es (i + 1) = C.canon (C.hashF (msg ++
              hexEncode (C.enc (C.add (C.mul s[i] C.base) (C.mul (es i) ring[i])))))
  | [], s, e, e' => by
    rw [ringVerifyLoop]
    constructor
    · rintro ⟨⟩; exact ⟨by simp, fun _ => e, rfl, rfl, by simp⟩
    · rintro ⟨-, es, rfl, h, -⟩
      simp only [List.length_nil] at h
      rw [h]
  | p :: ps, [], e, e' => by
    rw [ringVerifyLoop]
    constructor
    · rintro ⟨⟩
    · rintro ⟨h, -⟩; simp at h
  | p :: ps, t :: ts, e, e' => by
    rw [ringVerifyLoop, ringVerifyLoop_eq_ok msg ps ts]
    constructor
    · rintro ⟨hl, es, h0, hn, hstep⟩
      refine ⟨by simpa using hl, fun i => match i with | 0 => e | i + 1 => es i, rfl, hn, ?_⟩
      intro i hr hs
      cases i with
      | zero => exact h0
      | succ i => exact hstep i (by simpa using hr) (by simpa using hs)
    · rintro ⟨hl, es, h0, hn, hstep⟩
      refine ⟨by simpa using hl, fun i => es (i + 1), ?_, hn, ?_⟩
      · have := hstep 0 (by simp) (by simp)
        simp only [h0] at this
        exact this
      · intro i hr hs
        exact hstep (i + 1) (by simpa using hr) (by simpa using hs)

/-- C85: `Verify` accepts a signature for a message exactly when its scalars close a ring of
challenges over the message. -/
theorem C85_verify_iff_ring_closes (sig : RingSignature) (msg : Bytes) :
    sig.verify msg = .ok true ↔ RingCloses sig.ring sig.s sig.e msg := by
  unfold RingCloses
  rw [← ringVerifyLoop_eq_ok]
  unfold RingSignature.verify
  split <;> rename_i h <;> rw [h] <;> simp [eq_comm]

/-! ## C15 -/

/-- C15: the text form of every ring signature parses to a signature with the same ring and the
same scalars as texts (scalars come back reduced). -/
theorem C15_text_round_trip (sig : RingSignature) :
    ∃ sig', toRingSignature sig.str = .ok sig' ∧ sig'.ring = sig.ring ∧
      sig'.s.map scStr = sig.s.map scStr ∧ scStr sig'.e = scStr sig.e ∧ sig'.str = sig.str := by
  have hn : ∀ s : Scalar, scStr (normSc s) = scStr s := by
    intro s; simp [scStr, normSc, C.val_canon]
  have hm : (sig.s.map normSc).map scStr = sig.s.map scStr := by
    simp [List.map_map, Function.comp_def, hn]
  refine ⟨_, toRingSignature_str sig, rfl, hm, hn _, ?_⟩
  simp only [RingSignature.str, hm, hn]

/-- C15: when the scalars are reduced (all signatures made by `RingSign` are, see below), parsing
the text returns the identical signature, hence the same verdict on every message. -/
theorem C15_text_round_trip_canonical (sig : RingSignature)
    (hs : ∀ s ∈ sig.s, ∃ a, s = C.canon a) (he : ∃ a, sig.e = C.canon a) :
    toRingSignature sig.str = .ok sig := by
  have hn : ∀ s : Scalar, (∃ a, s = C.canon a) → normSc s = s := by
    rintro _ ⟨a, rfl⟩; simp [normSc, C.val_canon]
  rw [toRingSignature_str, hn _ he]
  have : sig.s.map normSc = sig.s := by
    conv_rhs => rw [← List.map_id sig.s]
    apply List.map_congr_left
    intro s hs'
    simpa using hn s (hs s hs')
  rw [this]

private theorem ringLoop_canonical (x : Scalar) (msg : Bytes) (ring : List C.Pt) (signer : Nat) :
    ∀ (fuel i : Nat) (es ss es' ss' : Nat → Option Scalar),
      ringLoop x msg ring signer fuel i es ss = .ok (es', ss') →
      (∀ j s, es j = some s → ∃ a, s = C.canon a) → (∀ j s, ss j = some s → ∃ a, s = C.canon a) →
      (∀ j s, es' j = some s → ∃ a, s = C.canon a) ∧ (∀ j s, ss' j = some s → ∃ a, s = C.canon a) := by
  intro fuel
  induction fuel with
  | zero => intro i es ss es' ss' h; simp [ringLoop] at h
  | succ fuel ih =>
    intro i es ss es' ss' h h1 h2
    unfold ringLoop at h
    split at h
    · obtain ⟨rfl, rfl⟩ := Prod.mk.inj (Outcome.ok.inj h)
      exact ⟨h1, h2⟩
    · simp only at h
      cases hei : es i with
      | none => rw [hei] at h; cases h
      | some ei =>
        rw [hei] at h
        cases hp : ring[i]? with
        | none => rw [hp] at h; cases h
        | some p =>
          rw [hp] at h
          refine ih _ _ _ _ _ h ?_ ?_
          · intro j s hj
            split at hj
            · simp only [Option.some.injEq] at hj
              exact ⟨_, hj.symm⟩
            · exact h1 j s hj
          · intro j s hj
            split at hj
            · simp only [Option.some.injEq] at hj
              exact ⟨_, hj.symm⟩
            · exact h2 j s hj

/-- C15: every signature made by `RingSign` survives its text form unchanged. -/
theorem C15_signed_round_trip (x : Scalar) (msg : Bytes) (ring : List C.Pt) (sig : RingSignature)
    (h : ringSign x msg ring = .ok sig) : toRingSignature sig.str = .ok sig := by
  have key : (∀ s ∈ sig.s, ∃ a, s = C.canon a) ∧ ∃ a, sig.e = C.canon a := by
    unfold ringSign at h
    split at h
    · cases h
    · rename_i signer _
      simp only at h
      split at h
      · cases h
      · cases h
      · rename_i es ss hloop
        have hc := ringLoop_canonical x msg ring signer _ _ _ _ _ _ hloop (by
          intro j s hj
          split at hj
          · simp only [Option.some.injEq] at hj
            exact ⟨_, hj.symm⟩
          · cases hj) (by intro j s hj; cases hj)
        split at h
        · cases h
        · split at h
          · cases h
          · rename_i e he
            split at h
            · rename_i s hs
              obtain rfl := Outcome.ok.inj h
              refine ⟨?_, hc.1 0 e he⟩
              intro t ht
              obtain ⟨j, -, hj⟩ : ∃ j ∈ List.range ring.length, Outcome.deref
                  (if j = signer then some (C.canon (C.val (genK x msg) - C.val
                    (C.canon (C.val _ * C.val x)))) else ss j) = .ok t :=
                mapO_mem_right hs t ht
              split at hj
              · simp only [Outcome.deref_some, Outcome.ok.injEq] at hj
                exact ⟨_, hj.symm⟩
              · cases hsj : ss j with
                | none => rw [hsj] at hj; cases hj
                | some u =>
                  rw [hsj] at hj
                  simp only [Outcome.deref_some, Outcome.ok.injEq] at hj
                  subst hj
                  exact hc.2 j u hsj
            · cases h
            · cases h
  exact C15_text_round_trip_canonical sig key.1 key.2

/-! ## C16 -/

/-- C16 (negation of "a valid signature implies a ring member signed"): a signature with an empty
ring verifies on every message, such a signature is obtained from a text for every scalar `e`, and
`ToVerification` with an empty hash list accepts it for every message. -/
theorem C16_empty_ring_verifies_neg [Sha512] (e : C.F) :
    ∃ text sig, toRingSignature text = .ok sig ∧ sig.ring = [] ∧
      (∀ msg, sig.verify msg = .ok true) ∧ ∀ msg, toVerification sig msg [] = .ok true := by
  refine ⟨RingSignature.str ⟨[], [], C.canon e⟩, _, toRingSignature_str _, rfl, ?_, ?_⟩
  · intro msg
    simp [RingSignature.verify, ringVerifyLoop]
  · intro msg
    simp [toVerification, RingSignature.verify, ringVerifyLoop, compareHashes]

/-- The challenges after the first are those of the rest of the ring. -/
theorem challengeAt_cons (msg : Bytes) (p : C.Pt) (ps : List C.Pt) (t : Scalar) (ts : List Scalar)
    (e : Scalar) : ∀ i, i ≤ ps.length → i ≤ ts.length →
      challengeAt msg (p :: ps) (t :: ts) e (i + 1) = challengeAt msg ps ts (ringStep msg t e p) i
  | 0, _, _ => by simp [challengeAt, ringStep, createHash, ptStr]
  | i + 1, h, h' => by
    rw [challengeAt, challengeAt_cons msg p ps t ts e i (by omega) (by omega), challengeAt]
    simp [List.getElem?_eq_getElem (show i < ps.length by omega),
      List.getElem?_eq_getElem (show i < ts.length by omega)]

/-- `Verify` computes the challenge after the last position. -/
theorem ringVerifyLoop_challengeAt (msg : Bytes) : ∀ (ring : List C.Pt) (s : List Scalar) (e : Scalar),
    ring.length ≤ s.length → ringVerifyLoop msg ring s e = .ok (challengeAt msg ring s e ring.length)
  | [], _, _, _ => by simp [ringVerifyLoop, challengeAt]
  | p :: ps, [], _, h => by simp at h
  | p :: ps, t :: ts, e, h => by
    have h' : ps.length ≤ ts.length := by simpa using h
    rw [ringVerifyLoop, ringVerifyLoop_challengeAt msg ps ts _ h', List.length_cons,
      challengeAt_cons msg p ps t ts e _ le_rfl h']

/-- The challenges of the first positions do not depend on the others. -/
theorem challengeAt_append (msg : Bytes) (ring ring' : List C.Pt) (s s' : List Scalar) (e : Scalar)
    (hl : ring.length = s.length) : ∀ i, i ≤ ring.length →
      challengeAt msg (ring ++ ring') (s ++ s') e i = challengeAt msg ring s e i
  | 0, _ => rfl
  | i + 1, h => by
    rw [challengeAt, challengeAt_append msg ring ring' s s' e hl i (by omega), challengeAt,
      List.getElem?_append_left (by omega), List.getElem?_append_left (by omega)]

/-- The challenge of a position is the hash of the message and the commitment before it. -/
theorem challengeAt_succ (msg : Bytes) (ring : List C.Pt) (s : List Scalar) (e : Scalar) {i : Nat}
    (h : i < ring.length) (h' : i < s.length) : ∃ p, commitmentAt msg ring s e i = some p ∧
      challengeAt msg ring s e (i + 1) = C.canon (C.hashF (msg ++ ptStr p)) :=
  ⟨C.add (C.mul s[i] C.base) (C.mul (challengeAt msg ring s e i) ring[i]),
    by simp [commitmentAt, List.getElem?_eq_getElem h, List.getElem?_eq_getElem h'],
    by simp [challengeAt, List.getElem?_eq_getElem h, List.getElem?_eq_getElem h', ptStr]⟩

/-- C16: what holds: with a non-empty ring, acceptance pins the claimed first challenge: it is the
hash of the message with the commitment of the last position of the ring, so a signature cannot be
accepted for two messages unless these two hash preimages, which anybody can compute from the signature
and the messages, get the same challenge. -/
theorem C16_nonempty_ring_binds_message_partial (sig : RingSignature) (msg msg' : Bytes)
    (hr : sig.ring ≠ []) (h : sig.verify msg = .ok true) (h' : sig.verify msg' = .ok true) :
    ∃ p p' : C.Pt, commitmentAt msg sig.ring sig.s sig.e (sig.ring.length - 1) = some p ∧
      commitmentAt msg' sig.ring sig.s sig.e (sig.ring.length - 1) = some p' ∧
      C.hashF (msg ++ ptStr p) = C.hashF (msg' ++ ptStr p') ∧
      sig.e = C.canon (C.hashF (msg ++ ptStr p)) := by
  have use : ∀ m, sig.verify m = .ok true → ∃ p : C.Pt,
      commitmentAt m sig.ring sig.s sig.e (sig.ring.length - 1) = some p ∧
      sig.e = C.canon (C.hashF (m ++ ptStr p)) := by
    intro m hm
    have hpos : 0 < sig.ring.length := List.length_pos_iff.mpr hr
    have hlen : sig.ring.length ≤ sig.s.length := by
      by_contra hl
      rw [RingSignature.verify, (ringVerifyLoop_short m sig.ring sig.s sig.e).1 (by omega)] at hm
      cases hm
    rw [RingSignature.verify, ringVerifyLoop_challengeAt m _ _ _ hlen] at hm
    simp only [Outcome.ok.injEq, decide_eq_true_eq] at hm
    obtain ⟨p, h1, h2⟩ := challengeAt_succ m sig.ring sig.s sig.e (i := sig.ring.length - 1)
      (by omega) (by omega)
    rw [Nat.sub_add_cancel hpos] at h2
    exact ⟨p, h1, hm.trans h2⟩
  obtain ⟨p, e1, hp⟩ := use msg h
  obtain ⟨p', e2, hp'⟩ := use msg' h'
  exact ⟨p, p', e1, e2, canon_injective (hp.symm.trans hp'), hp⟩

/-! ## C17 -/

/-- C17: `Verify` never returns an error; it returns a verdict exactly when there are at least as
many scalars as ring members and panics otherwise. -/
theorem C17_verify_panics_iff (sig : RingSignature) (msg : Bytes) :
    ((∃ b, sig.verify msg = .ok b) ↔ sig.ring.length ≤ sig.s.length) ∧
    (sig.verify msg = .crash .indexOutOfRange ↔ sig.s.length < sig.ring.length) := by
  have h := ringVerifyLoop_short msg sig.ring sig.s sig.e
  unfold RingSignature.verify
  rcases Nat.lt_or_ge sig.s.length sig.ring.length with hl | hl
  · rw [h.1 hl]
    simp [hl]
  · obtain ⟨e', he'⟩ := h.2 hl
    rw [he']
    simp [hl]

/-- C85: otherwise, when there are enough scalars, it answers false. -/
theorem C85_verify_otherwise_false (sig : RingSignature) (msg : Bytes)
    (hl : sig.ring.length ≤ sig.s.length) (h : ¬ RingCloses sig.ring sig.s sig.e msg) :
    sig.verify msg = .ok false := by
  rw [← C85_verify_iff_ring_closes] at h
  obtain ⟨b, hb⟩ := (C17_verify_panics_iff sig msg).1.mpr hl
  cases b
  · exact hb
  · exact absurd hb h

/-- C17 (negation of "never panics"): for every ring point there is a text that `ToSignature`
accepts and whose verification panics on every message. -/
theorem C17_parsed_signature_panics_neg (p : C.Pt) (e : C.F) :
    ∃ text sig, toRingSignature text = .ok sig ∧
      ∀ msg, sig.verify msg = .crash .indexOutOfRange := by
  refine ⟨RingSignature.str ⟨[p], [], C.canon e⟩, _, toRingSignature_str _, fun msg => ?_⟩
  rw [(C17_verify_panics_iff _ msg).2]
  simp

/-- C17: parsing itself never panics, whatever the text. -/
theorem C17_parsing_total (text : Bytes) (c : Crash) : toRingSignature text ≠ .crash c := by
  have hsc : ∀ s c, fromStringToScalar s ≠ .crash c := by
    intro s c; unfold fromStringToScalar; split
    · simp
    · split <;> simp
  have hpt : ∀ s c, fromStringToPoint (C := C) s ≠ .crash c := by
    intro s c; unfold fromStringToPoint; split
    · simp
    · split <;> simp
  have hmap : ∀ {α : Type} (f : Bytes → Outcome α), (∀ s c, f s ≠ .crash c) →
      ∀ l c, mapO f l ≠ .crash c := by
    intro α f hf l
    induction l with
    | nil => simp
    | cons x xs ih =>
      intro c h
      unfold mapO at h
      cases hx : f x with
      | ok y =>
        rw [hx] at h
        cases hxs : mapO f xs with
        | ok ys => rw [hxs] at h; cases h
        | err m => rw [hxs] at h; cases h
        | crash c' => exact ih c' hxs
      | err m => rw [hx] at h; cases h
      | crash c' => exact hf x c' hx
  unfold toRingSignature
  split
  · simp
  · split
    · rename_i a b d _
      cases h1 : mapO (fromStringToPoint (C := C)) ((splitOn 124 a).filter (· ≠ [])) with
      | crash c' => exact absurd h1 (hmap _ hpt _ _)
      | err m => simp
      | ok ring =>
        cases h2 : mapO fromStringToScalar ((splitOn 124 b).filter (· ≠ [])) with
        | crash c' => exact absurd h2 (hmap _ hsc _ _)
        | err m => simp
        | ok s =>
          cases h3 : fromStringToScalar d with
          | crash c' => exact absurd h3 (hsc _ _)
          | err m => simp
          | ok e => simp
    · simp

/-! ## C18 -/

private theorem compareHashes_iff [Sha512] : ∀ (ring : List C.Pt) (hs : List Hash),
    hs.length = ring.length →
    ((compareHashes ring hs = .ok true ↔ ring.map (fun p => fromString (ptStr p)) = hs.map .ok) ∧
      compareHashes ring hs ≠ .ok false)
  | [], [], _ => by simp [compareHashes]
  | [], _ :: _, h => by simp at h
  | _ :: _, [], h => by simp at h
  | p :: ps, k :: ks, h => by
    have ih := compareHashes_iff ps ks (by simpa using h)
    have hp : fromString (ptStr p) = .ok (fromBytes (C.enc p)) := by
      simp [fromString, ptStr, hexDecode_hexEncode]
    unfold compareHashes
    rw [hp]
    simp only [List.map_cons, List.cons.injEq, hp, Outcome.ok.injEq]
    by_cases hk : fromBytes (C.enc p) = k
    · subst hk
      have : (fromBytes (C.enc p)).compare (fromBytes (C.enc p)) = true := by simp
      simpa [this] using ih
    · have : (fromBytes (C.enc p)).compare k = false := by
        rw [Hash.compare_false_iff]; exact hk
      simp [this, hk]

/-- C18: `ToVerification` returns true exactly when the signature verifies on the message and the
hashes are, position by position, the hashes of the ring's public key texts; it never returns a
nil error together with false. -/
theorem C18_to_verification_exact [Sha512] (sig : RingSignature) (msg : Bytes)
    (hashes : List Hash) :
    (toVerification sig msg hashes = .ok true ↔
      RingCloses sig.ring sig.s sig.e msg ∧
        sig.ring.map (fun p => fromString (hexEncode (C.enc p))) = hashes.map .ok) ∧
    toVerification sig msg hashes ≠ .ok false := by
  rw [← C85_verify_iff_ring_closes]
  change (_ ↔ sig.verify msg = .ok true ∧
    sig.ring.map (fun p => fromString (ptStr p)) = hashes.map .ok) ∧ _
  unfold toVerification
  cases hv : sig.verify msg with
  | err m => simp
  | crash c => simp
  | ok b =>
    cases b with
    | false => simp
    | true =>
      simp only [true_and]
      by_cases hl : hashes.length = sig.ring.length
      · rw [if_neg (by simpa using hl)]
        exact compareHashes_iff sig.ring hashes hl
      · rw [if_pos hl]
        refine ⟨⟨by simp, fun h => ?_⟩, by simp⟩
        have := congrArg List.length h
        simp at this
        exact absurd this.symm hl

/-! ## C71 -/

/-- C71: the text of a plain signature on a multiple of the base point parses back to the same
signature (reduced scalar), whenever the nonce drawn by the parser has a nonzero challenge. -/
theorem C71_signature_text_round_trip (k a : C.F) (nonce : Bytes)
    (hn : C.hashF (nonce ++ ptStr (C.mul (C.canon k) C.base)) ≠ 0) :
    toSignature (Signature.str ⟨C.mul (C.canon k) C.base, C.canon a⟩) nonce =
      .ok ⟨C.mul (C.canon k) C.base, C.canon a⟩ := by
  have h35p : (35 : UInt8) ∉ ptStr (C.mul (C.canon k) C.base) := not_mem_hexEncode (by decide) _
  have h35s : (35 : UInt8) ∉ scStr (C.canon a) := not_mem_hexEncode (by decide) _
  unfold toSignature Signature.str
  rw [b64Decode_encode]
  simp only [splitOn_append _ h35p, splitOn_of_not_mem h35s]
  rw [fromStringToPoint_ptStr, fromStringToScalar_scStr, C.val_canon]
  exact (C13_verify_accepts_forgeries_neg k (C.canon a) nonce hn).2

/-! ## C72 -/

/-- C72: key texts round-trip: the text of a public key parses to that key, the text of a private
key to a key with the same text, and with the same public key if it is at most `largestFactor`. -/
theorem C72_key_text_round_trip_partial (p : C.Pt) (x : Scalar) :
    toPublicKey (ptStr p) = .ok p ∧
    ∃ x', toPrivateKey (scStr x) = .ok x' ∧ (x.Fits → publicKey x' = publicKey x) ∧
      scStr x' = scStr x := by
  refine ⟨fromStringToPoint_ptStr p, _, fromStringToScalar_scStr x, fun hx => ?_, ?_⟩
  · rw [publicKey, publicKey, mul_base_eff, eff_canon, mul_base hx]
  · simp [scStr, C.val_canon]

/-- C72 (negation of "the text of a private key is read as the same key"): every private key above
`largestFactor`, which `ToPrivateKey` accepts, is written as the text of a key with a different
public key. -/
theorem C72_large_private_keys_neg (x : Scalar) (hx : ¬ x.Fits)
    (hF : ∀ t : Nat, 0 < t → t ≤ 16 → (t : C.F) ≠ 0) :
    toPrivateKey (hexEncode x.raw) = .ok x ∧
    ∃ x', toPrivateKey (scStr x) = .ok x' ∧ publicKey x' ≠ publicKey x := by
  constructor
  · have hl := x.len
    unfold toPrivateKey fromStringToScalar
    rw [hexDecode_hexEncode]
    simp only [hl, le_refl, ↓reduceDIte, Outcome.ok.injEq]
    apply Scalar.ext
    show x.raw.take 32 = x.raw
    rw [List.take_of_length_le (by omega)]
  · refine ⟨_, fromStringToScalar_scStr x, ?_⟩
    rw [publicKey, publicKey, mul_base_eff, eff_canon, mul_base_eff]
    exact fun h => eff_ne_val hx hF (pt_injective h).symm

omit C in
/-- C72 (negation of "a private key text is exactly a key"): appending arbitrary hex digits to a
private key text is accepted and ignored. -/
theorem C72_private_key_trailing_text_neg (x : Scalar) (extra : Bytes) :
    toPrivateKey (hexEncode x.raw ++ hexEncode extra) = .ok x ∧
    toPrivateKey (hexEncode x.raw) = .ok x := by
  have happ : ∀ a b : Bytes, hexEncode a ++ hexEncode b = hexEncode (a ++ b) := by
    intro a b
    induction a with
    | nil => rfl
    | cons c cs ih => simp [hexEncode, ih]
  have hx := x.len
  constructor
  · rw [happ]
    unfold toPrivateKey fromStringToScalar
    rw [hexDecode_hexEncode]
    simp only [List.length_append, hx, Nat.le_add_right, ↓reduceDIte, Outcome.ok.injEq]
    apply Scalar.ext
    show (x.raw ++ extra).take 32 = x.raw
    rw [List.take_append_of_le_length (by omega), List.take_of_length_le (by omega)]
  · unfold toPrivateKey fromStringToScalar
    rw [hexDecode_hexEncode]
    simp only [hx, le_refl, ↓reduceDIte, Outcome.ok.injEq]
    apply Scalar.ext
    show x.raw.take 32 = x.raw
    rw [List.take_of_length_le (by omega)]

end

/-! ## Non-vacuity: the hypotheses of the theorems above are met on the toy curve -/

section examples

attribute [local instance] toyCurve toySha

/-- C12 -/
example : let x := toySc 2; let msg := ascii "hi"; let nonce := ascii "42"
    Curve.hashF (msg ++ ptStr (Curve.mul (genK x msg) Curve.base)) ≠ 0 ∧
    Curve.hashF (nonce ++ ptStr (Curve.mul (genK x msg) Curve.base)) ≠ 0 := by
  decide

/-- C12, C14, C72 with large keys -/
example : ∃ C : Curve, ¬ bigSc.Fits ∧
    (∀ t : Nat, 0 < t → t ≤ 16 → (t : C.F) ≠ 0) ∧
    C.hashF (ascii "hi" ++ ptStr (C.mul (genK bigSc (ascii "hi")) C.base)) ≠ 0 :=
  ⟨toyCurve17, bigSc_large, toy17_digits, by decide⟩

/-- C13, C71 -/
example : Curve.hashF (ascii "7" ++ ptStr (Curve.mul (Curve.canon (3 : ZMod 5)) Curve.base)) ≠ 0 := by
  decide

/-- C14: the signer occurs twice, at positions 1 and 3 -/
example : publicKey (toySc 2) ∈ ([3, 2, 4, 2] : List (ZMod 5)) := by decide

/-- C15, C16, C18 -/
example : ∃ sig, ringSign (toySc 2) (ascii "m") ([2, 3] : List (ZMod 5)) = .ok sig ∧
    sig.ring ≠ [] ∧ sig.verify (ascii "m") = .ok true ∧
    toVerification sig (ascii "m")
      [fromBytes (Curve.enc (2 : ZMod 5)), fromBytes (Curve.enc (3 : ZMod 5))] = .ok true := by
  obtain ⟨sig, h1, h2, h3⟩ := C14_ring_sign_verifies_partial (toySc 2) (by decide) (ascii "m") ([2, 3] : List (ZMod 5))
    (by decide)
  refine ⟨sig, h1, by rw [h2]; simp, h3, ((C18_to_verification_exact _ _ _).1).mpr
    ⟨(C85_verify_iff_ring_closes _ _).mp h3, ?_⟩⟩
  rw [h2]
  simp [fromString, hexDecode_hexEncode]

/-- C85: a closed ring. -/
example : ∃ sig : RingSignature, sig.ring = ([2, 3] : List (ZMod 5)) ∧
    RingCloses sig.ring sig.s sig.e (ascii "m") := by
  obtain ⟨sig, -, h2, h3⟩ := C14_ring_sign_verifies_partial (toySc 2) (by decide) (ascii "m") ([2, 3] : List (ZMod 5))
    (by decide)
  exact ⟨sig, h2, (C85_verify_iff_ring_closes _ _).mp h3⟩

/-- C16: a signature on a message is not accepted on another one. -/
example : ∃ sig, ringSign (toySc 2) (ascii "m") ([2, 3] : List (ZMod 5)) = .ok sig ∧
    sig.verify (ascii "mm") = .ok false := ⟨_, rfl, by decide⟩

/-- C85: a ring that is not closed. -/
example : ∃ sig : RingSignature, sig.ring.length ≤ sig.s.length ∧
    ¬ RingCloses sig.ring sig.s sig.e (ascii "mm") := by
  obtain ⟨sig, -, h⟩ : ∃ sig, ringSign (toySc 2) (ascii "m") ([2, 3] : List (ZMod 5)) = .ok sig ∧
    sig.verify (ascii "mm") = .ok false := ⟨_, rfl, by decide⟩
  refine ⟨sig, (C17_verify_panics_iff sig _).1.mp ⟨_, h⟩, ?_⟩
  rw [← C85_verify_iff_ring_closes, h]
  simp

end examples

end Verif
