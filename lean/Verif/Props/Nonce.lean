import Verif.Model.SigLemmas
import Verif.Props.Toy
import Verif.Spec.Ring

/-!
# What signatures reveal about the key that made them (C117, C118)
-/

namespace Verif

section
variable [C : Curve]

/-- The challenges up to the signer are those that everybody computes. -/
private theorem challengeAt_eq (msg : Bytes) (ring : List C.Pt) (sig : RingSignature) (E : Nat → Scalar)
    (hr : sig.ring = ring) (h0 : sig.e = E 0) : ∀ n, n < ring.length →
      (∀ i (hi : i < ring.length), i < n → ∃ t, sig.s[i]? = some t ∧
        E ((i + 1) % ring.length) = ringStep msg t (E i) ring[i]) →
      challengeAt msg sig.ring sig.s sig.e n = E n
  | 0, _, _ => h0
  | n + 1, hn, hstep => by
    have ih := challengeAt_eq msg ring sig E hr h0 n (by omega) fun i hi hlt => hstep i hi (by omega)
    obtain ⟨t, h1, h2⟩ := hstep n (by omega) (by omega)
    rw [challengeAt, ih, hr, List.getElem?_eq_getElem (by omega : n < ring.length), h1]
    rw [Nat.mod_eq_of_lt hn] at h2
    rw [h2]
    rfl

/-- Everything an observer sees at the position of the signer. -/
private theorem at_signer (x : Scalar) (msg : Bytes) (ring : List C.Pt) (sig : RingSignature)
    (h : ringSign x msg ring = .ok sig) :
    ∃ i s, sig.ring[i]? = some (publicKey x) ∧ sig.s[i]? = some s ∧
      C.val s + C.val (challengeAt msg sig.ring sig.s sig.e i) * C.val x = C.val (genK x msg) ∧
      (challengeAt msg sig.ring sig.s sig.e i).Fits := by
  obtain ⟨signer, E, h1, h2, h3, h4, h5, -, h7, h8, h9⟩ := ringSign_structure x msg ring sig h
  have hc := challengeAt_eq msg ring sig E h3 h5 signer h2 fun i hi hlt =>
    ⟨_, h7 i hi (by omega)⟩
  refine ⟨signer, _, by rw [h3]; exact signerIndex_some h1, h8, ?_, ?_⟩
  · rw [hc, C.val_canon, C.val_canon]
    ring
  · rw [hc]
    obtain ⟨u, hu⟩ := h9 signer h2
    rw [hu]
    exact C.canon_fits _

/-! ## C117 -/

/-- C117 (negation of "signatures do not reveal the private key"): when one key signs one message in two
rings, the number behind both signatures is the same, and the private key is the quotient of two
differences of published numbers as soon as the two published challenges differ. -/
theorem C117_two_rings_reveal_key_neg (x : Scalar) (msg : Bytes) (ring ring' : List C.Pt)
    (sig sig' : RingSignature) (h : ringSign x msg ring = .ok sig) (h' : ringSign x msg ring' = .ok sig') :
    ∃ i j s s', sig.ring[i]? = some (publicKey x) ∧ sig'.ring[j]? = some (publicKey x) ∧
      sig.s[i]? = some s ∧ sig'.s[j]? = some s' ∧
      let c := C.val (challengeAt msg sig.ring sig.s sig.e i)
      let c' := C.val (challengeAt msg sig'.ring sig'.s sig'.e j)
      (c ≠ c' → C.val x = (C.val s - C.val s') / (c' - c)) := by
  obtain ⟨i, s, a1, a2, a3, -⟩ := at_signer x msg ring sig h
  obtain ⟨j, s', b1, b2, b3, -⟩ := at_signer x msg ring' sig' h'
  refine ⟨i, j, s, s', a1, b1, a2, b2, fun hne => ?_⟩
  rw [eq_div_iff (sub_ne_zero.2 (Ne.symm hne))]
  linear_combination b3 - a3

/-- What `Sign` returns, if it returns. -/
private theorem sign_eq (x : Scalar) (msg nonce : Bytes) (sig : Signature)
    (h : sign x msg nonce = .ok sig) :
    sig.r = C.mul (genK x msg) C.base ∧
      C.val sig.s + C.hashF (msg ++ ptStr sig.r) * C.val x = C.val (genK x msg) := by
  unfold sign createSignature at h
  simp only at h
  split at h
  · obtain rfl := Outcome.ok.inj h
    refine ⟨rfl, ?_⟩
    simp only [createHash, C.val_canon]
    ring
  · cases h

/-- C117 (the same with a plain signature): when a key signs a message with `Sign` and in a ring, the
private key is the quotient of two differences of published numbers as soon as the challenges differ. -/
theorem C117_plain_and_ring_reveal_key_neg (x : Scalar) (msg nonce : Bytes) (ring : List C.Pt)
    (sig : RingSignature) (p : Signature) (h : ringSign x msg ring = .ok sig)
    (h' : sign x msg nonce = .ok p) :
    ∃ i s, sig.ring[i]? = some (publicKey x) ∧ sig.s[i]? = some s ∧
      let c := C.val (challengeAt msg sig.ring sig.s sig.e i)
      let c' := C.hashF (msg ++ ptStr p.r)
      (c ≠ c' → C.val x = (C.val s - C.val p.s) / (c' - c)) := by
  obtain ⟨i, s, a1, a2, a3, -⟩ := at_signer x msg ring sig h
  obtain ⟨-, b⟩ := sign_eq x msg nonce p h'
  refine ⟨i, s, a1, a2, fun hne => ?_⟩
  rw [eq_div_iff (sub_ne_zero.2 (Ne.symm hne))]
  linear_combination b - a3

/-- C117: what holds: all plain signatures of one message by one key are the same, so signing a message
again with `Sign` publishes nothing new. -/
theorem C117_plain_signatures_agree_partial (x : Scalar) (msg nonce nonce' : Bytes) (p p' : Signature)
    (h : sign x msg nonce = .ok p) (h' : sign x msg nonce' = .ok p') : p = p' := by
  unfold sign createSignature at h h'
  simp only at h h'
  split at h
  · split at h'
    · rw [← Outcome.ok.inj h, ← Outcome.ok.inj h']
    · cases h'
  · cases h

/-! ## C118 -/

/-- C118: a ring signature contains, at every position other than the signer's, the hash of the message,
the position and the private key; the challenge after the signer is the hash of the message and the
commitment `H(message, key) * G`. -/
theorem C118_ring_signature_contents (x : Scalar) (msg : Bytes) (ring : List C.Pt) (sig : RingSignature)
    (h : ringSign x msg ring = .ok sig) :
    sig.ring = ring ∧ sig.s.length = ring.length ∧
    ∃ i s, ring[i]? = some (publicKey x) ∧ (∀ j < i, ring[j]? ≠ some (publicKey x)) ∧
      sig.s[i]? = some s ∧
      C.val s = C.hashF (msg ++ scStr x) - C.val (challengeAt msg ring sig.s sig.e i) * C.val x ∧
      ∀ j < ring.length, j ≠ i → sig.s[j]? = some (C.canon (C.hashF (msg ++ natDec j ++ scStr x))) := by
  have hfirst : ∀ (l : List C.Pt) (n : Nat), signerIndex (publicKey x) l = some n →
      ∀ j < n, l[j]? ≠ some (publicKey x) := by
    intro l
    induction l with
    | nil => intro n hn; cases hn
    | cons p l ih =>
      intro n hn j hj
      rw [signerIndex] at hn
      split at hn
      · obtain rfl := Option.some.inj hn
        omega
      · rename_i hp
        cases hi : signerIndex (publicKey x) l with
        | none => rw [hi] at hn; cases hn
        | some m =>
          rw [hi] at hn
          obtain rfl : m + 1 = n := Option.some.inj hn
          cases j with
          | zero =>
            rw [List.getElem?_cons_zero]
            rw [pkEquals_iff] at hp
            exact fun e => hp (Option.some.inj e)
          | succ j =>
            rw [List.getElem?_cons_succ]
            exact ih m hi j (by omega)
  obtain ⟨signer, E, h1, h2, h3, h4, h5, -, h7, h8, -⟩ := ringSign_structure x msg ring sig h
  have hc := challengeAt_eq msg ring sig E h3 h5 signer h2 fun i hi hlt =>
    ⟨_, h7 i hi (by omega)⟩
  refine ⟨h3, h4, signer, _, signerIndex_some h1, hfirst _ _ h1, h8, ?_, fun j hj hne => ?_⟩
  · rw [← h3, hc, C.val_canon, C.val_canon, genK, createHash, C.val_canon]
  · exact (h7 j hj hne).1

/-- C118 (negation of "a ring signature does not tell which member signed"): when the signer also signs
the message with `Sign`, the commitment `s*G + e*P` of the signer's position, which everybody computes, is
the point `r` of the plain signature. -/
theorem C118_plain_signature_reveals_signer_neg (x : Scalar) (hx : x.Fits) (msg nonce : Bytes)
    (ring : List C.Pt) (sig : RingSignature) (p : Signature) (h : ringSign x msg ring = .ok sig)
    (h' : sign x msg nonce = .ok p) :
    ∃ i s, sig.ring[i]? = some (publicKey x) ∧ sig.s[i]? = some s ∧
      C.add (C.mul s C.base) (C.mul (challengeAt msg sig.ring sig.s sig.e i) (publicKey x)) = p.r := by
  obtain ⟨signer, E, h1, h2, h3, h4, h5, -, h7, h8, h9⟩ := ringSign_structure x msg ring sig h
  have hc := challengeAt_eq msg ring sig E h3 h5 signer h2 fun i hi hlt =>
    ⟨_, h7 i hi (by omega)⟩
  refine ⟨signer, _, by rw [h3]; exact signerIndex_some h1, h8, ?_⟩
  have hef : (E signer).Fits := by
    obtain ⟨u, hu⟩ := h9 signer h2
    rw [hu]
    exact C.canon_fits _
  rw [(sign_eq x msg nonce p h').1, hc, publicKey, mul_base hx, mul_pt hef, mul_base (C.canon_fits _),
    mul_base (s := genK x msg) (C.canon_fits _), add_pt, C.val_canon, C.val_canon]
  congr 1
  ring

end

/-! ## Non-vacuity -/

section examples

/-- The toy curve with a hash function that depends on all bytes. -/
@[reducible] def mixCurve : Curve :=
  { toyCurve with hashF := fun b => ((b.foldl (fun n c => n + c.toNat) 0 : Nat) : ZMod 5) }

attribute [local instance] mixCurve toySha

set_option maxRecDepth 100000 in
/-- C117: two rings whose challenges differ. -/
example : ∃ sig sig', ringSign (toySc 2) (ascii "m") ([2] : List (ZMod 5)) = .ok sig ∧
    ringSign (toySc 2) (ascii "m") ([1, 2] : List (ZMod 5)) = .ok sig' ∧
    Curve.val mixCurve (challengeAt (ascii "m") sig.ring sig.s sig.e 0) ≠
      Curve.val mixCurve (challengeAt (ascii "m") sig'.ring sig'.s sig'.e 1) :=
  ⟨_, _, rfl, rfl, by decide +kernel⟩

/-- `Sign` succeeds when its result verifies. -/
private theorem sign_of_verify [C : Curve] (x : Scalar) (msg nonce : Bytes)
    (h : (⟨C.mul (genK x msg) C.base, C.canon (C.val (genK x msg) -
      C.val (C.canon (C.val (createHash (msg ++ ptStr (C.mul (genK x msg) C.base))) * C.val x)))⟩ :
        Signature).verify nonce = true) :
    sign x msg nonce = .ok ⟨C.mul (genK x msg) C.base, C.canon (C.val (genK x msg) -
      C.val (C.canon (C.val (createHash (msg ++ ptStr (C.mul (genK x msg) C.base))) * C.val x)))⟩ :=
  if_pos h

set_option maxRecDepth 100000 in
/-- C117, C118: a ring signature and a plain signature of one message, with different challenges. -/
example : ∃ sig p, ringSign (toySc 2) (ascii "m") ([1, 2] : List (ZMod 5)) = .ok sig ∧
    sign (toySc 2) (ascii "m") (ascii "42") = .ok p ∧
    Curve.val mixCurve (challengeAt (ascii "m") sig.ring sig.s sig.e 1) ≠
      Curve.hashF (ascii "m" ++ ptStr p.r) :=
  ⟨_, _, rfl, sign_of_verify _ _ _ (by decide +kernel), by decide +kernel⟩

end examples

end Verif
