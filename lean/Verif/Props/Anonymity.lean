import Verif.Spec.Anonymity
import Verif.Props.Sig
import Verif.Props.Nonce

/-!
# C143: who of a ring has signed
-/

namespace Verif

section
variable [C : Curve]

/-- C143: `RingSign` makes the signature of the scheme, with hashes of the message, the position and the
private key in the place of drawn numbers. -/
theorem C143_ring_sign_is_the_scheme (x : Scalar) (msg : Bytes) (ring : List C.Pt) (sig : RingSignature)
    (h : ringSign x msg ring = .ok sig) :
    ∃ i, ring[i]? = some (publicKey x) ∧
      Signing x msg ring i (C.hashF (msg ++ scStr x),
        fun j => C.hashF (msg ++ natDec j.1.val ++ scStr x)) sig := by
  obtain ⟨i, E, h1, h2, h3, h4, h5, h6, h7, h8, -⟩ := ringSign_structure x msg ring sig h
  refine ⟨i, signerIndex_some h1, E, h3, h4, h5, h6, fun j hj hne => h7 j hj hne, ?_⟩
  rw [h8, C.val_canon]
  simp only [genK, createHash, C.val_canon]

/-- The challenges around the ring, counted from the one after position `i`. -/
private def around (msg : Bytes) (ring : List C.Pt) (e0 : Scalar) (fake : Nat → Scalar) (b : Nat) :
    Nat → Scalar
  | 0 => e0
  | t + 1 =>
    match ring[(b + t) % ring.length]? with
    | some p => ringStep msg (fake ((b + t) % ring.length)) (around msg ring e0 fake b t) p
    | none => e0

/-- What was drawn determines the challenges. -/
private theorem signing_challenges {ring : List C.Pt} {i : Nat} (hi : i < ring.length)
    {f : ∀ j, j < ring.length → j ≠ i → Scalar → Scalar} {E E' : Nat → Scalar}
    (h0 : E ((i + 1) % ring.length) = E' ((i + 1) % ring.length))
    (h : ∀ j (hj : j < ring.length) (hne : j ≠ i), E ((j + 1) % ring.length) = f j hj hne (E j))
    (h' : ∀ j (hj : j < ring.length) (hne : j ≠ i), E' ((j + 1) % ring.length) = f j hj hne (E' j)) :
    ∀ j < ring.length, E j = E' j := by
  have hr : 0 < ring.length := by omega
  have hb : (i + 1) % ring.length < ring.length := Nat.mod_lt _ hr
  have key : ∀ t j, j < ring.length → ringDist ring.length ((i + 1) % ring.length) j = t → E j = E' j := by
    intro t
    induction t with
    | zero =>
      intro j hj hd
      obtain rfl : j = (i + 1) % ring.length := ringDist_inj hb hj hb (by rw [hd, ringDist_begin hb])
      exact h0
    | succ t ih =>
      intro j hj hd
      -- the position before
      obtain ⟨m, hm, hmj⟩ : ∃ m, m < ring.length ∧ (m + 1) % ring.length = j := by
        by_cases hj0 : j = 0
        · exact ⟨ring.length - 1, by omega, by
            rw [show ring.length - 1 + 1 = ring.length by omega, Nat.mod_self, hj0]⟩
        · exact ⟨j - 1, by omega, by
            rw [show j - 1 + 1 = j by omega, Nat.mod_eq_of_lt hj]⟩
      have hlt := ringDist_lt (b := (i + 1) % ring.length) (i := m) hr
      have hjlt := ringDist_lt (b := (i + 1) % ring.length) (i := j) hr
      have hne : m ≠ i := by
        rintro rfl
        rw [← hmj, ringDist_begin hb] at hd
        omega
      have hmd : ringDist ring.length ((i + 1) % ring.length) m + 1 < ring.length := by
        have h2 : ringDist ring.length ((i + 1) % ring.length) m ≠ ring.length - 1 := by
          intro e
          exact hne (ringDist_inj hb hm hi (by rw [ringDist_signer hi, e]))
        omega
      have hn := ringDist_next hb hm hmd
      rw [hmj, hd] at hn
      have := ih m hm (by omega)
      rw [← hmj, h m hm hne, h' m hm hne, this]
  exact fun j hj => key _ j hj rfl

private theorem signing_exists (x : Scalar) (msg : Bytes) (ring : List C.Pt) {i : Nat}
    (hi : i < ring.length) (d : Draws (C := C) ring.length i) : ∃ sig, Signing x msg ring i d sig := by
  have hr : 0 < ring.length := by omega
  have hb : (i + 1) % ring.length < ring.length := Nat.mod_lt _ hr
  let b := (i + 1) % ring.length
  let fake : Nat → Scalar := fun j =>
    if h : j < ring.length ∧ j ≠ i then C.canon (d.2 ⟨⟨j, h.1⟩, h.2⟩) else C.canon 0
  let e0 := C.canon (C.hashF (msg ++ hexEncode (C.enc (C.mul (C.canon d.1) C.base))))
  let E : Nat → Scalar := fun j => around msg ring e0 fake b (ringDist ring.length b j)
  have hpos : ∀ j, j < ring.length → (b + ringDist ring.length b j) % ring.length = j := by
    intro j hj
    unfold ringDist
    rw [Nat.add_mod_mod, show b + (j + ring.length - b) = j + ring.length by omega,
      Nat.add_mod_right, Nat.mod_eq_of_lt hj]
  let s : List Scalar := (List.range ring.length).map fun j =>
    if j = i then C.canon (d.1 - C.val (E i) * C.val x) else fake j
  have hs : ∀ j, j < ring.length → s[j]? =
      some (if j = i then C.canon (d.1 - C.val (E i) * C.val x) else fake j) := by
    intro j hj
    simp [s, hj]
  have hfake : ∀ j (hj : j < ring.length) (hne : j ≠ i), fake j = C.canon (d.2 ⟨⟨j, hj⟩, hne⟩) := by
    intro j hj hne
    simp [fake, hj, hne]
  refine ⟨⟨ring, s, E 0⟩, ⟨E, rfl, by simp [s], rfl, ?_, fun j hj hne => ⟨?_, ?_⟩, ?_⟩⟩
  · change around msg ring e0 fake b (ringDist ring.length b b) = _
    rw [ringDist_begin hb]
    rfl
  · change s[j]? = _
    rw [hs j hj, if_neg hne, hfake j hj hne]
  · have hlt := ringDist_lt (b := b) (i := j) hr
    have h2 : ringDist ring.length b j ≠ ring.length - 1 := by
      intro e
      exact hne (ringDist_inj hb hj hi (by rw [ringDist_signer hi, e]))
    change around msg ring e0 fake b (ringDist ring.length b ((j + 1) % ring.length)) = _
    rw [ringDist_next hb hj (show ringDist ring.length b j + 1 < ring.length by omega), around, hpos j hj, List.getElem?_eq_getElem hj]
    simp only [hfake j hj hne]
    rfl
  · change s[i]? = _
    rw [hs i hi, if_pos rfl]

private theorem signing_unique {x : Scalar} {msg : Bytes} {ring : List C.Pt} {i : Nat}
    (hi : i < ring.length) {d : Draws (C := C) ring.length i} {sig sig' : RingSignature}
    (h : Signing x msg ring i d sig) (h' : Signing x msg ring i d sig') : sig = sig' := by
  obtain ⟨E, h1, h2, h3, h4, h5, h6⟩ := h
  obtain ⟨E', g1, g2, g3, g4, g5, g6⟩ := h'
  have hE : ∀ j < ring.length, E j = E' j :=
    signing_challenges (f := fun j hj hne e => C.canon (C.hashF (msg ++ hexEncode (C.enc
        (C.add (C.mul (C.canon (d.2 ⟨⟨j, hj⟩, hne⟩)) C.base) (C.mul e ring[j])))))) hi
      (h4.trans g4.symm) (fun j hj hne => (h5 j hj hne).2) (fun j hj hne => (g5 j hj hne).2)
  obtain ⟨r, s, e⟩ := sig
  obtain ⟨r', s', e'⟩ := sig'
  simp only at h1 h2 h3 g1 g2 g3 h5 g5 h6 g6
  have hs : s = s' := by
    apply List.ext_getElem?
    intro j
    by_cases hj : j < ring.length
    · by_cases hne : j = i
      · subst hne
        rw [h6, g6, hE j hj]
      · rw [(h5 j hj hne).1, (g5 j hj hne).1]
    · rw [List.getElem?_eq_none (by omega), List.getElem?_eq_none (by omega)]
  rw [h1, g1, h3, g3, hs, hE 0 (by omega)]

/-- C143: what was drawn determines the signature, and there is one. -/
theorem C143_one_signature_per_draw (x : Scalar) (msg : Bytes) (ring : List C.Pt) {i : Nat}
    (hi : i < ring.length) (d : Draws (C := C) ring.length i) : ∃! sig, Signing x msg ring i d sig := by
  obtain ⟨sig, h⟩ := signing_exists x msg ring hi d
  exact ⟨sig, h, fun _ h' => signing_unique hi h' h⟩

/-- C143: every such signature is accepted, whatever was drawn. -/
theorem C143_signatures_are_accepted {x : Scalar} (hx : x.Fits) {msg : Bytes} {ring : List C.Pt} {i : Nat}
    (hm : ring[i]? = some (publicKey x)) {d : Draws (C := C) ring.length i} {sig : RingSignature}
    (h : Signing x msg ring i d sig) : Accepted msg ring sig := by
  obtain ⟨hi, hpk⟩ := List.getElem?_eq_some_iff.mp hm
  have hr : 0 < ring.length := by omega
  obtain ⟨E, h1, h2, h3, h4, h5, h6⟩ := h
  have hcan : ∀ j < ring.length, ∃ u, E j = C.canon u := by
    intro j hj
    obtain ⟨m, hm, hmj⟩ : ∃ m, m < ring.length ∧ (m + 1) % ring.length = j := by
      by_cases hj0 : j = 0
      · exact ⟨ring.length - 1, by omega, by
          rw [show ring.length - 1 + 1 = ring.length by omega, Nat.mod_self, hj0]⟩
      · exact ⟨j - 1, by omega, by
          rw [show j - 1 + 1 = j by omega, Nat.mod_eq_of_lt hj]⟩
    by_cases hne : m = i
    · subst hne
      rw [← hmj, h4]
      exact ⟨_, rfl⟩
    · rw [← hmj, (h5 m hm hne).2]
      exact ⟨_, rfl⟩
  obtain ⟨r, s, e⟩ := sig
  simp only at h1 h2 h3 h5 h6
  subst h1 h3
  refine ⟨rfl, h2, ?_, ?_⟩
  · intro t ht
    obtain ⟨j, hj, rfl⟩ := List.mem_iff_getElem.mp ht
    simp only at hj
    by_cases hne : j = i
    · subst hne
      rw [List.getElem?_eq_getElem hj] at h6
      rw [Option.some.inj h6, C.val_canon]
    · have := (h5 j (by omega) hne).1
      rw [List.getElem?_eq_getElem hj] at this
      rw [Option.some.inj this, C.val_canon]
  · have hv := ringVerifyLoop_chain msg (fun n => E (n % r.length)) r s 0 (by omega) (by
      intro j hj hjs
      simp only [Nat.zero_add]
      rw [Nat.mod_eq_of_lt hj]
      by_cases hne : j = i
      · subst hne
        rw [List.getElem?_eq_getElem hjs] at h6
        obtain ⟨u, hu⟩ := hcan j hj
        rw [Option.some.inj h6, h4, hpk, hu, ringStep, createHash, ptStr, publicKey, mul_base hx,
          mul_base (C.canon_fits _), mul_base (C.canon_fits _), mul_pt (C.canon_fits _), add_pt]
        simp only [C.val_canon]
        congr 6
        ring_nf
      · have := (h5 j hj hne).1
        rw [List.getElem?_eq_getElem hjs] at this
        rw [(h5 j hj hne).2, Option.some.inj this]
        rfl)
    simp only [Nat.zero_mod, Nat.zero_add, Nat.mod_self] at hv
    simp [RingSignature.verify, hv]

/-- C143: every accepted signature could have been made by every member of the ring: for each of them
there is exactly one choice of numbers that gives it. -/
theorem C143_any_member_could_have_signed {x : Scalar} (hx : x.Fits) {msg : Bytes} {ring : List C.Pt}
    {i : Nat} (hm : ring[i]? = some (publicKey x)) {sig : RingSignature} (h : Accepted msg ring sig) :
    ∃! d, Signing x msg ring i d sig := by
  obtain ⟨hi, hpk⟩ := List.getElem?_eq_some_iff.mp hm
  have hr : 0 < ring.length := by omega
  obtain ⟨r, s, e⟩ := sig
  obtain ⟨h1, h2, h3, h4⟩ := h
  simp only at h1 h2 h3
  subst h1
  have hloop := ringVerifyLoop_challengeAt msg r s e (by omega)
  simp only [RingSignature.verify, hloop, Outcome.ok.injEq, decide_eq_true_eq] at h4
  have hwrap : ∀ j < r.length, challengeAt msg r s e ((j + 1) % r.length) =
      challengeAt msg r s e (j + 1) := by
    intro j hj
    by_cases hl : j + 1 = r.length
    · rw [hl, Nat.mod_self, ← h4]
      rfl
    · rw [Nat.mod_eq_of_lt (by omega)]
  have hstep : ∀ j (hj : j < r.length), challengeAt msg r s e (j + 1) =
      C.canon (C.hashF (msg ++ hexEncode (C.enc (C.add (C.mul (s[j]'(by omega)) C.base)
        (C.mul (challengeAt msg r s e j) r[j]))))) := by
    intro j hj
    rw [challengeAt]
    simp [List.getElem?_eq_getElem hj, List.getElem?_eq_getElem (show j < s.length by omega)]
  have hcan : ∀ j < r.length, (challengeAt msg r s e j).Fits := by
    intro j hj
    cases j with
    | zero =>
      change e.Fits
      obtain ⟨m, hm⟩ : ∃ m, r.length = m + 1 := ⟨r.length - 1, by omega⟩
      rw [h4, hm, hstep m (by omega)]
      exact C.canon_fits _
    | succ j =>
      rw [hstep j (by omega)]
      exact C.canon_fits _
  have hred : ∀ j (hj : j < s.length), s[j] = C.canon (C.val s[j]) := fun j hj =>
    h3 _ (List.getElem_mem hj)
  have hsf : ∀ j (hj : j < s.length), (s[j]).Fits := fun j hj => by
    rw [hred j hj]; exact C.canon_fits _
  refine ⟨(C.val (s[i]'(by omega)) + C.val (challengeAt msg r s e i) * C.val x,
    fun j => C.val (s[j.1.val]'(by omega))), ⟨challengeAt msg r s e, rfl, h2, rfl, ?_, ?_, ?_⟩, ?_⟩
  · rw [hwrap i hi, hstep i hi, hpk, publicKey, mul_base hx, mul_base (hsf i (by omega)),
      mul_pt (hcan i hi), add_pt, mul_base (C.canon_fits _), C.val_canon]
  · intro j hj hne
    simp only
    rw [hwrap j hj, hstep j hj, ← hred j (by omega)]
    exact ⟨List.getElem?_eq_getElem _, rfl⟩
  · rw [List.getElem?_eq_getElem (show i < s.length by omega), hred i (by omega)]
    simp only [C.val_canon]
    congr 2
    ring
  · rintro ⟨k, f⟩ ⟨E, g1, g2, g3, g4, g5, g6⟩
    simp only at g1 g2 g3 g5 g6
    have hE : ∀ j, j ≤ i → E j = challengeAt msg r s e j := by
      intro j
      induction j with
      | zero => intro _; exact g3.symm
      | succ j ih =>
        intro hj
        have hh := g5 j (by omega) (by omega)
        rw [Nat.mod_eq_of_lt (by omega : j + 1 < r.length),
          List.getElem?_eq_getElem (show j < s.length by omega)] at hh
        rw [hh.2, hstep j (by omega), ih (by omega), Option.some.inj hh.1]
    rw [List.getElem?_eq_getElem (show i < s.length by omega), hE i le_rfl] at g6
    refine Prod.ext ?_ (funext fun j => ?_)
    · simp only [Option.some.inj g6, C.val_canon]
      ring
    · have := (g5 j.1.val j.1.isLt j.2).1
      rw [List.getElem?_eq_getElem (by omega)] at this
      simp only [Option.some.inj this, C.val_canon]

/-- C143: a ring signature does not tell who made it: between the numbers that any two members can draw
there is a one-to-one correspondence under which they make the same signatures. If all draws are equally
likely, so are the signatures, whoever signs. -/
theorem C143_signers_cannot_be_told_apart {x y : Scalar} (hx : x.Fits) (hy : y.Fits) (msg : Bytes)
    {ring : List C.Pt} {i j : Nat} (hi : ring[i]? = some (publicKey x))
    (hj : ring[j]? = some (publicKey y)) :
    ∃ f : Draws (C := C) ring.length i ≃ Draws (C := C) ring.length j,
      ∀ d sig, Signing x msg ring i d sig ↔ Signing y msg ring j (f d) sig := by
  have main : ∀ {x : Scalar} {i : Nat}, x.Fits → ring[i]? = some (publicKey x) →
      ∃ f : Draws (C := C) ring.length i ≃ {sig // Accepted msg ring sig},
        ∀ d sig, Signing x msg ring i d sig ↔ (f d).1 = sig := by
    intro x i hx hi
    have hlt := (List.getElem?_eq_some_iff.mp hi).1
    choose g hg using fun d => signing_exists x msg ring hlt d
    let f : Draws (C := C) ring.length i → {sig // Accepted msg ring sig} :=
      fun d => ⟨g d, C143_signatures_are_accepted hx hi (hg d)⟩
    have hf : Function.Bijective f := by
      constructor
      · intro d d' e
        have e : g d = g d' := congrArg Subtype.val e
        have h' := hg d'
        rw [← e] at h'
        exact (C143_any_member_could_have_signed hx hi (C143_signatures_are_accepted hx hi (hg d))).unique
          (hg d) h'
      · rintro ⟨sig, hs⟩
        obtain ⟨d, hd, -⟩ := C143_any_member_could_have_signed hx hi hs
        exact ⟨d, Subtype.ext (signing_unique hlt (hg d) hd)⟩
    refine ⟨Equiv.ofBijective f hf, fun d sig => ⟨fun h => signing_unique hlt (hg d) h, ?_⟩⟩
    rintro rfl
    exact hg d
  obtain ⟨f, hf⟩ := main hx hi
  obtain ⟨g, hg⟩ := main hy hj
  refine ⟨f.trans g.symm, fun d sig => ?_⟩
  rw [hf, hg]
  simp

/-- C143, what is missing in the code: the numbers are not drawn. Two signatures of one message by one
key carry the same numbers at all positions but those of the signer, whatever the rings are. -/
theorem C143_signatures_are_linked_neg {x : Scalar} {msg : Bytes} {ring ring' : List C.Pt}
    {sig sig' : RingSignature} (h : ringSign x msg ring = .ok sig)
    (h' : ringSign x msg ring' = .ok sig') :
    ∃ i i', ring[i]? = some (publicKey x) ∧ ring'[i']? = some (publicKey x) ∧
      ∀ j, j < ring.length → j < ring'.length → j ≠ i → j ≠ i' → sig.s[j]? = sig'.s[j]? := by
  obtain ⟨i, hi, E, -, -, -, -, h5, -⟩ := C143_ring_sign_is_the_scheme x msg ring sig h
  obtain ⟨i', hi', E', -, -, -, -, g5, -⟩ := C143_ring_sign_is_the_scheme x msg ring' sig' h'
  exact ⟨i, i', hi, hi', fun j hj hj' hne hne' => by rw [(h5 j hj hne).1, (g5 j hj' hne').1]⟩

end

section examples

attribute [local instance] toyCurve

/-- C143: a ring with two members, both of whom can sign. -/
example : ∃ (x y : Scalar) (ring : List (ZMod 5)) (sig : RingSignature), x.Fits ∧ y.Fits ∧
    ring[0]? = some (publicKey x) ∧ ring[1]? = some (publicKey y) ∧ publicKey x ≠ publicKey y ∧
    ringSign y (ascii "m") ring = .ok sig ∧ Accepted (ascii "m") ring sig := by
  obtain ⟨sig, hs⟩ : ∃ sig, ringSign (toySc 2) (ascii "m") [publicKey (toySc 1), publicKey (toySc 2)] =
    .ok sig := ⟨_, rfl⟩
  obtain ⟨i, hi, h⟩ := C143_ring_sign_is_the_scheme _ _ _ _ hs
  exact ⟨toySc 1, toySc 2, [publicKey (toySc 1), publicKey (toySc 2)], sig, by decide, by decide, rfl, rfl,
    by decide, hs, C143_signatures_are_accepted (by decide) hi h⟩

end examples

end Verif
