import Mathlib.Data.Set.Card
import Verif.Ed25519.Count
import Verif.Ed25519.Simulate
import Verif.Props.Sig
import Verif.Spec.Ed25519

/-!
# The signature package on the vendored curve (C111 - C116, C119 - C122)

The functions of `Model/Kyber/Signature.lean` run on the limbs of the vendored code; the only parameter
is SHA-256. Private keys are 32 bytes, public keys are what `String` writes for them.
-/

namespace Verif.Kyber

attribute [local irreducible] ptMul ptAdd ptSub GeExt.toBytes GeExt.fromBytes baseext scMul scSub scDiv
  scSetBytes scString canonFl edEnc edDec

theorem littleValue_eq : ∀ b : Bytes, littleValue b = leNat b
  | [] => rfl
  | c :: b => by
    rw [leNat, ← littleValue_eq b]
    rfl

/-! ## Outcomes that correspond -/

theorem Sim.of_ok {α β : Type} {R : α → β → Prop} {x : Outcome α} {b : β} (h : Sim R x (.ok b)) :
    ∃ a, x = .ok a ∧ R a b := by
  cases h with
  | ok r => exact ⟨_, rfl, r⟩

theorem Sim.to_ok {α β : Type} {R : α → β → Prop} {a : α} {y : Outcome β} (h : Sim R (.ok a) y) :
    ∃ b, y = .ok b ∧ R a b := by
  cases h with
  | ok r => exact ⟨_, rfl, r⟩

section
variable [Sha256]

attribute [local instance] edCurve

/-- The challenge that a message and a commitment hash to, as a number below the group order. -/
def challengeOf (msg : Bytes) (r : GeExt) : Nat := littleValue (Sha256.sum (msg ++ kPtStr r)) % primeOrder

theorem hashF_ne_zero {msg : Bytes} {r : GeExt} {P : Ed} (h : r.Rep P) :
    edCurve.hashF (msg ++ ptStr P) ≠ 0 ↔ challengeOf msg r ≠ 0 := by
  unfold challengeOf
  rw [kPtStr_eq h, littleValue_eq, primeOrder_eq]
  refine not_congr ?_
  show ((leNat (Sha256.sum (msg ++ ptStr P)) : Nat) : Fl) = 0 ↔ _
  rw [ZMod.natCast_eq_zero_iff, Nat.dvd_iff_mod_eq_zero]

theorem kPtStr_inj {g h : GeExt} {P Q : Ed} (hg : g.Rep P) (hh : h.Rep Q) (e : kPtStr g = kPtStr h) : P = Q := by
  rw [kPtStr_eq hg, kPtStr_eq hh] at e
  exact edEnc_inj (hexEncode_injective e)

/-! ## C111 -/

/-- C111: on the vendored curve, every private key of 32 bytes up to `largestFactor` signs every message; the text
of the signature is read back as a signature with the same text; and the public key recovered from it for
the message has the text of the signer's public key. The challenges of the message and of the two random
numbers drawn by `Sign` and `ToSignature` must not be zero. -/
theorem C111_vendored_sign_recovers_key (x msg nonce nonce' : Bytes) (hl : x.length = 32)
    (hx : littleValue x ≤ largestFactor)
    (hm : challengeOf msg (ptMul (kGenK x msg) baseext) ≠ 0)
    (hn : challengeOf nonce (ptMul (kGenK x msg) baseext) ≠ 0)
    (hn' : challengeOf nonce' (ptMul (kGenK x msg) baseext) ≠ 0) :
    ∃ sig sig', kSign x msg nonce = .ok sig ∧ kToSignature sig.str nonce' = .ok sig' ∧
      sig'.str = sig.str ∧ kPtStr (sig.publicKey msg) = kPtStr (kPublicKey x) ∧
      kPtStr (sig'.publicKey msg) = kPtStr (kPublicKey x) := by
  obtain ⟨y, rfl⟩ : ∃ y : Scalar, y.raw = x := ⟨⟨x, hl⟩, rfl⟩
  rw [littleValue_eq] at hx
  rw [kGenK_eq] at hm hn hn'
  have hr := ptMul_base_rep (genK y msg)
  rw [← hashF_ne_zero hr] at hm hn hn'
  obtain ⟨s, h1, h2⟩ := C12_sign_recovers_public_key_partial y hx msg nonce hm hn
  have hs := kSign_sim y msg nonce
  rw [h1] at hs
  obtain ⟨sig, e1, r1⟩ := hs.of_ok
  have ht : toSignature s.str nonce' = .ok s := by
    have h1' := h1
    unfold sign createSignature at h1'
    simp only at h1'
    split at h1'
    · obtain rfl := Outcome.ok.inj h1'
      exact C71_signature_text_round_trip _ _ nonce' hn'
    · cases h1'
  have hs' := kToSignature_sim sig.str nonce'
  rw [r1.str, ht] at hs'
  obtain ⟨sig', e2, r2⟩ := hs'.of_ok
  refine ⟨sig, sig', e1, by rw [r1.str]; exact e2, by rw [r1.str, r2.str], ?_, ?_⟩
  · rw [kPtStr_eq (r1.publicKey msg), h2, ← kPtStr_eq (kPublicKey_rep y)]
  · rw [kPtStr_eq (r2.publicKey msg), h2, ← kPtStr_eq (kPublicKey_rep y)]

/-! ## C112 -/

theorem ring_rep {texts : List Bytes} {ring : List GeExt} (h : mapO kToPoint texts = .ok ring) :
    ∃ m : List Ed, List.Forall₂ GeExt.Rep ring m := by
  have := Sim.mapO kToPoint_sim texts
  rw [h] at this
  obtain ⟨m, -, r⟩ := this.to_ok
  exact ⟨m, r⟩

theorem mem_of_text {x : Scalar} {ring : List GeExt} {m : List Ed} (hr : List.Forall₂ GeExt.Rep ring m)
    (h : kPtStr (kPublicKey x.raw) ∈ ring.map kPtStr) : publicKey x ∈ m := by
  rw [map_eq_of_forall₂ (g := ptStr) (fun _ _ h => kPtStr_eq h) hr, kPtStr_eq (kPublicKey_rep x)] at h
  obtain ⟨p, hp, e⟩ := List.mem_map.1 h
  rw [← edEnc_inj (hexEncode_injective e)]
  exact hp

/-- C112: on the vendored curve, every private key of 32 bytes up to `largestFactor` signs every message in every
ring of public keys, read from texts, that contains its own: the signature lists the same ring, verifies on
the message, and its text is read back as a signature with the same text that verifies too. -/
theorem C112_vendored_ring_sign_verifies (x msg : Bytes) (hl : x.length = 32)
    (hx : littleValue x ≤ largestFactor) (texts : List Bytes) (ring : List GeExt)
    (hr : mapO kToPoint texts = .ok ring) (hm : kPtStr (kPublicKey x) ∈ ring.map kPtStr) :
    ∃ sig sig', kRingSign x msg ring = .ok sig ∧ sig.ring.map kPtStr = ring.map kPtStr ∧
      sig.verify msg = .ok true ∧ kToRingSignature sig.str = .ok sig' ∧ sig'.str = sig.str ∧
      sig'.ring.map kPtStr = ring.map kPtStr ∧ sig'.verify msg = .ok true := by
  obtain ⟨y, rfl⟩ : ∃ y : Scalar, y.raw = x := ⟨⟨x, hl⟩, rfl⟩
  rw [littleValue_eq] at hx
  obtain ⟨m, r⟩ := ring_rep hr
  obtain ⟨s, h1, h2, h3⟩ := C14_ring_sign_verifies_partial y hx msg m (mem_of_text r hm)
  have hs := kRingSign_sim y msg r
  rw [h1] at hs
  obtain ⟨sig, e1, r1⟩ := hs.of_ok
  have hs' := kToRingSignature_sim sig.str
  rw [r1.str, C15_signed_round_trip y msg m s h1] at hs'
  obtain ⟨sig', e2, r2⟩ := hs'.of_ok
  have hring : ∀ k : KRingSignature, k.Rep s → k.ring.map kPtStr = ring.map kPtStr := by
    intro k hk
    rw [map_eq_of_forall₂ (g := ptStr) (fun _ _ h => kPtStr_eq h) hk.1,
      map_eq_of_forall₂ (g := ptStr) (fun _ _ h => kPtStr_eq h) r, h2]
  refine ⟨sig, sig', e1, hring _ r1, ?_, by rw [r1.str]; exact e2, by rw [r1.str, r2.str], hring _ r2, ?_⟩
  · rw [r1.verify, h3]
  · rw [r2.verify, h3]

/-- C112: it fails, with an error, exactly when no key of the ring has the text of the signer's. -/
theorem C112_vendored_ring_sign_fails_iff (x msg : Bytes) (hl : x.length = 32) (texts : List Bytes)
    (ring : List GeExt) (hr : mapO kToPoint texts = .ok ring) :
    ((∃ m, kRingSign x msg ring = .err m) ↔ kPtStr (kPublicKey x) ∉ ring.map kPtStr) ∧
      ∀ c, kRingSign x msg ring ≠ .crash c := by
  obtain ⟨y, rfl⟩ : ∃ y : Scalar, y.raw = x := ⟨⟨x, hl⟩, rfl⟩
  obtain ⟨m, r⟩ := ring_rep hr
  obtain ⟨h1, h2⟩ := C14_ring_sign_fails_iff y msg m
  have hmem : kPtStr (kPublicKey y.raw) ∈ ring.map kPtStr ↔ publicKey y ∈ m := by
    refine ⟨mem_of_text r, fun h => ?_⟩
    rw [map_eq_of_forall₂ (g := ptStr) (fun _ _ h => kPtStr_eq h) r, kPtStr_eq (kPublicKey_rep y)]
    exact List.mem_map_of_mem h
  rw [hmem, ← h1]
  have hs := kRingSign_sim y msg r
  generalize kRingSign y.raw msg ring = a at *
  generalize ringSign y msg m = b at *
  cases hs with
  | ok _ => simp
  | err m => simp
  | crash c => exact absurd rfl (h2 c)

/-! ## C113 -/

omit [Sha256] in
theorem fp_intCast_eq {a b : Int} : (a : Fp) = (b : Fp) ↔ a ≡ b [ZMOD 2 ^ 255 - 19] := by
  have e : ((prime25519 : Nat) : Int) = 2 ^ 255 - 19 := by unfold prime25519; norm_num
  rw [ZMod.intCast_eq_intCast_iff, e]

omit [Sha256] in
/-- The equation of the curve, on numbers. -/
theorem onCurve_iff (x y : Int) :
    OnCurve25519 x y ↔ (y : Fp) ^ 2 - (x : Fp) ^ 2 = 1 + Edwards.d * (x : Fp) ^ 2 * (y : Fp) ^ 2 := by
  unfold OnCurve25519
  rw [← fp_intCast_eq, ed_d]
  push_cast
  have h0 : (121666 : Fp) ≠ 0 := by
    have := natCast_ne (a := 121666) (b := 0) (by unfold prime25519; decide +kernel)
    simpa only [Nat.cast_ofNat, Nat.cast_zero] using this
  constructor
  · intro h
    refine mul_left_cancel₀ h0 ?_
    linear_combination h - (x : Fp) ^ 2 * (y : Fp) ^ 2 * feD_ratio
  · intro h
    linear_combination 121666 * h + (x : Fp) ^ 2 * (y : Fp) ^ 2 * feD_ratio

omit [Sha256] in
theorem fromBytes_isSome (b : Bytes) : (∃ g, GeExt.fromBytes b = some g) ↔
    b.length = 32 ∧ ∃ x : Int, OnCurve25519 x (lowBits b) := by
  constructor
  · rintro ⟨g, h⟩
    obtain ⟨P, -, hl, hy, -⟩ := fromBytes_decodes h
    refine ⟨hl, (P.x.val : Int), ?_⟩
    rw [onCurve_iff, Int.cast_natCast, Int.cast_natCast, ZMod.natCast_zmod_val, lowBits, littleValue_eq, ← hy]
    exact P.on
  · rintro ⟨hl, x, hx⟩
    rw [onCurve_iff, Int.cast_natCast, lowBits, littleValue_eq] at hx
    rcases GeExt.fromBytes_spec b hl with ⟨g, P, e, -⟩ | ⟨-, e⟩
    · exact ⟨g, e⟩
    · exact absurd rfl (e ⟨x, _, hx⟩)

omit [Sha256] in
/-- C113: a text is a public key exactly when it consists of 64 hexadecimal digits (32 bytes) and the low 255
bits are the ordinate, reduced or not, of a point of edwards25519. Every other text is refused with an
error. -/
theorem C113_public_key_texts (t : Bytes) :
    ((∃ g, kToPoint t = .ok g) ↔ ∃ b, hexDecode t = some b ∧ b.length = 32 ∧
      ∃ x : Int, OnCurve25519 x (lowBits b)) ∧
    ∀ c, kToPoint t ≠ .crash c := by
  unfold kToPoint
  cases hd : hexDecode t with
  | none => simp
  | some b =>
    have h := fromBytes_isSome b
    cases hf : GeExt.fromBytes b with
    | none =>
      rw [hf] at h
      simpa [hf] using h
    | some g =>
      rw [hf] at h
      simpa [hf] using h

/-- C113: a key read from a text is written as a text that stands for the same point and is read as a key
with the same text. -/
theorem C113_public_key_round_trip (t : Bytes) (g : GeExt) (h : kToPoint t = .ok g) :
    (kPtStr g).length = 64 ∧ ∃ g', kToPoint (kPtStr g) = .ok g' ∧ kPtStr g' = kPtStr g := by
  have := kToPoint_sim t
  rw [h] at this
  obtain ⟨P, -, r⟩ := this.to_ok
  have h2 := kToPoint_sim (kPtStr g)
  rw [kPtStr_eq r, fromStringToPoint_ptStr] at h2
  obtain ⟨g', e, r'⟩ := h2.of_ok
  refine ⟨?_, g', by rw [kPtStr_eq r]; exact e, by rw [kPtStr_eq r, kPtStr_eq r']⟩
  unfold kPtStr
  rw [hexEncode_length, GeExt.toBytes_length]

/-! ## C114 -/

omit [Sha256] in
theorem bits_eq (b : Bytes) : leNat b = lowBits b + 2 ^ 255 * topBit b := by
  unfold lowBits topBit
  rw [littleValue_eq]
  exact (Nat.mod_add_div _ _).symm

omit [Sha256] in
theorem topBit_lt {b : Bytes} (h : b.length = 32) : topBit b < 2 := by
  unfold topBit
  rw [littleValue_eq, Nat.div_lt_iff_lt_mul (Nat.two_pow_pos 255)]
  have := leNat_lt b
  rw [h] at this
  exact this.trans_le (by decide +kernel)

omit [Sha256] in
theorem x_zero_iff (P : Ed) : P.x = 0 ↔ P.y = 1 ∨ P.y = -1 := by
  have h := on_iff.1 P.on
  constructor
  · intro hx
    rw [hx] at h
    have : (P.y - 1) * (P.y + 1) = 0 := by linear_combination -h
    rcases mul_eq_zero.1 this with h | h
    · exact .inl (sub_eq_zero.1 h)
    · exact .inr (eq_neg_of_add_eq_zero_left h)
  · intro hy
    have h1 : P.y ^ 2 - 1 = 0 := by rcases hy with h | h <;> rw [h] <;> ring
    rw [h1] at h
    rcases mul_eq_zero.1 h with h | h
    · exact pow_eq_zero_iff (two_ne_zero) |>.1 h
    · exact absurd h (v_ne_zero _)

omit [Sha256] in
theorem toBytes_eq_iff {b : Bytes} {g : GeExt} (h : GeExt.fromBytes b = some g) :
    g.toBytes = b ↔ lowBits b < 2 ^ 255 - 19 ∧
      ¬ (topBit b = 1 ∧ (lowBits b = 1 ∨ lowBits b = 2 ^ 255 - 20)) := by
  obtain ⟨P, r, hl, hy, hx⟩ := fromBytes_decodes h
  have ht := topBit_lt hl
  rw [← littleValue_eq] at hy hx
  change P.y = ((lowBits b : Nat) : Fp) at hy
  change P.x = 0 ∨ P.x.val % 2 = topBit b at hx
  have hv : P.y.val = lowBits b % prime25519 := by rw [hy, ZMod.val_natCast]
  have hE : g.toBytes = b ↔ P.y.val + 2 ^ 255 * (P.x.val % 2) = lowBits b + 2 ^ 255 * topBit b := by
    rw [← bits_eq, ← leNat_edEnc, ← toBytes_eq r]
    exact ⟨fun e => by rw [e], leNat_inj (g.toBytes_length.trans hl.symm)⟩
  have hlow : lowBits b < 2 ^ 255 := Nat.mod_lt _ (Nat.two_pow_pos 255)
  have hylt := fp_val_lt P.y
  have hE' : g.toBytes = b ↔ P.y.val = lowBits b ∧ P.x.val % 2 = topBit b := by
    rw [hE]
    have hp : P.x.val % 2 < 2 := Nat.mod_lt _ (by decide)
    generalize (2 : Nat) ^ 255 = K at *
    generalize P.x.val % 2 = u at *
    constructor
    · intro e
      have : u = topBit b := by
        rcases (by omega : u = 0 ∨ u = 1) with rfl | rfl <;>
          rcases (by omega : topBit b = 0 ∨ topBit b = 1) with h | h <;> rw [h] at e ⊢ <;> omega
      subst this
      omega
    · rintro ⟨e1, e2⟩
      rw [e1, e2]
  have h1 : P.y = 1 ↔ lowBits b % prime25519 = 1 := by
    rw [← hv]
    constructor
    · intro e
      rw [e, ZMod.val_one]
    · intro e
      rw [← ZMod.natCast_zmod_val P.y, e, Nat.cast_one]
  have h2 : P.y = -1 ↔ lowBits b % prime25519 = prime25519 - 1 := by
    rw [← hv]
    have e1 : ((prime25519 - 1 : Nat) : Fp) = -1 := by
      rw [Nat.cast_sub prime25519_prime.one_le, ZMod.natCast_self, Nat.cast_one, zero_sub]
    constructor
    · intro e
      rw [e, ← e1, ZMod.val_natCast, Nat.mod_eq_of_lt (Nat.sub_lt prime25519_prime.pos one_pos)]
    · intro e
      rw [← ZMod.natCast_zmod_val P.y, e, e1]
  have hx0 := x_zero_iff P
  rw [h1, h2] at hx0
  rw [hE', hv, ← prime25519_eq, show (2 : Nat) ^ 255 - 20 = prime25519 - 1 by rw [prime25519_eq]; rfl]
  have hlt : ∀ n, n % prime25519 = n ↔ n < prime25519 := fun n =>
    ⟨fun e => e ▸ Nat.mod_lt _ prime25519_prime.pos, Nat.mod_eq_of_lt⟩
  rw [hlt]
  refine and_congr_right fun hlt' => ?_
  rw [Nat.mod_eq_of_lt hlt'] at hx0
  rw [← hx0]
  constructor
  · rintro e ⟨t1, x0⟩
    rw [x0, ZMod.val_zero, t1] at e
    cases e
  · intro hn
    rcases hx with x0 | e
    · have : topBit b ≠ 1 := fun t1 => hn ⟨t1, x0⟩
      rw [x0, ZMod.val_zero]
      omega
    · exact e

omit [Sha256] in
/-- C114: which texts are the ones that `String` writes: a text (in lower case) that is read as a public key is
written back unchanged exactly when the ordinate is reduced modulo `2^255 - 19`, and the top bit is clear
for the two points whose abscissa is zero. -/
theorem C114_canonical_texts (b : Bytes) (g : GeExt) (h : kToPoint (hexEncode b) = .ok g) :
    kPtStr g = hexEncode b ↔ lowBits b < 2 ^ 255 - 19 ∧
      ¬ (topBit b = 1 ∧ (lowBits b = 1 ∨ lowBits b = 2 ^ 255 - 20)) := by
  have h' : GeExt.fromBytes b = some g := by
    unfold kToPoint at h
    rw [hexDecode_hexEncode] at h
    dsimp only at h
    split at h
    · cases h
    · rename_i e
      rw [e, Outcome.ok.inj h]
  rw [← toBytes_eq_iff h']
  exact ⟨fun e => hexEncode_injective e, fun e => by unfold kPtStr; rw [e]⟩

/-- C114 (negation of "two public keys are the same exactly when their texts are"): a key whose ordinate is
below 19 has a second text, with the ordinate increased by `2^255 - 19`. -/
theorem C114_second_text_neg (b b' : Bytes) (g : GeExt) (h : kToPoint (hexEncode b) = .ok g)
    (hl : b'.length = 32) (hb : littleValue b' = littleValue b + (2 ^ 255 - 19)) (hlow : lowBits b < 19) :
    hexEncode b' ≠ hexEncode b ∧
      ∃ g', kToPoint (hexEncode b') = .ok g' ∧ kPtStr g' = kPtStr g := by
  have h' := kToPoint_sim (hexEncode b)
  rw [h] at h'
  obtain ⟨P, e, r⟩ := h'.to_ok
  have hP : Decodes b P := by
    unfold fromStringToPoint at e
    rw [hexDecode_hexEncode] at e
    dsimp only at e
    split at e
    · cases e
    · rename_i e'
      rw [← edDec_eq_some]
      rw [Outcome.ok.inj e] at e'
      exact e'
  have hpow : (19 : Nat) < 2 ^ 255 := by decide +kernel
  have hlow' : lowBits b' = lowBits b + (2 ^ 255 - 19) ∧ topBit b' = topBit b := by
    unfold lowBits topBit at *
    rw [hb]
    generalize (2 : Nat) ^ 255 = K at *
    have h1 := Nat.mod_add_div (littleValue b) K
    constructor
    · rw [Nat.add_mod, Nat.mod_eq_of_lt (by omega : K - 19 < K), Nat.mod_eq_of_lt (by omega)]
    · have : littleValue b + (K - 19) = (littleValue b % K + (K - 19)) + K * (littleValue b / K) := by omega
      rw [this, Nat.add_mul_div_left _ _ (by omega), Nat.div_eq_of_lt (by omega), zero_add]
  have hP' : Decodes b' P := by
    obtain ⟨-, hy, hx⟩ := hP
    rw [← littleValue_eq] at hy hx
    refine ⟨hl, ?_, ?_⟩
    · rw [hy, ← littleValue_eq]
      change ((lowBits b : Nat) : Fp) = ((lowBits b' : Nat) : Fp)
      rw [hlow'.1, ← prime25519_eq, Nat.cast_add, ZMod.natCast_self, add_zero]
    · rw [← littleValue_eq]
      change P.x = 0 ∨ P.x.val % 2 = topBit b'
      rw [hlow'.2]
      exact hx
  have h2 := kToPoint_sim (hexEncode b')
  have e2 : fromStringToPoint (hexEncode b') = .ok P := by
    unfold fromStringToPoint
    rw [hexDecode_hexEncode]
    dsimp only
    have : edCurve.dec b' = some P := edDec_eq_some.2 hP'
    rw [this]
  rw [e2] at h2
  obtain ⟨g', e3, r'⟩ := h2.of_ok
  refine ⟨fun e => ?_, g', e3, by rw [kPtStr_eq r, kPtStr_eq r']⟩
  have := hexEncode_injective e
  rw [this] at hlow'
  generalize (2 : Nat) ^ 255 = K at *
  omega

/-! ## C115 -/

/-- The bytes of the point `(0, -1)`. -/
def ownerlessBytes : Bytes := 0xec :: (List.replicate 30 0xff ++ [0x7f])

/-- The text of that point. -/
def ownerlessText : Bytes := hexEncode ownerlessBytes

/-- The point `(0, -1)`. -/
def edTwo : Ed := ⟨0, -1, by ring⟩

omit [Sha256] in
theorem edTwo_add : edTwo + edTwo = 0 := by
  have : -edTwo = edTwo := EdPoint.ext (by simp [edTwo]) rfl
  nth_rw 1 [← this]
  exact neg_add_cancel _

omit [Sha256] in
theorem edTwo_ne : edTwo ≠ 0 := by
  intro h
  have : (-1 : Fp) = 1 := congrArg EdPoint.y h
  exact Edwards.two_ne (K := Fp) (by linear_combination -this)

omit [Sha256] in
theorem edTwo_decodes : Decodes ownerlessBytes edTwo := by
  have hv : leNat ownerlessBytes = 2 ^ 255 - 20 := by decide +kernel
  have hm : (2 ^ 255 - 20) % 2 ^ 255 = prime25519 - 1 := by rw [prime25519_eq]; decide +kernel
  refine ⟨by decide, ?_, .inl rfl⟩
  rw [hv, hm, Nat.cast_sub prime25519_prime.one_le, ZMod.natCast_self, Nat.cast_one, zero_sub]
  rfl

theorem ownerless_read : ∃ g, kToPoint ownerlessText = .ok g ∧ g.Rep edTwo := by
  have h2 := kToPoint_sim ownerlessText
  have e2 : fromStringToPoint ownerlessText = .ok edTwo := by
    unfold fromStringToPoint ownerlessText
    rw [hexDecode_hexEncode]
    dsimp only
    have : edCurve.dec ownerlessBytes = some edTwo := edDec_eq_some.2 edTwo_decodes
    rw [this]
  rw [e2] at h2
  exact h2.of_ok

omit [Sha256] in
theorem order_smul_multiple (n : Int) : order25519 • (n • edBase) = 0 := by
  rw [smul_comm, order_smul_base, smul_zero]

/-- C115 (negation of "every accepted public key belongs to a private key"): the text of the point `(0, -1)`
is accepted as a public key, and is not the public key of any private key. -/
theorem C115_ownerless_key_neg :
    ∃ g, kToPoint ownerlessText = .ok g ∧ kPtStr g = ownerlessText ∧
      ∀ x : Bytes, x.length = 32 → kPtStr (kPublicKey x) ≠ ownerlessText := by
  obtain ⟨g, e, r⟩ := ownerless_read
  have ht : kPtStr g = ownerlessText := by
    unfold ownerlessText at e ⊢
    rw [C114_canonical_texts _ _ e]
    decide +kernel
  refine ⟨g, e, ht, fun x hl hx => ?_⟩
  obtain ⟨y, rfl⟩ : ∃ y : Scalar, y.raw = x := ⟨⟨x, hl⟩, rfl⟩
  have h := kPtStr_inj (kPublicKey_rep y) r (hx.trans ht.symm)
  rw [publicKey_def] at h
  change multiplier y • edBase = edTwo at h
  have h1 := order_smul_multiple (multiplier y)
  rw [h] at h1
  have hodd : order25519 = 2 * (order25519 / 2) + 1 := by unfold order25519; decide +kernel
  rw [hodd, add_smul, one_smul, mul_comm, mul_smul, two_smul, edTwo_add, smul_zero, zero_add] at h1
  exact edTwo_ne h1

omit [Sha256] in
theorem edEnc_zero : edEnc 0 = 1 :: List.replicate 31 0 := by
  refine leNat_inj (edEnc_length _) ?_
  rw [leNat_edEnc]
  show (1 : Fp).val + 2 ^ 255 * ((0 : Fp).val % 2) = _
  rw [ZMod.val_one, ZMod.val_zero]
  decide +kernel

omit [Sha256] in
theorem primeOrder_fits : primeOrder < 2 ^ 253 := by decide +kernel

omit [Sha256] in
theorem littleEndian32_lt {n : Nat} (h : n < 2 ^ 253) :
    ∃ y : Scalar, y.raw = littleEndian32 n ∧ multiplier y = n := by
  have hlen : (littleEndian32 n).length = 32 := littleEndian32_length (h.trans (by decide +kernel))
  refine ⟨⟨_, hlen⟩, rfl, ?_⟩
  rw [multiplier_of_fits]
  · dsimp only
    rw [leNat_littleEndian32]
  · refine fits_of_lt ?_
    dsimp only
    rw [leNat_littleEndian32]
    exact h.trans (by decide +kernel)

/-- C121: an accepted public key is the public key of a private key exactly when its multiple by the group
order is the neutral element. -/
theorem C121_owned_exactly (t : Bytes) (g : GeExt) (h : kToPoint t = .ok g) :
    (∃ x : Bytes, x.length = 32 ∧ kPtStr (kPublicKey x) = kPtStr g) ↔
      kPtStr (ptMul (littleEndian32 primeOrder) g) = hexEncode (1 :: List.replicate 31 0) := by
  have := kToPoint_sim t
  rw [h] at this
  obtain ⟨P, -, r⟩ := this.to_ok
  obtain ⟨o, ho, hm⟩ := littleEndian32_lt primeOrder_fits
  have hr := ptMul_rep r o
  rw [ho] at hr
  have e1 : kPtStr (ptMul (littleEndian32 primeOrder) g) = hexEncode (1 :: List.replicate 31 0) ↔
      order25519 • P = 0 := by
    rw [kPtStr_eq hr]
    change hexEncode (edEnc (multiplier o • P)) = _ ↔ _
    rw [hm, natCast_zsmul, primeOrder_eq, ← edEnc_zero]
    exact ⟨fun e => edEnc_inj (hexEncode_injective e), fun e => by rw [e]⟩
  rw [e1, ← multiple_iff]
  constructor
  · rintro ⟨x, hl, hx⟩
    obtain ⟨y, rfl⟩ : ∃ y : Scalar, y.raw = x := ⟨⟨x, hl⟩, rfl⟩
    have hP := kPtStr_inj (kPublicKey_rep y) r hx
    rw [publicKey_def] at hP
    change multiplier y • edBase = P at hP
    rw [multiple_iff, ← hP, order_smul_multiple]
  · rintro ⟨n, hn, hP⟩
    obtain ⟨y, hy, hn'⟩ := littleEndian32_lt (n := n) (hn.trans (primeOrder_eq ▸ primeOrder_fits))
    refine ⟨y.raw, y.len, ?_⟩
    rw [kPtStr_eq (kPublicKey_rep y), kPtStr_eq r, publicKey_def]
    change ptStr (multiplier y • edBase) = _
    rw [hn', natCast_zsmul, hP]

theorem read_of_point (P : Ed) : ∃ g, kToPoint (hexEncode (edEnc P)) = .ok g ∧ g.Rep P := by
  have h2 := kToPoint_sim (hexEncode (edEnc P))
  have e2 : fromStringToPoint (hexEncode (edEnc P)) = .ok P := by
    unfold fromStringToPoint
    rw [hexDecode_hexEncode]
    dsimp only
    have : edCurve.dec (edEnc P) = some P := edDec_edEnc P
    rw [this]
  rw [e2] at h2
  exact h2.of_ok

/-- C121: there are `8L` different public keys that are accepted, `L` being the group order, and `L` of them
belong to a private key: seven keys out of eight have no owner. -/
theorem C121_key_counts :
    {s : Bytes | ∃ t g, kToPoint t = .ok g ∧ kPtStr g = s}.ncard = 8 * primeOrder ∧
      {s : Bytes | ∃ x : Bytes, x.length = 32 ∧ kPtStr (kPublicKey x) = s}.ncard = primeOrder := by
  have hinj : Function.Injective (fun P : Ed => hexEncode (edEnc P)) :=
    fun P Q e => edEnc_inj (hexEncode_injective e)
  constructor
  · have : {s : Bytes | ∃ t g, kToPoint t = .ok g ∧ kPtStr g = s} = Set.range (fun P : Ed => hexEncode (edEnc P)) := by
      ext s
      constructor
      · rintro ⟨t, g, h, rfl⟩
        have := kToPoint_sim t
        rw [h] at this
        obtain ⟨P, -, r⟩ := this.to_ok
        exact ⟨P, (kPtStr_eq r).symm⟩
      · rintro ⟨P, rfl⟩
        obtain ⟨g, e, r⟩ := read_of_point P
        exact ⟨_, g, e, kPtStr_eq r⟩
    rw [this, ← Set.image_univ, Set.ncard_image_of_injective _ hinj, Set.ncard_univ, card_ed, primeOrder_eq]
  · have : {s : Bytes | ∃ x : Bytes, x.length = 32 ∧ kPtStr (kPublicKey x) = s} =
        (fun P : Ed => hexEncode (edEnc P)) '' (AddSubgroup.zmultiples edBase : Set Ed) := by
      ext s
      constructor
      · rintro ⟨x, hl, rfl⟩
        obtain ⟨y, rfl⟩ : ∃ y : Scalar, y.raw = x := ⟨⟨x, hl⟩, rfl⟩
        refine ⟨publicKey y, ?_, (kPtStr_eq (kPublicKey_rep y)).symm⟩
        rw [publicKey_def]
        exact AddSubgroup.mem_zmultiples_iff.2 ⟨multiplier y, rfl⟩
      · rintro ⟨P, hP, rfl⟩
        obtain ⟨z, rfl⟩ := AddSubgroup.mem_zmultiples_iff.1 hP
        obtain ⟨n, hn, hP⟩ := (multiple_iff (z • edBase)).2 (order_smul_multiple z)
        obtain ⟨y, hy, hn'⟩ := littleEndian32_lt (n := n) (hn.trans (primeOrder_eq ▸ primeOrder_fits))
        refine ⟨y.raw, y.len, ?_⟩
        rw [kPtStr_eq (kPublicKey_rep y), publicKey_def]
        change ptStr (multiplier y • edBase) = _
        rw [hn', natCast_zsmul, hP]
        rfl
    rw [this, Set.ncard_image_of_injective _ hinj]
    have hc := Nat.card_zmultiples edBase
    rw [edBase_order] at hc
    rw [primeOrder_eq, ← hc]
    rfl

/-- C115 (negation of "a signature for a key is made with its private key"): everybody can sign for that key,
with any commitment whose challenge is even. -/
theorem C115_ownerless_signature_neg (g : GeExt) (hg : kToPoint ownerlessText = .ok g) (k msg : Bytes)
    (hk : k.length = 32) (he : challengeOf msg (ptMul k baseext) % 2 = 0) :
    (KRingSignature.mk [g] [k] (kHash (msg ++ kPtStr (ptMul k baseext)))).verify msg = .ok true := by
  obtain ⟨y, rfl⟩ : ∃ y : Scalar, y.raw = k := ⟨⟨k, hk⟩, rfl⟩
  obtain ⟨g', e, r⟩ := ownerless_read
  obtain rfl : g = g' := Outcome.ok.inj (hg.symm.trans e)
  have hr := ptMul_base_rep y
  have hE : kHash (msg ++ kPtStr (ptMul y.raw baseext)) =
      (createHash (msg ++ ptStr (edCurve.mul y edCurve.base))).raw := by
    rw [kPtStr_eq hr, kHash_eq]
  have hrep : (KRingSignature.mk [g] [y.raw] (kHash (msg ++ kPtStr (ptMul y.raw baseext)))).Rep
      ⟨[edTwo], [y], createHash (msg ++ ptStr (edCurve.mul y edCurve.base))⟩ :=
    ⟨.cons r .nil, .cons rfl .nil, hE⟩
  rw [hrep.verify]
  set E := createHash (msg ++ ptStr (edCurve.mul y edCurve.base)) with hEdef
  have hz : edCurve.mul E edTwo = (0 : Ed) := by
    change multiplier E • edTwo = 0
    have hfit : E.Fits := canonFl_fits _
    have hval : leNat E.raw = challengeOf msg (ptMul y.raw baseext) := by
      unfold challengeOf
      rw [kPtStr_eq hr, littleValue_eq, primeOrder_eq]
      change leNat (canonFl _).raw = _
      rw [leNat_canon]
      exact ZMod.val_natCast _ _
    rw [multiplier_of_fits hfit, hval, natCast_zsmul]
    obtain ⟨m, hm⟩ := Nat.dvd_of_mod_eq_zero he
    rw [hm, mul_comm, mul_smul, two_smul, edTwo_add, smul_zero]
  have hadd : edCurve.add (edCurve.mul y edCurve.base) (edCurve.mul E edTwo) = edCurve.mul y edCurve.base := by
    rw [hz]
    exact add_zero (multiplier y • edBase)
  unfold RingSignature.verify ringVerifyLoop ringVerifyLoop ringStep
  rw [hadd, ← hEdef]
  simp

/-! ## C116 -/

omit [Sha256] in
theorem randomInt_spec : ∀ (draws : List Bytes) (i : Nat), randomInt draws = some i →
    0 < i ∧ i < primeOrder
  | [], i, h => by cases h
  | b :: draws, i, h => by
    unfold randomInt at h
    dsimp only at h
    split at h
    · rename_i hi
      obtain rfl := Option.some.inj h
      exact hi
    · exact randomInt_spec draws i h

omit [Sha256] in
theorem beNat_randomBits {b : Bytes} (h : b.length = 32) : beNat (randomBits b) = beNat b % 2 ^ 253 := by
  match b, h with
  | c :: b, h =>
    have hb : b.length = 31 := by simpa using h
    unfold randomBits
    rw [beNat_cons, beNat_cons, hb]
    have hlt := beNat_lt b
    rw [hb] at hlt
    have hc : (c &&& 31).toNat = c.toNat % 32 := by
      revert c
      intro c _
      exact UInt8.forall_of_fin (P := fun c => (c &&& 31).toNat = c.toNat % 32) (by decide +kernel) c
    have e : (2 : Nat) ^ 253 = 32 * 256 ^ 31 := by decide +kernel
    rw [hc, e]
    clear hc e h
    generalize (256 : Nat) ^ 31 = K at *
    have hm := Nat.mod_add_div c.toNat 32
    have h1 : c.toNat * K + beNat b = (c.toNat % 32 * K + beNat b) + 32 * K * (c.toNat / 32) := by
      calc c.toNat * K + beNat b = (c.toNat % 32 + 32 * (c.toNat / 32)) * K + beNat b := by rw [hm]
        _ = _ := by ring
    have h32 : c.toNat % 32 + 1 ≤ 32 := Nat.mod_lt _ (by decide)
    have h2 : c.toNat % 32 * K + beNat b < 32 * K := by
      calc _ < c.toNat % 32 * K + K := Nat.add_lt_add_left hlt _
        _ = (c.toNat % 32 + 1) * K := by ring
        _ ≤ 32 * K := Nat.mul_le_mul_right _ h32
    rw [h1, Nat.add_mul_mod_self_left, Nat.mod_eq_of_lt h2]

omit [Sha256] in
/-- C116: which keys `Create` makes: the first 32 bytes of the random stream whose low 253 bits are a number
between 1 and the group order give that number, and earlier bytes are dropped. So every number in this
range is the key for exactly eight values of the first 32 bytes. -/
theorem C116_created_keys (draws : List Bytes) (hd : ∀ b ∈ draws, b.length = 32) (x : Bytes) :
    kCreateKey draws = some x ↔ x.length = 32 ∧ ∃ i : Nat, ∃ b : Bytes, draws[i]? = some b ∧
      littleValue x = littleValue b.reverse % 2 ^ 253 ∧ 0 < littleValue x ∧ littleValue x < primeOrder ∧
      ∀ j < i, ∀ b' : Bytes, draws[j]? = some b' →
        littleValue b'.reverse % 2 ^ 253 = 0 ∨ primeOrder ≤ littleValue b'.reverse % 2 ^ 253 := by
  have hlt : primeOrder < 256 ^ 32 := by decide +kernel
  induction draws with
  | nil => simp [kCreateKey, randomInt]
  | cons b draws ih =>
    have hb := beNat_randomBits (hd b (by simp))
    rw [← leNat_reverse b, ← littleValue_eq] at hb
    have hk : kCreateKey (b :: draws) = if 0 < beNat (randomBits b) ∧ beNat (randomBits b) < primeOrder then
        some (littleEndian32 (beNat (randomBits b) % primeOrder)) else kCreateKey draws := by
      unfold kCreateKey
      rw [randomInt]
      split <;> rfl
    have ih' := ih fun b' h => hd b' (List.mem_cons_of_mem _ h)
    rw [hk, hb]
    set v := littleValue b.reverse % 2 ^ 253 with hv
    split
    · rename_i hcond
      rw [Nat.mod_eq_of_lt hcond.2, Option.some.injEq]
      constructor
      · rintro rfl
        have e : littleValue (littleEndian32 v) = v := by rw [littleValue_eq, leNat_littleEndian32]
        refine ⟨littleEndian32_length (hcond.2.trans hlt), 0, b, rfl, e, e.symm ▸ hcond.1, e.symm ▸ hcond.2, ?_⟩
        intro j hj
        omega
      · rintro ⟨hl, i, b', hi, h1, h2, h3, h4⟩
        cases i with
        | zero =>
          obtain rfl : b = b' := by simpa using hi
          refine leNat_inj ((littleEndian32_length (hcond.2.trans hlt)).trans hl.symm) ?_
          rw [leNat_littleEndian32, ← littleValue_eq, h1]
        | succ i =>
          rcases h4 0 (by omega) b rfl with h | h
          · omega
          · omega
    · rename_i hcond
      refine ih'.trans ?_
      refine and_congr_right fun hl => ?_
      constructor
      · rintro ⟨i, b', hi, h1, h2, h3, h4⟩
        refine ⟨i + 1, b', by simpa using hi, h1, h2, h3, fun j hj c hc => ?_⟩
        cases j with
        | zero =>
          obtain rfl : b = c := by simpa using hc
          rw [← hv]
          omega
        | succ j => exact h4 j (by omega) c (by simpa using hc)
      · rintro ⟨i, b', hi, h1, h2, h3, h4⟩
        cases i with
        | zero =>
          obtain rfl : b = b' := by simpa using hi
          rw [← hv] at h1
          exact absurd ⟨h1 ▸ h2, h1 ▸ h3⟩ hcond
        | succ i =>
          exact ⟨i, b', by simpa using hi, h1, h2, h3, fun j hj c hc => h4 (j + 1) (by omega) c (by simpa using hc)⟩

omit [Sha256] in
theorem created_spec {draws : List Bytes} {x : Bytes} (h : kCreateKey draws = some x) :
    x.length = 32 ∧ 0 < leNat x ∧ leNat x < primeOrder := by
  unfold kCreateKey at h
  obtain ⟨i, hi, rfl⟩ := Option.map_eq_some_iff.1 h
  have := randomInt_spec _ _ hi
  rw [Nat.mod_eq_of_lt this.2, leNat_littleEndian32]
  exact ⟨littleEndian32_length (this.2.trans (by decide +kernel)), this⟩

omit [Sha256] in
/-- C116: the text of a created key is read back as the same key. -/
theorem C116_created_key_text (draws : List Bytes) (x : Bytes) (h : kCreateKey draws = some x) :
    kToScalar (scString x) = .ok x := by
  obtain ⟨hl, -, hx⟩ := created_spec h
  have e : x = (canonFl (leNat x : Fl)).raw := eq_canon hl (primeOrder_eq ▸ hx) rfl
  unfold kToScalar
  rw [scString_eq, hexDecode_hexEncode, ← e]
  dsimp only
  rw [if_pos hl.ge, List.take_of_length_le hl.le]
  unfold scUnmarshal
  rw [if_neg (by simp [hl])]

/-- C116: created keys sign: the statement of C111 without the condition on the key. -/
theorem C116_created_key_signs (draws : List Bytes) (x : Bytes) (h : kCreateKey draws = some x)
    (msg nonce nonce' : Bytes)
    (hm : challengeOf msg (ptMul (kGenK x msg) baseext) ≠ 0)
    (hn : challengeOf nonce (ptMul (kGenK x msg) baseext) ≠ 0)
    (hn' : challengeOf nonce' (ptMul (kGenK x msg) baseext) ≠ 0) :
    ∃ sig sig', kSign x msg nonce = .ok sig ∧ kToSignature sig.str nonce' = .ok sig' ∧
      sig'.str = sig.str ∧ kPtStr (sig'.publicKey msg) = kPtStr (kPublicKey x) := by
  obtain ⟨hl, -, hx⟩ := created_spec h
  obtain ⟨s, s', h1, h2, h3, -, h4⟩ := C111_vendored_sign_recovers_key x msg nonce nonce' hl
    (by rw [littleValue_eq]; exact hx.le.trans (by decide +kernel)) hm hn hn'
  exact ⟨s, s', h1, h2, h3, h4⟩

/-- C116: created keys sign in rings: the statement of C112 without the condition on the key. -/
theorem C116_created_key_ring_signs (draws : List Bytes) (x : Bytes) (h : kCreateKey draws = some x)
    (msg : Bytes) (texts : List Bytes) (ring : List GeExt)
    (hr : mapO kToPoint texts = .ok ring) (hm : kPtStr (kPublicKey x) ∈ ring.map kPtStr) :
    ∃ sig, kRingSign x msg ring = .ok sig ∧ sig.verify msg = .ok true := by
  obtain ⟨hl, -, hx⟩ := created_spec h
  obtain ⟨s, -, h1, -, h3, -⟩ := C112_vendored_ring_sign_verifies x msg hl
    (by rw [littleValue_eq]; exact hx.le.trans (by decide +kernel)) texts ring hr hm
  exact ⟨s, h1, h3⟩

/-! ## C119 -/

/-- C119: the public key of a private key `x` up to `largestFactor` is the `x`-fold sum of the base point in the group
of the curve: its text is the ordinate of this point in the low 255 bits and the parity of its abscissa in
the top bit. -/
theorem C119_public_key_is_multiple (x : Bytes) (hl : x.length = 32) (hx : littleValue x ≤ largestFactor) :
    ∃ b : Bytes, kPtStr (kPublicKey x) = hexEncode b ∧ b.length = 32 ∧
      lowBits b = (littleValue x • edBase).y.val ∧ topBit b = (littleValue x • edBase).x.val % 2 := by
  obtain ⟨y, rfl⟩ : ∃ y : Scalar, y.raw = x := ⟨⟨x, hl⟩, rfl⟩
  rw [littleValue_eq] at hx ⊢
  refine ⟨edEnc (leNat y.raw • edBase), ?_, edEnc_length _, ?_, ?_⟩
  · rw [kPtStr_eq (kPublicKey_rep y), publicKey_def]
    change hexEncode (edEnc (multiplier y • edBase)) = _
    rw [multiplier_of_fits hx, natCast_zsmul]
  · unfold lowBits
    rw [littleValue_eq, leNat_edEnc, Nat.add_mul_mod_self_left, Nat.mod_eq_of_lt (fp_val_lt _)]
  · unfold topBit
    rw [littleValue_eq, leNat_edEnc, Nat.add_mul_div_left _ _ (Nat.two_pow_pos 255),
      Nat.div_eq_of_lt (fp_val_lt _), zero_add]

/-- C119: two private keys up to `largestFactor` have the same public key exactly when they differ by a multiple of
the group order; two created keys have the same public key only if they are the same. -/
theorem C119_public_keys_distinct (x y : Bytes) (hl : x.length = 32) (hl' : y.length = 32)
    (hx : littleValue x ≤ largestFactor) (hy : littleValue y ≤ largestFactor) :
    (kPtStr (kPublicKey x) = kPtStr (kPublicKey y) ↔
      littleValue x % primeOrder = littleValue y % primeOrder) ∧
    (littleValue x < primeOrder → littleValue y < primeOrder →
      kPtStr (kPublicKey x) = kPtStr (kPublicKey y) → x = y) := by
  have key : kPtStr (kPublicKey x) = kPtStr (kPublicKey y) ↔
      littleValue x % primeOrder = littleValue y % primeOrder := by
    obtain ⟨a, rfl⟩ : ∃ y : Scalar, y.raw = x := ⟨⟨x, hl⟩, rfl⟩
    obtain ⟨b, rfl⟩ : ∃ b : Scalar, b.raw = y := ⟨⟨y, hl'⟩, rfl⟩
    rw [littleValue_eq] at hx hy ⊢
    rw [littleValue_eq, primeOrder_eq, ← ZMod.natCast_eq_natCast_iff']
    constructor
    · intro e
      have := kPtStr_inj (kPublicKey_rep a) (kPublicKey_rep b) e
      rw [publicKey_def, publicKey_def] at this
      change multiplier a • edBase = multiplier b • edBase at this
      have := zsmul_base_inj this
      rwa [multiplier_of_fits hx, multiplier_of_fits hy, Int.cast_natCast, Int.cast_natCast] at this
    · intro e
      rw [kPtStr_eq (kPublicKey_rep a), kPtStr_eq (kPublicKey_rep b), publicKey_def, publicKey_def]
      change ptStr (multiplier a • edBase : Ed) = ptStr (multiplier b • edBase : Ed)
      rw [multiplier_of_fits hx, multiplier_of_fits hy]
      rw [zsmul_base (m := leNat a.raw) (n := leNat b.raw)
        (by rw [Int.cast_natCast, Int.cast_natCast]; exact e)]
  refine ⟨key, fun h1 h2 e => ?_⟩
  rw [key, Nat.mod_eq_of_lt h1, Nat.mod_eq_of_lt h2, littleValue_eq, littleValue_eq] at e
  exact leNat_inj (hl.trans hl'.symm) e

/-! ## C120 -/

omit [Sha256] in
theorem forall₂_get {α β : Type} {R : α → β → Prop} {l : List α} {m : List β} (h : List.Forall₂ R l m) :
    ∀ i (hi : i < l.length) (hm : i < m.length), R l[i] m[i] := by
  induction h with
  | nil => intro i hi; cases hi
  | cons hx _ ih =>
    intro i hi hm
    cases i with
    | zero => exact hx
    | succ i => exact ih i (by simpa using hi) (by simpa using hm)

/-- The factor that a number of 32 bytes stands for when a point is multiplied by it: the number itself up
to `largestFactor`; above that, the number without the most significant of its digits to the base 16, which
run from -8 to 7. -/
def factorUsed (n : Nat) : Int :=
  if n ≤ largestFactor then n else n - (n + 8 * ((16 ^ 63 - 1) / 15)) / 16 ^ 63 * 16 ^ 63

/-- C120: what `Verify` checks, in the group of the curve: a ring signature read from a text, whatever its
numbers, is accepted for a message exactly when there are challenges for all positions, starting and
ending with the one of the signature, such that the challenge of the next position is the SHA-256 hash,
modulo the group order, of the message and the text of `s*B + e*P`, the factor `s` of a number above
`largestFactor` being the number without its most significant digit. -/
theorem C120_vendored_verify_exact (t msg : Bytes) (sig : KRingSignature) (h : kToRingSignature t = .ok sig)
    (hlen : sig.ring.length ≤ sig.s.length) :
    ∃ P : List Ed, sig.ring.map kPtStr = P.map (fun p => hexEncode (edEnc p)) ∧
      (sig.verify msg = .ok true ↔ ∃ es : Nat → Nat, es 0 = littleValue sig.e ∧
        es P.length = littleValue sig.e ∧
        ∀ i (hi : i < P.length) (hi' : i < sig.s.length), es (i + 1) = littleValue (Sha256.sum (msg ++
          hexEncode (edEnc (factorUsed (littleValue sig.s[i]) • edBase + es i • P[i])))) % primeOrder) := by
  have hsim := kToRingSignature_sim t
  rw [h] at hsim
  obtain ⟨a, -, hrep⟩ := hsim.to_ok
  refine ⟨a.ring, map_eq_of_forall₂ (fun _ _ h => kPtStr_eq h) hrep.1, ?_⟩
  rw [hrep.verify, C85_verify_iff_ring_closes]
  unfold RingCloses
  obtain ⟨h1, h2, h3⟩ := hrep
  have l1 := h1.length_eq
  have l2 := h2.length_eq
  rw [h3, littleValue_eq]
  rcases Nat.eq_zero_or_pos a.ring.length with h0 | hpos
  · exact ⟨fun _ => ⟨fun _ => leNat a.e.raw, rfl, rfl, fun i hi => absurd hi (by omega)⟩,
      fun _ => ⟨by omega, fun _ => a.e, rfl, rfl, fun i hi => absurd hi (by omega)⟩⟩
  have hsi : ∀ i (hi : i < sig.s.length) (hi' : i < a.s.length), sig.s[i] = a.s[i].raw :=
    fun i hi hi' => forall₂_get h2 i hi hi'
  have hmul : ∀ (n : Scalar) (p : Ed), n.Fits → edCurve.mul n p = (leNat n.raw • p : Ed) := by
    intro n p hn
    change multiplier n • p = _
    rw [multiplier_of_fits hn, natCast_zsmul]
  have hmulS : ∀ (n : Scalar) (p : Ed), edCurve.mul n p = (factorUsed (leNat n.raw) • p : Ed) := by
    intro n p
    change multiplier n • p = _
    congr 1
    unfold multiplier factorUsed
    simp only [topDigit_le_iff]
    split
    · rfl
    · unfold topDigit; push_cast; rfl
  have hval : ∀ m : Bytes, leNat (edCurve.canon (edCurve.hashF m)).raw =
      littleValue (Sha256.sum m) % primeOrder := by
    intro m
    change leNat (canonFl _).raw = _
    rw [leNat_canon, littleValue_eq, primeOrder_eq]
    exact ZMod.val_natCast _ _
  have hol : primeOrder ≤ largestFactor := by decide +kernel
  constructor
  · rintro ⟨-, es, e0, en, hstep⟩
    have he : a.e.Fits := by
      obtain ⟨k, hk⟩ : ∃ k, a.ring.length = k + 1 := ⟨a.ring.length - 1, by omega⟩
      rw [← en, hk, hstep k (by omega) (by omega)]
      exact canonFl_fits _
    refine ⟨fun i => leNat (es i).raw, congrArg (fun s => leNat s.raw) e0,
      congrArg (fun s => leNat s.raw) en, fun i hi hi' => ?_⟩
    beta_reduce
    have hi2 : i < a.s.length := by rw [← l2]; exact hi'
    have := hstep i hi hi2
    have hfit : (es i).Fits := by
      cases i with
      | zero => rw [e0]; exact he
      | succ j =>
        rw [hstep j (by omega) (by omega)]
        exact canonFl_fits _
    rw [this, hval, hmul _ _ hfit, hmulS, hsi i hi' hi2, littleValue_eq a.s[i].raw]
    rfl
  · rintro ⟨es, e0, en, hstep⟩
    have he : leNat a.e.raw ≤ largestFactor := by
      obtain ⟨k, hk⟩ : ∃ k, a.ring.length = k + 1 := ⟨a.ring.length - 1, by omega⟩
      rw [← en, hk, hstep k (by omega) (by omega)]
      exact (Nat.mod_lt _ (by decide +kernel)).le.trans hol
    have hlt : ∀ i ≤ a.ring.length, es i ≤ largestFactor := by
      intro i hi
      cases i with
      | zero => rw [e0]; exact he
      | succ j =>
        rw [hstep j (by omega) (by omega)]
        exact (Nat.mod_lt _ (by decide +kernel)).le.trans hol
    have hpow : largestFactor < 256 ^ 32 := by decide +kernel
    classical
    refine ⟨by omega, fun i => if hi : i ≤ a.ring.length then
      ⟨littleEndian32 (es i), littleEndian32_length ((hlt i hi).trans_lt hpow)⟩ else a.e, ?_, ?_, fun i hi hi2 => ?_⟩
    · beta_reduce
      rw [dif_pos (Nat.zero_le _)]
      refine Scalar.ext (leNat_inj ?_ ?_)
      · rw [littleEndian32_length ((hlt 0 (Nat.zero_le _)).trans_lt hpow), a.e.len]
      · rw [leNat_littleEndian32, e0]
    · beta_reduce
      rw [dif_pos le_rfl]
      refine Scalar.ext (leNat_inj ?_ ?_)
      · rw [littleEndian32_length ((hlt _ le_rfl).trans_lt hpow), a.e.len]
      · rw [leNat_littleEndian32, en]
    · have hi' : i < sig.s.length := by rw [l2]; exact hi2
      beta_reduce
      rw [dif_pos (by omega), dif_pos (by omega)]
      refine Scalar.ext (leNat_inj ?_ ?_)
      · rw [littleEndian32_length ((hlt _ (by omega)).trans_lt hpow), Scalar.len]
      · rw [hval, leNat_littleEndian32, hstep i hi hi', hmulS a.s[i], hmul _ _ (by
            unfold Scalar.Fits; dsimp only; rw [leNat_littleEndian32]; exact hlt i (by omega)), leNat_littleEndian32,
          hsi i hi' hi2, littleValue_eq a.s[i].raw]
        rfl

/-! ## C122 -/

omit [Sha256] in
theorem digits_ne_zero : ∀ t : Nat, 0 < t → t ≤ 16 → (t : Fl) ≠ 0 := by
  intro t h0 h1 h
  rw [ZMod.natCast_eq_zero_iff] at h
  have h2 := Nat.le_of_dvd h0 h
  have h3 : 16 < order25519 := by unfold order25519; decide +kernel
  omega

/-- C122: exactly which private keys work: the public key recovered from the signature of a private key of 32
bytes is its own if and only if the key is at most `largestFactor`, the number of an 8 and 63 digits 7 to the
base 16. -/
theorem C122_recovers_own_key_iff (x msg nonce : Bytes) (hl : x.length = 32)
    (hm : challengeOf msg (ptMul (kGenK x msg) baseext) ≠ 0)
    (hn : challengeOf nonce (ptMul (kGenK x msg) baseext) ≠ 0) :
    ∃ sig, kSign x msg nonce = .ok sig ∧
      (kPtStr (sig.publicKey msg) = kPtStr (kPublicKey x) ↔ littleValue x ≤ largestFactor) := by
  obtain ⟨y, rfl⟩ : ∃ y : Scalar, y.raw = x := ⟨⟨x, hl⟩, rfl⟩
  rw [kGenK_eq] at hm hn
  have hr := ptMul_base_rep (genK y msg)
  rw [← hashF_ne_zero hr] at hm hn
  rw [littleValue_eq]
  by_cases hx : y.Fits
  · obtain ⟨s, h1, h2⟩ := C12_sign_recovers_public_key_partial y hx msg nonce hm hn
    have hs := kSign_sim y msg nonce
    rw [h1] at hs
    obtain ⟨sig, e1, r1⟩ := hs.of_ok
    refine ⟨sig, e1, iff_of_true ?_ hx⟩
    rw [kPtStr_eq (r1.publicKey msg), h2, ← kPtStr_eq (kPublicKey_rep y)]
  · obtain ⟨s, h1, h2⟩ := C12_large_private_keys_neg y hx digits_ne_zero msg nonce hm hn
    have hs := kSign_sim y msg nonce
    rw [h1] at hs
    obtain ⟨sig, e1, r1⟩ := hs.of_ok
    exact ⟨sig, e1, iff_of_false (fun e => h2 (kPtStr_inj (r1.publicKey msg) (kPublicKey_rep y) e)) hx⟩

/-- C122: the text of a private key of 32 bytes is read back as a key with the same public key if and only if
the key is at most `largestFactor`. -/
theorem C122_text_keeps_public_key_iff (x : Bytes) (hl : x.length = 32) :
    kToScalar (hexEncode x) = .ok x ∧
    ∃ x', kToScalar (scString x) = .ok x' ∧ x'.length = 32 ∧
      (kPtStr (kPublicKey x') = kPtStr (kPublicKey x) ↔ littleValue x ≤ largestFactor) := by
  obtain ⟨y, rfl⟩ : ∃ y : Scalar, y.raw = x := ⟨⟨x, hl⟩, rfl⟩
  rw [littleValue_eq]
  constructor
  · unfold kToScalar
    rw [hexDecode_hexEncode]
    dsimp only
    rw [if_pos hl.ge, List.take_of_length_le hl.le]
    unfold scUnmarshal
    rw [if_neg (by simp [hl])]
  · have hs := kToScalar_sim (scString y.raw)
    have e : scString y.raw = scStr y := scString_eq y.raw
    by_cases hx : y.Fits
    · obtain ⟨-, x', h1, h2, -⟩ := C72_key_text_round_trip_partial (publicKey y) y
      have h1' : fromStringToScalar (scStr y) = .ok x' := h1
      rw [e, h1'] at hs
      obtain ⟨z, e1, r1⟩ := hs.of_ok
      obtain rfl : z = x'.raw := r1
      refine ⟨_, by rw [e]; exact e1, x'.len, iff_of_true ?_ hx⟩
      rw [kPtStr_eq (kPublicKey_rep x'), h2 hx, ← kPtStr_eq (kPublicKey_rep y)]
    · obtain ⟨-, x', h1, h2⟩ := C72_large_private_keys_neg y hx digits_ne_zero
      have h1' : fromStringToScalar (scStr y) = .ok x' := h1
      rw [e, h1'] at hs
      obtain ⟨z, e1, r1⟩ := hs.of_ok
      obtain rfl : z = x'.raw := r1
      exact ⟨_, by rw [e]; exact e1, x'.len,
        iff_of_false (fun e => h2 (kPtStr_inj (kPublicKey_rep x') (kPublicKey_rep y) e)) hx⟩

/-- C122: a larger key signs in the ring of its own public key, but the signature does not verify unless its
challenge is zero or the commitment `(s + e*x)*B` that was signed and the different commitment `s*B + e*X` that
is checked have, with the message, the same challenge. -/
theorem C122_large_key_ring_neg (x msg : Bytes) (hl : x.length = 32) (hx : largestFactor < littleValue x) :
    ∃ sig s X, kRingSign x msg [kPublicKey x] = .ok sig ∧ sig.s = [s] ∧
      kPtStr (kPublicKey x) = hexEncode (edEnc X) ∧
      (sig.verify msg = .ok false ∨ (sig.verify msg = .ok true ∧ (littleValue sig.e = 0 ∨
        (littleValue s + littleValue sig.e * littleValue x) • edBase ≠
            littleValue s • edBase + littleValue sig.e • X ∧
          littleValue (Sha256.sum (msg ++ hexEncode (edEnc
              ((littleValue s + littleValue sig.e * littleValue x) • edBase)))) % primeOrder =
            littleValue (Sha256.sum (msg ++ hexEncode (edEnc
              (littleValue s • edBase + littleValue sig.e • X)))) % primeOrder))) := by
  obtain ⟨y, rfl⟩ : ∃ y : Scalar, y.raw = x := ⟨⟨x, hl⟩, rfl⟩
  rw [littleValue_eq] at hx
  obtain ⟨r, s, h1, hs1, hsf, hef, h2⟩ := C14_large_private_keys_neg y (not_le.2 hx) digits_ne_zero msg
  have hs := kRingSign_sim y msg (List.Forall₂.cons (kPublicKey_rep y) .nil)
  rw [h1] at hs
  obtain ⟨sig, e1, r1⟩ := hs.of_ok
  have hsig : sig.s = [s.raw] := by
    have h := r1.2.1
    rw [hs1] at h
    obtain ⟨_, _, h, t, e⟩ := List.forall₂_cons_right_iff.mp h
    rw [e, List.forall₂_nil_right_iff.mp t, h]
  have hmul : ∀ (n : Scalar) (p : Ed), n.Fits → edCurve.mul n p = (leNat n.raw • p : Ed) := by
    intro n p hn
    change multiplier n • p = _
    rw [multiplier_of_fits hn, natCast_zsmul]
  have hP : edCurve.mul (edCurve.canon (edCurve.val s + edCurve.val r.e * edCurve.val y)) edCurve.base =
      ((leNat s.raw + leNat r.e.raw * leNat y.raw) • edBase : Ed) := by
    rw [hmul _ _ (edCurve.canon_fits _), ← natCast_zsmul, ← natCast_zsmul]
    refine zsmul_base ?_
    have := edCurve.canon_value (edCurve.val s + edCurve.val r.e * edCurve.val y)
    push_cast
    exact this
  have hQ : ∀ X : Ed, edCurve.add (edCurve.mul s edCurve.base) (edCurve.mul r.e X) =
      (leNat s.raw • edBase + leNat r.e.raw • X : Ed) := by
    intro X
    rw [hmul _ _ hsf, hmul _ _ hef]
    rfl
  refine ⟨sig, s.raw, publicKey y, e1, hsig, kPtStr_eq (kPublicKey_rep y), ?_⟩
  rw [r1.verify, r1.2.2]
  simp only [littleValue_eq, primeOrder_eq]
  rw [hP, hQ] at h2
  rcases h2 with h2 | ⟨h2, h3 | ⟨h3, h4⟩⟩
  · exact .inl h2
  · refine .inr ⟨h2, .inl ?_⟩
    rw [h3]
    change leNat (canonFl 0).raw = 0
    rw [leNat_canon, ZMod.val_zero]
  · exact .inr ⟨h2, .inr ⟨h3, (ZMod.natCast_eq_natCast_iff' _ _ _).mp h4⟩⟩

end

/-! ## Examples -/

section examples

/-- A stand-in for SHA-256: every hash is the byte 1, 32 times. -/
@[reducible] def flatSha256 : Sha256 where
  sum _ := List.replicate 32 1
  len _ := by simp

attribute [local instance] flatSha256 edCurve

theorem flat_challenge (msg : Bytes) (r : GeExt) : challengeOf msg r =
    454086624460063511464984254936031011189294057512315937409637584344757371137 := by
  show littleValue (List.replicate 32 1) % primeOrder = _
  decide +kernel

/-- The private key 2. -/
def keyTwo : Bytes := 2 :: List.replicate 31 0

/-- C111: its hypotheses are met. -/
example : ∃ sig sig', kSign keyTwo (ascii "m") (ascii "7") = .ok sig ∧
    kToSignature sig.str (ascii "8") = .ok sig' ∧ sig'.str = sig.str ∧
    kPtStr (sig.publicKey (ascii "m")) = kPtStr (kPublicKey keyTwo) ∧
    kPtStr (sig'.publicKey (ascii "m")) = kPtStr (kPublicKey keyTwo) :=
  C111_vendored_sign_recovers_key keyTwo (ascii "m") (ascii "7") (ascii "8") (by decide) (by decide +kernel)
    (by rw [flat_challenge]; decide) (by rw [flat_challenge]; decide) (by rw [flat_challenge]; decide)

/-- The text of a public key is read as the key. -/
theorem read_public_key (x : Bytes) (hl : x.length = 32) :
    ∃ g, kToPoint (kPtStr (kPublicKey x)) = .ok g ∧ kPtStr g = kPtStr (kPublicKey x) := by
  obtain ⟨y, rfl⟩ : ∃ y : Scalar, y.raw = x := ⟨⟨x, hl⟩, rfl⟩
  have h2 := kToPoint_sim (kPtStr (kPublicKey y.raw))
  rw [kPtStr_eq (kPublicKey_rep y), fromStringToPoint_ptStr] at h2
  obtain ⟨g, e, r⟩ := h2.of_ok
  rw [kPtStr_eq (kPublicKey_rep y)]
  exact ⟨g, e, kPtStr_eq r⟩

theorem mapO_cons_ok {α β : Type} {f : α → Outcome β} {a : α} {b : β} {l : List α} {m : List β}
    (h : f a = .ok b) (hl : mapO f l = .ok m) : mapO f (a :: l) = .ok (b :: m) := by
  simp only [mapO, h, hl]

/-- C112: a ring of three keys, one of them without owner, that contains the key of the signer twice. -/
example : ∃ ring sig, mapO kToPoint [kPtStr (kPublicKey keyTwo), ownerlessText,
      kPtStr (kPublicKey keyTwo)] = .ok ring ∧
    kRingSign keyTwo (ascii "m") ring = .ok sig ∧ sig.verify (ascii "m") = .ok true := by
  obtain ⟨g, e, t⟩ := read_public_key keyTwo (by decide)
  obtain ⟨h, e', -⟩ := ownerless_read
  have hr : mapO kToPoint [kPtStr (kPublicKey keyTwo), ownerlessText, kPtStr (kPublicKey keyTwo)] =
      .ok [g, h, g] := mapO_cons_ok e (mapO_cons_ok e' (mapO_cons_ok e rfl))
  obtain ⟨sig, -, h1, -, h2, -⟩ := C112_vendored_ring_sign_verifies keyTwo (ascii "m") (by decide)
    (by decide +kernel) _ _ hr (by rw [List.map_cons, t]; exact List.mem_cons_self ..)
  exact ⟨_, sig, hr, h1, h2⟩

/-- C112: the key 2 does not sign in a ring of the key without owner alone. -/
example : ∃ ring m, mapO kToPoint [ownerlessText] = .ok ring ∧
    kRingSign keyTwo (ascii "m") ring = .err m := by
  obtain ⟨h, e, t, hne⟩ := C115_ownerless_key_neg
  have hr : mapO kToPoint [ownerlessText] = .ok [h] := mapO_cons_ok e rfl
  obtain ⟨m, hm⟩ := (C112_vendored_ring_sign_fails_iff keyTwo (ascii "m") (by decide) _ _ hr).1.2 (by
    rw [List.map_singleton, List.mem_singleton, t]
    exact hne keyTwo (by decide))
  exact ⟨_, m, hr, hm⟩

/-- C113: a text that is accepted, and one that is refused because it is too short. -/
example : (∃ g, kToPoint ownerlessText = .ok g) ∧ ¬ ∃ g, kToPoint (ascii "00") = .ok g := by
  constructor
  · rw [(C113_public_key_texts _).1]
    exact ⟨ownerlessBytes, hexDecode_hexEncode _, by decide, 0, by unfold OnCurve25519; decide +kernel⟩
  · rw [(C113_public_key_texts _).1]
    rintro ⟨b, h, hl, -⟩
    have : hexDecode (ascii "00") = some [0] := by decide +kernel
    rw [this] at h
    obtain rfl := Option.some.inj h
    cases hl

/-- C114: the neutral element is written with 62 zeros after `01`; the text with the top bit set and the text
with the ordinate `2^255 - 18` are read as the same key. -/
example : ∃ g, kToPoint (hexEncode (1 :: List.replicate 31 0)) = .ok g ∧
    kPtStr g = hexEncode (1 :: List.replicate 31 0) ∧
    ∃ g', kToPoint (hexEncode (0xee :: (List.replicate 30 0xff ++ [0x7f]))) = .ok g' ∧ kPtStr g' = kPtStr g := by
  obtain ⟨g, e⟩ := (C113_public_key_texts (hexEncode (1 :: List.replicate 31 0))).1.2
    ⟨_, hexDecode_hexEncode _, by decide, 0, by unfold OnCurve25519; decide +kernel⟩
  exact ⟨g, e, (C114_canonical_texts _ _ e).2 (by decide +kernel),
    (C114_second_text_neg _ _ g e (by decide) (by decide +kernel) (by decide +kernel)).2⟩

/-- C121: the order does not annihilate the key `(0, -1)`, and it annihilates the key of 2. -/
example : (∃ g, kToPoint ownerlessText = .ok g ∧
      kPtStr (ptMul (littleEndian32 primeOrder) g) ≠ hexEncode (1 :: List.replicate 31 0)) ∧
    ∃ g, kToPoint (kPtStr (kPublicKey keyTwo)) = .ok g ∧
      kPtStr (ptMul (littleEndian32 primeOrder) g) = hexEncode (1 :: List.replicate 31 0) := by
  constructor
  · obtain ⟨g, e, t, hne⟩ := C115_ownerless_key_neg
    refine ⟨g, e, fun h => ?_⟩
    obtain ⟨x, hl, hx⟩ := (C121_owned_exactly _ g e).2 h
    exact hne x hl (hx.trans t)
  · obtain ⟨g, e, r⟩ := read_of_point (publicKey ⟨keyTwo, by decide⟩)
    have t := kPtStr_eq (kPublicKey_rep ⟨keyTwo, by decide⟩)
    have e' : kToPoint (kPtStr (kPublicKey keyTwo)) = .ok g := by
      rw [t]
      exact e
    exact ⟨g, e', (C121_owned_exactly _ g e').1 ⟨keyTwo, by decide, t.trans (kPtStr_eq r).symm⟩⟩

/-- The largest and the next private key that C122 distinguishes. -/
def lastGoodKey : Bytes := List.replicate 31 0x77 ++ [0x87]
def firstBadKey : Bytes := 0x78 :: (List.replicate 30 0x77 ++ [0x87])

/-- C122: the boundary, on both sides. -/
example : littleValue lastGoodKey = largestFactor ∧ littleValue firstBadKey = largestFactor + 1 ∧
    (∃ sig, kSign lastGoodKey (ascii "m") (ascii "7") = .ok sig ∧
      kPtStr (sig.publicKey (ascii "m")) = kPtStr (kPublicKey lastGoodKey)) ∧
    ∃ sig, kSign firstBadKey (ascii "m") (ascii "7") = .ok sig ∧
      kPtStr (sig.publicKey (ascii "m")) ≠ kPtStr (kPublicKey firstBadKey) := by
  refine ⟨by decide +kernel, by decide +kernel, ?_, ?_⟩
  · obtain ⟨sig, e, h⟩ := C122_recovers_own_key_iff lastGoodKey (ascii "m") (ascii "7") (by decide)
      (by rw [flat_challenge]; decide) (by rw [flat_challenge]; decide)
    exact ⟨sig, e, h.2 (by decide +kernel)⟩
  · obtain ⟨sig, e, h⟩ := C122_recovers_own_key_iff firstBadKey (ascii "m") (ascii "7") (by decide)
      (by rw [flat_challenge]; decide) (by rw [flat_challenge]; decide)
    exact ⟨sig, e, fun e' => absurd (h.1 e') (by decide +kernel)⟩

/-- C115: a commitment with an even challenge, for another stand-in for SHA-256. -/
example : ∃ S : Sha256, ∃ (msg k : Bytes), k.length = 32 ∧ @challengeOf S msg (ptMul k baseext) % 2 = 0 ∧
    @challengeOf S msg (ptMul k baseext) ≠ 0 := by
  refine ⟨⟨fun _ => List.replicate 32 2, by simp⟩, ascii "m", keyTwo, by decide, ?_⟩
  have : @challengeOf ⟨fun _ => List.replicate 32 2, by simp⟩ (ascii "m") (ptMul keyTwo baseext) =
      908173248920127022929968509872062022378588115024631874819275168689514742274 := by
    show littleValue (List.replicate 32 2) % primeOrder = _
    decide +kernel
  rw [this]
  decide

/-- C116: the first draw is dropped, because its low 253 bits are zero; the second one is the key 7. -/
example : kCreateKey [0xe0 :: List.replicate 31 0, 0x20 :: (List.replicate 30 0 ++ [7])] =
    some (7 :: List.replicate 31 0) := by decide +kernel

/-- C119: the public key of the private key 1 is the text of the base point. -/
example : kPtStr (kPublicKey (1 :: List.replicate 31 0)) =
    ascii "5866666666666666666666666666666666666666666666666666666666666666" := by
  obtain ⟨b, h1, h2, h3, h4⟩ := C119_public_key_is_multiple (1 :: List.replicate 31 0) (by decide)
    (by decide +kernel)
  have e1 : littleValue (1 :: List.replicate 31 0) = 1 := by decide +kernel
  rw [e1, one_smul] at h3 h4
  have hy : edBase.y.val = baseY := by
    show ((baseY : Nat) : Fp).val = _
    rw [ZMod.val_natCast]
    unfold prime25519
    decide +kernel
  have hx : edBase.x.val % 2 = 0 := by
    show ((baseX : Nat) : Fp).val % 2 = _
    rw [ZMod.val_natCast]
    unfold prime25519
    decide +kernel
  rw [hy] at h3
  rw [hx] at h4
  have hb : b = 0x58 :: List.replicate 31 0x66 := by
    refine leNat_inj (by rw [h2]; rfl) ?_
    rw [bits_eq, h3, h4]
    decide +kernel
  rw [h1, hb]
  decide +kernel

/-- C119: different keys with the same public key: 2 and 2 plus the group order. -/
example : kPtStr (kPublicKey keyTwo) = kPtStr (kPublicKey (littleEndian32 (2 + primeOrder))) :=
  (C119_public_keys_distinct _ _ (by decide) (by decide +kernel) (by decide +kernel) (by decide +kernel)).1.2
    (by decide +kernel)

/-- C120: the largest number of 32 bytes multiplies by -1, a small one by itself. -/
example : factorUsed (2 ^ 256 - 1) = -1 ∧ factorUsed 5 = 5 := by decide +kernel

/-- C120: a text that is read as a ring signature of two keys, with small numbers. -/
example : ∃ t sig, kToRingSignature t = .ok sig ∧ sig.ring.length = 2 ∧ sig.ring.length ≤ sig.s.length ∧
    (∀ s ∈ sig.s, littleValue s ≤ largestFactor) ∧ littleValue sig.e ≤ largestFactor := by
  have h := C15_text_round_trip_canonical (C := edCurve) ⟨[edTwo, edBase], [canonFl 3, canonFl 4], canonFl 5⟩
    (by
      intro s hs
      rcases List.mem_cons.1 hs with rfl | hs
      · exact ⟨3, rfl⟩
      · exact ⟨4, List.mem_singleton.1 hs⟩) ⟨5, rfl⟩
  have hsim := kToRingSignature_sim (RingSignature.str (C := edCurve)
    ⟨[edTwo, edBase], [canonFl 3, canonFl 4], canonFl 5⟩)
  rw [h] at hsim
  obtain ⟨sig, e, h1, h2, h3⟩ := hsim.of_ok
  refine ⟨_, sig, e, h1.length_eq, by rw [h1.length_eq, h2.length_eq]; exact le_rfl, ?_, ?_⟩
  · intro s hs
    obtain ⟨i, hi, rfl⟩ := List.getElem_of_mem hs
    have := forall₂_get h2 i hi (by rw [← h2.length_eq]; exact hi)
    rw [this, littleValue_eq]
    have hm := List.getElem_mem (l := [canonFl 3, canonFl 4]) (n := i) (by rw [← h2.length_eq]; exact hi)
    rcases List.mem_cons.1 hm with hm | hm
    · rw [hm]; exact canonFl_fits _
    · rw [List.mem_singleton.1 hm]; exact canonFl_fits _
  · rw [h3, littleValue_eq]
    exact canonFl_fits _

end examples

end Verif.Kyber
