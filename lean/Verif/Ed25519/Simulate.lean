import Verif.Ed25519.Instance
import Verif.Model.Kyber.Signature

/-!
# The signature code on limbs computes what it computes on the group

For SHA-256 as an arbitrary function, every function of `Model/Kyber/Signature.lean` simulates the function
of `Model/Sig.lean` over `edCurve`.
-/

namespace Verif.Kyber

/-- Two outcomes that correspond: related results, the same error or the same panic. -/
inductive Sim {α β : Type} (R : α → β → Prop) : Outcome α → Outcome β → Prop
  | ok {a b} : R a b → Sim R (.ok a) (.ok b)
  | err (m) : Sim R (.err m) (.err m)
  | crash (c) : Sim R (.crash c) (.crash c)

theorem Sim.bind {α β α' β' : Type} {R : α → β → Prop} {S : α' → β' → Prop} {x : Outcome α} {y : Outcome β}
    {f : α → Outcome α'} {g : β → Outcome β'} (h : Sim R x y) (hf : ∀ a b, R a b → Sim S (f a) (g b)) :
    Sim S (x >>= f) (y >>= g) := by
  cases h with
  | ok r => exact hf _ _ r
  | err m => exact .err m
  | crash c => exact .crash c

theorem Sim.mapO {α α' β' : Type} {S : α' → β' → Prop} {f : α → Outcome α'} {g : α → Outcome β'}
    (hf : ∀ a, Sim S (f a) (g a)) : ∀ l : List α, Sim (List.Forall₂ S) (mapO f l) (mapO g l)
  | [] => .ok .nil
  | x :: l => by
    have hx := hf x
    have hl := Sim.mapO hf l
    unfold Verif.mapO
    revert hx hl
    generalize f x = a
    generalize g x = b
    generalize Verif.mapO f l = u
    generalize Verif.mapO g l = v
    intro hx hl
    cases hx with
    | err m => exact .err m
    | crash c => exact .crash c
    | ok r =>
      cases hl with
      | err m => exact .err m
      | crash c => exact .crash c
      | ok r' => exact .ok (.cons r r')

/-- The same bytes. -/
def SameRaw (b : Bytes) (s : Scalar) : Prop := b = s.raw

theorem publicKey_def [C : Curve] (x : Scalar) : publicKey x = C.mul x C.base := rfl

theorem kPublicKey_def (x : Bytes) : kPublicKey x = ptMul x baseext := rfl

attribute [local irreducible] ptMul ptAdd ptSub GeExt.toBytes GeExt.fromBytes baseext scMul scSub scDiv
  scSetBytes scString canonFl edEnc edDec

section
variable [Sha256]

attribute [local instance] edCurve

theorem kHash_eq (msg : Bytes) : kHash msg = (createHash msg).raw := scSetBytes_eq _

theorem scString_raw (s : Scalar) : scString s.raw = scStr s := scString_eq _

theorem kGenK_eq (x : Scalar) (msg : Bytes) : kGenK x.raw msg = (genK x msg).raw := by
  unfold kGenK genK
  rw [kHash_eq, scString_raw]

theorem kPtStr_eq {g : GeExt} {P : Ed} (h : g.Rep P) : kPtStr g = ptStr P := by
  unfold kPtStr ptStr
  exact congrArg hexEncode (toBytes_eq h)

theorem ptMul_rep {g : GeExt} {P : Ed} (h : g.Rep P) (s : Scalar) :
    (ptMul s.raw g).Rep (edCurve.mul s P) := by
  unfold ptMul
  exact geScalarMult_rep h s

theorem ptMul_base_rep (s : Scalar) : (ptMul s.raw baseext).Rep (edCurve.mul s edCurve.base) :=
  ptMul_rep baseext_rep s

omit [Sha256] in
theorem kToScalar_sim (s : Bytes) : Sim SameRaw (kToScalar s) (fromStringToScalar s) := by
  unfold kToScalar fromStringToScalar
  cases hexDecode s with
  | none => exact .err _
  | some b =>
    dsimp only
    by_cases h : 32 ≤ b.length
    · rw [if_pos h, dif_pos h]
      have : scUnmarshal (b.take 32) = some (b.take 32) := by
        unfold scUnmarshal
        rw [if_neg]
        rw [List.length_take]
        omega
      rw [this]
      exact .ok rfl
    · rw [if_neg h, dif_neg h]
      exact .err _

theorem kToPoint_sim (s : Bytes) : Sim GeExt.Rep (kToPoint s) (fromStringToPoint s) := by
  unfold kToPoint fromStringToPoint
  cases hexDecode s with
  | none => exact .err _
  | some b =>
    dsimp only
    rcases fromBytes_eq b with ⟨h1, h2⟩ | ⟨g, P, h1, h2, r⟩
    · have h2' : edCurve.dec b = none := h2
      rw [h1, h2']
      exact .err _
    · have h2' : edCurve.dec b = some P := h2
      rw [h1, h2']
      exact .ok r

theorem kPublicKey_rep (x : Scalar) : (kPublicKey x.raw).Rep (publicKey x) := by
  rw [publicKey_def, kPublicKey_def]
  exact ptMul_base_rep x

theorem scMul_raw (a b : Scalar) : scMul a.raw b.raw = (canonFl (edCurve.val a * edCurve.val b)).raw :=
  scMul_eq a.len b.len

theorem scSub_raw (a b : Scalar) : scSub a.raw b.raw = (canonFl (edCurve.val a - edCurve.val b)).raw :=
  scSub_eq a.len b.len

theorem scDiv_one (e : Scalar) : scDiv scOne e.raw = (canonFl (1 / edCurve.val e)).raw := by
  rw [scOne_eq, scDiv_eq (canonFl 1).len e.len, leNat_canon, ZMod.natCast_zmod_val]
  rfl

theorem ptEqual_eq {g h : GeExt} {P Q : Ed} (hg : g.Rep P) (hh : h.Rep Q) :
    ptEqual g h = (edCurve.enc P == edCurve.enc Q) := by
  unfold ptEqual
  rw [toBytes_eq hg, toBytes_eq hh]
  rfl

/-! ## Plain signatures -/

/-- The same signature. -/
def KSignature.Rep (k : KSignature) (s : Signature) : Prop := k.r.Rep s.r ∧ k.s = s.s.raw

theorem KSignature.Rep.publicKey {k : KSignature} {s : Signature} (h : k.Rep s) (msg : Bytes) :
    (k.publicKey msg).Rep (s.publicKey msg) := by
  obtain ⟨hr, hs⟩ := h
  unfold KSignature.publicKey Signature.publicKey
  dsimp only
  rw [kPtStr_eq hr, kHash_eq, scDiv_one, hs]
  exact ptMul_rep (ptSub_rep hr (ptMul_base_rep _)) _

theorem KSignature.Rep.verify {k : KSignature} {s : Signature} (h : k.Rep s) (nonce : Bytes) :
    k.verify nonce = s.verify nonce := by
  have hp := h.publicKey nonce
  obtain ⟨hr, hs⟩ := h
  unfold KSignature.verify Signature.verify
  dsimp only
  rw [kPtStr_eq hr, kHash_eq, hs]
  exact ptEqual_eq (ptMul_base_rep _) (ptSub_rep hr (ptMul_rep hp _))

theorem kCreateSignature_sim {g : GeExt} {P : Ed} (h : g.Rep P) (s : Scalar) (nonce : Bytes) :
    Sim KSignature.Rep (kCreateSignature g s.raw nonce) (createSignature P s nonce) := by
  have hr : KSignature.Rep ⟨g, s.raw⟩ ⟨P, s⟩ := ⟨h, rfl⟩
  unfold kCreateSignature createSignature
  dsimp only
  rw [hr.verify]
  split
  · exact .ok hr
  · exact .err _

theorem kSign_sim (x : Scalar) (msg nonce : Bytes) :
    Sim KSignature.Rep (kSign x.raw msg nonce) (sign x msg nonce) := by
  unfold kSign sign
  dsimp only
  rw [kGenK_eq, kPtStr_eq (ptMul_base_rep _), kHash_eq, scMul_raw, scSub_raw]
  exact kCreateSignature_sim (ptMul_base_rep _) _ _

theorem KSignature.Rep.str {k : KSignature} {s : Signature} (h : k.Rep s) : k.str = s.str := by
  unfold KSignature.str Signature.str
  rw [kPtStr_eq h.1, h.2, scString_raw]

theorem kToSignature_sim (text nonce : Bytes) :
    Sim KSignature.Rep (kToSignature text nonce) (toSignature text nonce) := by
  unfold kToSignature toSignature
  cases b64Decode text with
  | none => exact .err _
  | some d =>
    dsimp only
    rcases splitOn 35 d with _ | ⟨a, _ | ⟨b, _ | ⟨c, t⟩⟩⟩
    · exact .err _
    · exact .err _
    · refine (kToPoint_sim _).bind fun g P hP => (kToScalar_sim _).bind fun b s hs => ?_
      obtain rfl : b = s.raw := hs
      exact kCreateSignature_sim hP s nonce
    · exact .err _

/-! ## Ring signatures -/

/-- The same ring signature. -/
def KRingSignature.Rep (k : KRingSignature) (s : RingSignature) : Prop :=
  List.Forall₂ GeExt.Rep k.ring s.ring ∧ List.Forall₂ SameRaw k.s s.s ∧ k.e = s.e.raw

theorem kSignerIndex_eq {g : GeExt} {P : Ed} (h : g.Rep P) {l : List GeExt} {m : List Ed}
    (hl : List.Forall₂ GeExt.Rep l m) : kSignerIndex g l = signerIndex P m := by
  induction hl with
  | nil => rfl
  | cons hx _ ih =>
    unfold kSignerIndex signerIndex
    rw [ih, ptEqual_eq hx h]
    rfl

theorem kRingStep_eq {g : GeExt} {P : Ed} (h : g.Rep P) (msg : Bytes) (s e : Scalar) :
    kRingStep msg s.raw e.raw g = (ringStep msg s e P).raw := by
  unfold kRingStep ringStep
  rw [kPtStr_eq (ptAdd_rep (ptMul_base_rep s) (ptMul_rep h e)), kHash_eq]
  rfl

/-- Arrays with the same elements. -/
def SameArr (f : Nat → Option Bytes) (g : Nat → Option Scalar) : Prop := ∀ i, f i = (g i).map Scalar.raw

omit [Sha256] in
theorem SameArr.update {f : Nat → Option Bytes} {g : Nat → Option Scalar} (h : SameArr f g) (n : Nat)
    (s : Scalar) : SameArr (fun j => if j = n then some s.raw else f j) (fun j => if j = n then some s else g j) := by
  intro i
  dsimp only
  split
  · rfl
  · exact h i

theorem kRingLoop_sim (x : Scalar) (msg : Bytes) {l : List GeExt} {m : List Ed}
    (hl : List.Forall₂ GeExt.Rep l m) (signer : Nat) :
    ∀ (fuel i : Nat) {es ss : Nat → Option Bytes} {es' ss' : Nat → Option Scalar},
      SameArr es es' → SameArr ss ss' →
      Sim (fun a b => SameArr a.1 b.1 ∧ SameArr a.2 b.2) (kRingLoop x.raw msg l signer fuel i es ss)
        (ringLoop x msg m signer fuel i es' ss')
  | 0, _, _, _, _, _, _, _ => .crash _
  | fuel + 1, i, es, ss, es', ss', he, hs => by
    unfold kRingLoop ringLoop
    split
    · exact .ok ⟨he, hs⟩
    · dsimp only
      have hi := he i
      cases h' : es' i with
      | none => rw [h'] at hi; rw [hi]; exact .crash _
      | some e =>
        rw [h'] at hi
        rw [hi]
        dsimp only [Option.map_some]
        have hlen := hl.length_eq
        by_cases hb : i < m.length
        · have hb' : i < l.length := by omega
          have hr := List.Forall₂.get hl hb' hb
          rw [List.getElem?_eq_getElem hb, List.getElem?_eq_getElem hb']
          dsimp only
          rw [kGenK_eq, hlen]
          rw [List.get_eq_getElem, List.get_eq_getElem] at hr
          rw [kRingStep_eq hr]
          exact kRingLoop_sim x msg hl signer fuel _ (he.update _ _) (hs.update _ _)
        · rw [List.getElem?_eq_none (by omega), List.getElem?_eq_none (by omega)]
          exact .crash _

theorem kRingSign_sim (x : Scalar) (msg : Bytes) {l : List GeExt} {m : List Ed}
    (hl : List.Forall₂ GeExt.Rep l m) :
    Sim KRingSignature.Rep (kRingSign x.raw msg l) (ringSign x msg m) := by
  unfold kRingSign ringSign
  rw [kSignerIndex_eq (kPublicKey_rep x) hl]
  cases signerIndex (publicKey x) m with
  | none => exact .err _
  | some signer =>
    dsimp only
    rw [kGenK_eq, kPtStr_eq (ptMul_base_rep _), kHash_eq, hl.length_eq]
    have key := kRingLoop_sim x msg hl signer m.length ((signer + 1) % m.length)
      (es := fun j => if j = (signer + 1) % m.length then
        some (createHash (msg ++ ptStr (edCurve.mul (genK x msg) edCurve.base))).raw else none)
      (es' := fun j => if j = (signer + 1) % m.length then
        some (createHash (msg ++ ptStr (edCurve.mul (genK x msg) edCurve.base))) else none)
      (ss := fun _ => none) (ss' := fun _ => none)
      (SameArr.update (f := fun _ => none) (g := fun _ => none) (fun _ => rfl) _ _) (fun _ => rfl)
    revert key
    generalize kRingLoop _ _ _ _ _ _ _ _ = o
    generalize ringLoop _ _ _ _ _ _ _ _ = o'
    intro key
    cases key with
    | err m => exact .err m
    | crash c => exact .crash c
    | ok h =>
      rename_i a b
      obtain ⟨es, ss⟩ := a
      obtain ⟨es', ss'⟩ := b
      obtain ⟨he, hs⟩ := h
      dsimp only at he hs ⊢
      have h1 := he signer
      cases h1' : es' signer with
      | none => rw [h1'] at h1; rw [h1]; exact .crash _
      | some esig =>
        rw [h1'] at h1
        rw [h1]
        dsimp only [Option.map_some]
        have h0 := he 0
        cases h0' : es' 0 with
        | none => rw [h0'] at h0; rw [h0]; exact .crash _
        | some e =>
          rw [h0'] at h0
          rw [h0]
          dsimp only [Option.map_some]
          rw [scMul_raw, scSub_raw]
          have hm := Sim.mapO (S := SameRaw)
            (f := fun j => Outcome.deref (if j = signer then
              some (canonFl (edCurve.val (genK x msg) - edCurve.val (canonFl (edCurve.val esig * edCurve.val x)))).raw
              else ss j))
            (g := fun j => Outcome.deref (if j = signer then
              some (canonFl (edCurve.val (genK x msg) - edCurve.val (canonFl (edCurve.val esig * edCurve.val x))))
              else ss' j))
            (fun j => by
              split
              · exact .ok rfl
              · have := hs j
                rw [this]
                cases ss' j with
                | none => exact .crash _
                | some s => exact .ok rfl)
            (List.range m.length)
          revert hm
          generalize mapO _ _ = u
          generalize mapO _ _ = u'
          intro hm
          cases hm with
          | err m => exact .err m
          | crash c => exact .crash c
          | ok h => exact .ok ⟨hl, h, rfl⟩

theorem kRingVerifyLoop_sim (msg : Bytes) : ∀ {l : List GeExt} {m : List Ed} {ss : List Bytes} {ss' : List Scalar},
    List.Forall₂ GeExt.Rep l m → List.Forall₂ SameRaw ss ss' → ∀ e : Scalar,
    Sim SameRaw (kRingVerifyLoop msg l ss e.raw) (ringVerifyLoop msg m ss' e)
  | _, _, _, _, .nil, _, _ => .ok rfl
  | _, _, _, _, .cons _ _, .nil, _ => .crash _
  | _, _, _, _, .cons hp hps, .cons hs hss, e => by
    unfold kRingVerifyLoop ringVerifyLoop
    rw [SameRaw] at hs
    rw [hs, kRingStep_eq hp]
    exact kRingVerifyLoop_sim msg hps hss _

theorem KRingSignature.Rep.verify {k : KRingSignature} {s : RingSignature} (h : k.Rep s) (msg : Bytes) :
    k.verify msg = s.verify msg := by
  obtain ⟨h1, h2, h3⟩ := h
  unfold KRingSignature.verify RingSignature.verify
  rw [h3]
  have := kRingVerifyLoop_sim msg h1 h2 s.e
  revert this
  generalize kRingVerifyLoop _ _ _ _ = o
  generalize ringVerifyLoop _ _ _ _ = o'
  intro key
  cases key with
  | err m => rfl
  | crash c => rfl
  | ok h =>
    dsimp only
    rw [h, scEqual]
    congr 1
    rw [Bool.eq_iff_iff, beq_iff_eq, decide_eq_true_eq]
    exact ⟨Scalar.ext, fun e => by rw [e]⟩

omit [Sha256] in
theorem map_eq_of_forall₂ {α β γ : Type} {R : α → β → Prop} {f : α → γ} {g : β → γ}
    (h : ∀ a b, R a b → f a = g b) {l : List α} {m : List β} (hl : List.Forall₂ R l m) :
    l.map f = m.map g := by
  induction hl with
  | nil => rfl
  | cons hx _ ih => rw [List.map_cons, List.map_cons, h _ _ hx, ih]

theorem KRingSignature.Rep.str {k : KRingSignature} {s : RingSignature} (h : k.Rep s) : k.str = s.str := by
  obtain ⟨h1, h2, h3⟩ := h
  unfold KRingSignature.str RingSignature.str
  rw [h3, scString_raw, map_eq_of_forall₂ (f := kPtStr) (g := ptStr) (fun _ _ h => kPtStr_eq h) h1,
    map_eq_of_forall₂ (f := scString) (g := scStr) (fun a b h => by rw [h, scString_raw]) h2]

theorem kToRingSignature_sim (text : Bytes) :
    Sim KRingSignature.Rep (kToRingSignature text) (toRingSignature text) := by
  unfold kToRingSignature toRingSignature
  cases b64Decode text with
  | none => exact .err _
  | some d =>
    dsimp only
    rcases splitOn 35 d with _ | ⟨a, _ | ⟨b, _ | ⟨c, _ | ⟨e, t⟩⟩⟩⟩
    · exact .err _
    · exact .err _
    · exact .err _
    · exact (Sim.mapO kToPoint_sim _).bind fun _ _ h1 => (Sim.mapO kToScalar_sim _).bind fun _ _ h2 =>
        (kToScalar_sim _).bind fun _ _ h3 => .ok ⟨h1, h2, h3⟩
    · exact .err _

variable [Sha512]

theorem kCompareHashes_eq {l : List GeExt} {m : List Ed} (h : List.Forall₂ GeExt.Rep l m) :
    ∀ hs : List Hash, kCompareHashes l hs = compareHashes m hs := by
  induction h with
  | nil => intro hs; rfl
  | cons hp _ ih =>
    intro hs
    cases hs with
    | nil => rfl
    | cons x hs =>
      unfold kCompareHashes compareHashes
      rw [kPtStr_eq hp]
      cases fromString (ptStr _) <;> dsimp only
      rw [ih]

theorem kToVerification_eq {k : KRingSignature} {s : RingSignature} (h : k.Rep s) (msg : Bytes)
    (hashes : List Hash) : kToVerification k msg hashes = toVerification s msg hashes := by
  unfold kToVerification toVerification
  rw [h.verify, h.1.length_eq, kCompareHashes_eq h.1]
  rfl

end

end Verif.Kyber
