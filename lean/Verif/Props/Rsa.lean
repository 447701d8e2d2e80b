import Verif.Model.RsaLemmas
import Verif.Model.HashLemmas
import Verif.Props.Encryption
import Verif.Props.ToyRsa
import Verif.Spec.Crypto

/-!
# C101–C104: public key encryption
-/

namespace Verif

/-! ## Padding -/

section
variable [H : Sha256]

theorem mgf1_length (seed : Bytes) (len : Nat) : (mgf1 seed len).length = len := by
  unfold mgf1
  have h : ∀ n, ((List.range n).flatMap fun i => H.sum (seed ++ counter4 i)).length = n * 32 := by
    intro n
    simp [List.length_flatMap, H.len]
  rw [List.length_take, h]
  omega

theorem mgf1Xor_length (out seed : Bytes) : (mgf1Xor out seed).length = out.length := by
  unfold mgf1Xor
  rw [xorBytes_length, mgf1_length, Nat.min_self]

theorem mgf1Xor_cancel (out seed : Bytes) : mgf1Xor (mgf1Xor out seed) seed = out := by
  unfold mgf1Xor
  rw [show (xorBytes out (mgf1 seed out.length)).length = out.length from mgf1Xor_length out seed]
  exact xorBytes_cancel _ _ (by rw [mgf1_length])

theorem oaepBlock_length {k : Nat} {msg : Bytes} (h : msg.length + 66 ≤ k) :
    (oaepBlock k msg).length = k - 33 := by
  simp [oaepBlock, H.len]
  omega

theorem oaepPad_length {k : Nat} {seed msg : Bytes} (hs : seed.length = 32)
    (h : msg.length + 66 ≤ k) : (oaepPad k seed msg).length = k := by
  simp [oaepPad, mgf1Xor_length, oaepBlock_length h, hs]
  omega

omit H in
/-- Once the one is found nothing changes. -/
theorem sepLoop_found (i index : Nat) (rest : Bytes) :
    sepLoop i false index false rest = (false, index, false) := by
  induction rest generalizing i with
  | nil => rfl
  | cons x rest ih => simp [sepLoop, ih]

omit H in
theorem sepLoop_zeros (z i : Nat) (msg : Bytes) :
    sepLoop i true 0 false (List.replicate z 0 ++ 1 :: msg) = (false, i + z, false) := by
  induction z generalizing i with
  | zero => simp [sepLoop, sepLoop_found]
  | succ z ih =>
    rw [List.replicate_succ, List.cons_append, sepLoop]
    simp [ih]
    omega

theorem oaepUnpad_pad {k : Nat} {seed msg : Bytes} (hs : seed.length = 32) :
    oaepUnpad (oaepPad k seed msg) = .ok msg := by
  unfold oaepUnpad oaepPad
  have hl : (mgf1Xor seed (mgf1Xor (oaepBlock k msg) seed)).length = 32 := by
    rw [mgf1Xor_length, hs]
  have e1 : (0 :: (mgf1Xor seed (mgf1Xor (oaepBlock k msg) seed)
      ++ mgf1Xor (oaepBlock k msg) seed)).drop 33 = mgf1Xor (oaepBlock k msg) seed := by
    rw [List.drop_succ_cons, ← hl, List.drop_left]
  have e2 : ((0 :: (mgf1Xor seed (mgf1Xor (oaepBlock k msg) seed)
      ++ mgf1Xor (oaepBlock k msg) seed)).drop 1).take 32
      = mgf1Xor seed (mgf1Xor (oaepBlock k msg) seed) := by
    rw [List.drop_one, List.tail_cons, ← hl, List.take_left]
  simp only [e1, e2, mgf1Xor_cancel]
  have e3 : (oaepBlock k msg).drop 32 = List.replicate (k - msg.length - 66) 0 ++ 1 :: msg := by
    unfold oaepBlock
    rw [← H.len [], List.drop_left]
  have e4 : (oaepBlock k msg).take 32 = H.sum [] := by
    unfold oaepBlock
    rw [← H.len [], List.take_left]
  rw [e3, e4, sepLoop_zeros]
  simp only [List.headD_cons, beq_self_eq_true, Bool.and_true, Bool.not_false, if_true, Nat.zero_add]
  congr 1
  rw [← List.drop_drop, List.drop_left' (by simp)]
  rfl

omit H in
theorem sepLoop_invalid (i index : Nat) (looking : Bool) (rest : Bytes) :
    (sepLoop i looking index true rest).2.2 = true := by
  induction rest generalizing i index looking with
  | nil => rfl
  | cons x rest ih => simp [sepLoop, ih]

omit H in
/-- What the loop accepts: zeros, a one, anything. -/
theorem sepLoop_accepts {rest : Bytes} : ∀ {i index j : Nat},
    sepLoop i true index false rest = (false, j, false) →
    ∃ z tail, rest = List.replicate z 0 ++ 1 :: tail ∧ j = i + z := by
  induction rest with
  | nil => intro i index j h; simp [sepLoop] at h
  | cons x rest ih =>
    intro i index j h
    rw [sepLoop] at h
    by_cases h1 : x = 1
    · subst h1
      simp [sepLoop_found] at h
      exact ⟨0, rest, rfl, h.symm⟩
    · by_cases h0 : x = 0
      · subst h0
        simp at h
        obtain ⟨z, tail, e, hj⟩ := ih h
        exact ⟨z + 1, tail, by rw [e, List.replicate_succ]; rfl, by omega⟩
      · have := sepLoop_invalid (i + 1) index true rest
        simp [h1, h0] at h
        rw [h] at this
        simp at this

/-- What the checks accept is a padded message. -/
theorem oaepUnpad_eq_ok {k : Nat} {em msg : Bytes} (hl : em.length = k) (hk : 66 ≤ k)
    (h : oaepUnpad em = .ok msg) :
    ∃ seed, seed.length = 32 ∧ msg.length + 66 ≤ k ∧ em = oaepPad k seed msg := by
  unfold oaepUnpad at h
  simp only [] at h
  split at h
  · rename_i hc
    simp only [Bool.and_eq_true, beq_iff_eq, Bool.not_eq_true'] at hc
    obtain ⟨⟨⟨h0, hhash⟩, hinv⟩, hlook⟩ := hc
    set seed := mgf1Xor ((em.drop 1).take 32) (em.drop 33) with hseed
    set db := mgf1Xor (em.drop 33) seed with hdb
    have hsl : seed.length = 32 := by
      rw [hseed, mgf1Xor_length]; simp; omega
    have hdl : db.length = k - 33 := by
      rw [hdb, mgf1Xor_length]; simp; omega
    obtain ⟨z, tail, hrest, hj⟩ := sepLoop_accepts (rest := db.drop 32) (i := 0) (index := 0)
      (j := (sepLoop 0 true 0 false (db.drop 32)).2.1)
      (Prod.ext hlook (Prod.ext rfl hinv))
    simp only [Nat.zero_add] at hj
    have hmsg : msg = tail := by
      simp only [Outcome.ok.injEq] at h
      rw [← h, hj, hrest, ← List.drop_drop, List.drop_left' (by simp)]
      rfl
    subst hmsg
    have hzl : z + 1 + msg.length = k - 65 := by
      have := congrArg List.length hrest
      simp at this
      omega
    refine ⟨seed, hsl, by omega, ?_⟩
    have hblock : oaepBlock k msg = db := by
      unfold oaepBlock
      rw [← List.take_append_drop 32 db, hhash, hrest]
      congr 3
      omega
    have e1 : mgf1Xor db seed = em.drop 33 := by rw [hdb, mgf1Xor_cancel]
    have e2 : mgf1Xor seed (em.drop 33) = (em.drop 1).take 32 := by rw [hseed, mgf1Xor_cancel]
    unfold oaepPad
    simp only [hblock, e1, e2]
    have e3 : em.drop 33 = (em.drop 1).drop 32 := by rw [List.drop_drop]
    rw [e3, List.take_append_drop]
    cases em with
    | nil => simp at hl; omega
    | cons x em => simp at h0; simp [h0]
  · simp at h

omit H in
theorem size_pow {k : RsaPub} (h : 0 < k.size) : 256 ^ (k.size - 1) ≤ k.n := by
  have h1 : 8 * (k.size - 1) < Nat.size k.n := by
    unfold RsaPub.size at h ⊢; omega
  have h2 := Nat.lt_size.mp h1
  rwa [pow_mul, show 2 ^ 8 = 256 from rfl] at h2

omit H in
theorem n_lt_size (k : RsaPub) : k.n < 256 ^ k.size := by
  have h1 : Nat.size k.n ≤ 8 * k.size := by unfold RsaPub.size; omega
  have h2 := Nat.size_le.mp h1
  rwa [pow_mul, show 2 ^ 8 = 256 from rfl] at h2

omit H in
theorem checkPub_eq_ok {k : RsaPub} {u : Unit} : checkPub k = .ok u ↔ 2 ≤ k.e ∧ k.e < 2 ^ 31 := by
  unfold checkPub
  simp only [Outcome.guardNot_bind_eq_ok, Outcome.guardNot_eq_ok, decide_eq_false_iff_not]
  omega

/-! ## C101: messages survive encryption -/

/-- Whatever the key, the seed and the blinding: what was encrypted with the public key is
decrypted by the private key, if the message leaves room for the padding. -/
theorem C101_decrypt_encrypt {k : RsaKey} (hk : k.Proper) {seed msg : Bytes} {r : Nat}
    (hs : seed.length = 32) (hm : msg.length + 66 ≤ k.pub.size) (hr : Nat.Coprime r k.pub.n) :
    ∃ c, rsaEncrypt k.pub seed msg = .ok c ∧ c.length = k.pub.size ∧
      rsaDecrypt k r c = .ok msg := by
  have hc : checkPub k.pub = .ok () := checkPub_eq_ok.mpr ⟨hk.e_low, hk.e_high⟩
  have hl := oaepPad_length (H := H) hs hm
  have hlt : beNat (oaepPad k.pub.size seed msg) < k.pub.n := by
    refine lt_of_lt_of_le ?_ (size_pow (by omega : 0 < k.pub.size))
    unfold oaepPad at hl ⊢
    rw [beNat_cons]
    simp only [UInt8.toNat_zero, Nat.zero_mul, Nat.zero_add]
    refine lt_of_lt_of_eq (beNat_lt _) ?_
    congr 1
    simp only [List.length_cons] at hl
    omega
  set m := beNat (oaepPad k.pub.size seed msg) with hmdef
  have hcl : (beBytes (m ^ k.pub.e % k.pub.n)).length ≤ k.pub.size :=
    beBytes_length_le.mpr ((Nat.mod_lt _ hk.n_pos).trans (n_lt_size _))
  refine ⟨leftPad k.pub.size (beBytes (m ^ k.pub.e % k.pub.n)), ?_, leftPad_length hcl, ?_⟩
  · unfold rsaEncrypt
    rw [hc, Outcome.bind_ok, if_neg (by omega)]
  · unfold rsaDecrypt
    have g : Outcome.guardNot (decide (k.pub.size <
        (leftPad k.pub.size (beBytes (m ^ k.pub.e % k.pub.n))).length) || decide (k.pub.size < 66))
        "crypto/rsa: decryption error" = .ok () := by
      rw [Outcome.guardNot_eq_ok, leftPad_length hcl]; simp; omega
    rw [hc, Outcome.bind_ok, g, Outcome.bind_ok, beNat_leftPad, beNat_beBytes,
      hk.decrypt_pow hr hlt, Outcome.bind_ok]
    have : leftPad k.pub.size (beBytes m) = oaepPad k.pub.size seed msg := by
      rw [hmdef]
      conv_lhs => rw [← hl]
      rw [hl]
      have := leftPad_beBytes_beNat (oaepPad k.pub.size seed msg)
      rwa [hl] at this
    rw [this, oaepUnpad_pad hs]

/-- A message that leaves no room is refused, with every key. -/
theorem C101_too_long_refused (k : RsaPub) {seed msg : Bytes} (hm : k.size < msg.length + 66) :
    (rsaEncrypt k seed msg).isErr = true := by
  unfold rsaEncrypt
  cases h : checkPub k with
  | ok u => simp [hm]
  | err m => simp
  | crash c =>
    unfold checkPub Outcome.guardNot at h
    split at h <;> split at h <;> simp at h

/-- Nothing else is decrypted: the result of a decryption is a message whose encryption, with some
seed, is the given text (up to leading zeros, and a text equal to the modulus counts as zero). -/
theorem C101_only_encryptions {k : RsaKey} (hk : k.Proper) {r : Nat} {c msg : Bytes}
    (hr : Nat.Coprime r k.pub.n) (h : rsaDecrypt k r c = .ok msg) :
    ∃ seed c', seed.length = 32 ∧ rsaEncrypt k.pub seed msg = .ok c' ∧
      beNat c' = beNat c % k.pub.n := by
  unfold rsaDecrypt at h
  obtain ⟨u, hc, h⟩ := Outcome.bind_eq_ok.mp h
  obtain ⟨hg, h⟩ := Outcome.guardNot_bind_eq_ok.mp h
  simp only [Bool.or_eq_false_iff, decide_eq_false_iff_not, not_lt] at hg
  obtain ⟨m, hm, h⟩ := Outcome.bind_eq_ok.mp h
  have hmn : m < k.pub.n := by
    unfold rsaDecryptNat at hm
    obtain ⟨_, hm⟩ := Outcome.guardNot_bind_eq_ok.mp hm
    obtain ⟨_, hm⟩ := Outcome.guardNot_bind_eq_ok.mp hm
    obtain ⟨_, _, hm⟩ := Outcome.bind_eq_ok.mp hm
    obtain ⟨_, _, hm⟩ := Outcome.bind_eq_ok.mp hm
    simp only [Outcome.ok.injEq] at hm
    rw [← hm]
    exact Nat.mod_lt _ hk.n_pos
  have hme : m ^ k.pub.e % k.pub.n = beNat c % k.pub.n := hk.pow_decrypt hr hm
  have hml : (beBytes m).length ≤ k.pub.size :=
    beBytes_length_le.mpr (hmn.trans (n_lt_size _))
  obtain ⟨seed, hs, hlen, hem⟩ := oaepUnpad_eq_ok (leftPad_length hml) hg.2 h
  have hmv : beNat (oaepPad k.pub.size seed msg) = m := by
    rw [← hem, beNat_leftPad, beNat_beBytes]
  refine ⟨seed, leftPad k.pub.size (beBytes (m ^ k.pub.e % k.pub.n)), hs, ?_, ?_⟩
  · unfold rsaEncrypt
    rw [hc, Outcome.bind_ok, if_neg (by omega), hmv]
  · rw [beNat_leftPad, beNat_beBytes, hme]

end

/-! ## Encodings -/

theorem tlv_length_lt (tag : UInt8) (c : Bytes) : c.length < (tlv tag c).length := by
  simp [tlv]

theorem derNat_length_lt {n : Nat} {b : Bytes} (h : (derField n ++ b).length < 2 ^ 31) :
    (derNat n).length < 2 ^ 31 ∧ b.length < 2 ^ 31 := by
  have := tlv_length_lt tagInteger (derNat n)
  simp only [List.length_append, derField] at h
  omega

theorem derNat_length_small {n : Nat} (h : n < 2 ^ 31) : (derNat n).length ≤ 8 := by
  have h1 := beBytes_length_of_lt h
  unfold derNat
  split
  · simp
  · split
    · simp; omega
    · omega

theorem derSmallInt_tlv {n : Nat} {rest : Bytes} (h : n < 2 ^ 31) :
    derSmallInt (derField n ++ rest) = some ((n : Int), rest) := by
  have h1 := derNat_length_small h
  unfold derSmallInt derField
  rw [derCut_tlv _ _ _ (by omega)]
  simp [derIntVal_derNat, h1]

theorem derSmallInt_eq_some {b rest : Bytes} {n : Nat} (h : derSmallInt b = some ((n : Int), rest)) :
    b = derField n ++ rest := by
  unfold derSmallInt at h
  split at h
  · simp at h
  · rename_i c rest' hc
    split at h
    · simp at h
    · split at h
      · simp at h
      · rename_i v hv
        simp only [Option.some.injEq, Prod.mk.injEq] at h
        obtain ⟨rfl, rfl⟩ := h
        rw [derCut_eq_some hc, derIntVal_eq_some hv]
        rfl

theorem derOptInt_field {n : Nat} {rest : Bytes} (h : (derNat n).length < 2 ^ 31) :
    derOptInt (derField n ++ rest) = some rest := by
  have e := derInt_tlv (rest := rest) h
  unfold derOptInt derField
  have : tlv tagInteger (derNat n) ++ rest
      = tagInteger :: (derLen (derNat n).length ++ derNat n ++ rest) := by simp [tlv]
  rw [this] at e ⊢
  simp only [if_true]
  rw [e]
  rfl

/-- Fields of a key and anything behind them. -/
theorem parseRsaPub_fields {k : RsaPub} {extra : Bytes} (he : k.e < 2 ^ 31)
    (h : (tlv tagSequence (derField k.n ++ (derField k.e ++ extra))).length < 2 ^ 31) :
    parseRsaPub (tlv tagSequence (derField k.n ++ (derField k.e ++ extra)))
      = some ((k.n : Int), (k.e : Int)) := by
  have h0 := tlv_length_lt tagSequence (derField k.n ++ (derField k.e ++ extra))
  have h1 : (derField k.n ++ (derField k.e ++ extra)).length < 2 ^ 31 := by omega
  have h2 := (derNat_length_lt h1).1
  unfold parseRsaPub
  have e := derCut_tlv tagSequence (derField k.n ++ (derField k.e ++ extra)) [] h1
  rw [List.append_nil] at e
  have e' := derInt_tlv (rest := derField k.e ++ extra) h2
  rw [e]
  simp only [Option.bind_eq_bind, Option.bind_some, ne_eq, not_true_eq_false, if_false]
  rw [show derField k.n = tlv tagInteger (derNat k.n) from rfl, e']
  simp [derSmallInt_tlv he]

theorem rsaPubFromBytes_fields {k : RsaPub} {extra : Bytes} (hn : 0 < k.n) (he0 : 0 < k.e)
    (he : k.e < 2 ^ 31)
    (h : (tlv tagSequence (derField k.n ++ (derField k.e ++ extra))).length < 2 ^ 31) :
    rsaPubFromBytes (tlv tagSequence (derField k.n ++ (derField k.e ++ extra))) = .ok k := by
  unfold rsaPubFromBytes
  rw [parseRsaPub_fields he h]
  simp only []
  rw [if_neg (by omega), if_neg (by omega)]
  simp [rsaPubNow]

/-! ## C102: keys survive encoding -/

/-- Public keys. -/
theorem C102_public_round_trip {k : RsaPub} (hn : 0 < k.n) (he0 : 0 < k.e) (he : k.e < 2 ^ 31)
    (h : (rsaPubToBytes k).length < 2 ^ 31) :
    rsaPubFromBytes (rsaPubToBytes k) = .ok k ∧
      rsaPubFromEncoded (rsaPubToEncoded k) = .ok k := by
  have h1 : rsaPubFromBytes (rsaPubToBytes k) = .ok k := by
    have := rsaPubFromBytes_fields (extra := []) hn he0 he (by simpa [rsaPubToBytes] using h)
    simpa [rsaPubToBytes] using this
  refine ⟨h1, ?_⟩
  unfold rsaPubFromEncoded rsaPubToEncoded
  rw [b64Decode_encode]
  exact h1

theorem rsaValidate_eq_ok {k : RsaKey} {u : Unit} : rsaValidate k = .ok u ↔
    (2 ≤ k.pub.e ∧ k.pub.e < 2 ^ 31) ∧ (1 < k.p ∧ 1 < k.q) ∧ k.p * k.q = k.pub.n ∧
      k.pub.e * k.d % (k.p - 1) = 1 ∧ k.pub.e * k.d % (k.q - 1) = 1 := by
  unfold rsaValidate
  rw [Outcome.bind_eq_ok]
  simp only [checkPub_eq_ok, Outcome.guardNot_bind_eq_ok, Outcome.guardNot_eq_ok,
    Bool.or_eq_false_iff, decide_eq_false_iff_not, bne_eq_false_iff_eq, not_le]
  constructor
  · rintro ⟨_, h⟩; exact h
  · intro h; exact ⟨(), h⟩

theorem RsaKey.Proper.validate {k : RsaKey} (hk : k.Proper) : rsaValidate k = .ok () := by
  rw [rsaValidate_eq_ok]
  have hp := hk.p_odd
  have hq := hk.q_odd
  refine ⟨⟨hk.e_low, hk.e_high⟩, ⟨by omega, by omega⟩, hk.modulus.symm, ?_, ?_⟩
  · have := hk.inv_p
    unfold Nat.ModEq at this
    rw [this, Nat.mod_eq_of_lt (by omega)]
  · have := hk.inv_q
    unfold Nat.ModEq at this
    rw [this, Nat.mod_eq_of_lt (by omega)]

theorem RsaKey.Proper.d_pos {k : RsaKey} (hk : k.Proper) : 0 < k.d := by
  rcases Nat.eq_zero_or_pos k.d with h | h
  · have h1 := (rsaValidate_eq_ok.mp hk.validate).2.2.2.1
    rw [h] at h1
    simp at h1
  · exact h

/-- Fields of a private key, with any values behind the primes. -/
theorem rsaKeyFromBytes_fields {k : RsaKey} {dp dq i : Nat} (hv : rsaValidate k = .ok ())
    (hd : 0 < k.d) (hlen : (tlv tagSequence
      (derField 0 ++ (derField k.pub.n ++ (derField k.pub.e ++ (derField k.d ++ (derField k.p ++
        (derField k.q ++ (derField dp ++ (derField dq ++ derField i))))))))).length < 2 ^ 31) :
    rsaKeyFromBytes (tlv tagSequence
      (derField 0 ++ (derField k.pub.n ++ (derField k.pub.e ++ (derField k.d ++ (derField k.p ++
        (derField k.q ++ (derField dp ++ (derField dq ++ derField i)))))))))
      = .ok { k with pre := true } := by
  obtain ⟨⟨he, he'⟩, ⟨hp, hq⟩, hn, h6, h7⟩ := rsaValidate_eq_ok.mp hv
  have hn0 : 0 < k.pub.n := by rw [← hn]; exact Nat.mul_pos (by omega) (by omega)
  have h0 := tlv_length_lt tagSequence (derField 0 ++ (derField k.pub.n ++ (derField k.pub.e ++
    (derField k.d ++ (derField k.p ++ (derField k.q ++ (derField dp ++ (derField dq ++
      derField i))))))))
  have l0 := lt_trans h0 hlen
  have l1 := derNat_length_lt l0
  have l2 := derNat_length_lt l1.2
  have l3 := derNat_length_lt l2.2
  have l4 := derNat_length_lt l3.2
  have l5 := derNat_length_lt l4.2
  have l6 := derNat_length_lt l5.2
  have l7 := derNat_length_lt l6.2
  have l8 := derNat_length_lt l7.2
  have l9 : (derNat i).length < 2 ^ 31 := (derNat_length_lt (b := []) (by simpa using l8.2)).1
  have hparse : parseRsaKey (tlv tagSequence (derField 0 ++ (derField k.pub.n ++
      (derField k.pub.e ++ (derField k.d ++ (derField k.p ++ (derField k.q ++ (derField dp ++
        (derField dq ++ derField i)))))))))
      = some (0, (k.pub.n : Int), (k.pub.e : Int), (k.d : Int), (k.p : Int), (k.q : Int)) := by
    unfold parseRsaKey
    have e := derCut_tlv tagSequence (derField 0 ++ (derField k.pub.n ++ (derField k.pub.e ++
      (derField k.d ++ (derField k.p ++ (derField k.q ++ (derField dp ++ (derField dq ++
        derField i)))))))) [] l0
    rw [List.append_nil] at e
    have f : ∀ (n : Nat) (rest : Bytes), (derNat n).length < 2 ^ 31 →
        derInt (derField n ++ rest) = some ((n : Int), rest) := fun n rest h => derInt_tlv h
    have g9 : derOptInt (derField i) = some [] := by
      have := derOptInt_field (rest := []) l9
      rwa [List.append_nil] at this
    rw [e]
    simp only [Option.bind_eq_bind, Option.bind_some, ne_eq, not_true_eq_false, if_false]
    rw [derSmallInt_tlv (by decide)]
    simp only [Option.bind_some]
    rw [f _ _ l2.1]
    simp only [Option.bind_some]
    rw [derSmallInt_tlv he']
    simp only [Option.bind_some]
    rw [f _ _ l4.1]
    simp only [Option.bind_some]
    rw [f _ _ l5.1]
    simp only [Option.bind_some]
    rw [f _ _ l6.1]
    simp only [Option.bind_some]
    rw [derOptInt_field l7.1]
    simp only [Option.bind_some]
    rw [derOptInt_field l8.1]
    simp only [Option.bind_some]
    rw [g9]
    rfl
  unfold rsaKeyFromBytes
  rw [hparse]
  simp only []
  rw [if_neg (by decide), if_neg (by omega), if_neg (by omega)]
  have hv' : rsaValidate ⟨⟨(k.pub.n : Int).toNat, (k.pub.e : Int).toNat⟩, (k.d : Int).toNat,
      (k.p : Int).toNat, (k.q : Int).toNat, true⟩ = .ok () := by
    have := rsaValidate_eq_ok.mp hv
    rw [rsaValidate_eq_ok]
    simpa using this
  rw [hv']
  simp [rsaKeyNow, rsaPubNow]

/-- Private keys: the key read back is the same one, with the values for fast decryption. -/
theorem C102_private_round_trip {k : RsaKey} (hk : k.Proper) :
    ∃ b s, rsaKeyToBytes k = .ok b ∧ rsaKeyToEncoded k = .ok s ∧
      (b.length < 2 ^ 31 → rsaKeyFromBytes b = .ok { k with pre := true } ∧
        rsaKeyFromEncoded s = .ok { k with pre := true }) := by
  obtain ⟨i, hi, _⟩ := modInverse_coprime hk.p_prime.pos hk.coprime.symm
  have hp := hk.p_odd
  have hq := hk.q_odd
  set dp := ((k.d : Int) % ((k.p : Int) - 1)).toNat
  set dq := ((k.d : Int) % ((k.q : Int) - 1)).toNat
  have hb : rsaKeyToBytes k = .ok (tlv tagSequence
      (derField 0 ++ (derField k.pub.n ++ (derField k.pub.e ++ (derField k.d ++ (derField k.p ++
        (derField k.q ++ (derField dp ++ (derField dq ++ derField i))))))))) := by
    unfold rsaKeyToBytes
    rw [if_neg (by omega), hi]
  refine ⟨_, _, hb, by unfold rsaKeyToEncoded; rw [hb]; rfl, ?_⟩
  intro hlen
  have hfrom := rsaKeyFromBytes_fields hk.validate hk.d_pos hlen
  refine ⟨hfrom, ?_⟩
  unfold rsaKeyFromEncoded
  rw [b64Decode_encode]
  exact hfrom

/-- What is read as a private key has passed the checks of the library. -/
theorem C102_imported_checked {b : Bytes} {k : RsaKey} (h : rsaKeyFromBytes b = .ok k) :
    k.pre = true ∧ k.pub.n = k.p * k.q ∧ 2 < k.p ∧ 2 < k.q ∧ 2 ≤ k.pub.e ∧ k.pub.e < 2 ^ 31 ∧
      k.pub.e * k.d ≡ 1 [MOD k.p - 1] ∧ k.pub.e * k.d ≡ 1 [MOD k.q - 1] := by
  unfold rsaKeyFromBytes at h
  split at h
  · simp at h
  · rename_i version n e d p q _
    split at h
    · simp at h
    split at h
    · simp at h
    split at h
    · simp at h
    obtain ⟨u, hv, h⟩ := Outcome.bind_eq_ok.mp h
    simp only [rsaKeyNow, rsaPubNow, Outcome.require_some, Outcome.bind_ok, Outcome.ok.injEq] at h
    subst h
    obtain ⟨⟨h1, h2⟩, ⟨h3, h4⟩, h5, h6, h7⟩ := rsaValidate_eq_ok.mp hv
    have hp : 2 < p.toNat := by
      by_contra hp
      have : p.toNat - 1 = 1 := by simp only [] at h3; omega
      simp only [this, Nat.mod_one] at h6
      omega
    have hq : 2 < q.toNat := by
      by_contra hq
      have : q.toNat - 1 = 1 := by simp only [] at h4; omega
      simp only [this, Nat.mod_one] at h7
      omega
    refine ⟨rfl, h5.symm, hp, hq, h1, h2, ?_, ?_⟩
    · unfold Nat.ModEq; rw [h6, Nat.mod_eq_of_lt]; simp only []; omega
    · unfold Nat.ModEq; rw [h7, Nat.mod_eq_of_lt]; simp only []; omega

/-! ## C103: the hash of a public key identifies it -/

theorem rsaPubToBytes_inj {k k' : RsaPub} (he : k.e < 2 ^ 31) (he' : k'.e < 2 ^ 31)
    (h : (rsaPubToBytes k).length < 2 ^ 31) (e : rsaPubToBytes k = rsaPubToBytes k') : k = k' := by
  have h1 := parseRsaPub_fields (extra := []) he (by simpa [rsaPubToBytes] using h)
  have h2 := parseRsaPub_fields (extra := []) he' (by rw [e] at h; simpa [rsaPubToBytes] using h)
  simp only [List.append_nil] at h1 h2
  unfold rsaPubToBytes at e
  rw [e, h2] at h1
  simp only [Option.some.injEq, Prod.mk.injEq, Nat.cast_inj] at h1
  cases k
  cases k'
  simp_all

/-- Keys with the same hash are the same, or the encodings show a collision, or one of them has 64
bytes and is not hashed. -/
theorem C103_hash_binds_key [Sha512] {k k' : RsaPub} (he : k.e < 2 ^ 31) (he' : k'.e < 2 ^ 31)
    (hl : (rsaPubToBytes k).length < 2 ^ 31) (h : rsaPubHash k = rsaPubHash k') :
    k = k' ∨ ShaCollision (rsaPubToBytes k) (rsaPubToBytes k') ∨
      ShaPassThrough (rsaPubToBytes k) (rsaPubToBytes k') ∨
      ShaPassThrough (rsaPubToBytes k') (rsaPubToBytes k) := by
  rcases fromBytes_eq_red' h with e | e
  · exact .inl (rsaPubToBytes_inj he he' hl e)
  · exact .inr e

/-- The encoding is longer than the modulus. -/
theorem size_lt_rsaPubToBytes (k : RsaPub) : k.size < (rsaPubToBytes k).length := by
  have h1 := tlv_length_lt tagSequence (derField k.n ++ derField k.e)
  have h2 := tlv_length_lt tagInteger (derNat k.n)
  have h3 : k.size ≤ (derNat k.n).length := by
    rcases Nat.eq_zero_or_pos k.size with h0 | h0
    · omega
    · have hn : ¬ (beBytes k.n).length ≤ k.size - 1 := by
        rw [beBytes_length_le]
        have := size_pow h0
        omega
      have : (beBytes k.n).length ≤ (derNat k.n).length := by
        unfold derNat
        split
        · rename_i h; simp [h, beBytes_zero]
        · split <;> simp
      omega
  unfold rsaPubToBytes
  simp only [List.length_append, derField] at h1 ⊢
  omega

/-- Keys of at least 505 bits are always hashed, so that only a collision remains. -/
theorem C103_hash_binds_usual_key [Sha512] {k k' : RsaPub} (he : k.e < 2 ^ 31)
    (he' : k'.e < 2 ^ 31) (hs : 64 ≤ k.size) (hs' : 64 ≤ k'.size)
    (hl : (rsaPubToBytes k).length < 2 ^ 31) (h : rsaPubHash k = rsaPubHash k') :
    k = k' ∨ ShaCollision (rsaPubToBytes k) (rsaPubToBytes k') := by
  have h1 := size_lt_rsaPubToBytes k
  have h2 := size_lt_rsaPubToBytes k'
  rcases fromBytes_eq_red (by omega) (by omega) h with e | e
  · exact .inl (rsaPubToBytes_inj he he' hl e)
  · exact .inr e

/-! ## C104: a public key has one encoding -/

/-- It does not: bytes behind the exponent, inside of the sequence, are ignored. -/
theorem C104_extra_bytes_ignored_neg {k : RsaPub} (hn : 0 < k.n) (he0 : 0 < k.e)
    (he : k.e < 2 ^ 31) {extra : Bytes} (hx : extra ≠ [])
    (h : (tlv tagSequence (derField k.n ++ (derField k.e ++ extra))).length < 2 ^ 31) :
    ∃ b, b ≠ rsaPubToBytes k ∧ rsaPubFromBytes b = .ok k := by
  refine ⟨_, ?_, rsaPubFromBytes_fields (extra := extra) hn he0 he h⟩
  intro e
  have hl := tlv_length_lt tagSequence (derField k.n ++ (derField k.e ++ extra))
  have h1 := derCut_tlv tagSequence (derField k.n ++ (derField k.e ++ extra)) [] (by omega)
  have hl' := tlv_length_lt tagSequence (derField k.n ++ derField k.e)
  have h2 := derCut_tlv tagSequence (derField k.n ++ derField k.e) []
    (by unfold rsaPubToBytes at e; rw [← e] at hl'; omega)
  rw [e] at h1
  unfold rsaPubToBytes at h1
  rw [h2] at h1
  simp only [Option.some.injEq, Prod.mk.injEq, and_true, List.append_cancel_left_eq] at h1
  exact hx (by simpa using h1.symm)

/-- A line feed in the text of an encoding is ignored. -/
theorem C104_line_feed_ignored_neg (s : Bytes) : rsaPubFromEncoded (10 :: s) = rsaPubFromEncoded s := by
  simp [rsaPubFromEncoded, b64Decode]

/-- What is accepted as a public key is its encoding with, possibly, ignored bytes. -/
theorem C104_accepted_encodings_partial {b : Bytes} {k : RsaPub} (h : rsaPubFromBytes b = .ok k) :
    ∃ extra, b = tlv tagSequence (derField k.n ++ (derField k.e ++ extra)) ∧
      (extra = [] → b = rsaPubToBytes k) := by
  unfold rsaPubFromBytes at h
  split at h
  · simp at h
  · rename_i n e hp
    split at h
    · simp at h
    split at h
    · simp at h
    rename_i hpos _
    simp only [rsaPubNow, Outcome.require_some, Outcome.ok.injEq] at h
    subst h
    unfold parseRsaPub at hp
    simp only [Option.bind_eq_bind, Option.bind_eq_some_iff] at hp
    obtain ⟨⟨seq, rest⟩, hseq, hp⟩ := hp
    simp only [] at hp
    split at hp
    · simp at hp
    · rename_i hr
      have hr : rest = [] := by simpa using hr
      subst hr
      simp only [Option.bind_eq_some_iff] at hp
      obtain ⟨⟨n', b₁⟩, h1, ⟨e', b₂⟩, h2, h3⟩ := hp
      simp only [Option.some.injEq, Prod.mk.injEq] at h3
      obtain ⟨rfl, rfl⟩ := h3
      have en : n' = ((n'.toNat : Nat) : Int) := by omega
      have ee : e' = ((e'.toNat : Nat) : Int) := by omega
      rw [en] at h1
      rw [ee] at h2
      simp only [] at h2
      refine ⟨b₂, ?_, ?_⟩
      · rw [derCut_eq_some hseq, derInt_eq_some h1, derSmallInt_eq_some h2, List.append_nil]
        rfl
      · rintro rfl
        rw [derCut_eq_some hseq, derInt_eq_some h1, derSmallInt_eq_some h2, List.append_nil,
          List.append_nil]
        rfl

/-! ## C105: an imported private key can be used -/

section
variable [Sha256]

/-- It may not: factors with a common divisor are accepted, and then every decryption panics. -/
theorem C105_decryption_panics_neg {b : Bytes} {k : RsaKey} (hb : rsaKeyFromBytes b = .ok k)
    (hpq : ¬ Nat.Coprime k.q k.p) {r : Nat} (hr : Nat.Coprime r k.pub.n) {c : Bytes}
    (hs : 66 ≤ k.pub.size) (hc : beNat c ≤ k.pub.n) (hcl : c.length ≤ k.pub.size) :
    rsaDecrypt k r c = .crash .nilDeref := by
  obtain ⟨hpre, hn, hp, hq, he, he', _, _⟩ := C102_imported_checked hb
  have hn0 : 0 < k.pub.n := by rw [hn]; exact Nat.mul_pos (by omega) (by omega)
  obtain ⟨i, hi, _⟩ := modInverse_coprime hn0 hr
  unfold rsaDecrypt
  rw [show checkPub k.pub = .ok () from checkPub_eq_ok.mpr ⟨he, he'⟩, Outcome.bind_ok]
  have g : Outcome.guardNot (decide (k.pub.size < c.length) || decide (k.pub.size < 66))
      "crypto/rsa: decryption error" = .ok () := by
    rw [Outcome.guardNot_eq_ok]; simp; omega
  rw [g, Outcome.bind_ok]
  have g1 : Outcome.guardNot (decide (k.pub.n < beNat c))
      "crypto/rsa: decryption error" = .ok () := by
    rw [Outcome.guardNot_eq_ok]; simp; omega
  have g2 : Outcome.guardNot (decide (k.pub.n = 0))
      "crypto/rsa: decryption error" = .ok () := by
    rw [Outcome.guardNot_eq_ok]; simp; omega
  unfold rsaDecryptNat rsaRaw
  rw [g1, g2, hi]
  simp [hpre, modInverse_eq_none.mpr hpq]

omit [Sha256] in
/-- Saving such a key again leaves nothing. -/
theorem C105_encoding_lost_neg {b : Bytes} {k : RsaKey} (hb : rsaKeyFromBytes b = .ok k)
    (hpq : ¬ Nat.Coprime k.q k.p) : rsaKeyToBytes k = .ok [] := by
  obtain ⟨_, _, hp, hq, _⟩ := C102_imported_checked hb
  unfold rsaKeyToBytes
  rw [if_neg (by omega), modInverse_eq_none.mpr hpq]

theorem oaepUnpad_isCrash (em : Bytes) : (oaepUnpad em).isCrash = false := by
  unfold oaepUnpad
  simp only []
  split <;> rfl

/-- With coprime factors nothing panics, whatever is decrypted. -/
theorem C105_decryption_returns_partial {b : Bytes} {k : RsaKey} (hb : rsaKeyFromBytes b = .ok k)
    (hpq : Nat.Coprime k.q k.p) {r : Nat} (hr : Nat.Coprime r k.pub.n) (c : Bytes) :
    (rsaDecrypt k r c).isCrash = false := by
  obtain ⟨hpre, hn, hp, hq, he, he', _, _⟩ := C102_imported_checked hb
  have hn0 : 0 < k.pub.n := by rw [hn]; exact Nat.mul_pos (by omega) (by omega)
  obtain ⟨i, hi, _⟩ := modInverse_coprime hn0 hr
  obtain ⟨j, hj, _⟩ := modInverse_coprime (by omega : 0 < k.p) hpq
  unfold rsaDecrypt rsaDecryptNat rsaRaw
  rw [show checkPub k.pub = .ok () from checkPub_eq_ok.mpr ⟨he, he'⟩, Outcome.bind_ok, hi, hj]
  simp only [hpre]
  cases h1 : (decide (k.pub.size < c.length) || decide (k.pub.size < 66)) <;>
    cases h2 : (decide (k.pub.n < beNat c)) <;>
    cases h3 : (decide (k.pub.n = 0)) <;>
    simp [oaepUnpad_isCrash]

end

/-! ## Examples -/

section examples

/-- A stand-in for SHA-256. -/
@[reducible] def toySha256 : Sha256 where
  sum b := List.replicate 32 (UInt8.ofNat b.length)
  len _ := by simp

attribute [local instance] toySha256

-- C101: a key of 550 bits, a message of three bytes, blinding by 2
example : ∃ c, rsaEncrypt toyRsa.pub (List.replicate 32 7) [1, 2, 3] = .ok c ∧ c.length = 69 ∧
    rsaDecrypt toyRsa 2 c = .ok [1, 2, 3] := by
  have := C101_decrypt_encrypt toyRsa_proper (seed := List.replicate 32 7) (msg := [1, 2, 3])
    (r := 2) (by simp) (by rw [toyRsa_size]; simp) (by decide +kernel)
  rwa [toyRsa_size] at this

example : (rsaEncrypt toyRsa.pub (List.replicate 32 7) [1, 2, 3, 4]).isErr = true :=
  C101_too_long_refused _ (by rw [toyRsa_size]; simp)

example : ∃ c seed c', rsaDecrypt toyRsa 2 c = .ok [9] ∧ rsaEncrypt toyRsa.pub seed [9] = .ok c' ∧
    beNat c' = beNat c % toyRsa.pub.n := by
  obtain ⟨c, _, _, hc⟩ := C101_decrypt_encrypt toyRsa_proper (seed := List.replicate 32 7)
    (msg := [9]) (r := 2) (by simp) (by rw [toyRsa_size]; simp) (by decide +kernel)
  obtain ⟨seed, c', _, h1, h2⟩ := C101_only_encryptions toyRsa_proper (by decide +kernel) hc
  exact ⟨c, seed, c', hc, h1, h2⟩

/-- Bound for the examples. -/
theorem derField_length {n m : Nat} (h : n < 256 ^ m) (hm : m < 100) :
    (derField n).length ≤ 110 := by
  have h1 : (beBytes n).length ≤ m := beBytes_length_le.mpr h
  have h2 : (derNat n).length ≤ m + 1 := by
    unfold derNat
    split
    · simp
    · split
      · simp; omega
      · omega
  unfold derField tlv derLen
  rw [if_pos (by omega)]
  simp
  omega

theorem tlv_length_le {tag : UInt8} {c : Bytes} (h : c.length < 2 ^ 30) :
    (tlv tag c).length < 2 ^ 31 := by
  have := beBytes_length_of_lt (by omega : c.length < 2 ^ 31)
  unfold tlv derLen
  split <;> simp <;> omega

theorem toyRsa_n_length : (derField toyRsa.pub.n).length ≤ 110 :=
  derField_length (m := 99) (by decide +kernel) (by decide)

theorem toyRsa_e_length : (derField toyRsa.pub.e).length ≤ 110 :=
  derField_length (m := 99) (by decide +kernel) (by decide)

theorem toyRsa_bytes_length : (rsaPubToBytes toyRsa.pub).length < 2 ^ 31 := by
  have h1 := toyRsa_n_length
  have h2 := toyRsa_e_length
  exact tlv_length_le (by simp only [List.length_append]; omega)

-- C102
example : rsaPubFromBytes (rsaPubToBytes toyRsa.pub) = .ok toyRsa.pub :=
  (C102_public_round_trip (by decide +kernel) (by decide +kernel) (by decide +kernel)
    toyRsa_bytes_length).1

example : ∃ b s, rsaKeyToBytes toyRsa = .ok b ∧ rsaKeyToEncoded toyRsa = .ok s ∧
    (b.length < 2 ^ 31 → rsaKeyFromBytes b = .ok toyRsa ∧ rsaKeyFromEncoded s = .ok toyRsa) :=
  C102_private_round_trip toyRsa_proper

/-- A hash function that is as bad as possible. -/
@[reducible] def constSha : Sha512 where
  sum _ := ⟨List.replicate 64 0, by simp⟩

theorem constSha_sum (x y : Bytes) : constSha.sum x = constSha.sum y := rfl

attribute [local instance] constSha in
-- C103: with a constant hash function keys of this size with different exponents have the same
-- hash, and their encodings are a collision
example : rsaPubHash toyRsa.pub = rsaPubHash ⟨toyRsa.pub.n, 5⟩ ∧
      ShaCollision (rsaPubToBytes toyRsa.pub) (rsaPubToBytes ⟨toyRsa.pub.n, 5⟩) := by
  have h0 := toyRsa_size
  have h0' : RsaPub.size ⟨toyRsa.pub.n, 5⟩ = 69 := by rw [← h0]; simp only [RsaPub.size]
  have h1 := size_lt_rsaPubToBytes toyRsa.pub
  have h2 := size_lt_rsaPubToBytes ⟨toyRsa.pub.n, 5⟩
  have h : rsaPubHash toyRsa.pub = rsaPubHash ⟨toyRsa.pub.n, 5⟩ := by
    unfold rsaPubHash
    rw [fromBytes_of_ne (by omega), fromBytes_of_ne (by omega)]
    exact constSha_sum _ _
  refine ⟨h, ?_⟩
  rcases C103_hash_binds_usual_key (k := toyRsa.pub) (k' := ⟨toyRsa.pub.n, 5⟩)
    (by decide +kernel) (by simp) (by omega) (by omega) toyRsa_bytes_length h with h | h
  · exact absurd (congrArg RsaPub.e h) (by decide)
  · exact h

-- C104
example : ∃ b, b ≠ rsaPubToBytes toyRsa.pub ∧ rsaPubFromBytes b = .ok toyRsa.pub := by
  have h1 := toyRsa_n_length
  have h2 := toyRsa_e_length
  exact C104_extra_bytes_ignored_neg (by decide +kernel) (by decide +kernel) (by decide +kernel)
    (extra := [5, 0]) (by simp)
    (tlv_length_le (by simp only [List.length_append, List.length_cons, List.length_nil]; omega))

/-- The encoding of a key whose factors are equal. -/
def badRsaBytes : Bytes := tlv tagSequence
  (derField 0 ++ (derField badRsa.pub.n ++ (derField badRsa.pub.e ++ (derField badRsa.d ++
    (derField badRsa.p ++ (derField badRsa.q ++ (derField 1 ++ (derField 1 ++ derField 1))))))))

theorem badRsa_imported : rsaKeyFromBytes badRsaBytes = .ok badRsa := by
  have h := rsaKeyFromBytes_fields (k := badRsa) (dp := 1) (dq := 1) (i := 1)
    (rsaValidate_eq_ok.mpr (by decide +kernel)) (by decide +kernel) (by
      have h0 := derField_length (n := 0) (m := 99) (by decide +kernel) (by decide)
      have h1 := derField_length (n := badRsa.pub.n) (m := 99) (by decide +kernel) (by decide)
      have h2 := derField_length (n := badRsa.pub.e) (m := 99) (by decide +kernel) (by decide)
      have h3 := derField_length (n := badRsa.d) (m := 99) (by decide +kernel) (by decide)
      have h4 := derField_length (n := badRsa.p) (m := 99) (by decide +kernel) (by decide)
      have h5 := derField_length (n := badRsa.q) (m := 99) (by decide +kernel) (by decide)
      have h6 := derField_length (n := 1) (m := 99) (by decide +kernel) (by decide)
      exact tlv_length_le (by simp only [List.length_append]; omega))
  exact h

-- C105: a key that anybody can make, a cipher text of one byte, blinding by 1
example : rsaDecrypt badRsa 1 [5] = .crash .nilDeref :=
  C105_decryption_panics_neg badRsa_imported (by decide +kernel) (by simp)
    (by rw [badRsa_size]; decide) (by decide +kernel) (by rw [badRsa_size]; decide)

example : rsaKeyToBytes badRsa = .ok [] := C105_encoding_lost_neg badRsa_imported (by decide +kernel)

-- what was imported has passed the checks (although its factors are not prime)
example : badRsa.pub.n = badRsa.p * badRsa.q := (C102_imported_checked badRsa_imported).2.1

-- a proper key read from bytes
example (c : Bytes) : ∃ b, rsaKeyFromBytes b = .ok toyRsa ∧
    (rsaDecrypt toyRsa 2 c).isCrash = false := by
  have h := rsaKeyFromBytes_fields (k := toyRsa) (dp := 1) (dq := 1) (i := 1)
    toyRsa_proper.validate toyRsa_proper.d_pos (by
      have h0 := derField_length (n := 0) (m := 99) (by decide +kernel) (by decide)
      have h1 := toyRsa_n_length
      have h2 := toyRsa_e_length
      have h3 := derField_length (n := toyRsa.d) (m := 99) (by decide +kernel) (by decide)
      have h4 := derField_length (n := toyRsa.p) (m := 99) (by decide +kernel) (by decide)
      have h5 := derField_length (n := toyRsa.q) (m := 99) (by decide +kernel) (by decide)
      have h6 := derField_length (n := 1) (m := 99) (by decide +kernel) (by decide)
      exact tlv_length_le (by simp only [List.length_append]; omega))
  exact ⟨_, h, C105_decryption_returns_partial h (by decide +kernel) (by decide +kernel) c⟩

end examples

end Verif
