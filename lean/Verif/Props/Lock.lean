import Verif.Model.Piastres.LockLemmas
import Verif.Spec.Crypto
import Verif.Props.Sig

/-!
# Properties of locks (C19 - C22, C73)
-/

namespace Verif

section
variable [Sha512]

/-! ## C19 -/

/-- C19: the lock builder succeeds exactly when the key list is given, not empty and without
repetition. -/
theorem C19_builder_accepts_iff (keys : Option (List Hash)) (t : Time) :
    (∃ l, lockNow keys t = .ok l) ↔ ∃ ks, keys = some ks ∧ ks ≠ [] ∧ ks.Nodup := by
  simp only [lockNow_eq_ok]
  constructor
  · rintro ⟨l, ks, h1, h2, h3, -⟩; exact ⟨ks, h1, h2, h3⟩
  · rintro ⟨ks, h1, h2, h3⟩; exact ⟨_, ks, h1, h2, h3, rfl⟩

/-- C19: a built lock exposes exactly the given keys and creation time, and its hash is
`FromMultiBytes` of the keys in order; a rejected list is rejected with an error, never a panic. -/
theorem C19_built_lock (keys : Option (List Hash)) (t : Time) :
    (∀ l, lockNow keys t = .ok l → keys = some l.pubKeys ∧ l.createdOn = t ∧
      l.hash = fromMultiBytes (l.pubKeys.map Hash.bytes)) ∧
    ∀ c, lockNow keys t ≠ .crash c := by
  refine ⟨fun l h => ?_, fun c => lockNow_not_crash⟩
  obtain ⟨ks, h1, -, -, rfl⟩ := lockNow_eq_ok.mp h
  exact ⟨h1, rfl, rfl⟩

/-! ## C73 -/

/-- C73: two locks with the same hash and at least two keys each have the same key list, unless
their key lists are an explicit SHA-512 collision. -/
theorem C73_lock_hash_binds_keys_partial (k₁ k₂ : List Hash) (t₁ t₂ : Time) (l₁ l₂ : Lock)
    (h₁ : lockNow (some k₁) t₁ = .ok l₁) (h₂ : lockNow (some k₂) t₂ = .ok l₂)
    (n₁ : k₁.length ≠ 1) (n₂ : k₂.length ≠ 1) (h : l₁.hash = l₂.hash) :
    k₁ = k₂ ∨ ShaCollision (k₁.map Hash.bytes).flatten (k₂.map Hash.bytes).flatten := by
  obtain ⟨_, e1, -, -, rfl⟩ := lockNow_eq_ok.mp h₁
  obtain ⟨_, e2, -, -, rfl⟩ := lockNow_eq_ok.mp h₂
  cases e1; cases e2
  have l1 := hashesBytes_length k₁
  have l2 := hashesBytes_length k₂
  rcases fromBytes_eq_red (by omega) (by omega) h with h | h
  · exact .inl (hashesBytes_injective h)
  · exact .inr h

/-- C73 (negation of "the lock hash identifies the keys"): for every lock with at least two keys
there is a different, single-key lock with the same hash, whatever the hash function. -/
theorem C73_lock_hash_ambiguous_neg (k : List Hash) (t : Time) (l : Lock)
    (h : lockNow (some k) t = .ok l) (n : 2 ≤ k.length) :
    ∃ k' l', lockNow (some k') t = .ok l' ∧ l'.hash = l.hash ∧ l'.pubKeys ≠ l.pubKeys := by
  obtain ⟨_, e1, -, -, rfl⟩ := lockNow_eq_ok.mp h
  cases e1
  refine ⟨[fromBytes (hashesBytes k)], _, lockNow_eq_ok.mpr ⟨_, rfl, by simp, by simp, rfl⟩, ?_, ?_⟩
  · simp [fromBytes_hash]
  · intro h
    have h : [fromBytes (hashesBytes k)] = k := h
    rw [← h] at n
    simp at n

variable [C : Curve]

/-! ## C20 -/

/-- C20: if `Unlock(sig)` returns nil then the scalars of the signature close a ring over the lock's
hash text and the hashes of the ring's key texts are, as a set, exactly the lock's keys. -/
theorem C20_unlock_sound (l : Lock) (sig : RingSignature) (h : l.unlock sig = .ok ()) :
    RingCloses sig.ring sig.s sig.e l.hash.str ∧
    ∀ k, k ∈ l.pubKeys ↔ k ∈ sig.ring.map fun p => fromBytes (hexEncode (C.enc p)) := by
  obtain ⟨h1, h2⟩ := unlock_eq_ok.mp h
  refine ⟨(C85_verify_iff_ring_closes _ _).mp h2, fun k => ?_⟩
  rw [h1]
  simp [ringKey, ptStr]

/-- C20: the converse: these two conditions are all that is needed. -/
theorem C20_unlock_exact (l : Lock) (sig : RingSignature) : l.unlock sig = .ok () ↔ Opens l sig := by
  refine ⟨C20_unlock_sound l sig, fun ⟨h1, h2⟩ =>
    unlock_eq_ok.mpr ⟨fun k => ?_, (C85_verify_iff_ring_closes _ _).mpr h1⟩⟩
  rw [h2]
  simp [ringKey, ptStr]

/-- C20: in particular an opened (built) lock never has an empty ring behind it, so the signatures
of `C16_empty_ring_verifies_neg` open nothing. -/
theorem C20_unlock_needs_ring (keys : Option (List Hash)) (t : Time) (l : Lock)
    (hb : lockNow keys t = .ok l) (sig : RingSignature) (h : l.unlock sig = .ok ()) :
    sig.ring ≠ [] := by
  obtain ⟨ks, rfl, hne, -, rfl⟩ := lockNow_eq_ok.mp hb
  intro hr
  have := (C20_unlock_sound _ _ h).2
  rw [hr] at this
  obtain ⟨k, hk⟩ := List.exists_mem_of_ne_nil ks hne
  simpa using (this k).mp hk

/-! ## C21 -/

/-- C21: for every duplicate-free ring of points the lock over the hashes of the key texts can be
built, and the private key of any member, if it is at most `largestFactor`, opens it. -/
theorem C21_unlock_complete_partial (ring : List C.Pt) (hd : ring.Nodup) (x : Scalar) (hf : x.Fits)
    (hx : publicKey x ∈ ring) (t : Time) :
    ∃ l sig, lockNow (some (ring.map fun p => fromBytes (ptStr p))) t = .ok l ∧
      ringSign x l.hash.str ring = .ok sig ∧ l.unlock sig = .ok () := by
  have hnd : (ring.map (ringKey (C := C))).Nodup := hd.map ringKey_injective
  have hne : ring.map (ringKey (C := C)) ≠ [] := by
    intro h
    rw [List.map_eq_nil_iff] at h
    rw [h] at hx
    simp at hx
  obtain ⟨sig, h1, h2, -, -, h3⟩ := ringSign_verifies x
    (fromBytes (hashesBytes (ring.map (ringKey (C := C))))).str ring hx
  refine ⟨⟨fromBytes (hashesBytes (ring.map ringKey)), ring.map ringKey, t⟩, sig,
    lockNow_eq_ok.mpr ⟨_, rfl, hne, hnd, rfl⟩, h1, unlock_eq_ok.mpr ⟨fun k => ?_, h3 hf⟩⟩
  rw [h2]
  simp

/-! ## C22 -/

/-- C22 (negation of "the owner of the key can open the lock"): a lock whose keys are made the way
the applications make them is opened by no ring signature at all, whatever its ring, unless the
SHA-512 value of the 32-byte encoding of one of its keys happens to be the text of some ring
point. -/
theorem C22_app_lock_cannot_be_opened_neg (keys : List C.Pt) (hs : List Hash) (t : Time) (l : Lock)
    (hk : mapO appKeyHash keys = .ok hs) (hl : lockNow (some hs) t = .ok l)
    (sig : RingSignature) (h : l.unlock sig = .ok ()) :
    ∀ p ∈ keys, ∃ q ∈ sig.ring, (Sha512.sum (C.enc p)).bytes = ptStr q := by
  intro p hp
  obtain ⟨_, e, hne, -, rfl⟩ := lockNow_eq_ok.mp hl
  cases e
  obtain ⟨k, hk1, hk2⟩ := mapO_mem_left hk p hp
  have hk3 : k = Sha512.sum (C.enc p) := by
    unfold appKeyHash fromString ptStr at hk2
    rw [hexDecode_hexEncode] at hk2
    simp only [Outcome.ok.injEq] at hk2
    rw [← hk2, fromBytes_of_ne (by rw [C.enc_len]; decide)]
  obtain ⟨q, hq, e⟩ := ((unlock_eq_ok.mp h).1 k).mp hk1
  refine ⟨q, hq, ?_⟩
  rw [← hk3, ← e, ringKey_bytes]

/-- C22: the applications' key hashes always exist (no error), so such locks do get built. -/
theorem C22_app_lock_is_built (p : C.Pt) (t : Time) :
    ∃ k l, appKeyHash p = .ok k ∧ k = Sha512.sum (C.enc p) ∧ lockNow (some [k]) t = .ok l := by
  refine ⟨Sha512.sum (C.enc p), _, ?_, rfl, lockNow_eq_ok.mpr ⟨_, rfl, by simp, by simp, rfl⟩⟩
  unfold appKeyHash fromString ptStr
  rw [hexDecode_hexEncode]
  simp only [Outcome.ok.injEq]
  rw [fromBytes_of_ne (by rw [C.enc_len]; decide)]

end

section examples

attribute [local instance] toyCurve toySha

/-- Two different 64-byte hashes. -/
def toyHash (n : UInt8) : Hash := ⟨List.replicate 64 n, by simp⟩

theorem toyHash_ne {a b : UInt8} (h : a ≠ b) : toyHash a ≠ toyHash b := by
  intro e
  have := congrArg Hash.bytes e
  simp only [toyHash, List.replicate_inj] at this
  exact h (by simpa using this)

/-- C19, C73: a lock with two keys. -/
example : ∃ l, lockNow (some [toyHash 1, toyHash 2]) 0 = .ok l ∧ 2 ≤ l.pubKeys.length :=
  ⟨_, lockNow_eq_ok.mpr ⟨_, rfl, by simp, by simp [toyHash_ne], rfl⟩, by simp⟩

/-- C19: repeated keys are rejected. -/
example : ¬ ∃ l, lockNow (some [toyHash 1, toyHash 1]) 0 = .ok l := by
  rw [C19_builder_accepts_iff]; simp

/-- C20, C21: a lock over two points of the toy curve, opened by the key of the second. -/
example : ∃ l sig, lockNow (some ([publicKey (toySc 1), publicKey (toySc 2)].map
      fun p => fromBytes (ptStr p))) 0 = .ok l ∧ l.unlock sig = .ok () := by
  obtain ⟨l, sig, h1, -, h3⟩ := C21_unlock_complete_partial [publicKey (toySc 1),
    publicKey (toySc 2)] (by decide) (toySc 2) (by decide) (by simp) 0
  exact ⟨l, sig, h1, h3⟩

end examples

end Verif
