import Verif.Props.Sha2
import Verif.Props.RsaTexts
import Verif.Spec.Sha2Object

/-!
# C167: hash objects
-/

namespace Verif

namespace Sha2

/-- The object has seen the text `t`. -/
def Seen (H : Sha2) (d : Hasher) (t : Bytes) : Prop :=
  ∃ a, t = a ++ d.x ∧ H.chunk ∣ a.length ∧ d.x.length < H.chunk ∧ d.h = (H.blocks a).foldl H.compress H.start ∧
    d.len = t.length % 2 ^ 64

theorem seen_fresh {H : Sha2} (hc : 0 < H.chunk) : Seen H H.fresh [] :=
  ⟨[], rfl, dvd_zero _, hc, by simp [blocks, fresh], rfl⟩

theorem blocks_one {H : Sha2} (hc : 0 < H.chunk) {b : Bytes} (h : b.length = H.chunk) : H.blocks b = [b] := by
  simp [blocks, h, Nat.div_self hc, List.take_of_length_le]

/-- Whole blocks and a rest, when nothing is waiting. -/
private theorem absorb_ok {H : Sha2} (hc : 0 < H.chunk) {a p : Bytes} (ha : H.chunk ∣ a.length) :
    let r := H.absorb ((H.blocks a).foldl H.compress H.start) [] p
    ∃ a', a ++ p = a' ++ r.2 ∧ H.chunk ∣ a'.length ∧ r.2.length < H.chunk ∧
      r.1 = (H.blocks a').foldl H.compress H.start := by
  intro r
  by_cases h : H.chunk ≤ p.length
  · set n := p.length / H.chunk * H.chunk with hn
    have hle : n ≤ p.length := Nat.div_mul_le_self _ _
    have hlt : p.length < n + H.chunk := by
      have := Nat.lt_div_mul_add (a := p.length) hc
      omega
    have e2 : r.2 = p.drop n := by
      simp only [r, absorb, if_pos h, ← hn]
      split
      · rename_i h; exact h.symm
      · rfl
    have e1 : r.1 = (H.blocks (p.take n)).foldl H.compress ((H.blocks a).foldl H.compress H.start) := by
      simp only [r, absorb, if_pos h, ← hn]
    refine ⟨a ++ p.take n, ?_, ?_, ?_, ?_⟩
    · rw [e2, List.append_assoc, List.take_append_drop]
    · rw [List.length_append, List.length_take, Nat.min_eq_left hle]
      exact dvd_add ha (Dvd.intro_left _ rfl)
    · rw [e2, List.length_drop]; omega
    · rw [e1, blocks_append H hc ha, List.foldl_append]
  · have e : r = ((H.blocks a).foldl H.compress H.start, p) := by
      simp only [r, absorb, if_neg h]
      split
      · rename_i h; rw [h]
      · rfl
    exact ⟨a, by rw [e], ha, by rw [e]; simpa using h, by rw [e]⟩

/-- What was written is added to what the object has seen. -/
theorem seen_write {H : Sha2} (hc : 0 < H.chunk) {d : Hasher} {t : Bytes} (h : Seen H d t) (p : Bytes) :
    Seen H (H.write d p) (t ++ p) := by
  obtain ⟨a, rfl, ha, hx, hh, hl⟩ := h
  have hlen : (d.len + p.length) % 2 ^ 64 = (a ++ d.x ++ p).length % 2 ^ 64 := by
    rw [hl, List.length_append (as := a ++ d.x), Nat.mod_add_mod]
  by_cases h0 : d.x.length = 0
  · have hx0 : d.x = [] := List.length_eq_zero_iff.mp h0
    obtain ⟨a', h1, h2, h3, h4⟩ := absorb_ok (p := p) hc ha
    refine ⟨a', ?_, h2, ?_, ?_, hlen⟩ <;>
      simp only [write, fill, hx0, List.append_nil, hh, List.length_nil, if_true]
    · exact h1
    · exact h3
    · exact h4
  · by_cases hf : H.chunk - d.x.length ≤ p.length
    · set n := H.chunk - d.x.length with hn
      have hfull : (d.x ++ p.take n).length = H.chunk := by
        rw [List.length_append, List.length_take]; omega
      have e : H.fill d p = ((H.blocks (a ++ (d.x ++ p.take n))).foldl H.compress H.start, [], p.drop n) := by
        simp only [fill, if_neg h0, ← hn, Nat.min_eq_left hf, hfull, if_true]
        rw [blocks_append H hc ha, List.foldl_append, blocks_one hc hfull, hh]
        rfl
      obtain ⟨a', h1, h2, h3, h4⟩ := absorb_ok (a := a ++ (d.x ++ p.take n)) (p := p.drop n) hc (by
        rw [List.length_append, hfull]; exact dvd_add ha dvd_rfl)
      refine ⟨a', ?_, h2, ?_, ?_, hlen⟩ <;> simp only [write, e]
      · rw [← h1]
        simp only [List.append_assoc, List.take_append_drop]
      · exact h3
      · exact h4
    · have hl2 : (d.x ++ p).length ≠ H.chunk := by rw [List.length_append]; omega
      have e : H.fill d p = (d.h, d.x ++ p, []) := by
        simp only [fill, if_neg h0, Nat.min_eq_right (by omega : p.length ≤ H.chunk - d.x.length), List.take_length,
          if_neg hl2, List.drop_length]
      have e' : H.absorb d.h (d.x ++ p) [] = (d.h, d.x ++ p) := by
        simp [absorb, hc.ne']
      refine ⟨a, ?_, ha, ?_, ?_, hlen⟩ <;> simp only [write, e, e']
      · rw [List.append_assoc]
      · rw [List.length_append]; omega
      · exact hh

/-- What the object returns is the hash of what it has seen. -/
theorem checkSum_seen {H : Sha2} (hw : H.bytes = 4 ∨ H.bytes = 8) {d : Hasher} {t : Bytes} (h : Seen H d t) :
    H.checkSum d = .ok (H.sum t) := by
  have hc : 0 < H.chunk := by unfold chunk; omega
  have hl : d.len = t.length % 2 ^ 64 := h.choose_spec.2.2.2.2
  have e8 : 8 * d.len % 2 ^ 64 = 8 * t.length % 2 ^ 64 := by rw [hl]; omega
  set z := (if d.len % H.chunk < H.chunk - 2 * H.bytes then H.chunk - 2 * H.bytes - d.len % H.chunk
    else H.chunk + (H.chunk - 2 * H.bytes) - d.len % H.chunk) - 1 with hz
  have ez : z = (H.chunk - (t.length + 1 + 2 * H.bytes) % H.chunk) % H.chunk := by
    rw [hz, hl]
    unfold chunk
    rcases hw with hw | hw <;> rw [hw] <;> norm_num <;> split <;> omega
  have hp : 128 :: List.replicate z 0 ++ leftPad (2 * H.bytes) (beBytes (8 * d.len % 2 ^ 64)) =
      H.padding t.length := by
    rw [ez, e8]
    rfl
  have h2 := seen_write hc (seen_write hc h (128 :: List.replicate z 0))
    (leftPad (2 * H.bytes) (beBytes (8 * d.len % 2 ^ 64)))
  rw [List.append_assoc, hp] at h2
  obtain ⟨a, h3, ha, hx, hh, -⟩ := h2
  have hd := padded_dvd H (by omega) t.length
  rw [← List.length_append, h3, List.length_append] at hd
  have hx0 := Nat.eq_zero_of_dvd_of_lt ((Nat.dvd_add_right ha).mp hd) hx
  unfold checkSum
  simp only [← hz, hx0, if_true]
  rw [hh]
  unfold sum
  rw [h3, List.length_eq_zero_iff.mp hx0, List.append_nil]

private theorem run_seen {H : Sha2} (hw : H.bytes = 4 ∨ H.bytes = 8) : ∀ (l : List Call) (d : Hasher) (t : Bytes),
    Seen H d t → H.run d l = (textsAsked t l).map fun t => .ok (H.sum t)
  | [], _, _, _ => rfl
  | .reset :: l, _, _, _ => run_seen hw l _ _ (seen_fresh (by unfold chunk; omega))
  | .write p :: l, _, _, h => run_seen hw l _ _ (seen_write (by unfold chunk; omega) h p)
  | .sum :: l, d, t, h => by
    unfold run textsAsked
    rw [List.map_cons, checkSum_seen hw h, run_seen hw l d t h]

end Sha2

/-- **C167.** Whatever is called on a hash object, in whatever order, what it returns are the hashes of the texts
written since the last reset, in whatever pieces they were written; it never panics. -/
theorem C167_objects_hash (l : List Sha2.Call) :
    Sha2.sha512.run Sha2.sha512.fresh l = (textsAsked [] l).map (fun t => .ok (Sha2.sha512.sum t)) ∧
    Sha2.sha256.run Sha2.sha256.fresh l = (textsAsked [] l).map (fun t => .ok (Sha2.sha256.sum t)) :=
  ⟨Sha2.run_seen (Or.inr rfl) l _ _ (Sha2.seen_fresh (by decide)),
    Sha2.run_seen (Or.inl rfl) l _ _ (Sha2.seen_fresh (by decide))⟩

section
attribute [local instance] Sha256.fips

/-- The four bytes of a counter. -/
private def counterBytes (i : Nat) : UInt8 × UInt8 × UInt8 × UInt8 :=
  (UInt8.ofNat (i / 2 ^ 24), UInt8.ofNat (i / 2 ^ 16), UInt8.ofNat (i / 2 ^ 8), UInt8.ofNat i)

private theorem incCounter_bytes (i : Nat) : incCounter (counterBytes i) = counterBytes (i + 1) := by
  have h0 : ∀ n : Nat, UInt8.ofNat n + 1 = 0 ↔ n % 256 = 255 := by
    intro n
    rw [← UInt8.toNat_inj]
    simp [UInt8.toNat_add]
    omega
  have h1 : ∀ n : Nat, UInt8.ofNat n + 1 = UInt8.ofNat (n + 1) := by
    intro n
    simp
  have same : ∀ a b : Nat, a % 256 = b % 256 → UInt8.ofNat a = UInt8.ofNat b := by
    intro a b h
    rw [← UInt8.toNat_inj]
    simpa using h
  unfold incCounter counterBytes
  simp only [ne_eq, h0]
  split
  · refine Prod.ext (same _ _ (by omega)) (Prod.ext (same _ _ (by omega)) (Prod.ext (same _ _ (by omega)) (h1 _)))
  · split
    · refine Prod.ext (same _ _ (by omega)) (Prod.ext (same _ _ (by omega)) (Prod.ext ?_ ?_))
      · simp only [h1]; exact same _ _ (by omega)
      · exact same 0 _ (by omega)
    · split
      · refine Prod.ext (same _ _ (by omega)) (Prod.ext ?_ (Prod.ext (same 0 _ (by omega)) (same 0 _ (by omega))))
        simp only [h1]; exact same _ _ (by omega)
      · refine Prod.ext ?_ (Prod.ext (same 0 _ (by omega)) (Prod.ext (same 0 _ (by omega)) (same 0 _ (by omega))))
        simp only [h1]; exact same _ _ (by omega)

private theorem counter4_list (i : Nat) : counter4 i =
    [(counterBytes i).1, (counterBytes i).2.1, (counterBytes i).2.2.1, (counterBytes i).2.2.2] := by
  have same : ∀ a b : Nat, a % 256 = b % 256 → UInt8.ofNat a = UInt8.ofNat b := by
    intro a b h
    rw [← UInt8.toNat_inj]
    simpa using h
  have e : counter4 i = counter4 (i % 2 ^ 32) := by
    unfold counter4
    rw [Nat.mod_mod]
  rw [e, counter4_bytes (Nat.mod_lt _ (by norm_num))]
  unfold counterBytes
  rw [same (i % 2 ^ 32 / 2 ^ 24) (i / 2 ^ 24) (by omega), same (i % 2 ^ 32 / 2 ^ 16) (i / 2 ^ 16) (by omega),
    same (i % 2 ^ 32 / 2 ^ 8) (i / 2 ^ 8) (by omega), same (i % 2 ^ 32) i (by omega)]

private theorem xorBytes_append : ∀ (l s m : Bytes),
    xorBytes l (s ++ m) = xorBytes l s ++ xorBytes (l.drop s.length) m
  | [], _, _ => by simp [xorBytes]
  | _ :: _, [], _ => by simp [xorBytes]
  | x :: l, y :: s, m => by
    have := xorBytes_append l s m
    unfold xorBytes at this ⊢
    simp only [List.cons_append, List.zipWith_cons_cons, List.length_cons, List.drop_succ_cons, this]

private theorem xorBytes_take : ∀ (l m : Bytes), xorBytes l (m.take l.length) = xorBytes l m
  | [], _ => by simp [xorBytes]
  | _ :: _, [] => by simp [xorBytes]
  | x :: l, y :: m => by
    have := xorBytes_take l m
    unfold xorBytes at this ⊢
    simp only [List.length_cons, List.take_succ_cons, List.zipWith_cons_cons, this]

private theorem sum_empty : Sha256.sum [] = Sha2.sha256.sum [] := by
  with_reducible_and_instances rfl

private theorem mgf1Loop_ok (seed : Bytes) : ∀ (n i : Nat) (d : Hasher) (out : Bytes), out.length ≤ n →
    Sha2.sha256.Seen d [] → ∃ d', Sha2.sha256.Seen d' [] ∧ mgf1Loop seed n d (counterBytes i) out =
      .ok (xorBytes out ((List.range' i ((out.length + 31) / 32)).flatMap fun j =>
        Sha2.sha256.sum (seed ++ counter4 j)), d')
  | n, i, d, [], _, hd => ⟨d, hd, by cases n <;> rfl⟩
  | 0, _, _, _ :: _, h, _ => by simp at h
  | n + 1, i, d, x :: out, h, hd => by
    have hc : 0 < Sha2.sha256.chunk := by decide
    have h1 := Sha2.seen_write hc (Sha2.seen_write hc hd seed)
      [(counterBytes i).1, (counterBytes i).2.1, (counterBytes i).2.2.1, (counterBytes i).2.2.2]
    have h2 := Sha2.checkSum_seen (Or.inl rfl) h1
    rw [List.nil_append, ← counter4_list] at h2
    have hs : (Sha2.sha256.sum (seed ++ counter4 i)).length = 32 := Sha2.sum_length _ rfl _
    obtain ⟨d', hd', hr⟩ := mgf1Loop_ok seed n (i + 1) Sha2.sha256.fresh ((x :: out).drop 32)
      (by rw [List.length_drop]; simp at h ⊢; omega) (Sha2.seen_fresh hc)
    refine ⟨d', hd', ?_⟩
    unfold mgf1Loop
    rw [← counter4_list]
    simp only [h2, Outcome.bind_ok, hs, incCounter_bytes, hr]
    have e : ((x :: out).length + 31) / 32 = (((x :: out).drop 32).length + 31) / 32 + 1 := by
      rw [List.length_drop]
      simp only [List.length_cons]
      omega
    rw [e, List.range'_succ, List.flatMap_cons, xorBytes_append, hs]

theorem mgf1Object_eq {d : Hasher} (hd : Sha2.sha256.Seen d []) (out seed : Bytes) :
    ∃ d', Sha2.sha256.Seen d' [] ∧ mgf1Object d out seed = .ok (mgf1Xor out seed, d') := by
  obtain ⟨d', hd', h⟩ := mgf1Loop_ok seed out.length 0 d out le_rfl hd
  refine ⟨d', hd', ?_⟩
  unfold mgf1Object
  have e0 : counterBytes 0 = (0, 0, 0, 0) := by decide
  rw [e0] at h
  rw [h]
  unfold mgf1Xor mgf1
  rw [List.range_eq_range']
  rw [xorBytes_take]
  rfl

/-- **C167.** Encrypting with one hash object for all hashes, in whatever state it is, is the encryption of C101, with
SHA-256. -/
theorem C167_encrypt (d : Hasher) (k : RsaPub) (seed msg : Bytes) :
    rsaEncryptObject d k seed msg = rsaEncrypt k seed msg := by
  have hc : 0 < Sha2.sha256.chunk := by decide
  have hf := Sha2.seen_fresh hc
  have hl := Sha2.checkSum_seen (Or.inl rfl) (Sha2.seen_write hc hf [])
  obtain ⟨d₁, h1, e1⟩ := mgf1Object_eq hf
    (Sha2.sha256.sum [] ++ (List.replicate (k.size - msg.length - 66) 0 ++ 1 :: msg)) seed
  obtain ⟨d₂, h2, e2⟩ := mgf1Object_eq h1 seed
    (mgf1Xor (Sha2.sha256.sum [] ++ (List.replicate (k.size - msg.length - 66) 0 ++ 1 :: msg)) seed)
  unfold rsaEncryptObject rsaEncrypt
  rcases checkPub k with _ | _ | _
  · simp only [Outcome.bind_ok]
    by_cases hm : k.size < msg.length + 66
    · rw [if_pos hm, if_pos hm]
    · rw [if_neg hm, if_neg hm, hl, Outcome.bind_ok, List.nil_append, e1, Outcome.bind_ok, e2, Outcome.bind_ok]
      unfold oaepPad oaepBlock
      rw [sum_empty]
  · simp only [Outcome.bind_err]
  · simp only [Outcome.bind_crash]

/-- **C167.** Decrypting with a new hash object is the decryption of C101, with SHA-256. -/
theorem C167_decrypt (k : RsaKey) (r : Nat) (c : Bytes) :
    rsaDecryptObject Sha2.sha256.fresh k r c = rsaDecrypt k r c := by
  have hc : 0 < Sha2.sha256.chunk := by decide
  have hf := Sha2.seen_fresh hc
  have hl := Sha2.checkSum_seen (Or.inl rfl) (Sha2.seen_write hc hf [])
  unfold rsaDecryptObject rsaDecrypt
  congr 1
  funext _
  congr 1
  funext _
  congr 1
  funext m
  obtain ⟨d₁, h1, e1⟩ := mgf1Object_eq hf (((leftPad k.pub.size (beBytes m)).drop 1).take 32)
    ((leftPad k.pub.size (beBytes m)).drop 33)
  obtain ⟨d₂, h2, e2⟩ := mgf1Object_eq h1 ((leftPad k.pub.size (beBytes m)).drop 33)
    (mgf1Xor (((leftPad k.pub.size (beBytes m)).drop 1).take 32) ((leftPad k.pub.size (beBytes m)).drop 33))
  simp only [hl, Outcome.bind_ok, e1, e2, oaepUnpad, sum_empty, List.nil_append]

end

/-- C167: a text in three pieces, the hash asked for in between, and another text after a reset. -/
example (a b c : Bytes) : Sha2.sha512.run Sha2.sha512.fresh
    [.write a, .sum, .write b, .write c, .sum, .sum, .reset, .write c, .sum] =
      [.ok (Sha2.sha512.sum a), .ok (Sha2.sha512.sum (a ++ b ++ c)), .ok (Sha2.sha512.sum (a ++ b ++ c)),
        .ok (Sha2.sha512.sum c)] :=
  (C167_objects_hash _).1

/-- C167: an encryption with an object that has seen something else. -/
example : rsaEncryptObject (Sha2.sha256.write Sha2.sha256.fresh [1, 2, 3]) toyRsa.pub (List.replicate 32 7) [5] =
    @rsaEncrypt Sha256.fips toyRsa.pub (List.replicate 32 7) [5] :=
  C167_encrypt _ _ _ _

end Verif
