import Verif.Props.Identities
import Verif.Props.Lock
import Verif.Props.Entities

/-!
# Exactly which objects share a hash: C49, C66, C68, C69, C73, C84, C89

The other theorems on these claims show what a hash binds under extra conditions and give objects that
share one. Here the conditions are gone: two objects have the same hash if and only if one of a few listed
relations between their parts holds, or the two hashed texts are an explicit SHA-512 collision.
-/

namespace Verif

section
variable [Sha512]

/-- Two texts that are not 64 bytes long have the same hash only if they are equal, or collide. -/
theorem fromBytes_iff {x y : Bytes} (hx : x.length ≠ 64) (hy : y.length ≠ 64) :
    (fromBytes x = fromBytes y ↔ x = y) ∨ ShaCollision x y := by
  by_cases h : fromBytes x = fromBytes y
  · rcases fromBytes_eq_red hx hy h with e | e
    · exact .inl (iff_of_true h e)
    · exact .inr e
  · exact .inl (iff_of_false h fun e => h (congrArg _ e))

/-- Two texts have the same hash only if they are equal, or one is the hash of the other, or they
collide. -/
theorem fromBytes_iff' (x y : Bytes) :
    (fromBytes x = fromBytes y ↔ x = y ∨ x = (fromBytes y).bytes ∨ y = (fromBytes x).bytes) ∨
      ShaCollision x y := by
  by_cases h : fromBytes x = fromBytes y
  · rcases fromBytes_eq_red' h with e | e | e | e
    · exact .inl (iff_of_true h (.inl e))
    · exact .inr e
    · exact .inl (iff_of_true h (.inr (.inl (by rw [fromBytes_of_ne e.2.1]; exact e.2.2.symm))))
    · exact .inl (iff_of_true h (.inr (.inr (by rw [fromBytes_of_ne e.2.1]; exact e.2.2.symm))))
  · refine .inl (iff_of_false h ?_)
    rintro (e | e | e)
    · exact h (congrArg _ e)
    · exact h (by rw [e, fromBytes_hash])
    · exact h (by rw [e, fromBytes_hash])

omit [Sha512] in
theorem hashesBytes_eq_bytes {l : List Hash} {h : Hash} : hashesBytes l = h.bytes ↔ l = [h] := by
  constructor
  · intro e
    exact hashesBytes_injective (by simpa using e)
  · rintro rfl; simp

/-- Two lists of hashes hashed together. -/
theorem fromHashes_iff (a b : List Hash) :
    (fromBytes (hashesBytes a) = fromBytes (hashesBytes b) ↔
      a = b ∨ a = [fromBytes (hashesBytes b)] ∨ b = [fromBytes (hashesBytes a)]) ∨
      ShaCollision (hashesBytes a) (hashesBytes b) := by
  rcases fromBytes_iff' (hashesBytes a) (hashesBytes b) with h | h
  · refine .inl (h.trans ?_)
    rw [hashesBytes_eq_bytes, hashesBytes_eq_bytes]
    exact or_congr_left ⟨fun e => hashesBytes_injective e, fun e => by rw [e]⟩
  · exact .inr h

/-! ## C73 -/

/-- C73, exactly when two locks have the same hash: when they have the same keys, or when one has a single
key, and that key is the hash of the other lock; unless the two lists of keys are an explicit collision. -/
theorem C73_same_hash_iff {k₁ k₂ : List Hash} {t₁ t₂ : Time} {l₁ l₂ : Lock}
    (h₁ : lockNow (some k₁) t₁ = .ok l₁) (h₂ : lockNow (some k₂) t₂ = .ok l₂) :
    (l₁.hash = l₂.hash ↔ k₁ = k₂ ∨ k₁ = [l₂.hash] ∨ k₂ = [l₁.hash]) ∨
      ShaCollision (k₁.map Hash.bytes).flatten (k₂.map Hash.bytes).flatten := by
  obtain ⟨_, e1, -, -, rfl⟩ := lockNow_eq_ok.mp h₁
  obtain ⟨_, e2, -, -, rfl⟩ := lockNow_eq_ok.mp h₂
  cases e1; cases e2
  exact fromHashes_iff k₁ k₂

variable [C : Curve]

/-! ## C69 -/

/-- C69, exactly when two transactions have the same hash: when the lists of their parts (the hash of the
address if there is one, the bucket if there is one, the hashes of the fees) are the same, or when one has
a single part, and that part is the hash of the other transaction; unless the two texts are an explicit
collision. -/
theorem C69_same_hash_iff {a₁ a₂ : Option Address} {b₁ b₂ : Option Hash} {f₁ f₂ : List Expense}
    {t₁ t₂ : Time} {x₁ x₂ : Transaction} (h₁ : trxNow a₁ b₁ f₁ t₁ = .ok x₁)
    (h₂ : trxNow a₂ b₂ f₂ t₂ = .ok x₂) :
    (x₁.hash = x₂.hash ↔
      x₁.parts = x₂.parts ∨ x₁.parts = [x₂.hash] ∨ x₂.parts = [x₁.hash]) ∨
    ShaCollision (x₁.parts.map Hash.bytes).flatten (x₂.parts.map Hash.bytes).flatten := by
  obtain ⟨-, rfl⟩ := trxNow_eq_ok.mp h₁
  obtain ⟨-, rfl⟩ := trxNow_eq_ok.mp h₂
  exact fromHashes_iff _ _

/-! ## C49 -/

omit C in
private theorem mined_iff (p q : Hash) (m n : Bytes) :
    (fromBytes (p.bytes ++ m) = fromBytes (q.bytes ++ n) ↔ (p = q ∧ m = n) ∨
      (m = [] ∧ p = fromBytes (q.bytes ++ n)) ∨ (n = [] ∧ q = fromBytes (p.bytes ++ m))) ∨
    ShaCollision (p.bytes ++ m) (q.bytes ++ n) := by
  have key : ∀ (p h : Hash) (m : Bytes), p.bytes ++ m = h.bytes ↔ m = [] ∧ p = h := by
    intro p h m
    constructor
    · intro e
      obtain ⟨e1, e2⟩ := hash_append_inj (a := p) (b := h) (x := m) (y := []) (by simpa using e)
      exact ⟨e2, e1⟩
    · rintro ⟨rfl, rfl⟩; simp
  rcases fromBytes_iff' (p.bytes ++ m) (q.bytes ++ n) with h | h
  · refine .inl (h.trans ?_)
    rw [key, key]
    exact or_congr_left ⟨fun e => hash_append_inj e, fun e => by rw [e.1, e.2]⟩
  · exact .inr h

/-- C49, exactly when two mined blocks have the same hash: when block and mining text are the same, or
when one of the mining texts is empty, and the hash of its block is the hash of the other mined block;
unless the two texts are an explicit collision. -/
theorem C49_mined_block_same_hash_iff {b₁ b₂ : Block} {m₁ m₂ : Bytes} {t₁ t₂ : Time}
    {r₁ r₂ : MinedBlock} (h₁ : minedBlockNow (some b₁) m₁ t₁ = .ok r₁)
    (h₂ : minedBlockNow (some b₂) m₂ t₂ = .ok r₂) :
    (r₁.hash = r₂.hash ↔ (b₁.hash = b₂.hash ∧ m₁ = m₂) ∨ (m₁ = [] ∧ b₁.hash = r₂.hash) ∨
      (m₂ = [] ∧ b₂.hash = r₁.hash)) ∨
    ShaCollision (b₁.hash.bytes ++ m₁) (b₂.hash.bytes ++ m₂) := by
  obtain ⟨_, e, rfl⟩ := minedBlockNow_eq_ok.mp h₁
  cases e
  obtain ⟨_, e, rfl⟩ := minedBlockNow_eq_ok.mp h₂
  cases e
  exact mined_iff _ _ _ _

/-- C49, exactly when two mined links have the same hash. -/
theorem C49_mined_link_same_hash_iff {l₁ l₂ : Link} {m₁ m₂ : Bytes} {t₁ t₂ : Time}
    {r₁ r₂ : MinedLink} (h₁ : minedLinkNow (some l₁) m₁ t₁ = .ok r₁)
    (h₂ : minedLinkNow (some l₂) m₂ t₂ = .ok r₂) :
    (r₁.hash = r₂.hash ↔ (l₁.hash = l₂.hash ∧ m₁ = m₂) ∨ (m₁ = [] ∧ l₁.hash = r₂.hash) ∨
      (m₂ = [] ∧ l₂.hash = r₁.hash)) ∨
    ShaCollision (l₁.hash.bytes ++ m₁) (l₂.hash.bytes ++ m₂) := by
  obtain ⟨_, e, rfl⟩ := minedLinkNow_eq_ok.mp h₁
  cases e
  obtain ⟨_, e, rfl⟩ := minedLinkNow_eq_ok.mp h₂
  cases e
  exact mined_iff _ _ _ _

/-! ## C66 -/

omit C in
/-- C66, exactly when two geneses have the same hash, for all increases, finite or not: when they have the
same hash of the bill and the decimal texts of base, increase (twelve decimals) and link, written one after
the other without separation, are the same; unless the two texts are an explicit collision. -/
theorem C66_same_hash_iff {base₁ base₂ : UInt64} {i₁ i₂ : Flt} {link₁ link₂ : UInt64}
    {b₁ b₂ : Option Bill} {t₁ t₂ : Time} {g₁ g₂ : Genesis}
    (h₁ : genesisNow base₁ i₁ link₁ b₁ t₁ = .ok g₁) (h₂ : genesisNow base₂ i₂ link₂ b₂ t₂ = .ok g₂) :
    (g₁.hash = g₂.hash ↔ g₁.bill.hash = g₂.bill.hash ∧
      itoaU base₁ ++ fmtF12 i₁ ++ itoaU link₁ = itoaU base₂ ++ fmtF12 i₂ ++ itoaU link₂) ∨
    ShaCollision (itoaU base₁ ++ fmtF12 i₁ ++ itoaU link₁ ++ g₁.bill.hash.bytes)
      (itoaU base₂ ++ fmtF12 i₂ ++ itoaU link₂ ++ g₂.bill.hash.bytes) := by
  obtain ⟨b, rfl, -, -, -, rfl⟩ := genesisNow_eq_ok.mp h₁
  obtain ⟨b', rfl, -, -, -, rfl⟩ := genesisNow_eq_ok.mp h₂
  have key : ∀ (i : UInt64) (x y : Bytes) (p : Hash),
      (itoaU i ++ x ++ y ++ p.bytes).length ≠ 64 := by
    intro i x y p
    have := itoaU_length i
    have := p.len
    simp only [List.length_append]
    omega
  rcases fromBytes_iff (key base₁ (fmtF12 i₁) (itoaU link₁) b.hash)
    (key base₂ (fmtF12 i₂) (itoaU link₂) b'.hash) with h | h
  · left
    simp only [← List.append_assoc]
    rw [h]
    exact ⟨fun e => (append_hash_inj e).symm, fun e => by rw [e.1, e.2]⟩
  · exact .inr h

/-! ## C68 -/

/-- C68, exactly when two entries have the same hash: when their names followed by the hashes of their
transactions, without separation, are the same; unless these texts are an explicit collision. -/
theorem C68_entry_same_hash_iff {e e' : Entry} (h : e.Built) (h' : e'.Built) :
    (e.hash = e'.hash ↔ e.hashedText = e'.hashedText) ∨ ShaCollision e.hashedText e'.hashedText := by
  obtain ⟨_, _, _, _, h⟩ := h
  obtain ⟨_, _, _, _, h'⟩ := h'
  obtain ⟨hn, l, -, hl, rfl⟩ := entryNow_eq_ok.mp h
  obtain ⟨hn', l', -, hl', rfl⟩ := entryNow_eq_ok.mp h'
  have ht : ∀ e : Entry, e.hashedText = e.name ++ hashesBytes (e.trx.map Transaction.hash) := by
    intro e; simp [Entry.hashedText, hashesBytes, Function.comp_def]
  rw [ht, ht]
  have key : ∀ {n : Bytes} {l : List Transaction}, n ≠ [] → l ≠ [] →
      (n ++ hashesBytes (l.map Transaction.hash)).length ≠ 64 := by
    intro n l hn hl
    have := List.length_pos_iff.mpr hn
    have := List.length_pos_iff.mpr hl
    rw [List.length_append, hashesBytes_length, List.length_map]
    omega
  exact fromBytes_iff (key hn hl) (key hn' hl')

/-- C68, exactly when two statements have the same hash: when they have the same hashes of entries, incoming
before outgoing, in the same order, or when one has a sole entry, and the hash of that entry is the hash of
the other statement; unless these texts are an explicit collision. -/
theorem C68_statement_same_hash_iff {s s' : Statement} (hs : s.Built) (hs' : s'.Built) :
    (s.hash = s'.hash ↔
      (s.incoming ++ s.outgoing).map Entry.hash = (s'.incoming ++ s'.outgoing).map Entry.hash ∨
      (s.incoming ++ s.outgoing).map Entry.hash = [s'.hash] ∨
      (s'.incoming ++ s'.outgoing).map Entry.hash = [s.hash]) ∨
    ShaCollision s.hashedText s'.hashedText := by
  obtain ⟨⟨_, _, _, hs⟩, -⟩ := hs
  obtain ⟨⟨_, _, _, hs'⟩, -⟩ := hs'
  rw [statementNow_eq] at hs hs'
  obtain rfl := Outcome.ok.inj hs
  obtain rfl := Outcome.ok.inj hs'
  have ht : ∀ s : Statement, s.hashedText =
      hashesBytes ((s.incoming ++ s.outgoing).map Entry.hash) := by
    intro s; simp [Statement.hashedText, hashesBytes, Function.comp_def]
  rw [ht, ht]
  simp only [← List.map_append]
  exact fromHashes_iff _ _

/-! ## C84 -/

omit C in
/-- C84, exactly when two files have the same hash: when the one with fewer chunks has, as its path, the
path of the other followed by the hashes of the other's first chunks, and the hashes of the remaining
chunks are the same; unless the two texts are an explicit collision. -/
theorem C84_file_same_hash_iff {p p' : Bytes} {cs cs' : Option (List Chunk)} {t t' : Time}
    {f f' : BFile} (hf : bfileNow p cs t = .ok f) (hf' : bfileNow p' cs' t' = .ok f')
    (hle : f.chunks.length ≤ f'.chunks.length) :
    (f.hash = f'.hash ↔ ∃ first rest, f'.chunks = first ++ rest ∧
      f.relativePath = f'.relativePath ++ (first.map fun c => c.hash.bytes).flatten ∧
      f.chunks.map Chunk.hash = rest.map Chunk.hash) ∨
    ShaCollision (f.relativePath ++ (f.chunks.map fun c => c.hash.bytes).flatten)
      (f'.relativePath ++ (f'.chunks.map fun c => c.hash.bytes).flatten) := by
  obtain ⟨hp, l, rfl, hl, rfl⟩ := bfileNow_eq_ok.mp hf
  obtain ⟨hp', l', rfl, hl', rfl⟩ := bfileNow_eq_ok.mp hf'
  have e1 : ∀ l : List Chunk, (l.map fun c => c.hash.bytes).flatten =
      hashesBytes (l.map Chunk.hash) := by
    intro l; simp [hashesBytes, Function.comp_def]
  simp only [e1] at hle ⊢
  have b1 := List.length_pos_iff.mpr hp
  have b2 := List.length_pos_iff.mpr hp'
  have b3 := List.length_pos_iff.mpr hl
  have b4 := List.length_pos_iff.mpr hl'
  rcases fromBytes_iff (x := p ++ hashesBytes (l.map Chunk.hash))
    (y := p' ++ hashesBytes (l'.map Chunk.hash))
    (by rw [List.length_append, hashesBytes_length, List.length_map]; omega)
    (by rw [List.length_append, hashesBytes_length, List.length_map]; omega) with h | h
  · left
    rw [h]
    constructor
    · intro e
      refine ⟨l'.take (l'.length - l.length), l'.drop (l'.length - l.length),
        (List.take_append_drop _ _).symm, ?_⟩
      conv at e => rhs; rw [← List.take_append_drop (l'.length - l.length) l']
      rw [List.map_append, hashesBytes_append, ← List.append_assoc] at e
      obtain ⟨x, y⟩ := List.append_inj' e (by
        simp only [hashesBytes_length, List.length_map, List.length_drop]; omega)
      exact ⟨x, hashesBytes_injective y⟩
    · rintro ⟨first, rest, rfl, rfl, e⟩
      rw [e]; simp
  · exact .inr h

omit C in
/-- C84, exactly when two buckets have the same hash: when they have the same hashes of files in the same
order, or when one has a single file, and the hash of that file is the hash of the other bucket; unless
the two texts are an explicit collision. -/
theorem C84_bucket_same_hash_iff {fs fs' : Option (List BFile)} {t t' : Time} {b b' : Bucket}
    (hb : bucketNow fs t = .ok b) (hb' : bucketNow fs' t' = .ok b') :
    (b.hash = b'.hash ↔ b.files.map BFile.hash = b'.files.map BFile.hash ∨
      b.files.map BFile.hash = [b'.hash] ∨ b'.files.map BFile.hash = [b.hash]) ∨
    ShaCollision (b.files.map fun f => f.hash.bytes).flatten
      (b'.files.map fun f => f.hash.bytes).flatten := by
  obtain ⟨l, rfl, hl, rfl⟩ := bucketNow_eq_ok.mp hb
  obtain ⟨l', rfl, hl', rfl⟩ := bucketNow_eq_ok.mp hb'
  have e1 : ∀ l : List BFile, (l.map fun c => c.hash.bytes).flatten =
      hashesBytes (l.map BFile.hash) := by
    intro l; simp [hashesBytes, Function.comp_def]
  simp only [e1]
  exact fromHashes_iff _ _

/-! ## C89 -/

omit C in
/-- C89, exactly when two buckets of identities have the same hash: when their paths are the same, or one
path consists of the 64 bytes of the other's hash; unless the paths are an explicit collision. What the
buckets contain and the keys play no part. -/
theorem C89_same_hash_iff {x y : IdBucket} (hx : x.Built) (hy : y.Built) :
    (x.hash = y.hash ↔ x.absolutePath = y.absolutePath ∨ x.absolutePath = y.hash.bytes ∨
      y.absolutePath = x.hash.bytes) ∨ ShaCollision x.absolutePath y.absolutePath := by
  obtain ⟨_, _, _, _, _, _, hx⟩ := hx
  obtain ⟨_, _, _, _, _, _, hy⟩ := hy
  obtain ⟨-, -, _, _, -, -, rfl⟩ := idBucketNow_eq_ok.mp hx
  obtain ⟨-, -, _, _, -, -, rfl⟩ := idBucketNow_eq_ok.mp hy
  exact fromBytes_iff' _ _

end

section examples
attribute [local instance] toySha toyCurve

/-- All three ways in which locks share a hash or do not. -/
example : ∃ l₁ l₂ l₃, lockNow (some [fromBytes [1], fromBytes [2]]) 5 = .ok l₁ ∧
    lockNow (some [l₁.hash]) 6 = .ok l₂ ∧ lockNow (some [fromBytes [3]]) 6 = .ok l₃ ∧
    l₁.hash = l₂.hash ∧ l₁.hash ≠ l₃.hash := by
  obtain ⟨l₁, h₁⟩ : ∃ l, lockNow (some [fromBytes [1], fromBytes [2]]) 5 = .ok l :=
    ⟨_, lockNow_eq_ok.mpr ⟨_, rfl, by simp, by decide, rfl⟩⟩
  obtain ⟨l₂, h₂⟩ : ∃ l, lockNow (some [l₁.hash]) 6 = .ok l :=
    ⟨_, lockNow_eq_ok.mpr ⟨_, rfl, by simp, by simp, rfl⟩⟩
  obtain ⟨l₃, h₃⟩ : ∃ l, lockNow (some [fromBytes [3]]) 6 = .ok l :=
    ⟨_, lockNow_eq_ok.mpr ⟨_, rfl, by simp, by simp, rfl⟩⟩
  refine ⟨l₁, l₂, l₃, h₁, h₂, h₃, ?_, ?_⟩
  · obtain ⟨_, e2, -, -, rfl⟩ := lockNow_eq_ok.mp h₂
    cases e2
    simp
  · obtain ⟨_, e1, -, -, rfl⟩ := lockNow_eq_ok.mp h₁
    obtain ⟨_, e3, -, -, rfl⟩ := lockNow_eq_ok.mp h₃
    cases e1; cases e3
    intro h
    have := congrArg Hash.bytes h
    revert this
    decide +kernel

/-- A file whose path ends with the hash of a chunk, and the file with that chunk. -/
example (c d : Chunk) : ∃ f f', bfileNow ([47] ++ c.hash.bytes) (some [d]) 3 = .ok f ∧
    bfileNow [47] (some [c, d]) 4 = .ok f' ∧ f.chunks.length ≤ f'.chunks.length ∧ f.hash = f'.hash := by
  refine ⟨_, _, bfileNow_eq_ok.mpr ⟨by simp, _, rfl, by simp, rfl⟩,
    bfileNow_eq_ok.mpr ⟨by simp, _, rfl, by simp, rfl⟩, by simp, by simp⟩

/-- Mined blocks: an empty mining text leaves the hash of the block, which can be the hash of another mined
block. -/
example (b : Block) (m : Bytes) : ∃ r r', minedBlockNow (some b) m 3 = .ok r ∧
    minedBlockNow (some { b with hash := r.hash }) [] 4 = .ok r' ∧ r.hash = r'.hash := by
  refine ⟨_, _, minedBlockNow_eq_ok.mpr ⟨b, rfl, rfl⟩, minedBlockNow_eq_ok.mpr ⟨_, rfl, rfl⟩, ?_⟩
  simp

/-- Transactions: the sole part of one, a bucket, is the hash of the other. -/
example (e : Expense) : ∃ x y, trxNow none (some (fromBytes [1])) [e] 5 = .ok x ∧
    trxNow none (some x.hash) [] 6 = .ok y ∧ x.parts ≠ y.parts ∧ y.parts = [x.hash] := by
  refine ⟨_, _, trxNow_eq_ok.mpr ⟨by simp, rfl⟩, trxNow_eq_ok.mpr ⟨by simp, rfl⟩, ?_, ?_⟩
  · intro h
    have := congrArg List.length h
    simp [Transaction.parts] at this
  · simp [Transaction.parts]

end examples

end Verif
