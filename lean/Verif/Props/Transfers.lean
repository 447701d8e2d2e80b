import Verif.Props.Buckets
import Verif.Props.Store
import Verif.Props.Identities

/-!
# Transfer objects and stored paths: C109, C110
-/

namespace Verif

section
variable [Sha512]

/-! ## C109: what is handed over to the transfer packages -/

omit [Sha512] in
/-- C109: the builder of transferred states accepts exactly positive heights and amounts, given a
chain, and keeps every field. -/
theorem C109_state_accepted_iff {hash prev : Hash} {chain : Option Hash} {height amount : UInt64}
    {trx : HashTree} {t : Time} {s : TrState} :
    trStateNow hash chain prev height trx amount t = .ok s ↔
      0 < height.toNat ∧ 0 < amount.toNat ∧ chain = some s.chain ∧ s.hash = hash ∧ s.prev = prev ∧
        s.height = height ∧ s.trx = trx ∧ s.amount = amount ∧ s.createdOn = t := by
  unfold trStateNow
  have e : ∀ x : UInt64, x ≤ 0 ↔ ¬ 0 < x.toNat := fun x => by
    rw [UInt64.le_iff_toNat_le]; simp
  simp only [e]
  obtain ⟨a, b, c, d, f, g, i⟩ := s
  by_cases h1 : 0 < height.toNat
  · by_cases h2 : 0 < amount.toNat
    · cases chain with
      | none => simp [h1, h2]
      | some c =>
        simp only [h1, h2, not_true, if_false, Outcome.ok.injEq, TrState.mk.injEq, true_and,
          Option.some.injEq]
        tauto
    · simp [h1, h2]
  · simp [h1]

/-- C109: a transferred state comes back from its JSON form. -/
theorem C109_state_survives {hash prev : Hash} {chain : Option Hash} {height amount : UInt64}
    {blocks : List Bytes} {trx : HashTree} {t : Time} {s : TrState}
    (ht : hashTreeFromBlocks blocks = .ok trx)
    (h : trStateNow hash chain prev height trx amount t = .ok s) :
    trStateFromJSON s.toJSON = .ok s := by
  obtain ⟨h1, h2, h3, rfl, rfl, rfl, rfl, rfl, rfl⟩ := C109_state_accepted_iff.mp h
  obtain ⟨c, hc1, rfl, -, -, hc2⟩ := C09_compact_round_trip ht
  subst h3
  simp only [trStateFromJSON, TrState.toJSON, fromString_str, Outcome.bind_ok, Outcome.deref_some, hc1,
    hc2, h]

/-- C109: the transferred form of a bucket has its hash and time, the number of its files, and a hash
tree whose first leaves are the hashes of its files, in order. -/
theorem C109_bucket_transfer {b : Bucket} (hb : b.Built) (hlen : b.files.length < 2 ^ 63) :
    ∃ tree amount, b.toTransfer = .ok ⟨some ⟨b.hash, b.createdOn⟩, some tree, amount⟩ ∧
      amount.toNat = b.files.length ∧
      tree.leafHashes.take amount.toNat = b.files.map BFile.hash := by
  obtain ⟨⟨l, t, hb⟩, -⟩ := hb
  obtain ⟨l, -, hl, rfl⟩ := bucketNow_eq_ok.mp hb
  simp only at hlen
  obtain ⟨ht, k, m, h1, -, h2, h3, -, -, h6, -⟩ :=
    C05_tree_shape (l.map fun c => c.hash.bytes) (by simpa using hl) none
  rw [List.length_map] at h3
  have hn : (UInt64.ofNat l.length).toNat = l.length := by
    rw [UInt64.toNat_ofNat']
    exact Nat.mod_eq_of_lt (by norm_num at hlen ⊢; omega)
  have c1 : ¬ UInt64.ofNat l.length ≤ 0 := by
    rw [UInt64.le_iff_toNat_le, hn]; simp; exact hl
  have c2 : ¬ (ht.length : Int) < toInt (UInt64.ofNat l.length) := by
    rw [toInt_of_lt (by rw [hn]; exact hlen), hn]
    omega
  refine ⟨ht, UInt64.ofNat l.length, ?_, hn, ?_⟩
  · unfold Bucket.toTransfer trBucketNow
    simp only [h1, Outcome.bind_ok, if_neg c1, if_neg c2]
  · rw [hn, h6, List.take_append_of_le_length (by simp), List.take_of_length_le (by simp)]
    simp [Function.comp_def, fromBytes_hash]

/-- C109: the transferred form of a chunk has its hash, time, size and the hash of its data. -/
theorem C109_chunk_transfer {c : Chunk} (h : c.Built) :
    c.toTransfer = .ok ⟨some ⟨c.hash, c.createdOn⟩, c.sizeInBytes, c.data⟩ := h.toTransfer

omit [Sha512] in
/-- C109: the builder of transferred buckets accepts exactly amounts between one and the number of
leaves; amounts of 2^63 and more count as negative and pass. -/
theorem C109_bucket_accepted_iff {hash : Hash} {files : HashTree} {amount : UInt64} {t : Time}
    {b : TrBucket} :
    trBucketNow hash files amount t = .ok b ↔
      0 < amount.toNat ∧ (amount.toNat ≤ files.length ∨ 2 ^ 63 ≤ amount.toNat) ∧
        b = ⟨some ⟨hash, t⟩, some files, amount⟩ := by
  unfold trBucketNow
  have e : amount ≤ 0 ↔ ¬ 0 < amount.toNat := by rw [UInt64.le_iff_toNat_le]; simp
  have e2 : (files.length : Int) < toInt amount ↔
      ¬ (amount.toNat ≤ files.length ∨ 2 ^ 63 ≤ amount.toNat) := by
    have := amount.toNat_lt
    rcases Nat.lt_or_ge amount.toNat (2 ^ 63) with h | h
    · rw [toInt_of_lt h]; omega
    · have := toInt_of_ge h; omega
  rw [if_congr e rfl rfl, if_congr e2 rfl rfl]
  by_cases h1 : 0 < amount.toNat
  · by_cases h2 : amount.toNat ≤ files.length ∨ 2 ^ 63 ≤ amount.toNat
    · rw [if_neg (not_not.mpr h1), if_neg (not_not.mpr h2), Outcome.ok.injEq]
      exact ⟨fun h => ⟨h1, h2, h.symm⟩, fun h => h.2.2.symm⟩
    · rw [if_neg (not_not.mpr h1), if_pos h2]
      exact ⟨nofun, fun h => absurd h.2.1 h2⟩
  · rw [if_pos h1]
    exact ⟨nofun, fun h => absurd h.1 h1⟩

end

/-! ## C110: paths of identity buckets -/

/-- A path without empty elements, `.`, `..` and separators. -/
def CleanPath (p : Path) : Prop := ∀ e ∈ p, e ≠ [] ∧ e ≠ [46] ∧ e ≠ [46, 46] ∧ 47 ∉ e

theorem walk_clean {p : Path} {e : Bytes} (hp : CleanPath p) (he : 47 ∉ e) :
    CleanPath (walk p e) := by
  unfold walk
  split
  · exact hp
  · split
    · exact fun x hx => hp x (List.dropLast_subset _ hx)
    · intro x hx
      rcases List.mem_append.mp hx with h | h
      · exact hp x h
      · simp at h; subst h; tauto

theorem foldl_walk_clean : ∀ {l : List Bytes} {p : Path}, CleanPath p → (∀ e ∈ l, 47 ∉ e) →
    CleanPath (l.foldl walk p)
  | [], _, hp, _ => hp
  | e :: l, p, hp, hl => by
    rw [List.foldl_cons]
    exact foldl_walk_clean (walk_clean hp (hl e (by simp))) fun x hx => hl x (by simp [hx])

theorem absolute_clean {cwd : Path} (h : CleanPath cwd) (text : Bytes) :
    CleanPath (absolute cwd text) := by
  unfold absolute
  refine foldl_walk_clean ?_ (splitOn_parts_clean 47 text)
  split
  · intro e he; simp at he
  · exact h

theorem foldl_walk_append : ∀ {l : List Bytes} (p : Path), CleanPath l → l.foldl walk p = p ++ l
  | [], p, _ => by simp
  | e :: l, p, h => by
    have h1 := h e (by simp)
    have : walk p e = p ++ [e] := by simp [walk, h1.1, h1.2.1, h1.2.2.1]
    rw [List.foldl_cons, this, foldl_walk_append _ fun x hx => h x (by simp [hx])]
    simp

theorem splitOn_slashes : ∀ {p : Path}, CleanPath p → p ≠ [] →
    splitOn 47 (p.map fun e => 47 :: e).flatten = [] :: p
  | [], _, h => absurd rfl h
  | [e], h, _ => by
    have h1 := (h e (by simp)).2.2.2
    have := splitOn_append (p := []) (sep := 47) e (by simp)
    simp only [List.nil_append] at this
    simp [this, splitOn_of_not_mem h1]
  | e :: f :: p, h, _ => by
    have h1 := (h e (by simp)).2.2.2
    have ih := splitOn_slashes (p := f :: p) (fun x hx => h x (by simp [hx])) (by simp)
    have h2 := splitOn_append (p := []) (sep := 47) (e ++ ((f :: p).map fun e => 47 :: e).flatten) (by simp)
    simp only [List.nil_append] at h2
    rw [List.map_cons, List.flatten_cons, List.cons_append, h2]
    have h3 : ((f :: p).map fun e => 47 :: e).flatten = 47 :: (f ++ (p.map fun e => 47 :: e).flatten) := by
      simp
    rw [h3] at ih ⊢
    rw [splitOn_append _ h1]
    have h4 := splitOn_append (p := []) (sep := 47) (f ++ (p.map fun e => 47 :: e).flatten) (by simp)
    simp only [List.nil_append] at h4
    rw [h4] at ih
    simp only [List.cons.injEq, true_and] at ih
    rw [ih]

/-- Reading the text of a clean path gives the path, in every working directory. -/
theorem absolute_pathText {p : Path} (h : CleanPath p) (cwd : Path) : absolute cwd (pathText p) = p := by
  unfold pathText absolute
  by_cases hp : p = []
  · subst hp
    have := splitOn_append (p := []) (sep := 47) ([] : Bytes) (by simp)
    simp only [List.nil_append] at this
    simp [this, walk, splitOn]
  · have hh : ((p.map fun e => 47 :: e).flatten).head? = some 47 := by
      cases p with
      | nil => exact absurd rfl hp
      | cons e p => simp
    rw [if_neg hp, if_pos hh, splitOn_slashes h hp, List.foldl_cons, foldl_walk_append _ h]
    simp [walk]

section
variable [Sha512]

/-- C110: the path kept with a bucket of an identity denotes, read in any working directory, the
location that the given path denoted when the bucket was built; it starts with a slash, and something
existed there. -/
theorem C110_path_absolute {cwd : Path} {d : Disk} {b : Option Bucket} {p : Bytes} {k : Option Bytes}
    {t : Time} {x : IdBucket} (hcwd : CleanPath cwd) (h : idBucketNow cwd d b p k t = .ok x) :
    x.absolutePath.head? = some 47 ∧ d.missing (absolute cwd p) = false ∧
      ∀ cwd', absolute cwd' x.absolutePath = absolute cwd p := by
  obtain ⟨-, hm, _, _, -, -, rfl⟩ := idBucketNow_eq_ok.mp h
  refine ⟨?_, hm, absolute_pathText (absolute_clean hcwd p)⟩
  simp only [pathText]
  split
  · rfl
  · rename_i hp
    cases hq : absolute cwd p with
    | nil => exact absurd hq hp
    | cons e q => simp

/-- C110: building again from the kept path, in any working directory, gives the same path and the same
hash. -/
theorem C110_rebuild {cwd cwd' : Path} {d : Disk} {b b' : Option Bucket} {p : Bytes}
    {k k' : Option Bytes} {t t' : Time} {x y : IdBucket} (hcwd : CleanPath cwd)
    (h : idBucketNow cwd d b p k t = .ok x) (h' : idBucketNow cwd' d b' x.absolutePath k' t' = .ok y) :
    y.absolutePath = x.absolutePath ∧ y.hash = x.hash := by
  have e := (C110_path_absolute hcwd h).2.2 cwd'
  obtain ⟨-, -, _, _, -, -, rfl⟩ := idBucketNow_eq_ok.mp h
  obtain ⟨-, -, _, _, -, -, rfl⟩ := idBucketNow_eq_ok.mp h'
  simp only at e ⊢
  rw [e]
  exact ⟨rfl, rfl⟩

end

section examples

attribute [local instance] toySha

/-- C109: a state with a tree of three transactions. -/
example : ∃ trx s, hashTreeFromBlocks [[1], [2], [3]] = .ok trx ∧
    trStateNow zeroHash (some zeroHash) zeroHash 4 trx 3 0 = .ok s := ⟨_, _, rfl, rfl⟩

/-- C109: a bucket of two files. -/
example : ∃ b, Bucket.Built b ∧ b.files.length = 2 := by
  obtain ⟨c, hc⟩ : ∃ c, chunkNow 2 (some zeroHash) 0 = .ok c := ⟨_, rfl⟩
  obtain ⟨f, hf⟩ : ∃ f, bfileNow [97] (some [c]) 0 = .ok f := ⟨_, rfl⟩
  obtain ⟨b, hb⟩ : ∃ b, bucketNow (some [f, f]) 0 = .ok b := ⟨_, rfl⟩
  obtain ⟨-, l, e, -, hf'⟩ := bfileNow_eq_ok.mp hf
  obtain ⟨l', e', -, hb'⟩ := bucketNow_eq_ok.mp hb
  cases e; cases e'
  have h1 : f.chunks = [c] := by rw [hf']
  have h2 : b.files = [f, f] := by rw [hb']
  refine ⟨b, ⟨⟨_, _, hb⟩, fun f' hm => ?_⟩, by rw [h2]; rfl⟩
  rw [h2] at hm; simp at hm; subst hm
  exact ⟨⟨_, _, _, hf⟩, fun c' hc' => by rw [h1] at hc'; simp at hc'; subst hc'; exact ⟨_, _, _, hc⟩⟩

/-- C110: `../x/./y` in `/a` is `/x/y`. -/
example (b : Bucket) : CleanPath [[97]] ∧
    idBucketNow [[97]] [([[120], [121]], .dir)] (some b) (ascii "../x/./y") (some [1]) 0 =
      .ok ⟨fromBytes (ascii "/x/y"), b, ascii "/x/y", [1], 0⟩ := by
  refine ⟨by intro e he; simp at he; subst he; simp, ?_⟩
  have : absolute [[97]] (ascii "../x/./y") = [[120], [121]] := by decide
  have h2 : pathText [[120], [121]] = ascii "/x/y" := by decide
  have h3 : (ascii "../x/./y").isEmpty = false := by decide
  simp [idBucketNow, this, h2, Outcome.require, h3, Disk.missing, Disk.at?, Outcome.guardNot]

end examples

end Verif
