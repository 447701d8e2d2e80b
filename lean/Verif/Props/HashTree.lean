import Verif.Model.HashTreeLemmas
import Verif.Props.Hash

/-!
# Properties of `libs/hashtree` (C05 - C11, C70)
-/

namespace Verif

variable [Sha512]

/-! ## C05 -/

/-- C05: building a tree from any non-empty block list succeeds; its length is the least power of
two that is at least two and at least the number of blocks; its height is the exponent plus one;
its leaves are the block hashes in order, then only hashes of the empty string; its head is the
Merkle root of these leaves. -/
theorem C05_tree_shape (blocks : List Bytes) (h : blocks ≠ []) (js : Option JHashTree) :
    ∃ t k m, hashTreeBuilderNow (some blocks) js = .ok t ∧
      1 ≤ k ∧ t.length = 2 ^ k ∧ blocks.length ≤ 2 ^ k ∧
      (∀ j, 1 ≤ j → blocks.length ≤ 2 ^ j → k ≤ j) ∧
      t.height = k + 1 ∧
      t.leafHashes = blocks.map fromBytes ++ List.replicate m (fromBytes []) ∧
      IsMerkle k t.leafHashes t.head t.preimages := by
  obtain ⟨k, m, t, a, b, h1, rfl, ha, hb, hl, hlen, hmin, -⟩ := hashTreeFromBlocks_spec blocks h
  refine ⟨_, k + 1, m, h1, by omega, ?_, by omega, ?_, ?_, ?_, ?_⟩
  · rw [HashTree.length, hl]; simpa using hlen
  · intro j hj hbj
    rcases hmin with rfl | hmin
    · omega
    · have : (2 : Nat) ^ k < 2 ^ j := by omega
      have := (Nat.pow_lt_pow_iff_right (a := 2) (by norm_num)).mp this
      omega
  · simp [HashTree.height, parentHashTree, ha.height]
  · rw [HashTree.leafHashes, hl, List.map_map]
    have : (Leaf.head ∘ Leaf.atom) = id := rfl
    rw [this, List.map_id]
  · have := IsMerkle.node ha.merkle hb.merkle
    simpa [HashTree.leafHashes, HashTree.blockLeaves, HashTree.preimages, parentHashTree] using this

/-- Three blocks are padded to four leaves. -/
example : letI := toySha; ∃ t, hashTreeBuilderNow (some [[1], [2], [3]]) none = .ok t ∧
    t.length = 4 ∧ t.height = 3 := ⟨_, rfl, rfl, rfl⟩

/-! ## C06 -/

/-- C06 (negation): building a tree from an empty, non-nil block list panics with an index out of
range, for every hash function, instead of returning an error. -/
theorem C06_empty_panics_neg (js : Option JHashTree) :
    hashTreeBuilderNow (some []) js = .crash .indexOutOfRange :=
  hashTreeFromBlocks_nil

/-- C06: what does hold: without blocks and without JSON the builder returns an error, and the empty
list is the only block list for which building a tree does not succeed. -/
theorem C06_fails_only_on_empty_partial :
    (∃ m, hashTreeBuilderNow none none = .err m) ∧
    ∀ blocks js, (∃ t, hashTreeBuilderNow (some blocks) js = .ok t) ↔ blocks ≠ [] := by
  refine ⟨⟨_, rfl⟩, fun blocks js => ⟨?_, ?_⟩⟩
  · rintro ⟨t, ht⟩ rfl
    rw [C06_empty_panics_neg] at ht
    cases ht
  · intro h
    obtain ⟨t, _, _, ht, _⟩ := C05_tree_shape blocks h js
    exact ⟨t, ht⟩

/-! ## C07 -/

/-- C07: two trees built from blocks that have the same number of leaves and the same head have
the same leaf hashes, or two inner nodes of the two trees form an explicit SHA-512 collision. -/
theorem C07_merkle_binding {b₁ b₂ : List Bytes} {t₁ t₂ : HashTree}
    (h₁ : hashTreeFromBlocks b₁ = .ok t₁) (h₂ : hashTreeFromBlocks b₂ = .ok t₂)
    (hl : t₁.length = t₂.length) (hh : t₁.head = t₂.head) :
    t₁.leafHashes = t₂.leafHashes ∨ ∃ x ∈ t₁.preimages, ∃ y ∈ t₂.preimages, ShaCollision x y := by
  obtain ⟨t, k₁, _, e₁, _, l₁, _, _, _, _, m₁⟩ := C05_tree_shape b₁ (hashTreeFromBlocks_ne_nil h₁) none
  obtain ⟨t', k₂, _, e₂, _, l₂, _, _, _, _, m₂⟩ := C05_tree_shape b₂ (hashTreeFromBlocks_ne_nil h₂) none
  obtain rfl : t₁ = t := by
    have := h₁.symm.trans e₁; exact Outcome.ok.inj this
  obtain rfl : t₂ = t' := by
    have := h₂.symm.trans e₂; exact Outcome.ok.inj this
  obtain rfl : k₁ = k₂ := by
    rw [l₁, l₂] at hl
    exact Nat.pow_right_injective (le_refl 2) hl
  exact m₁.binding m₂ hh

/-- C07 for the data: trees over equally many blocks with equal heads are over equal blocks, or
there is an explicit SHA-512 collision between inner nodes or between two blocks, or a 64-byte
block is the SHA-512 value of a block. -/
theorem C07_data_binding {b₁ b₂ : List Bytes} {t₁ t₂ : HashTree}
    (h₁ : hashTreeFromBlocks b₁ = .ok t₁) (h₂ : hashTreeFromBlocks b₂ = .ok t₂)
    (hl : b₁.length = b₂.length) (hh : t₁.head = t₂.head) :
    b₁ = b₂ ∨ (∃ x ∈ t₁.preimages, ∃ y ∈ t₂.preimages, ShaCollision x y) ∨
      ∃ x ∈ b₁, ∃ y ∈ b₂, ShaCollision x y ∨ ShaPassThrough x y ∨ ShaPassThrough y x := by
  obtain ⟨t, k₁, q₁, e₁, j₁, l₁, c₁, n₁, _, f₁, m₁⟩ := C05_tree_shape b₁ (hashTreeFromBlocks_ne_nil h₁) none
  obtain ⟨t', k₂, q₂, e₂, j₂, l₂, c₂, n₂, _, f₂, m₂⟩ := C05_tree_shape b₂ (hashTreeFromBlocks_ne_nil h₂) none
  obtain rfl : t₁ = t := by
    have := h₁.symm.trans e₁; exact Outcome.ok.inj this
  obtain rfl : t₂ = t' := by
    have := h₂.symm.trans e₂; exact Outcome.ok.inj this
  have hk : k₁ = k₂ :=
    le_antisymm (n₁ k₂ j₂ (by omega)) (n₂ k₁ j₁ (by omega))
  rcases C07_merkle_binding h₁ h₂ (by rw [l₁, l₂, hk]) hh with e | e
  · rw [f₁, f₂] at e
    have := (List.append_inj e (by simp [hl])).1
    have gen : ∀ (x y : List Bytes), x.map fromBytes = y.map fromBytes →
        x = y ∨ ∃ a ∈ x, ∃ b ∈ y, ShaCollision a b ∨ ShaPassThrough a b ∨ ShaPassThrough b a := by
      intro x
      induction x with
      | nil => intro y hy; left; simpa using hy.symm
      | cons a x ih =>
        intro y hy
        cases y with
        | nil => simp at hy
        | cons b y =>
          simp only [List.map_cons, List.cons.injEq] at hy
          rcases fromBytes_eq_red' hy.1 with hab | hab
          · rcases ih y hy.2 with hxy | ⟨c, hc, d, hd, hcd⟩
            · left; rw [hab, hxy]
            · exact .inr ⟨c, by simp [hc], d, by simp [hd], hcd⟩
          · exact .inr ⟨a, by simp, b, by simp, hab⟩
    rcases gen _ _ this with r | r
    · exact .inl r
    · exact .inr (.inr r)
  · exact .inr (.inl e)

/-- Two different block lists that meet the hypotheses of C07 (they exploit the weak toy hash). -/
example : letI := toySha; ∃ t₁ t₂, hashTreeFromBlocks [[1], [2], [3]] = .ok t₁ ∧
    hashTreeFromBlocks [[1], [2, 0], [3]] = .ok t₂ ∧ t₁.length = t₂.length ∧
    t₁.head = t₂.head := ⟨_, _, rfl, rfl, rfl, rfl⟩

/-! ## C08 -/

/-- C08 (negation): appending empty blocks within the padded length never changes the head: for
every hash function and every block list that is not already a full power of two, two different
block lists have the same tree. -/
theorem C08_padding_ambiguous_neg {blocks : List Bytes} {t : HashTree}
    (h : hashTreeFromBlocks blocks = .ok t) (n : Nat) (hn : blocks.length + n ≤ t.length) :
    ∃ t', hashTreeFromBlocks (blocks ++ List.replicate n []) = .ok t' ∧ t'.head = t.head ∧
      t'.leafHashes = t.leafHashes := by
  have hb : blocks ≠ [] := hashTreeFromBlocks_ne_nil h
  obtain ⟨k, m, t₁, a, b, h1, rfl, ha, hb', hl, hlen, hmin, -⟩ := hashTreeFromBlocks_spec blocks hb
  obtain ⟨k', m', t₂, a', b', h1', rfl, ha', hb2, hl', hlen', hmin', -⟩ :=
    hashTreeFromBlocks_spec (blocks ++ List.replicate n []) (by simp [hb])
  obtain rfl : t = parentHashTree a b := Outcome.ok.inj (h.symm.trans h1)
  have htl : (parentHashTree a b).length = 2 ^ (k + 1) := by
    rw [HashTree.length, hl]; simpa using hlen
  rw [htl] at hn
  simp only [List.length_append, List.length_replicate] at hlen' hmin'
  have hpos : 0 < blocks.length := List.length_pos_iff.mpr hb
  have hkk : k = k' := by
    have p1 : (2 : Nat) ^ (k + 1) = 2 * 2 ^ k := by rw [pow_succ]; omega
    have p2 : (2 : Nat) ^ (k' + 1) = 2 * 2 ^ k' := by rw [pow_succ]; omega
    have le1 : k ≤ k' := by
      rcases hmin with rfl | hmin
      · omega
      · have : (2 : Nat) ^ k < 2 ^ (k' + 1) := by omega
        have := (Nat.pow_lt_pow_iff_right (a := 2) (by norm_num)).mp this
        omega
    have le2 : k' ≤ k := by
      rcases hmin' with rfl | hmin'
      · omega
      · have : (2 : Nat) ^ k' < 2 ^ (k + 1) := by omega
        have := (Nat.pow_lt_pow_iff_right (a := 2) (by norm_num)).mp this
        omega
    omega
  subst hkk
  have hm : m = n + m' := by omega
  have hleaves : (parentHashTree a' b').blockLeaves = (parentHashTree a b).blockLeaves := by
    rw [hl, hl', hm, List.replicate_add]
    simp
  -- both heads are determined by the leaves
  have heads : ∀ {k : Nat} {x y : Leaf}, x.WF k → y.WF k → x.leaves = y.leaves → x = y := by
    intro k
    induction k with
    | zero => intro x y hx hy e; cases hx; cases hy; simpa [Leaf.leaves] using e
    | succ k ih =>
      intro x y hx hy e
      cases hx with
      | node hx1 hx2 =>
        cases hy with
        | node hy1 hy2 =>
          simp only [Leaf.leaves] at e
          have := List.append_inj e (by rw [hx1.length, hy1.length])
          rw [ih hx1 hy1 this.1, ih hx2 hy2 this.2]
  have hsplit := List.append_inj (show a'.leaves ++ b'.leaves = a.leaves ++ b.leaves from hleaves)
    (by rw [ha'.length, ha.length])
  have e1 := heads ha' ha hsplit.1
  have e2 := heads hb2 hb' hsplit.2
  refine ⟨_, h1', ?_, ?_⟩
  · rw [e1, e2]
  · rw [HashTree.leafHashes, hleaves]; rfl

/-- C08 (negation): for every hash function, the tree over the blocks and the tree over the two
inner node hashes below the root have the same head, although the second one has two blocks only. -/
theorem C08_inner_nodes_ambiguous_neg {blocks : List Bytes} {t : HashTree}
    (h : hashTreeFromBlocks blocks = .ok t) :
    ∃ t', hashTreeFromBlocks [t.left.head.bytes, t.right.head.bytes] = .ok t' ∧
      t'.head = t.head ∧ t'.length = 2 := by
  have hb : blocks ≠ [] := hashTreeFromBlocks_ne_nil h
  obtain ⟨k, m, t₁, a, b, h1, rfl, -⟩ := hashTreeFromBlocks_spec blocks hb
  obtain rfl : t = parentHashTree a b := Outcome.ok.inj (h.symm.trans h1)
  refine ⟨parentHashTree (.atom a.head) (.atom b.head), ?_, rfl, rfl⟩
  simp [hashTreeFromBlocks, blockFromData, resize, isLengthPowerForTwo, leavesHashTree,
    leavesHashTreeN, parentHashTree, Leaf.head]

/-- The two block lists of the previous theorems really differ: three blocks against four, four
blocks against two. -/
example : letI := toySha; ∃ t, hashTreeFromBlocks [[1], [2], [3]] = .ok t ∧
    [[1], [2], [3]].length + 1 ≤ t.length ∧
    [t.left.head.bytes, t.right.head.bytes] ≠ [[1], [2], [3]] := ⟨_, rfl, by decide, by simp⟩

/-! ## C09 -/

/-- C09: compacting a tree built from blocks, converting to JSON and back, and rebuilding the tree
from the leaves returns the very same tree (same head, same leaves, same inner nodes). -/
theorem C09_compact_round_trip {blocks : List Bytes} {t : HashTree}
    (h : hashTreeFromBlocks blocks = .ok t) :
    ∃ c, compactFromJSON t.compact.toJSON = .ok c ∧ c = t.compact ∧ c.head = t.head ∧
      c.length = t.length ∧ leavesHashTree c.leaves = .ok t := by
  have hb : blocks ≠ [] := hashTreeFromBlocks_ne_nil h
  refine ⟨t.compact, ?_, rfl, rfl, rfl, ?_⟩
  · have : mapO leafFromJSON (t.blockLeaves.map Leaf.toJSON) = .ok t.blockLeaves := by
      rw [mapO_eq_ok]
      generalize t.blockLeaves = l
      induction l with
      | nil => simp
      | cons x xs ih => simp [leafFromJSON_toJSON]
    simp [compactFromJSON, Compact.toJSON, HashTree.compact, this]
  · obtain ⟨k, m, t₁, a, b, h1, -, -, -, -, -, -, hl⟩ := hashTreeFromBlocks_spec blocks hb
    obtain rfl : t = t₁ := Outcome.ok.inj (h.symm.trans h1)
    show leavesHashTree t.blockLeaves = .ok t
    rw [hl]
    exact h

/-- C09: the full JSON form of any tree decodes to the identical tree, also through the builder. -/
theorem C09_full_round_trip (t : HashTree) :
    hashTreeFromJSON t.toJSON = .ok t ∧ hashTreeBuilderNow none (some t.toJSON) = .ok t := by
  have : hashTreeFromJSON t.toJSON = .ok t := by
    simp [hashTreeFromJSON, HashTree.toJSON, leafFromJSON_toJSON]
  exact ⟨this, this⟩

example : letI := toySha; ∃ t, hashTreeFromBlocks [[1], [2], [3], [4], [5]] = .ok t := ⟨_, rfl⟩

/-! ## C10, C70 -/

private theorem orderMap_some {data : List Bytes} {k : Hash} {d : Bytes}
    (h : orderMap data k = some d) : d ∈ data ∧ fromBytes d = k := by
  unfold orderMap at h
  have h1 := List.mem_of_find?_eq_some h
  have h2 := List.find?_some h
  exact ⟨by simpa using h1, by simpa using h2⟩

private theorem orderMap_none {data : List Bytes} {k : Hash} :
    orderMap data k = none ↔ ∀ d ∈ data, fromBytes d ≠ k := by
  unfold orderMap
  simp

private theorem order_sublist (data : List Bytes) : ∀ ls : List Leaf,
    ((ls.filterMap fun l => orderMap data l.head).map fromBytes).Sublist (ls.map Leaf.head)
  | [] => by simp
  | l :: ls => by
    have ih := order_sublist data ls
    cases h : orderMap data l.head with
    | none => simpa [List.filterMap_cons, h] using ih.trans (List.sublist_cons_self _ _)
    | some d =>
      have := (orderMap_some h).2
      simpa [List.filterMap_cons, h, this] using ih

/-- C10: for blocks with pairwise different hashes, none of them the padding hash if there is any
padding, ordering any permutation of the blocks returns exactly the original block list. -/
theorem C10_order_restores {blocks data : List Bytes} {t : HashTree}
    (h : hashTreeFromBlocks blocks = .ok t) (hp : data.Perm blocks)
    (hd : (blocks.map fromBytes).Nodup)
    (hpad : t.length = blocks.length ∨ fromBytes [] ∉ blocks.map fromBytes) :
    t.order data = .ok blocks := by
  have hb : blocks ≠ [] := hashTreeFromBlocks_ne_nil h
  obtain ⟨k, m, t₁, a, b, h1, -, -, -, hl, hlen, -, -⟩ := hashTreeFromBlocks_spec blocks hb
  obtain rfl : t = t₁ := Outcome.ok.inj (h.symm.trans h1)
  have hm : m = 0 ∨ fromBytes [] ∉ blocks.map fromBytes := by
    rcases hpad with e | e
    · left
      rw [HashTree.length, hl] at e
      simp at e
      omega
    · exact .inr e
  have look : ∀ x ∈ blocks, orderMap data (fromBytes x) = some x := by
    intro x hx
    cases ho : orderMap data (fromBytes x) with
    | none => exact absurd rfl (orderMap_none.mp ho x (hp.mem_iff.mpr hx))
    | some d =>
      obtain ⟨hd1, hd2⟩ := orderMap_some ho
      have := List.inj_on_of_nodup_map hd (hp.mem_iff.mp hd1) hx hd2
      rw [this]
  have part1 : ∀ bs : List Bytes, (∀ x ∈ bs, x ∈ blocks) →
      ((bs.map fromBytes).map Leaf.atom).filterMap (fun l => orderMap data l.head) = bs := by
    intro bs
    induction bs with
    | nil => simp
    | cons x bs ih =>
      intro hx
      have e1 := look x (hx x (by simp))
      have e2 := ih fun y hy => hx y (by simp [hy])
      have e3 : orderMap data (Leaf.atom (fromBytes x)).head = some x := e1
      simp only [List.map_cons, List.filterMap_cons, e3, e2]
  have part2 : ((List.replicate m (fromBytes [])).map Leaf.atom).filterMap
      (fun l => orderMap data l.head) = [] := by
    rcases hm with rfl | hm
    · simp
    · rw [List.filterMap_eq_nil_iff]
      intro l hl'
      simp only [List.map_replicate] at hl'
      obtain rfl := (List.mem_replicate.mp hl').2
      rw [Leaf.head, orderMap_none]
      intro d hd' e
      exact hm (e ▸ List.mem_map_of_mem (hp.mem_iff.mp hd'))
  have out : t.blockLeaves.filterMap (fun l => orderMap data l.head) = blocks := by
    rw [hl, List.map_append, List.filterMap_append, part1 blocks (fun x hx => hx), part2]
    simp
  simp [HashTree.order, out, hp.length_eq]

/-- C10: whenever `Order` succeeds, on any tree and data, the output has as many elements as the
input, consists of input elements, and their hashes occur in the order of the leaves; `Order`
never panics. -/
theorem C10_order_sound (t : HashTree) (data : List Bytes) :
    (∀ out, t.order data = .ok out →
      out.length = data.length ∧ (∀ x ∈ out, x ∈ data) ∧
        (out.map fromBytes).Sublist t.leafHashes) ∧
    ∀ c, t.order data ≠ .crash c := by
  constructor
  · intro out h
    unfold HashTree.order at h
    simp only at h
    split at h
    · cases h
    · rename_i hlen
      obtain rfl := Outcome.ok.inj h
      refine ⟨by simpa using hlen, ?_, order_sublist data t.blockLeaves⟩
      intro x hx
      rw [List.mem_filterMap] at hx
      obtain ⟨l, -, hl⟩ := hx
      exact (orderMap_some hl).1
  · intro c
    unfold HashTree.order
    simp only
    split <;> simp

example : letI := toySha; ∃ t, hashTreeFromBlocks [[1], [2], [3]] = .ok t ∧
    [[3], [1], [2]].Perm [[1], [2], [3]] ∧ ([[1], [2], [3]].map fromBytes).Nodup ∧
    fromBytes [] ∉ [[1], [2], [3]].map fromBytes ∧
    t.order [[3], [1], [2]] = .ok [[1], [2], [3]] := by
  refine ⟨_, rfl, by decide, by decide, by decide, by decide⟩

/-- C70: on a tree whose leaf hashes are pairwise different, `Order` accepts a data list only if
the output is a rearrangement of it: nothing is dropped and every element belongs to the tree. -/
theorem C70_order_rejects_foreign_partial (t : HashTree) (data out : List Bytes)
    (hd : t.leafHashes.Nodup) (h : t.order data = .ok out) :
    out.Perm data ∧ ∀ x ∈ data, fromBytes x ∈ t.leafHashes := by
  obtain ⟨h1, h2, h3⟩ := (C10_order_sound t data).1 out h
  have hn : out.Nodup := (h3.nodup hd).of_map _
  have hp : out.Perm data := (hn.subperm h2).perm_of_length_le (by omega)
  exact ⟨hp, fun x hx => h3.subset (List.mem_map_of_mem (hp.mem_iff.mpr hx))⟩

/-- C70 (negation): in general `Order` silently drops foreign data. For every hash function and any
two blocks with different hashes, the tree over the same block twice accepts the data list made of
that block and a foreign one, and returns the block twice. -/
theorem C70_order_drops_foreign_neg (x z : Bytes) (hxz : fromBytes z ≠ fromBytes x) :
    ∃ t, hashTreeFromBlocks [x, x] = .ok t ∧ fromBytes z ∉ t.leafHashes ∧
      t.order [x, z] = .ok [x, x] := by
  refine ⟨parentHashTree (.atom (fromBytes x)) (.atom (fromBytes x)), ?_, ?_, ?_⟩
  · simp [hashTreeFromBlocks, blockFromData, resize, isLengthPowerForTwo, leavesHashTree,
      leavesHashTreeN]
  · simpa [HashTree.leafHashes, HashTree.blockLeaves, parentHashTree, Leaf.leaves, Leaf.head]
      using hxz
  · simp [HashTree.order, HashTree.blockLeaves, parentHashTree, Leaf.leaves, Leaf.head, orderMap,
      hxz]

example : letI := toySha; fromBytes [2] ≠ fromBytes [1] := by decide

/-! ## C11 -/

/-- C11 (negation of "loading verifies the head"): the head of a compact tree loaded from JSON is
whatever the text says; the leaves play no role, and the leaves load independently of the head. -/
theorem C11_compact_head_unchecked_neg (head : Hash) (ls : List Leaf) :
    compactFromJSON ⟨head.str, ls.map Leaf.toJSON⟩ = .ok ⟨head, ls⟩ := by
  have : mapO leafFromJSON (ls.map Leaf.toJSON) = .ok ls := by
    rw [mapO_eq_ok]
    induction ls with
    | nil => simp
    | cons x xs ih => simp [leafFromJSON_toJSON]
  simp [compactFromJSON, this]

/-- C11: in particular, for every tree and every other head there is a JSON text that loads to
a compact tree with these leaves and that wrong head, although rebuilding gives the right head. -/
theorem C11_forged_head_neg {blocks : List Bytes} {t : HashTree}
    (h : hashTreeFromBlocks blocks = .ok t) (forged : Hash) (hne : forged ≠ t.head) :
    ∃ c, compactFromJSON ⟨forged.str, t.compact.toJSON.leaves⟩ = .ok c ∧ c.head ≠ t.head ∧
      leavesHashTree c.leaves = .ok t := by
  obtain ⟨c, -, rfl, -, -, hr⟩ := C09_compact_round_trip h
  exact ⟨⟨forged, t.blockLeaves⟩, C11_compact_head_unchecked_neg _ _, hne, hr⟩

/-- C11: rebuilding a tree from a list of leaves, with a stack larger than the number of leaves:
succeeds exactly when their number is a power of two that is at least two; with no leaves it
exhausts the stack, whatever its size; in all other cases it panics with an index out of range. -/
theorem C11_rebuild_exact (l : List Leaf) (stack : Nat) (hs : l.length < stack) :
    ((∃ t, leavesHashTreeN stack l = .ok t) ↔ ∃ k, l.length = 2 ^ (k + 1)) ∧
    (leavesHashTreeN stack l = .crash .stackOverflow ↔ l = []) ∧
    (leavesHashTreeN stack l = .crash .indexOutOfRange ↔
      l ≠ [] ∧ ¬ ∃ k, l.length = 2 ^ (k + 1)) := by
  by_cases hl : l = []
  · subst hl
    rw [leavesHashTreeN_nil]
    simp
    intro k hk
    have : 0 < (2 : Nat) ^ (k + 1) := Nat.pos_of_ne_zero (by simp)
    omega
  · have hpos : 0 < l.length := List.length_pos_iff.mpr hl
    by_cases hk : ∃ k, l.length = 2 ^ (k + 1)
    · have : ∃ t, leavesHashTreeN stack l = .ok t := by
        obtain ⟨k, hk⟩ := hk
        have hlt := Nat.lt_two_pow_self (n := k + 1)
        -- success only depends on the number of leaves
        have gen : ∀ (j stack : Nat) (l : List Leaf), l.length = 2 ^ (j + 1) → j < stack →
            ∃ t, leavesHashTreeN stack l = .ok t := by
          intro j
          induction j with
          | zero =>
            intro stack l hl hs
            match l, hl with
            | [a, b], _ =>
              obtain ⟨s, rfl⟩ : ∃ s, stack = s + 1 := ⟨stack - 1, by omega⟩
              exact ⟨_, rfl⟩
          | succ j ih =>
            intro stack l hl hs
            obtain ⟨s, rfl⟩ : ∃ s, stack = s + 1 := ⟨stack - 1, by omega⟩
            have h2 : (2 : Nat) ^ (j + 1 + 1) = 2 * 2 ^ (j + 1) := by rw [pow_succ]; omega
            have h3 : (2 : Nat) ^ (j + 1) = 2 * 2 ^ j := by rw [pow_succ]; omega
            have hpos : 0 < (2 : Nat) ^ j := Nat.pos_of_ne_zero (by simp)
            obtain ⟨cs, e1, e2, -, -⟩ := childrenLeaves_even l (by omega)
            rw [leavesHashTreeN_succ (by omega), e1]
            exact ih s cs (by omega) (by omega)
        exact gen k stack l hk (by omega)
      obtain ⟨t, ht⟩ := this
      rw [ht]
      simp [hl, hk]
    · rw [leavesHashTreeN_not_pow l.length stack l rfl hpos (by omega) hk]
      simp [hl, hk]

/-- C11: the fixed stack used in `leavesHashTree` is not special: any stack larger than the number
of leaves gives the same result. -/
theorem C11_stack_irrelevant (l : List Leaf) (s₁ s₂ : Nat) (h₁ : l.length < s₁)
    (h₂ : l.length < s₂) : leavesHashTreeN s₁ l = leavesHashTreeN s₂ l := by
  have gen : ∀ (n : Nat) (l : List Leaf) (s₁ s₂ : Nat), l.length = n → n < s₁ → n < s₂ →
      leavesHashTreeN s₁ l = leavesHashTreeN s₂ l := by
    intro n
    induction n using Nat.strong_induction_on with
    | _ n ih =>
      intro l s₁ s₂ hl h₁ h₂
      obtain ⟨a, rfl⟩ : ∃ s, s₁ = s + 1 := ⟨s₁ - 1, by omega⟩
      obtain ⟨b, rfl⟩ : ∃ s, s₂ = s + 1 := ⟨s₂ - 1, by omega⟩
      by_cases h2 : l.length = 2
      · match l, h2 with
        | [x, y], _ => rfl
      · rw [leavesHashTreeN_succ h2, leavesHashTreeN_succ h2]
        rcases Nat.mod_two_eq_zero_or_one l.length with he | ho
        · obtain ⟨cs, e1, e2, -, -⟩ := childrenLeaves_even l he
          rw [e1]
          by_cases h0 : l = []
          · subst h0
            obtain rfl : cs = [] := List.length_eq_zero_iff.mp (by simpa using e2)
            simp only
            rw [leavesHashTreeN_nil, leavesHashTreeN_nil]
          · have : 0 < l.length := List.length_pos_iff.mpr h0
            exact ih cs.length (by omega) cs a b rfl (by omega) (by omega)
        · rw [childrenLeaves_odd l ho]
  exact gen l.length l s₁ s₂ rfl h₁ h₂

/-- C11: a JSON text with a missing leaf or node makes the decoder panic. -/
theorem C11_missing_node_panics_neg (head : Hash) (pre : List Leaf) (post : List JLeaf) :
    compactFromJSON ⟨head.str, pre.map Leaf.toJSON ++ .null :: post⟩ = .crash .nilDeref ∧
    hashTreeFromJSON ⟨head.str, none⟩ = .crash .nilDeref := by
  constructor
  · have : mapO leafFromJSON (pre.map Leaf.toJSON ++ .null :: post) = .crash .nilDeref := by
      induction pre with
      | nil => simp [mapO, leafFromJSON]
      | cons x xs ih => simp [mapO, leafFromJSON_toJSON, ih]
    simp [compactFromJSON, this]
  · simp [hashTreeFromJSON]

end Verif
