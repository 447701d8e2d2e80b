import Verif.Model.HashLemmas
import Verif.Spec.Merkle

/-!
# Helper lemmas about hash trees
-/

namespace Verif

variable [Sha512]

/-- A perfect, correctly hashed sub tree of the given height. -/
inductive Leaf.WF : Nat → Leaf → Prop
  | atom (h : Hash) : WF 0 (.atom h)
  | node {k : Nat} {l r : Leaf} : WF k l → WF k r →
      WF (k + 1) (.node (fromBytes (l.head.bytes ++ r.head.bytes)) l r)

theorem Leaf.WF.height {k : Nat} {l : Leaf} (h : l.WF k) : l.height = k := by
  induction h with
  | atom => rfl
  | node _ _ ih _ => simp [Leaf.height, ih]

theorem Leaf.WF.length {k : Nat} {l : Leaf} (h : l.WF k) : l.leaves.length = 2 ^ k := by
  induction h with
  | atom => rfl
  | node _ _ ih1 ih2 => simp [Leaf.leaves, ih1, ih2]; omega

theorem Leaf.WF.merkle {k : Nat} {l : Leaf} (h : l.WF k) :
    IsMerkle k (l.leaves.map Leaf.head) l.head l.preimages := by
  induction h with
  | atom h => exact .leaf h
  | node _ _ ih1 ih2 =>
    simpa [Leaf.leaves, Leaf.head, Leaf.preimages] using IsMerkle.node ih1 ih2

theorem IsMerkle.length {k : Nat} {l : List Hash} {h : Hash} {p : List Bytes}
    (hm : IsMerkle k l h p) : l.length = 2 ^ k := by
  induction hm with
  | leaf => rfl
  | node _ _ ih1 ih2 => simp [ih1, ih2]; omega

/-- Merkle binding at the level of the specification. -/
theorem IsMerkle.binding {k : Nat} : ∀ {l₁ l₂ : List Hash} {h₁ h₂ : Hash} {p₁ p₂ : List Bytes},
    IsMerkle k l₁ h₁ p₁ → IsMerkle k l₂ h₂ p₂ → h₁ = h₂ →
    l₁ = l₂ ∨ ∃ x ∈ p₁, ∃ y ∈ p₂, ShaCollision x y := by
  induction k with
  | zero =>
    intro l₁ l₂ h₁ h₂ p₁ p₂ m₁ m₂ e
    cases m₁; cases m₂
    left; rw [e]
  | succ k ih =>
    intro l₁ l₂ h₁ h₂ p₁ p₂ m₁ m₂ e
    cases m₁ with
    | node a₁ b₁ =>
      cases m₂ with
      | node a₂ b₂ =>
        rename_i la₁ lb₁ ra₁ rb₁ pa₁ pb₁ la₂ lb₂ ra₂ rb₂ pa₂ pb₂
        rcases fromBytes_eq_red (by simp [ra₁.len, rb₁.len]) (by simp [ra₂.len, rb₂.len]) e
          with e | e
        · obtain ⟨ha, hb⟩ := hash_append_inj e
          have hb := Hash.ext hb
          rcases ih a₁ a₂ ha with r | ⟨x, hx, y, hy, c⟩
          · rcases ih b₁ b₂ hb with r' | ⟨x, hx, y, hy, c⟩
            · left; rw [r, r']
            · exact .inr ⟨x, by simp [hx], y, by simp [hy], c⟩
          · exact .inr ⟨x, by simp [hx], y, by simp [hy], c⟩
        · exact .inr ⟨_, by simp, _, by simp, e⟩

omit [Sha512] in
/-- All base leaves are atoms. -/
theorem Leaf.leaves_atoms : ∀ (l : Leaf), l.leaves = (l.leaves.map Leaf.head).map Leaf.atom
  | .atom h => rfl
  | .node _ l r => by
    simp only [Leaf.leaves, List.map_append]
    rw [← Leaf.leaves_atoms l, ← Leaf.leaves_atoms r]

omit [Sha512] in
theorem HashTree.blockLeaves_atoms (t : HashTree) :
    t.blockLeaves = (t.blockLeaves.map Leaf.head).map Leaf.atom := by
  have := Leaf.leaves_atoms (.node t.head t.left t.right)
  simpa [Leaf.leaves, HashTree.blockLeaves] using this

theorem childrenLeaves_even : ∀ (l : List Leaf), l.length % 2 = 0 →
    ∃ cs, childrenLeaves l = .ok cs ∧ 2 * cs.length = l.length ∧
      cs.flatMap Leaf.leaves = l.flatMap Leaf.leaves ∧
      ∀ k, (∀ x ∈ l, x.WF k) → ∀ x ∈ cs, x.WF (k + 1)
  | [], _ => ⟨[], rfl, rfl, rfl, by simp⟩
  | [_], h => by simp at h
  | a :: b :: rest, h => by
    obtain ⟨cs, h1, h2, h3, h4⟩ := childrenLeaves_even rest (by simp at h; omega)
    refine ⟨_ :: cs, by simp only [childrenLeaves, h1]; rfl, by simp; omega, ?_, ?_⟩
    · simp [Leaf.leaves, h3]
    · intro k hk x hx
      simp only [List.mem_cons] at hx
      rcases hx with rfl | hx
      · exact .node (hk a (by simp)) (hk b (by simp))
      · exact h4 k (fun y hy => hk y (by simp [hy])) x hx

theorem childrenLeaves_odd : ∀ (l : List Leaf), l.length % 2 = 1 →
    childrenLeaves l = .crash .indexOutOfRange
  | [], h => by simp at h
  | [_], _ => rfl
  | a :: b :: rest, h => by
    have := childrenLeaves_odd rest (by simp at h; omega)
    simp only [childrenLeaves, this]

/-- One unfolding of the recursion when there are not exactly two leaves. -/
theorem leavesHashTreeN_succ {stack : Nat} {l : List Leaf} (h : l.length ≠ 2) :
    leavesHashTreeN (stack + 1) l =
      match childrenLeaves l with
      | .ok cs => leavesHashTreeN stack cs
      | .err m => .err m
      | .crash c => .crash c := by
  conv_lhs => unfold leavesHashTreeN
  split
  · simp at h
  · rfl

theorem leavesHashTreeN_pow (j : Nat) : ∀ (stack k : Nat) (l : List Leaf), l.length = 2 ^ (j + 1) →
    j < stack → (∀ x ∈ l, x.WF k) →
    ∃ a b, leavesHashTreeN stack l = .ok (parentHashTree a b) ∧ a.WF (k + j) ∧ b.WF (k + j) ∧
      a.leaves ++ b.leaves = l.flatMap Leaf.leaves := by
  induction j with
  | zero =>
    intro stack k l hl hs hwf
    match l, hl with
    | [a, b], _ =>
      obtain ⟨s, rfl⟩ : ∃ s, stack = s + 1 := ⟨stack - 1, by omega⟩
      exact ⟨a, b, rfl, hwf a (by simp), hwf b (by simp), by simp⟩
  | succ j ih =>
    intro stack k l hl hs hwf
    obtain ⟨s, rfl⟩ : ∃ s, stack = s + 1 := ⟨stack - 1, by omega⟩
    have h2 : (2 : Nat) ^ (j + 1 + 1) = 2 * 2 ^ (j + 1) := by rw [pow_succ]; omega
    have h3 : (2 : Nat) ^ (j + 1) = 2 * 2 ^ j := by rw [pow_succ]; omega
    have hpos : 0 < (2 : Nat) ^ j := Nat.pos_of_ne_zero (by simp)
    obtain ⟨cs, e1, e2, e3, e4⟩ := childrenLeaves_even l (by omega)
    obtain ⟨a, b, r1, r2, r3, r4⟩ := ih s (k + 1) cs (by omega) (by omega) (e4 k hwf)
    have hne : l.length ≠ 2 := by omega
    refine ⟨a, b, ?_, ?_, ?_, ?_⟩
    · rw [leavesHashTreeN_succ hne, e1]
      exact r1
    · have : k + (j + 1) = k + 1 + j := by omega
      rw [this]; exact r2
    · have : k + (j + 1) = k + 1 + j := by omega
      rw [this]; exact r3
    · rw [r4, e3]

theorem leavesHashTreeN_nil : ∀ stack, leavesHashTreeN stack [] = .crash .stackOverflow
  | 0 => rfl
  | s + 1 => by
    simp only [leavesHashTreeN, childrenLeaves]
    exact leavesHashTreeN_nil s

/-- For a non-empty list whose length is not a power of two (at least two), the rebuild runs into
an index out of range panic, whatever the stack size (if it is at least the number of leaves). -/
theorem leavesHashTreeN_not_pow : ∀ (n stack : Nat) (l : List Leaf), l.length = n → 0 < n →
    n ≤ stack → (¬ ∃ j, n = 2 ^ (j + 1)) → leavesHashTreeN stack l = .crash .indexOutOfRange := by
  intro n
  induction n using Nat.strong_induction_on with
  | _ n ih =>
    intro stack l hl hn hs hp
    obtain ⟨s, rfl⟩ : ∃ s, stack = s + 1 := ⟨stack - 1, by omega⟩
    have hne : l.length ≠ 2 := by
      rw [hl]; rintro rfl; exact hp ⟨0, rfl⟩
    rw [leavesHashTreeN_succ hne]
    rcases Nat.mod_two_eq_zero_or_one l.length with he | ho
    · obtain ⟨cs, e1, e2, -, -⟩ := childrenLeaves_even l he
      rw [e1]
      refine ih cs.length (by omega) s cs rfl (by omega) (by omega) ?_
      rintro ⟨j, hj⟩
      exact hp ⟨j + 1, by rw [pow_succ]; omega⟩
    · rw [childrenLeaves_odd l ho]

/-- Whatever the leaves, as many of them as a power of two form a tree, and the tree keeps them. -/
theorem leavesHashTreeN_any (j : Nat) : ∀ (stack : Nat) (l : List Leaf), l.length = 2 ^ (j + 1) →
    j < stack → ∃ a b, leavesHashTreeN stack l = .ok (parentHashTree a b) ∧
      a.leaves ++ b.leaves = l.flatMap Leaf.leaves := by
  induction j with
  | zero =>
    intro stack l hl hs
    match l, hl with
    | [a, b], _ =>
      obtain ⟨s, rfl⟩ : ∃ s, stack = s + 1 := ⟨stack - 1, by omega⟩
      exact ⟨a, b, rfl, by simp⟩
  | succ j ih =>
    intro stack l hl hs
    obtain ⟨s, rfl⟩ : ∃ s, stack = s + 1 := ⟨stack - 1, by omega⟩
    have h2 : (2 : Nat) ^ (j + 1 + 1) = 2 * 2 ^ (j + 1) := by rw [pow_succ]; omega
    have h3 : (2 : Nat) ^ (j + 1) = 2 * 2 ^ j := by rw [pow_succ]; omega
    have hpos : 0 < (2 : Nat) ^ j := Nat.pos_of_ne_zero (by simp)
    obtain ⟨cs, e1, e2, e3, -⟩ := childrenLeaves_even l (by omega)
    obtain ⟨a, b, r1, r4⟩ := ih s cs (by omega) (by omega)
    have hne : l.length ≠ 2 := by omega
    exact ⟨a, b, by rw [leavesHashTreeN_succ hne, e1]; exact r1, by rw [r4, e3]⟩

theorem leavesHashTreeN_mono : ∀ (s s' : Nat) (l : List Leaf), s ≤ s' →
    leavesHashTreeN s l ≠ .crash .stackOverflow → leavesHashTreeN s' l = leavesHashTreeN s l
  | 0, _, _, _, h => absurd rfl h
  | s + 1, s', l, hs, h => by
    obtain ⟨t, rfl⟩ : ∃ t, s' = t + 1 := ⟨s' - 1, by omega⟩
    by_cases h2 : l.length = 2
    · match l, h2 with
      | [a, b], _ => rfl
    · rw [leavesHashTreeN_succ h2] at h ⊢
      rw [leavesHashTreeN_succ h2]
      cases hc : childrenLeaves l with
      | ok cs =>
        rw [hc] at h
        exact leavesHashTreeN_mono s t cs (by omega) h
      | err m => rfl
      | crash c => rfl

/-- Whatever the size of the stack, as long as it is at least the number of leaves plus one, the
outcome is that of `leavesHashTree`. -/
theorem leavesHashTreeN_stable (l : List Leaf) (stack : Nat) (h : l.length + 1 ≤ stack) :
    leavesHashTreeN stack l = leavesHashTree l := by
  by_cases h0 : l = []
  · subst h0
    rw [leavesHashTree, leavesHashTreeN_nil, leavesHashTreeN_nil]
  · refine leavesHashTreeN_mono _ _ l h fun hc => ?_
    have hpos : 0 < l.length := List.length_pos_iff.mpr h0
    by_cases hp : ∃ j, l.length = 2 ^ (j + 1)
    · obtain ⟨j, hj⟩ := hp
      have : j < 2 ^ (j + 1) := Nat.lt_of_lt_of_le j.lt_two_pow_self (Nat.pow_le_pow_right (by omega) (by omega))
      obtain ⟨a, b, he, -⟩ := leavesHashTreeN_any j (l.length + 1) l hj (by omega)
      rw [he] at hc
      cases hc
    · rw [leavesHashTreeN_not_pow l.length _ l rfl hpos (by omega) hp] at hc
      cases hc

omit [Sha512] in
theorem isLengthPowerForTwo_iff {n : Nat} : isLengthPowerForTwo n = true ↔ ∃ k, n = 2 ^ k := by
  have := @Nat.ne_zero_and_sub_one_eq_zero_iff_isPowerOfTwo n
  simpa [isLengthPowerForTwo, Nat.isPowerOfTwo] using this

/-- The padded length. -/
theorem resize_shape (l : List Hash) (hl : l ≠ []) :
    ∃ k m, resize l = l ++ List.replicate m (fromBytes []) ∧ l.length + m = 2 ^ k ∧
      (k = 0 ∨ 2 ^ (k - 1) < l.length) := by
  have hpos : 0 < l.length := List.length_pos_iff.mpr hl
  unfold resize
  by_cases h : isLengthPowerForTwo l.length = true
  · obtain ⟨k, hk⟩ := isLengthPowerForTwo_iff.mp h
    refine ⟨k, 0, by simp [h], by simpa using hk, ?_⟩
    cases k with
    | zero => exact .inl rfl
    | succ k =>
      right
      rw [hk, pow_succ]
      have : 0 < (2 : Nat) ^ k := Nat.pos_of_ne_zero (by simp)
      simp
  · refine ⟨Nat.clog 2 l.length, nextPowerOfTwo l.length - l.length, by simp [h], ?_, ?_⟩
    · have := Nat.le_pow_clog (b := 2) (by norm_num) l.length
      unfold nextPowerOfTwo; omega
    · by_cases h1 : l.length ≤ 1
      · left
        have : l.length = 1 := by omega
        simp [this]
      · right
        exact Nat.pow_pred_clog_lt_self (by norm_num) (by omega)

theorem hashTreeFromBlocks_nil : hashTreeFromBlocks [] = .crash .indexOutOfRange := by
  simp [hashTreeFromBlocks, blockFromData, resize, isLengthPowerForTwo, leavesHashTree,
    leavesHashTreeN, childrenLeaves]

theorem hashTreeFromBlocks_ne_nil {b : List Bytes} {t : HashTree}
    (h : hashTreeFromBlocks b = .ok t) : b ≠ [] := by
  rintro rfl
  rw [hashTreeFromBlocks_nil] at h
  cases h

/-- What a built tree looks like. -/
theorem hashTreeFromBlocks_spec (blocks : List Bytes) (h : blocks ≠ []) :
    ∃ k m t a b, hashTreeFromBlocks blocks = .ok t ∧ t = parentHashTree a b ∧ a.WF k ∧ b.WF k ∧
      t.blockLeaves = (blocks.map fromBytes ++ List.replicate m (fromBytes [])).map Leaf.atom ∧
      blocks.length + m = 2 ^ (k + 1) ∧ (k = 0 ∨ 2 ^ k < blocks.length) ∧
      t.blockLeaves = (blockFromData blocks).map Leaf.atom := by
  have hb : 0 < blocks.length := List.length_pos_iff.mpr h
  -- the padded hashes
  obtain ⟨k, m, hbl, hlen, hmin⟩ : ∃ k m, blockFromData blocks =
      blocks.map fromBytes ++ List.replicate m (fromBytes []) ∧
      blocks.length + m = 2 ^ (k + 1) ∧ (k = 0 ∨ 2 ^ k < blocks.length) := by
    by_cases h1 : blocks.length ≤ 1
    · match blocks, h, h1 with
      | [x], _, _ =>
        refine ⟨0, 1, ?_, by simp, .inl rfl⟩
        simp [blockFromData, resize, isLengthPowerForTwo]
    · obtain ⟨k, m, e1, e2, e3⟩ := resize_shape (blocks.map fromBytes) (by simpa using h)
      simp only [List.length_map] at e2 e3
      have hk : k ≠ 0 := by
        rintro rfl
        simp at e2; omega
      obtain ⟨k', rfl⟩ : ∃ k', k = k' + 1 := ⟨k - 1, by omega⟩
      refine ⟨k', m, by simp [blockFromData, h1, e1], e2, ?_⟩
      right
      simpa using e3
  have hwf : ∀ x ∈ (blockFromData blocks).map Leaf.atom, x.WF 0 := by
    intro x hx
    simp only [List.mem_map] at hx
    obtain ⟨y, -, rfl⟩ := hx
    exact .atom y
  have hl2 : ((blockFromData blocks).map Leaf.atom).length = 2 ^ (k + 1) := by
    rw [hbl]; simpa using hlen
  have hstack : k < ((blockFromData blocks).map Leaf.atom).length + 1 := by
    rw [hl2]
    have := Nat.lt_two_pow_self (n := k + 1)
    omega
  obtain ⟨a, b, r1, r2, r3, r4⟩ := leavesHashTreeN_pow k _ 0 _ hl2 hstack hwf
  have key : (parentHashTree a b).blockLeaves = (blockFromData blocks).map Leaf.atom := ?_
  · exact ⟨k, m, _, a, b, r1, rfl, by simpa using r2, by simpa using r3, hbl ▸ key, hlen, hmin, key⟩
  show a.leaves ++ b.leaves = _
  rw [r4, hbl]
  generalize blocks.map fromBytes ++ List.replicate m (fromBytes []) = l
  induction l with
  | nil => rfl
  | cons x xs ih => simp [Leaf.leaves, ih]

theorem leafFromJSON_toJSON : ∀ l : Leaf, leafFromJSON l.toJSON = .ok l
  | .atom h => by simp [Leaf.toJSON, leafFromJSON]
  | .node h l r => by
    simp [Leaf.toJSON, leafFromJSON, leafFromJSON_toJSON l, leafFromJSON_toJSON r]

end Verif
