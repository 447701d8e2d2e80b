import Verif.Model.Piastres.ExpenseLemmas
import Verif.Model.Piastres.Chain

/-!
# Exact behaviour of the builders of geneses, transactions, blocks, links, chains and states
-/

namespace Verif

section
variable [Sha512]

theorem genesisNow_eq_ok {base : UInt64} {incr : Flt} {link : UInt64} {bill : Option Bill}
    {t : Time} {g : Genesis} :
    genesisNow base incr link bill t = .ok g ↔ ∃ b, bill = some b ∧ 0 < base.toNat ∧
      incr.le0 = false ∧ 0 < link.toNat ∧
      g = ⟨fromBytes (itoaU base ++ (fmtF12 incr ++ (itoaU link ++ b.hash.bytes))), b, base, incr,
        link, t⟩ := by
  unfold genesisNow
  by_cases h1 : base ≤ 0
  · rw [if_pos h1]
    have : ¬ 0 < base.toNat := fun h' => (UInt64.not_le_zero.mpr h') h1
    simp [this]
  · rw [if_neg h1]
    have h1' := UInt64.not_le_zero.mp h1
    cases h2 : incr.le0 with
    | true => simp
    | false =>
      simp only [Bool.false_eq_true, if_false]
      by_cases h3 : link ≤ 0
      · rw [if_pos h3]
        have : ¬ 0 < link.toNat := fun h' => (UInt64.not_le_zero.mpr h') h3
        simp [this]
      · rw [if_neg h3]
        have h3' := UInt64.not_le_zero.mp h3
        cases bill with
        | none => simp
        | some b => simp [h1', h3', fromMultiBytes, eq_comm]

omit [Sha512] in
theorem optRow_flatten (h : Option Hash) : (optRow h).flatten = hashesBytes h.toList := by
  cases h <;> simp [optRow, hashesBytes]

omit [Sha512] in
theorem map_bytes_flatten (l : List Hash) : (l.map Hash.bytes).flatten = hashesBytes l := by
  simp [hashesBytes]

theorem addressNow_eq_ok {s : Option Hash} {r : List Hash} {j : Option Hash} {t : Time}
    {a : Address} :
    addressNow s r j t = .ok a ↔ s.toList ++ r ++ j.toList ≠ [] ∧
      a = ⟨fromBytes (hashesBytes (s.toList ++ r ++ j.toList)), s, r, j, t⟩ := by
  have hd : fromMultiBytes (optRow s ++ r.map Hash.bytes ++ optRow j) =
      fromBytes (hashesBytes (s.toList ++ r ++ j.toList)) := by
    simp only [fromMultiBytes, List.flatten_append, optRow_flatten, hashesBytes_append,
      map_bytes_flatten]
  unfold addressNow
  simp only [hd]
  generalize fromBytes (hashesBytes (s.toList ++ r ++ j.toList)) = z
  cases s <;> cases j <;> cases r <;> simp [@eq_comm _ a]

variable [C : Curve]

theorem trxNow_eq_ok {a : Option Address} {b : Option Hash} {f : List Expense} {t : Time}
    {x : Transaction} :
    trxNow a b f t = .ok x ↔
      (a.map Address.hash).toList ++ b.toList ++ f.map Expense.hash ≠ [] ∧
      x = ⟨fromBytes (hashesBytes ((a.map Address.hash).toList ++ b.toList ++ f.map Expense.hash)),
        a, b, f, t⟩ := by
  have hd : fromMultiBytes (optRow (a.map Address.hash) ++ optRow b ++
      f.map (fun f => f.hash.bytes)) =
      fromBytes (hashesBytes ((a.map Address.hash).toList ++ b.toList ++ f.map Expense.hash)) := by
    have : f.map (fun f => f.hash.bytes) = (f.map Expense.hash).map Hash.bytes := by
      simp [Function.comp_def]
    simp only [fromMultiBytes, List.flatten_append, optRow_flatten, hashesBytes_append, this,
      map_bytes_flatten]
  unfold trxNow
  simp only [hd]
  generalize fromBytes (hashesBytes ((a.map Address.hash).toList ++ b.toList ++
    f.map Expense.hash)) = z
  cases a <;> cases b <;> cases f <;> simp [@eq_comm _ x]

theorem blockNow_eq_ok {g : Option Genesis} {n : UInt64} {x : Option (List Transaction)} {t : Time}
    {b : Block} :
    blockNow g n x t = .ok b ↔ ∃ g' x', g = some g' ∧ x = some x' ∧ x' ≠ [] ∧
      b = ⟨fromBytes (g'.hash.bytes ++ (itoaU n ++ hashesBytes (x'.map Transaction.hash))), g', n,
        x', t⟩ := by
  cases g with
  | none => simp [blockNow]
  | some g =>
    cases x with
    | none => simp [blockNow]
    | some x =>
      simp only [blockNow]
      cases x with
      | nil => simp
      | cons y ys =>
        simp [fromMultiBytes, hashesBytes, Function.comp_def, eq_comm]

theorem minedBlockNow_eq_ok {b : Option Block} {m : Bytes} {t : Time} {r : MinedBlock} :
    minedBlockNow b m t = .ok r ↔ ∃ b', b = some b' ∧
      r = ⟨fromBytes (b'.hash.bytes ++ m), b', m, t⟩ := by
  cases b <;> simp [minedBlockNow, fromMultiBytes, eq_comm]

theorem linkNow_eq_ok {p : Option Hash} {n : Option Block} {i : UInt64} {t : Time} {l : Link} :
    linkNow p n i t = .ok l ↔ ∃ p' n', p = some p' ∧ n = some n' ∧
      l = ⟨fromBytes (p'.bytes ++ (n'.hash.bytes ++ itoaU i)), p', n', i, t⟩ := by
  cases p <;> cases n <;> simp [linkNow, fromMultiBytes, eq_comm]

theorem minedLinkNow_eq_ok {b : Option Link} {m : Bytes} {t : Time} {r : MinedLink} :
    minedLinkNow b m t = .ok r ↔ ∃ b', b = some b' ∧
      r = ⟨fromBytes (b'.hash.bytes ++ m), b', m, t⟩ := by
  cases b <;> simp [minedLinkNow, fromMultiBytes, eq_comm]

theorem chainNow_eq_ok {g : Option Genesis} {r : Option MinedBlock} {h : Option MinedLink}
    {n : UInt64} {t : Time} {c : Chain} :
    chainNow g r h n t = .ok c ↔ ∃ g' r' h', g = some g' ∧ r = some r' ∧ h = some h' ∧
      (r'.block.trx.length + h'.link.next.trx.length) % 2 ^ 64 ≤ n.toNat ∧
      c = ⟨fromBytes (g'.hash.bytes ++ (r'.hash.bytes ++ (h'.hash.bytes ++ itoaU n))), g', r', h', n,
        t⟩ := by
  cases g with
  | none => simp [chainNow]
  | some g =>
    cases r with
    | none => simp [chainNow]
    | some r =>
      cases h with
      | none => simp [chainNow]
      | some h =>
        have hk : (n < UInt64.ofNat (r.block.trx.length + h.link.next.trx.length)) ↔
            ¬ (r.block.trx.length + h.link.next.trx.length) % 2 ^ 64 ≤ n.toNat := by
          rw [UInt64.lt_iff_toNat_lt, UInt64.toNat_ofNat', Nat.not_le]
        simp only [chainNow, hk, ite_not]
        by_cases hle : (r.block.trx.length + h.link.next.trx.length) % 2 ^ 64 ≤ n.toNat
        · rw [if_pos hle]
          have hle' := hle
          norm_num at hle'
          simp [hle', fromMultiBytes, eq_comm]
        · rw [if_neg hle]
          simp only [Option.some.injEq, exists_and_left, exists_eq_left', reduceCtorEq, false_iff]
          exact fun h => hle h.1

theorem stateNow_eq_ok {c p : Option Hash} {n : UInt64} {x : Option (List Transaction)} {t : Time}
    {s : State} :
    stateNow c p n x t = .ok s ↔ ∃ c' p' x', c = some c' ∧ p = some p' ∧ x = some x' ∧
      0 < n.toNat ∧ x' ≠ [] ∧
      s = ⟨fromBytes (c'.bytes ++ (p'.bytes ++ (itoaU n ++ hashesBytes (x'.map Transaction.hash)))),
        c', p', n, x', t⟩ := by
  cases c with
  | none => simp [stateNow]
  | some c =>
    cases p with
    | none => simp [stateNow]
    | some p =>
      simp only [stateNow]
      by_cases h1 : n ≤ 0
      · rw [if_pos h1]
        have : ¬ 0 < n.toNat := fun h' => (UInt64.not_le_zero.mpr h') h1
        simp [this]
      · rw [if_neg h1]
        have h1' := UInt64.not_le_zero.mp h1
        cases x with
        | none => simp
        | some x =>
          cases x with
          | nil => simp
          | cons y ys => simp [h1', fromMultiBytes, hashesBytes, Function.comp_def, eq_comm]

end

end Verif
