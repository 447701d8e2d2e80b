import Verif.Model.Piastres.Expense
import Verif.Model.Piastres.LockLemmas
import Verif.Spec.Crypto

/-!
# Facts about bills, contents and expenses
-/

namespace Verif

theorem UInt64.not_le_zero {a : UInt64} : ¬ a ≤ 0 ↔ 0 < a.toNat := by
  rw [UInt64.le_iff_toNat_le]
  simp

/-- Parsing of preimages `hash ++ number ++ hashes`: numbers are shorter than a hash, so the total
length determines the number of hashes. -/
theorem num_hashes_inj {a b : UInt64} {x y : List Hash}
    (h : itoaU a ++ hashesBytes x = itoaU b ++ hashesBytes y) : a = b ∧ x = y := by
  have la := itoaU_length a
  have lb := itoaU_length b
  have hl := congrArg List.length h
  simp only [List.length_append, hashesBytes_length] at hl
  have hxy : x.length = y.length := by omega
  have hab : (itoaU a).length = (itoaU b).length := by omega
  obtain ⟨h1, h2⟩ := List.append_inj h hab
  exact ⟨itoaU_injective h1, hashesBytes_injective h2⟩

theorem num_inj {a b : UInt64} (h : itoaU a = itoaU b) : a = b := itoaU_injective h

section
variable [Sha512]

theorem billNow_eq_ok {lock : Option Lock} {a : UInt64} {t : Time} {b : Bill} :
    billNow lock a t = .ok b ↔ ∃ l, lock = some l ∧ 0 < a.toNat ∧
      b = ⟨fromBytes (l.hash.bytes ++ itoaU a), l, a, t⟩ := by
  cases lock with
  | none => simp [billNow]
  | some l =>
    simp only [billNow, Option.some.injEq, exists_eq_left']
    split
    · rename_i h
      have : ¬ 0 < a.toNat := fun h' => (UInt64.not_le_zero.mpr h') h
      simp [this]
    · rename_i h
      have := UInt64.not_le_zero.mp h
      simp [this, fromMultiBytes, eq_comm]

theorem billNow_not_crash {lock : Option Lock} {a : UInt64} {t : Time} {c : Crash} :
    billNow lock a t ≠ .crash c := by
  unfold billNow
  cases lock with
  | none => simp
  | some l => simp only; split <;> simp

omit [Sha512] in
theorem sourceTotal_eq (bills : List Bill) :
    (sourceTotal bills).toNat = (bills.map fun b => b.amount.toNat).sum % 2 ^ 64 := by
  have key : ∀ (bills : List Bill) (acc : UInt64),
      (bills.foldl (fun t b => t + b.amount) acc).toNat =
        (acc.toNat + (bills.map fun b => b.amount.toNat).sum) % 2 ^ 64 := by
    intro bills
    induction bills with
    | nil => intro acc; simp
    | cons b bs ih =>
      intro acc
      rw [List.foldl_cons, ih, List.map_cons, List.sum_cons, UInt64.toNat_add]
      rw [Nat.mod_add_mod, Nat.add_assoc]
  simpa [sourceTotal] using key bills 0

/-- The change lock is given exactly when something is left. -/
theorem contentNow_eq_ok {a : UInt64} {source : Option (List Bill)} {lock rem : Option Lock}
    {t : Time} {c : Content} :
    contentNow a source lock rem t = .ok c ↔
      ∃ src l, source = some src ∧ lock = some l ∧ 0 < a.toNat ∧
        a.toNat ≤ (sourceTotal src).toNat ∧
        (rem = none ↔ a.toNat = (sourceTotal src).toNat) ∧
        c = ⟨fromBytes (contentData l a src rem).flatten, src,
          ⟨fromBytes (l.hash.bytes ++ itoaU a), l, a, t⟩,
          rem.map fun r => ⟨fromBytes (r.hash.bytes ++ itoaU (sourceTotal src - a)), r,
            sourceTotal src - a, t⟩, t⟩ := by
  cases source with
  | none => simp [contentNow]
  | some src =>
    cases lock with
    | none => simp [contentNow]
    | some l =>
      simp only [contentNow, Option.some.injEq, exists_eq_left', exists_and_left]
      have hsub : a.toNat ≤ (sourceTotal src).toNat →
          (sourceTotal src - a).toNat = (sourceTotal src).toNat - a.toNat := by
        intro h
        exact UInt64.toNat_sub_of_le _ _ (UInt64.le_iff_toNat_le.mpr h)
      by_cases h1 : a > sourceTotal src
      · rw [if_pos h1]
        have : ¬ a.toNat ≤ (sourceTotal src).toNat := by
          have := UInt64.lt_iff_toNat_lt.mp h1
          omega
        simp [this]
      · rw [if_neg h1]
        have h1' : a.toNat ≤ (sourceTotal src).toNat := by
          rw [gt_iff_lt, UInt64.lt_iff_toNat_lt] at h1
          omega
        have hs := hsub h1'
        have hle : (sourceTotal src - a ≤ 0) ↔ a.toNat = (sourceTotal src).toNat := by
          rw [UInt64.le_iff_toNat_le, hs]
          simp
          omega
        have hgt : (sourceTotal src - a > 0) ↔ a.toNat ≠ (sourceTotal src).toNat := by
          rw [gt_iff_lt, UInt64.lt_iff_toNat_lt, hs]
          simp
          omega
        cases rem with
        | none =>
          simp only [Option.isSome_none, Bool.false_eq_true, false_and, if_false,
            Option.isNone_none, true_and, hgt, ne_eq, ite_not]
          by_cases h2 : a.toNat = (sourceTotal src).toNat
          · rw [if_pos h2]
            cases hb : billNow (some l) a t with
            | ok d =>
              obtain ⟨_, e, h3, rfl⟩ := billNow_eq_ok.mp hb
              cases e
              have h4 : 0 < (sourceTotal src).toNat := h2 ▸ h3
              simp [h2, fromMultiBytes, eq_comm, h4]
            | err m =>
              have : ¬ 0 < a.toNat := by
                intro h3
                have := billNow_eq_ok (t := t).mpr ⟨l, rfl, h3, rfl⟩
                rw [hb] at this
                cases this
              simp [this]
            | crash c' => exact absurd hb billNow_not_crash
          · rw [if_neg h2]
            simp [h2]
        | some r =>
          simp only [Option.isSome_some, true_and, hle, Option.isNone_some, Bool.false_eq_true,
            false_and, if_false]
          by_cases h2 : a.toNat = (sourceTotal src).toNat
          · rw [if_pos h2]
            simp [h2]
          · rw [if_neg h2]
            have hr : billNow (some r) (sourceTotal src - a) t =
                .ok ⟨fromBytes (r.hash.bytes ++ itoaU (sourceTotal src - a)), r,
                  sourceTotal src - a, t⟩ :=
              billNow_eq_ok.mpr ⟨r, rfl, by rw [hs]; omega, rfl⟩
            cases hb : billNow (some l) a t with
            | ok d =>
              obtain ⟨_, e, h3, rfl⟩ := billNow_eq_ok.mp hb
              cases e
              simp [h3, h1', h2, fromMultiBytes, eq_comm, hr]
            | err m =>
              have : ¬ 0 < a.toNat := by
                intro h3
                have := billNow_eq_ok (t := t).mpr ⟨l, rfl, h3, rfl⟩
                rw [hb] at this
                cases this
              simp [this]
            | crash c' => exact absurd hb billNow_not_crash

omit [Sha512] in
theorem contentData_flatten (l : Lock) (a : UInt64) (src : List Bill) (rem : Option Lock) :
    (contentData l a src rem).flatten = l.hash.bytes ++ (itoaU a ++
      hashesBytes (src.map Bill.hash ++ (rem.map Lock.hash).toList)) := by
  cases rem <;>
    simp [contentData, hashesBytes, List.map_map, Function.comp_def]

omit [Sha512] in
theorem contentData_length (l : Lock) (a : UInt64) (src : List Bill) (rem : Option Lock) :
    64 < (contentData l a src rem).flatten.length := by
  rw [contentData_flatten]
  have := itoaU_length a
  have := l.hash.len
  simp only [List.length_append]
  omega

variable [C : Curve]

theorem unlockAll_eq_ok : ∀ {bills : List Bill} {sigs : List RingSignature},
    bills.length = sigs.length → (unlockAll bills sigs = .ok () ↔
      List.Forall₂ (fun b s => b.lock.unlock s = .ok ()) bills sigs)
  | [], [], _ => by simp [unlockAll]
  | [], _ :: _, h => by simp at h
  | _ :: _, [], h => by simp at h
  | b :: bs, s :: ss, h => by
    have ih := unlockAll_eq_ok (bills := bs) (sigs := ss) (by simpa using h)
    unfold unlockAll
    cases hu : b.lock.unlock s with
    | ok u => cases u; simp [hu, ih]
    | err m => simp [hu]
    | crash c => simp [hu]

theorem expenseNow_eq_ok {c : Option Content} {sigs : Option (List RingSignature)} {e : Expense} :
    expenseNow c sigs = .ok e ↔ ∃ cn sg, c = some cn ∧ sigs = some sg ∧
      List.Forall₂ (fun b s => b.lock.unlock s = .ok ()) cn.source sg ∧
      e = ⟨fromBytes (cn.hash.bytes ++ (sg.map RingSignature.str).flatten), cn, sg,
        cn.createdOn⟩ := by
  cases c with
  | none => simp [expenseNow]
  | some cn =>
    cases sigs with
    | none => simp [expenseNow]
    | some sg =>
      simp only [expenseNow, Option.some.injEq, exists_eq_left', exists_and_left]
      by_cases hl : sg.length = cn.source.length
      · rw [if_neg (by simpa using hl)]
        have h := unlockAll_eq_ok hl.symm
        cases hu : unlockAll cn.source sg with
        | ok u =>
          cases u
          simp [h.mp hu, fromMultiBytes, eq_comm]
        | err m =>
          have : ¬ List.Forall₂ (fun b s => b.lock.unlock s = .ok ()) cn.source sg := by
            rw [← h, hu]; simp
          simp [this]
        | crash m =>
          have : ¬ List.Forall₂ (fun b s => b.lock.unlock s = .ok ()) cn.source sg := by
            rw [← h, hu]; simp
          simp [this]
      · rw [if_pos (by simpa using hl)]
        have : ¬ List.Forall₂ (fun b s => b.lock.unlock s = .ok ()) cn.source sg :=
          fun h => hl h.length_eq.symm
        simp [this]

end

end Verif
