import Verif.Model.Piastres.Lock
import Verif.Model.SigLemmas

/-!
# Facts about locks
-/

namespace Verif

theorem mem_mapKeys {l : List Hash} {h : Hash} : h.str ∈ mapKeys l ↔ h ∈ l := by
  simp [mapKeys, Hash.str_injective.eq_iff]

theorem mapKeys_length_iff {l : List Hash} : (mapKeys l).length = l.length ↔ l.Nodup := by
  have h1 : (mapKeys l).length = l.length ↔ (l.map Hash.str).Nodup := by
    rw [← List.dedup_eq_self]
    constructor
    · intro h
      exact (List.dedup_sublist _).eq_of_length (by simpa [mapKeys] using h)
    · intro h
      unfold mapKeys
      rw [h, List.length_map]
  rw [h1, List.nodup_map_iff Hash.str_injective]

section
variable [Sha512]

theorem lockNow_eq_ok {keys : Option (List Hash)} {t : Time} {l : Lock} :
    lockNow keys t = .ok l ↔
      ∃ ks, keys = some ks ∧ ks ≠ [] ∧ ks.Nodup ∧ l = ⟨fromBytes (hashesBytes ks), ks, t⟩ := by
  cases keys with
  | none => simp [lockNow]
  | some ks =>
    simp only [lockNow, Option.some.injEq, exists_eq_left']
    by_cases h1 : ks = []
    · simp [h1]
    · have : ¬ ks.length ≤ 0 := by
        simpa using h1
      rw [if_neg this]
      by_cases h2 : ks.Nodup
      · have h3 := mapKeys_length_iff.mpr h2
        rw [if_neg (by simpa using h3)]
        simp [h1, h2, fromMultiBytes, hashesBytes, eq_comm]
      · have h3 : (mapKeys ks).length ≠ ks.length := fun h => h2 (mapKeys_length_iff.mp h)
        rw [if_pos h3]
        simp [h2]

theorem lockNow_not_crash {keys : Option (List Hash)} {t : Time} {c : Crash} :
    lockNow keys t ≠ .crash c := by
  unfold lockNow
  cases keys with
  | none => simp
  | some ks => simp only; split <;> [simp; (split <;> simp)]

variable [C : Curve]

/-- The hash `Unlock` computes for a ring member (`locks/lock.go:74`). -/
def ringKey (p : C.Pt) : Hash := fromBytes (ptStr p)

theorem ringKey_bytes (p : C.Pt) : (ringKey p).bytes = ptStr p := by
  simp [ringKey, fromBytes_of_len (ptStr_length p)]

theorem ringKey_injective : Function.Injective (ringKey (C := C)) := by
  intro p q h
  apply ptStr_injective (C := C)
  rw [← ringKey_bytes, ← ringKey_bytes, h]

theorem unlockLoop_eq_ok {mp : List Bytes} : ∀ {ring : List C.Pt} {acc r : List Bytes},
    acc.Nodup → (∀ k ∈ acc, k ∈ mp) → unlockLoop mp ring acc = .ok r →
      (∀ p ∈ ring, (ringKey p).str ∈ mp) ∧ r.Nodup ∧ (∀ k ∈ r, k ∈ mp) ∧
      ∀ k, k ∈ r ↔ k ∈ acc ∨ ∃ p ∈ ring, (ringKey p).str = k
  | [], acc, r, h1, h2, h => by
    simp only [unlockLoop, Outcome.ok.injEq] at h
    subst h
    exact ⟨by simp, h1, h2, by simp⟩
  | p :: ps, acc, r, h1, h2, h => by
    unfold unlockLoop at h
    simp only at h
    split at h
    · cases h
    · rename_i hk
      rw [not_not] at hk
      by_cases hm : (fromBytes (ptStr p)).str ∈ acc
      · rw [if_pos hm] at h
        obtain ⟨a1, a2, a3, a4⟩ := unlockLoop_eq_ok h1 h2 h
        refine ⟨?_, a2, a3, ?_⟩
        · intro q hq
          rcases List.mem_cons.mp hq with rfl | hq
          · exact hk
          · exact a1 q hq
        · intro k
          rw [a4]
          constructor
          · rintro (h | ⟨q, hq, rfl⟩)
            · exact .inl h
            · exact .inr ⟨q, by simp [hq], rfl⟩
          · rintro (h | ⟨q, hq, rfl⟩)
            · exact .inl h
            · rcases List.mem_cons.mp hq with rfl | hq
              · exact .inl hm
              · exact .inr ⟨q, hq, rfl⟩
      · rw [if_neg hm] at h
        obtain ⟨a1, a2, a3, a4⟩ := unlockLoop_eq_ok (List.nodup_cons.mpr ⟨hm, h1⟩) (by
          intro k hk'
          rcases List.mem_cons.mp hk' with rfl | hk'
          · exact hk
          · exact h2 k hk') h
        refine ⟨?_, a2, a3, ?_⟩
        · intro q hq
          rcases List.mem_cons.mp hq with rfl | hq
          · exact hk
          · exact a1 q hq
        · intro k
          rw [a4]
          constructor
          · rintro (h | ⟨q, hq, rfl⟩)
            · rcases List.mem_cons.mp h with rfl | h
              · exact .inr ⟨p, by simp, rfl⟩
              · exact .inl h
            · exact .inr ⟨q, by simp [hq], rfl⟩
          · rintro (h | ⟨q, hq, rfl⟩)
            · exact .inl (by simp [h])
            · rcases List.mem_cons.mp hq with rfl | hq
              · exact .inl (by simp [ringKey])
              · exact .inr ⟨q, hq, rfl⟩

theorem unlockLoop_ok_of {mp : List Bytes} : ∀ {ring : List C.Pt} {acc : List Bytes},
    (∀ p ∈ ring, (ringKey p).str ∈ mp) → ∃ r, unlockLoop mp ring acc = .ok r
  | [], acc, _ => ⟨acc, rfl⟩
  | p :: ps, acc, h => by
    unfold unlockLoop
    have hp : (fromBytes (ptStr p)).str ∈ mp := h p (by simp)
    simp only [hp, not_true_eq_false, if_false]
    exact unlockLoop_ok_of fun q hq => h q (by simp [hq])

theorem unlockLoop_not_crash {mp : List Bytes} {c : Crash} : ∀ {ring : List C.Pt} {acc : List Bytes},
    unlockLoop mp ring acc ≠ .crash c
  | [], acc => by simp [unlockLoop]
  | p :: ps, acc => by
    unfold unlockLoop
    simp only
    split
    · simp
    · exact unlockLoop_not_crash

theorem unlock_eq_ok {l : Lock} {sig : RingSignature} :
    l.unlock sig = .ok () ↔
      (∀ h, h ∈ l.pubKeys ↔ ∃ p ∈ sig.ring, ringKey p = h) ∧ sig.verify l.hash.str = .ok true := by
  have hmp : l.mpKeys.Nodup := List.nodup_dedup _
  constructor
  · intro h
    unfold Lock.unlock at h
    split at h
    · cases h
    · cases h
    · rename_i r hr
      obtain ⟨a1, a2, a3, a4⟩ := unlockLoop_eq_ok (by simp) (by simp) hr
      split at h
      · cases h
      · rename_i hl
        rw [not_not] at hl
        have hperm : ∀ k, k ∈ r ↔ k ∈ l.mpKeys := by
          have hsub : r.Subperm l.mpKeys := List.Nodup.subperm a2 a3
          have : r.Perm l.mpKeys := hsub.perm_of_length_le (by omega)
          exact fun k => this.mem_iff
        have hv : sig.verify l.hash.str = .ok true := by
          split at h
          · cases h
          · cases h
          · cases h
          · assumption
        refine ⟨fun k => ?_, hv⟩
        rw [← mem_mapKeys (l := l.pubKeys) (h := k)]
        change k.str ∈ l.mpKeys ↔ _
        rw [← hperm, a4]
        simp [Hash.str_injective.eq_iff]
  · rintro ⟨h, hv⟩
    have hin : ∀ p ∈ sig.ring, (ringKey p).str ∈ l.mpKeys := by
      intro p hp
      exact mem_mapKeys.mpr ((h _).mpr ⟨p, hp, rfl⟩)
    obtain ⟨r, hr⟩ := unlockLoop_ok_of (acc := []) hin
    obtain ⟨a1, a2, a3, a4⟩ := unlockLoop_eq_ok (by simp) (by simp) hr
    have hlen : r.length = l.mpKeys.length := by
      apply List.Perm.length_eq
      rw [List.perm_ext_iff_of_nodup a2 hmp]
      intro k
      refine ⟨a3 k, fun hk => ?_⟩
      have hk' : ∃ x ∈ l.pubKeys, x.str = k := by
        simpa [Lock.mpKeys, mapKeys] using hk
      obtain ⟨x, hx, rfl⟩ := hk'
      obtain ⟨p, hp, rfl⟩ := (h x).mp hx
      exact (a4 _).mpr (.inr ⟨p, hp, rfl⟩)
    unfold Lock.unlock
    rw [hr]
    simp only [hlen, ne_eq, not_true_eq_false, if_false, hv]

end

end Verif
