import Verif.Base.Bytes

/-!
# `strings.Split` and `strings.Join` with a one-byte separator
-/

namespace Verif

/-- `strings.Split(s, string(sep))` for a one-byte separator; never empty. -/
def splitOn (sep : UInt8) : Bytes → List Bytes
  | [] => [[]]
  | c :: cs =>
    if c = sep then [] :: splitOn sep cs
    else
      match splitOn sep cs with
      | [] => [[c]]
      | p :: ps => (c :: p) :: ps

/-- `strings.Join(parts, string(sep))`. -/
def joinWith (sep : UInt8) : List Bytes → Bytes
  | [] => []
  | [p] => p
  | p :: q :: ps => p ++ sep :: joinWith sep (q :: ps)

theorem splitOn_ne_nil (sep : UInt8) : ∀ s, splitOn sep s ≠ []
  | [] => by simp [splitOn]
  | c :: cs => by
    unfold splitOn
    split
    · simp
    · split <;> simp

theorem splitOn_of_not_mem {sep : UInt8} : ∀ {s : Bytes}, sep ∉ s → splitOn sep s = [s]
  | [], _ => rfl
  | c :: cs, h => by
    simp only [List.mem_cons, not_or] at h
    have := splitOn_of_not_mem h.2
    simp [splitOn, Ne.symm h.1, this]

theorem splitOn_append {sep : UInt8} : ∀ {p : Bytes} (s : Bytes), sep ∉ p →
    splitOn sep (p ++ sep :: s) = p :: splitOn sep s
  | [], s, _ => by simp [splitOn]
  | c :: cs, s, h => by
    simp only [List.mem_cons, not_or] at h
    have := splitOn_append (sep := sep) s h.2
    simp [splitOn, Ne.symm h.1, this]

theorem splitOn_append_sep (sep : UInt8) (s : Bytes) : ∀ p : Bytes,
    splitOn sep (p ++ sep :: s) = splitOn sep p ++ splitOn sep s
  | [] => by simp [splitOn]
  | c :: cs => by
    have ih := splitOn_append_sep sep s cs
    simp only [List.cons_append, splitOn]
    split
    · rw [ih]; rfl
    · rw [ih]
      cases h : splitOn sep cs with
      | nil => exact absurd h (splitOn_ne_nil sep cs)
      | cons p ps => rfl

/-- Splitting a join of separator-free parts returns the parts (for a non-empty list). -/
theorem splitOn_joinWith {sep : UInt8} : ∀ {ps : List Bytes}, ps ≠ [] → (∀ p ∈ ps, sep ∉ p) →
    splitOn sep (joinWith sep ps) = ps
  | [], h, _ => absurd rfl h
  | [p], _, hp => splitOn_of_not_mem (hp p (by simp))
  | p :: q :: ps, _, hp => by
    have := splitOn_joinWith (sep := sep) (ps := q :: ps) (by simp)
      (fun r hr => hp r (List.mem_cons_of_mem _ hr))
    rw [joinWith, splitOn_append _ (hp p (by simp)), this]

theorem joinWith_splitOn (sep : UInt8) : ∀ s, joinWith sep (splitOn sep s) = s
  | [] => rfl
  | c :: cs => by
    have ih := joinWith_splitOn sep cs
    unfold splitOn
    split
    · rename_i h
      subst h
      cases hs : splitOn c cs with
      | nil => exact absurd hs (splitOn_ne_nil c cs)
      | cons p ps => rw [hs] at ih; simp [joinWith, ih]
    · cases hs : splitOn sep cs with
      | nil => exact absurd hs (splitOn_ne_nil sep cs)
      | cons p ps =>
        rw [hs] at ih
        cases ps with
        | nil => simpa [joinWith] using ih
        | cons q qs => simpa [joinWith] using ih

theorem splitOn_parts_clean (sep : UInt8) : ∀ s, ∀ p ∈ splitOn sep s, sep ∉ p
  | [] => by simp [splitOn]
  | c :: cs => by
    have ih := splitOn_parts_clean sep cs
    unfold splitOn
    split
    · simpa using ih
    · rename_i hc
      split
      · simp [Ne.symm hc]
      · rename_i p ps hs
        rw [hs] at ih
        simp only [List.forall_mem_cons] at ih ⊢
        exact ⟨by simp [Ne.symm hc, ih.1], ih.2⟩

end Verif
