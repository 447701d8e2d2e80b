import Verif.Model.Entities

/-!
# Entities: C57
-/

namespace Verif

/-- C57: every mutable entity built has the hash given, its creation time is the given one or the
clock's, its last update time likewise, and the creation time is not after the last update time;
building fails exactly when the hash is missing or the times are out of order. -/
theorem C57_mutable_times_ordered (b : MutableBuilder) (now₁ now₂ : Time) (m : Mutable) :
    (b.now now₁ now₂).1 = .ok m ↔ b.hash = some m.hash ∧
      (b.createdOn = some m.createdOn ∨ (b.createdOn = none ∧ now₁ = m.createdOn)) ∧
      (b.lastUpdatedOn = some m.lastUpdatedOn ∨ (b.lastUpdatedOn = none ∧ now₂ = m.lastUpdatedOn)) ∧
      m.createdOn ≤ m.lastUpdatedOn := by
  obtain ⟨h, c, l⟩ := b
  obtain ⟨mh, mc, ml⟩ := m
  cases h with
  | none => simp [MutableBuilder.now]
  | some h =>
    cases c <;> cases l <;> simp only [MutableBuilder.now, Option.getD] <;> split <;>
      rename_i hlt <;> simp <;> first
        | (intro _ h1 h2; subst h1 h2; exact hlt)
        | (intro _ h1 h2; subst h1 h2; exact Int.not_lt.mp hlt)

/-- C57: building never panics, and fails exactly when the hash is missing or the times are out of
order. In particular with both times defaulted it fails exactly when the clock went backwards
between its two readings. -/
theorem C57_mutable_fails_iff (b : MutableBuilder) (now₁ now₂ : Time) :
    ((∃ e, (b.now now₁ now₂).1 = .err e) ↔ b.hash = none ∨
      ∃ c l, (b.createdOn = some c ∨ (b.createdOn = none ∧ now₁ = c)) ∧
        (b.lastUpdatedOn = some l ∨ (b.lastUpdatedOn = none ∧ now₂ = l)) ∧ l < c) ∧
    ∀ x, (b.now now₁ now₂).1 ≠ .crash x := by
  obtain ⟨h, c, l⟩ := b
  cases h with
  | none => simp [MutableBuilder.now]
  | some h =>
    cases c <;> cases l <;> simp only [MutableBuilder.now, Option.getD] <;> split <;>
      simp_all

/-- C57: a builder remembers the times it took from the clock: building again, at whatever time,
gives the same result. -/
theorem C57_builder_remembers (b : MutableBuilder) (now₁ now₂ now₃ now₄ : Time) :
    ((b.now now₁ now₂).2.now now₃ now₄).1 = (b.now now₁ now₂).1 := by
  obtain ⟨h, c, l⟩ := b
  cases h with
  | none => rfl
  | some h =>
    by_cases hlt : l.getD now₂ < c.getD now₁
    · simp [MutableBuilder.now, hlt]
    · simp [MutableBuilder.now, hlt]

/-- C57 for immutable entities: building fails exactly without hash. -/
theorem C57_immutable (b : ImmutableBuilder) (now : Time) (m : Immutable) :
    (b.now now).1 = .ok m ↔ b.hash = some m.hash ∧
      (b.createdOn = some m.createdOn ∨ (b.createdOn = none ∧ now = m.createdOn)) := by
  obtain ⟨h, c⟩ := b
  obtain ⟨mh, mc⟩ := m
  cases h <;> cases c <;> simp [ImmutableBuilder.now]

/-- C57: building again with the same builder gives the same entity, whatever the clock shows. -/
theorem C57_immutable_builder_remembers (b : ImmutableBuilder) (now now' : Time) :
    ((b.now now).2.now now').1 = (b.now now).1 := by
  obtain ⟨h, c⟩ := b
  cases h <;> simp [ImmutableBuilder.now]

section examples

/-- A hash. -/
def exHash : Hash := ⟨List.replicate 64 7, rfl⟩

/-- C57: a given creation time 3, and a clock at 5: the update time is 5. -/
example : (MutableBuilder.now { hash := some exHash, createdOn := some 3 } 4 5).1 =
    .ok ⟨exHash, 3, 5⟩ := rfl

/-- C57: a creation time in the future is refused. -/
example : (MutableBuilder.now { hash := some exHash, createdOn := some 9 } 4 5).1 =
    .err "the creation time cannot be after the lastUpdated time" := rfl

/-- C57: so is a clock that goes backwards. -/
example : (MutableBuilder.now { hash := some exHash } 5 4).1 =
    .err "the creation time cannot be after the lastUpdated time" := rfl

/-- C57: an immutable entity. -/
example : (ImmutableBuilder.now { hash := some exHash } 5).1 = .ok ⟨exHash, 5⟩ := rfl

end examples

end Verif
