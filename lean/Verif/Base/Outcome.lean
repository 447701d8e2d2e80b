import Mathlib.Tactic.Common
import Mathlib.Data.List.Forall2

/-!
# Results of Go calls

A Go function returning `(T, error)` is modelled by `Outcome T`.  The third case records that the
process (or goroutine) dies instead of returning.
-/

namespace Verif

universe u v

/-- Why a Go call does not return at all. -/
inductive Crash where
  | nilDeref
  | indexOutOfRange
  | stackOverflow
  | divideByZero
  | invalidArgument
  deriving DecidableEq, Repr

/-- Result of a Go call: `return v, nil`, `return nil, err`, or a run-time panic / fatal error. -/
inductive Outcome (α : Type u) where
  | ok (a : α)
  | err (msg : String)
  | crash (c : Crash)
  deriving DecidableEq, Repr

namespace Outcome

variable {α : Type u} {β : Type v} {γ : Type v}

/-- `if err != nil { return nil, err }` chaining. -/
def bind (x : Outcome α) (f : α → Outcome β) : Outcome β :=
  match x with
  | ok a => f a
  | err m => err m
  | crash c => crash c

instance : Monad Outcome where
  pure := ok
  bind := bind

/-- Did the call return a nil error? -/
def isOk : Outcome α → Bool
  | ok _ => true
  | _ => false

/-- Did the call return an error value? -/
def isErr : Outcome α → Bool
  | err _ => true
  | _ => false

/-- Did the call crash? -/
def isCrash : Outcome α → Bool
  | crash _ => true
  | _ => false

@[simp] theorem pure_def (a : α) : (pure a : Outcome α) = ok a := rfl
@[simp] theorem bind_ok {α β : Type u} (a : α) (f : α → Outcome β) : (ok a >>= f) = f a := rfl
@[simp] theorem bind_err {α β : Type u} (m : String) (f : α → Outcome β) :
    ((err m : Outcome α) >>= f) = err m := rfl
@[simp] theorem bind_crash {α β : Type u} (c : Crash) (f : α → Outcome β) :
    ((crash c : Outcome α) >>= f) = crash c := rfl

theorem bind_eq_ok {α β : Type u} {x : Outcome α} {f : α → Outcome β} {b : β} :
    (x >>= f) = ok b ↔ ∃ a, x = ok a ∧ f a = ok b := by
  cases x <;> simp

@[simp] theorem isOk_ok (a : α) : (ok a).isOk = true := rfl
@[simp] theorem isOk_err (m : String) : (err m : Outcome α).isOk = false := rfl
@[simp] theorem isOk_crash (c : Crash) : (crash c : Outcome α).isOk = false := rfl
@[simp] theorem isErr_ok (a : α) : (ok a).isErr = false := rfl
@[simp] theorem isErr_err (m : String) : (err m : Outcome α).isErr = true := rfl
@[simp] theorem isErr_crash (c : Crash) : (crash c : Outcome α).isErr = false := rfl
@[simp] theorem isCrash_ok (a : α) : (ok a).isCrash = false := rfl
@[simp] theorem isCrash_err (m : String) : (err m : Outcome α).isCrash = false := rfl
@[simp] theorem isCrash_crash (c : Crash) : (crash c : Outcome α).isCrash = true := rfl

theorem isOk_iff {x : Outcome α} : x.isOk = true ↔ ∃ a, x = ok a := by
  cases x <;> simp

/-- A failing guard `if b { return nil, errors.New(m) }`. -/
def guardNot (b : Bool) (m : String) : Outcome Unit := if b then err m else ok ()

@[simp] theorem guardNot_true (m : String) : guardNot true m = err m := rfl
@[simp] theorem guardNot_false (m : String) : guardNot false m = ok () := rfl

theorem guardNot_eq_ok {b : Bool} {m : String} {u : Unit} : guardNot b m = ok u ↔ b = false := by
  cases b <;> simp

theorem guardNot_bind_eq_ok {β : Type} {b : Bool} {m : String} {f : Unit → Outcome β} {y : β} :
    (guardNot b m >>= f) = ok y ↔ b = false ∧ f () = ok y := by
  cases b <;> simp

/-- Use of a pointer / interface that may be nil: nil panics. -/
def deref : Option α → Outcome α
  | some a => ok a
  | none => crash .nilDeref

@[simp] theorem deref_some (a : α) : deref (some a) = ok a := rfl
@[simp] theorem deref_none : deref (none : Option α) = crash .nilDeref := rfl

/-- A mandatory builder field: nil is reported as an error. -/
def require (m : String) : Option α → Outcome α
  | some a => ok a
  | none => err m

@[simp] theorem require_some (m : String) (a : α) : require m (some a) = ok a := rfl
@[simp] theorem require_none (m : String) : require m (none : Option α) = err m := rfl

theorem require_eq_ok {m : String} {x : Option α} {a : α} : require m x = ok a ↔ x = some a := by
  cases x <;> simp

end Outcome

/-- `if x != nil { y, err := f(x); ... }` on an optional value. -/
def optO {α : Type u} {β : Type v} (f : α → Outcome β) : Option α → Outcome (Option β)
  | none => .ok none
  | some a =>
    match f a with
    | .ok b => .ok (some b)
    | .err m => .err m
    | .crash c => .crash c

@[simp] theorem optO_none {α : Type u} {β : Type v} (f : α → Outcome β) :
    optO f none = .ok none := rfl

theorem optO_eq_ok {α : Type u} {β : Type v} {f : α → Outcome β} {x : Option α} {y : Option β} :
    optO f x = .ok y ↔ (x = none ∧ y = none) ∨ ∃ a b, x = some a ∧ y = some b ∧ f a = .ok b := by
  cases x with
  | none => simp [optO, eq_comm]
  | some a =>
    cases h : f a <;> simp [optO, h, eq_comm]

/-- A Go loop `for _, x := range xs { y, err := f(x); if err != nil { return nil, err };
out = append(out, y) }`. -/
def mapO {α : Type u} {β : Type v} (f : α → Outcome β) : List α → Outcome (List β)
  | [] => .ok []
  | x :: xs =>
    match f x with
    | .ok y =>
      match mapO f xs with
      | .ok ys => .ok (y :: ys)
      | .err m => .err m
      | .crash c => .crash c
    | .err m => .err m
    | .crash c => .crash c

@[simp] theorem mapO_nil {α : Type u} {β : Type v} (f : α → Outcome β) : mapO f [] = .ok [] := rfl

theorem mapO_eq_ok {α : Type u} {β : Type v} {f : α → Outcome β} :
    ∀ {xs : List α} {ys : List β}, mapO f xs = .ok ys ↔ List.Forall₂ (fun x y => f x = .ok y) xs ys
  | [], ys => by
      cases ys <;> simp
  | x :: xs, ys => by
      have ih := @mapO_eq_ok α β f xs
      unfold mapO
      cases hx : f x with
      | ok y =>
        cases hxs : mapO f xs with
        | ok zs =>
          cases ys with
          | nil => simp
          | cons y' ys' =>
            have := @ih ys'
            rw [hxs] at this
            simp [hx, ← this]
        | err m =>
          cases ys with
          | nil => simp
          | cons y' ys' =>
            have := @ih ys'
            rw [hxs] at this
            simp [← this]
        | crash m =>
          cases ys with
          | nil => simp
          | cons y' ys' =>
            have := @ih ys'
            rw [hxs] at this
            simp [← this]
      | err m => cases ys <;> simp [hx]
      | crash m => cases ys <;> simp [hx]

/-- If every element succeeds with a known value the loop returns the list of these values. -/
theorem mapO_ok_of {α : Type u} {β : Type v} {f : α → Outcome β} {g : α → β} {xs : List α}
    (h : ∀ x ∈ xs, f x = .ok (g x)) : mapO f xs = .ok (xs.map g) := by
  rw [mapO_eq_ok]
  induction xs with
  | nil => simp
  | cons x xs ih =>
    simp only [List.map_cons, List.forall₂_cons]
    exact ⟨h x (by simp), ih fun y hy => h y (by simp [hy])⟩

theorem mapO_length {α : Type u} {β : Type v} {f : α → Outcome β} {xs : List α} {ys : List β}
    (h : mapO f xs = .ok ys) : ys.length = xs.length :=
  ((mapO_eq_ok.mp h).length_eq).symm

theorem mapO_mem_right {α : Type u} {β : Type v} {f : α → Outcome β} :
    ∀ {xs : List α} {ys : List β}, mapO f xs = .ok ys → ∀ y ∈ ys, ∃ x ∈ xs, f x = .ok y := by
  intro xs ys h
  rw [mapO_eq_ok] at h
  induction h with
  | nil => simp
  | cons h1 _ ih =>
    intro y hy
    simp only [List.mem_cons] at hy
    rcases hy with rfl | hy
    · exact ⟨_, by simp, h1⟩
    · obtain ⟨x, hx, hxy⟩ := ih y hy
      exact ⟨x, by simp [hx], hxy⟩

theorem mapO_mem_left {α : Type u} {β : Type v} {f : α → Outcome β} :
    ∀ {xs : List α} {ys : List β}, mapO f xs = .ok ys → ∀ x ∈ xs, ∃ y ∈ ys, f x = .ok y := by
  intro xs ys h
  rw [mapO_eq_ok] at h
  induction h with
  | nil => simp
  | cons h1 _ ih =>
    intro y hy
    simp only [List.mem_cons] at hy
    rcases hy with rfl | hy
    · exact ⟨_, by simp, h1⟩
    · obtain ⟨x, hx, hxy⟩ := ih y hy
      exact ⟨x, by simp [hx], hxy⟩

end Verif
