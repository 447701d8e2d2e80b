import Verif.Model.Hash
import Verif.Model.Piastres.Lock

/-!
# Model of `libs/entities`

`now` arguments are what the clock shows when it is read; nothing is assumed about them, in
particular a later reading can be smaller (`UTC()` drops the monotonic reading).
-/

namespace Verif

/-- `immutable.go:9-12`. -/
structure Immutable where
  hash : Hash
  createdOn : Time
  deriving DecidableEq

/-- `immutable_builder.go:10-13`. -/
structure ImmutableBuilder where
  hash : Option Hash := none
  createdOn : Option Time := none

/-- `immutable_builder.go:42-53` (`Now`): the result, and the builder afterwards. -/
def ImmutableBuilder.now (b : ImmutableBuilder) (now : Time) :
    Outcome Immutable × ImmutableBuilder :=
  match b.hash with
  | none => (.err "the hash is mandatory in order to build an Immutable instance", b)
  | some h =>
    let createdOn := b.createdOn.getD now
    (.ok ⟨h, createdOn⟩, { b with createdOn := some createdOn })

/-- `mutable.go:9-13`. -/
structure Mutable where
  hash : Hash
  createdOn : Time
  lastUpdatedOn : Time
  deriving DecidableEq

/-- `mutable_builder.go:11-15`. -/
structure MutableBuilder where
  hash : Option Hash := none
  createdOn : Option Time := none
  lastUpdatedOn : Option Time := none

/-- `mutable_builder.go:51-72` (`Now`): the result, and the builder afterwards; `now₁` and `now₂`
are the two readings of the clock. -/
def MutableBuilder.now (b : MutableBuilder) (now₁ now₂ : Time) : Outcome Mutable × MutableBuilder :=
  match b.hash with
  | none => (.err "the hash is mandatory in order to build a Mutable instance", b)
  | some h =>
    let createdOn := b.createdOn.getD now₁
    let lastUpdatedOn := b.lastUpdatedOn.getD now₂
    let b := { b with createdOn := some createdOn, lastUpdatedOn := some lastUpdatedOn }
    if createdOn > lastUpdatedOn then
      (.err "the creation time cannot be after the lastUpdated time", b)
    else (.ok ⟨h, createdOn, lastUpdatedOn⟩, b)

end Verif
