import Verif.Model.Files

/-!
# Relative paths that stay below a directory

Independent of how paths are cleaned: the elements of a path text that go up and those that go down are
counted.
-/

namespace Verif

/-- How many elements go up. -/
def goesUp (l : List Bytes) : Nat := l.count [46, 46]

/-- How many elements go down: all but the empty one, `.` and `..`. -/
def goesDown (l : List Bytes) : Nat := l.countP fun n => n ≠ [] ∧ n ≠ [46] ∧ n ≠ [46, 46]

/-- After no number of elements has the path gone up more often than down. -/
def StaysBelow (rel : Bytes) : Prop :=
  ∀ k, goesUp ((splitOn 47 rel).take k) ≤ goesDown ((splitOn 47 rel).take k)

end Verif
