import Verif.Model.Sha2Object

/-!
# What hash objects are for: C167
-/

namespace Verif

/-- The texts whose hashes are asked for: what was written since the last reset. -/
def textsAsked : Bytes → List Sha2.Call → List Bytes
  | _, [] => []
  | _, .reset :: l => textsAsked [] l
  | t, .write p :: l => textsAsked (t ++ p) l
  | t, .sum :: l => t :: textsAsked t l

end Verif
