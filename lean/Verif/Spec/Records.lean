import Verif.Model.Error
/-!
# Records (specification)
-/

namespace Cbm.Spec

/-- The answer to a request for a record tells that there is no such record. -/
def NoSuchRecord (r : Res (List Byte)) : Prop := r = fail .invalidRecord ∨ r = fail .invalidRecordIndex

end Cbm.Spec
