import Verif.Model.Block
/-!
# The image sizes (specification)
-/

namespace Cbm.Spec

/-- The image lengths, in bytes, of each disk type: 683 or 768 sectors of 256
bytes (1541), 1366 (1571), 3200 (1581), each without or with one error byte per
sector. -/
def imageSizes : DiskType → List Nat
  | .d64 => [174848, 175531, 196608, 197376]
  | .d71 => [349696, 351062]
  | .d81 => [819200, 822400]

end Cbm.Spec
