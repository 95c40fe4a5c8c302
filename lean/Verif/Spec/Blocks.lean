import Verif.Spec.Special
/-!
# The blocks of a file of any kind (specification)
-/

namespace Cbm.Spec

/-- The file of the entry is in order, and these are its blocks. -/
inductive FileBlocks (d : Device) (s : Shape) (e : DirectoryEntry) : List Location → Prop
  | linear {data content} : e.scheme = .linear → data.head? = some e.firstSector → IsChain d s data content →
      FileBlocks d s e data
  | relative {data side} : e.scheme = .relative → RelativeBlocks d s e data side → FileBlocks d s e (data ++ side)
  | sequential {data info} : e.scheme = .geosSequential → SequentialBlocks d s e data info →
      FileBlocks d s e (data ++ info)
  | vlir {info chains} : e.scheme = .geosVLIR → VlirBlocks d s e info chains →
      FileBlocks d s e (e.firstSector :: info ++ chains.flatten)

end Cbm.Spec
