import Verif.Spec.Images
import Verif.Model.Host
/-!
# Image files of the host (specification)
-/

namespace Cbm.Spec

/-- How the extension of a disk type can be spelt. -/
def spellings : DiskType → List (List Char)
  | .d64 => [['d', '6', '4'], ['D', '6', '4']]
  | .d71 => [['d', '7', '1'], ['D', '7', '1']]
  | .d81 => [['d', '8', '1'], ['D', '8', '1']]

/-- The path is a directory followed by a name. -/
def Leads (p : Path) (name : List Char) : Prop :=
  ∃ dir, p = dir ++ name ∧ (dir = [] ∨ dir.getLast? = some '/') ∧ '/' ∉ name

/-- The name of the file is a stem that is not empty, a dot, and the extension of the type. -/
def NamedAs (p : Path) (ty : DiskType) : Prop :=
  ∃ stem e, Leads p (stem ++ '.' :: e) ∧ stem ≠ [] ∧ e ∈ spellings ty

/-- The path ends in the name of a file. -/
def NamesFile (p : Path) : Prop := ∃ name, Leads p name ∧ name ≠ [] ∧ name ≠ ['.'] ∧ name ≠ ['.', '.']

/-- A disk of the type, with the bytes and the kind of image. -/
def OpenedAs (ty : DiskType) (kind : ImageKind) (bytes : List Byte) (disk : Disk) : Prop :=
  disk.native = ty.format ∧ disk.dev.image = ⟨kind, bytes⟩ ∧ disk.dev.geometry ∈ ty.geometries ∧
    disk.dev.geometry.size = bytes.length

/-- The kind of map for a file opened for reading only, or for writing too. -/
def mapKind (writable : Bool) : ImageKind := if writable then .readWriteMap else .readOnlyMap

end Cbm.Spec
