import Verif.Spec.Store
import Verif.Spec.Ready
import Verif.Spec.Format
/-!
# What a program sees of a disk (specification)

`Shows` compares everything a program can ask with what the abstract store says.
`Reaches` describes the states a program gets into when it takes a disk that holds
ordinary files and then makes calls within the contract of `Store.step`.
-/

namespace Cbm.Spec

/-- Reading the file to its end gives the content, whatever buffer sizes are used; and
so does asking for the only record. -/
def Reads (d : Device) (f : File) (content : List Byte) : Prop :=
  f.record d 0 = .ok content ∧ ∃ reader, f.reader = .ok reader ∧ ∀ sizes : List Nat, (∀ k ∈ sizes, 0 < k) →
    content.length < sizes.length → (reader.readToEnd d sizes).1 = .ok content

/-- Opening the file of that name and reading it to its end gives the content. -/
def ReadsName (disk : Disk) (name : List Byte) (content : List Byte) : Prop :=
  ∃ f r, disk.openFile name = .ok (f, r) ∧ Reads disk.dev f content

/-- Reading through a handle obtained earlier gives the content. -/
def ReadsHandle (x : Session) (h : Nat) (content : List Byte) : Prop :=
  ∃ f r, x.files[h]? = some (f, r) ∧ Reads x.disk.dev f content

/-- The directory as a program sees it: name, attribute byte and block count of every
entry. -/
def Lists (disk : Disk) (lines : List (List Byte × Byte × Nat)) : Prop :=
  ∃ entries, disk.directory = .ok entries ∧
    entries.map (fun e => (e.filename, e.attributes.toByte, e.fileSize)) = lines

/-- Everything a program can ask is answered as the store says: the disk name and id,
the directory, the free blocks, the contents of the files by name and by handle;
and the disk validates. -/
structure Shows (x : Session) (a : Store) : Prop where
  name : x.disk.name = some a.label.1
  id : x.disk.header.map Header.diskId = some a.label.2
  lists : Lists x.disk a.listing
  blocksFree : x.disk.blocksFree = .ok a.room
  absent : ∀ name, a.find name = none → x.disk.openFile name = fail .notFound
  reads : ∀ name i data, a.find name = some i → a.read i = some data →
    ReadsName x.disk name data
  readsHandle : ∀ h i data, a.handles[h]? = some (some i) → a.read i = some data →
    ReadsHandle x h data
  valid : x.disk.validate = .ok []

/-- Make calls one after the other, whether or not they succeed: the results and the
state at the end. -/
def runs : List Call → Session → List (Res Unit) × Session
  | [], x => ([], x)
  | c :: cs, x =>
    ((Session.step c x).1 :: (runs cs (Session.step c x).2).1, (runs cs (Session.step c x).2).2)

/-- No chain has an unneeded block. -/
def NoSlack (v : Volume) : Prop := ∀ f ∈ v.files, f.locs.length = blocksFor f.data.length

/-- The store that corresponds to a volume. -/
def storeOf (ty : DiskType) (v : Volume) (saved : Bool) : Store :=
  { type := ty
    label := (v.header.diskName, v.header.diskId)
    slots := v.slots.map fun x => x.map fun f => ⟨f.name, f.attr, f.data⟩
    handles := []
    writers := []
    saved := saved }

/-- The image holds exactly the given BAM. -/
def BamSaved (d : Device) (s : Shape) (b : Bam) : Prop :=
  Bam.read d s.type.format = .ok ⟨s.type.format, b.entries, false⟩

/-- A newly formatted disk. -/
def Store.empty (ty : DiskType) (name : List Byte) (id : Byte × Byte) : Store :=
  { type := ty, label := (paddedName name, id), slots := List.replicate 8 none
    handles := [], writers := [], saved := true }

/-- A program took a disk that holds ordinary files, without handles, and made calls
within the contract; it is now in state `x`, and the store is `a`. -/
def Reaches (x : Session) (a : Store) : Prop :=
  ∃ disk s v r b saved calls rs, ReadyAt disk s v r b ∧ NoSlack v ∧
    (saved = true → BamSaved disk.dev s b) ∧
    runs calls ⟨disk, [], []⟩ = (rs, x) ∧
    Store.run calls (storeOf s.type v saved) = some (rs, a)

/-- Closing a writer: a flush or a drop. -/
def Closes (fin : Call) (w : Nat) : Prop := fin = .flush w ∨ fin = .drop w

/-- The calls: create a file, open a writer, write the chunks, flush or drop the writer. -/
def newFileCalls (x : Session) (name : Petscii) (type : FileType) (chunks : List (List Byte))
    (fin : Call) : List Call :=
  .create name type .linear :: .openWriter x.files.length ::
    (chunks.map (Call.write x.writers.length) ++ [fin])

/-- The calls: open a writer on a handle, write the chunks, flush or drop the writer. -/
def appendCalls (x : Session) (k : Nat) (chunks : List (List Byte)) (fin : Call) : List Call :=
  .openWriter k :: (chunks.map (Call.write x.writers.length) ++ [fin])

/-- The BAM in use. -/
def bamOf (disk : Disk) : Option Bam := disk.bam.bind fun r => disk.cells[r]?

end Cbm.Spec
