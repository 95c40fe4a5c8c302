import Verif.Props.Rename
import Verif.Props.Listing
/-!
# C91: A clean disk stays clean when files are created and renamed
-/

namespace Cbm
open Spec

variable {disk disk' : Disk} {s : Shape} {b b' : Bam} {e slot : DirectoryEntry} {es : List DirectoryEntry}
  {header : Header} {dir ls : List Location} {name : Petscii} {p : Position} {d d' : Device} {ty : DiskType}
  {type : FileType} {first : Location} {x : Session}

/-! ## The new entry -/

/-- What creating a file does to the device: the slot describes the file, its sector is the last of a chain, and nothing
else changes. -/
structure FreshFile (s : Shape) (d d' : Device) (p : Position) (first : Location) (name : Petscii) (type : FileType) :
    Prop where
  wf : Wf d' s
  writable : Writable d'
  frame : ∀ l j, s.Valid l → l ≠ first → ¬ Field p 2 30 l j → (d'.blk s l)[j]? = (d.blk s l)[j]?
  slot : SlotIs (slotData d' s p) (some (newFile name type first))
  link : byteAt (d'.blk s first) 0 = 0 ∧ byteAt (d'.blk s first) 1 = 1

theorem createIn_exact (hw : Wf d s) (hwr : Writable d) (hb : BamOf b s.type) (hp : slot.position = some p)
    (hv : s.Valid p.location) (ho : p.offset.toNat + 32 ≤ 256) (hz : p.size = 32) (hn : name.length ≤ 16)
    (ht : type.toByte &&& 0x0F ≠ 4) (hused : isFree b p.location = false) :
    (∃ y, createIn slot name type ⟨d, b⟩ = (.error y, ⟨d, b⟩)) ∨
    ∃ first b' d', ValidLoc s.type (bamTracks s.type) first ∧ isFree b first = true ∧ Flip b b' s.type first false ∧
      createIn slot name type ⟨d, b⟩ = (.ok (newFileEntry slot name type first), ⟨d', b'⟩) ∧
      FreshFile s d d' p first name type := by
  cases hnf : b.nextFreeBlock none with
  | error y =>
    refine .inl ⟨y, ?_⟩
    unfold createIn
    rw [M.bind_of_error (s' := (⟨d, b⟩ : St)) (e := y) (by rw [readBam_run, hnf])]
  | ok first =>
    right
    obtain ⟨hfv, hff, -, -⟩ := C08_result_valid hb none hnf
    have hfs := hw.valid_of_map hfv
    obtain ⟨b', hb', hfl⟩ := allocate_ok hb hfv.inBam
    have hne : p.location ≠ first := fun h => by rw [h, hff] at hused; cases hused
    have hlen := hw.blk_length hfs
    have hl1 : (splice (d.blk s first) 0 [(0 : Byte), 1]).length = 256 := by
      rw [length_splice _ _ _ (by simp; omega), hlen]
    have hzero : CHAIN_LINK_ZERO.toBytes (d.blk s first) = .ok (splice (d.blk s first) 0 [0, 1]) := by
      unfold ChainLink.toBytes CHAIN_LINK_ZERO
      rw [if_neg (by omega)]
      rfl
    generalize hd1 : d.put s first (splice (d.blk s first) 0 [0, 1]) = d1
    have w1 : Wf d1 s := hd1 ▸ hw.put hfs hl1
    have hwr1 : Writable d1 := hd1 ▸ hwr.put _
    have hsl : (slotData d1 s p).length = 32 := by
      unfold slotData
      rw [length_slice _ _ _ (by rw [w1.blk_length hv]; omega)]
    obtain ⟨t1, t2, -, -, -, t6⟩ := toBytes_linear (e := newFileEntry slot name type first)
      (x := List.replicate 9 0) hsl hn rfl (by simp)
    have hent : SlotIs (rendered (newFileEntry slot name type first) (List.replicate 9 0) (slotData d1 s p))
        (some (newFile name type first)) := by
      refine slotIs_some.2 ⟨closed_not_scratched _, t6 _ rfl rfl rfl rfl rfl ?_ ?_⟩
      · show 1 < 65536; omega
      · exact schemeOf_new _ ht
    have hplaced : Placed s (newFileEntry slot name type first) := by
      refine ⟨⟨p, hp, hv, ho, hz⟩, hn, fun old hold => ⟨List.replicate 9 0, ?_⟩⟩
      show Extra.toBytes (.linear _) old = _
      unfold Extra.toBytes copyFromSlice
      simp only []
      rw [if_pos (by rw [hold]; rfl)]
    obtain ⟨d2, hd2⟩ := writeEntry_done w1 hwr1 hplaced
    obtain ⟨q, out, k1, k2, k3, k4, k5, rfl⟩ := writeEntry_inv w1 hd2
    have hq : q = p := Option.some.inj (k1.symm.trans hp)
    subst hq
    rw [t1] at k4
    cases k4
    have hout01 : ∀ i, i < 2 → (rendered (newFileEntry slot name type first) (List.replicate 9 0) (slotData d1 s q))[i]? =
        (slotData d1 s q)[i]? := fun i hi => by
      obtain ⟨-, z, hz⟩ := toBytes_get t1
      rw [hz, if_pos hi]
    generalize hg : rendered (newFileEntry slot name type first) (List.replicate 9 0) (slotData d1 s q) = out at *
    have hl2 : (splice (d1.blk s q.location) q.offset.toNat out).length = 256 := by
      rw [length_splice _ _ _ (by rw [w1.blk_length hv]; omega), w1.blk_length hv]
    refine ⟨first, b', _, hfv, hff, hfl, ?_, ⟨w1.put hv hl2, hwr1.put _, ?_, ?_, ?_⟩⟩
    · unfold createIn
      rw [M.bind_of_ok (s := (⟨d, b⟩ : St)) (s' := ⟨d, b⟩) (a := first) (by rw [readBam_run, hnf])]
      rw [M.bind_of_ok (a := ()) (updBam_ok (st := ⟨d, b⟩) hb')]
      rw [M.bind_of_ok (a := ()) (updDev_ok (st := ⟨d, b'⟩) (hw.sectorMut_ok hwr hfs hzero))]
      rw [M.bind_of_ok (s' := ⟨_, b'⟩) (a := ())
        (by
          unfold writeNewEntry
          rw [hd1, updDev_ok (st := ⟨d1, b'⟩) hd2])]
      rfl
    · intro l j hl hlf hnf
      have h1 : d1.blk s l = d.blk s l := by rw [← hd1, hw.blk_put_other hfs hl hlf hl1]
      by_cases hlp : l = q.location
      · subst hlp
        rw [w1.blk_put_same hv hl2, getElem?_splice _ _ _ _ (by rw [w1.blk_length hv]; omega), ← h1]
        split
        · rfl
        · split
          · rename_i h2 h3
            have hj : j - q.offset.toNat < 2 := by
              refine Classical.byContradiction fun hj => hnf ⟨rfl, by omega, by omega⟩
            rw [hout01 _ hj]
            unfold slotData
            rw [getElem?_slice, if_pos (by omega), show q.offset.toNat + (j - q.offset.toNat) = j by omega]
          · rfl
      · rw [w1.blk_put_other hv hl hlp hl2, h1]
    · have : slotData (d1.put s q.location (splice (d1.blk s q.location) q.offset.toNat out)) s q = out := by
        unfold slotData
        rw [w1.blk_put_same hv hl2]
        refine List.ext_getElem? fun i => ?_
        rw [getElem?_slice]
        split
        · rw [getElem?_splice _ _ _ _ (by rw [w1.blk_length hv]; omega), if_neg (by omega), if_pos (by omega),
            show q.offset.toNat + i - q.offset.toNat = i by omega]
        · rw [List.getElem?_eq_none (by omega)]
      rw [this]
      exact hent
    · rw [w1.blk_put_other hv hfs (fun h => hne h.symm) hl2, ← hd1, hw.blk_put_same hfs hl1,
        byteAt_splice _ _ _ _ (by simp), byteAt_splice _ _ _ _ (by simp)]
      exact ⟨rfl, rfl⟩

/-! ## The listing -/

theorem filterMap_insert {α β : Type} {f g : α → Option β} {xs : List α} {a : α} {y : β} (hnd : xs.Nodup) (ha : a ∈ xs)
    (hf : f a = none) (hg : g a = some y) (hsame : ∀ z ∈ xs, z ≠ a → g z = f z) :
    ∃ pre post, xs.filterMap f = pre ++ post ∧ xs.filterMap g = pre ++ y :: post := by
  obtain ⟨l1, l2, rfl⟩ := List.append_of_mem ha
  obtain ⟨-, h2, h3⟩ := List.nodup_append.1 hnd
  have hn2 := (List.nodup_cons.1 h2).1
  have e1 : l1.filterMap g = l1.filterMap f := filterMap_congr_left fun z hz =>
    hsame z (by simp [hz]) fun h => h3 z hz a (by simp) h
  have e2 : l2.filterMap g = l2.filterMap f := filterMap_congr_left fun z hz =>
    hsame z (by simp [hz]) fun h => hn2 (h ▸ hz)
  refine ⟨l1.filterMap f, l2.filterMap f, ?_, ?_⟩
  · rw [List.filterMap_append, List.filterMap_cons, hf]
  · rw [List.filterMap_append, List.filterMap_cons, hg, e1, e2]

theorem slots_nodup {l : Location} {n : Nat} (hn : n ≤ 8) :
    ((List.range n).map fun k => (⟨l, UInt8.ofNat (32 * k), 32⟩ : Position)).Nodup := by
  refine List.pairwise_map.2 ((List.nodup_range (n := n)).imp_of_mem fun {a c} ha hc hac h => hac ?_)
  have ha := List.mem_range.1 ha
  have hc := List.mem_range.1 hc
  have h := congrArg (fun p : Position => p.offset.toNat) h
  simp only [UInt8.toNat_ofNat'] at h
  omega

theorem picked_same {l : Location} {n : Nat} {border : Bool} (h : d'.blk s l = d.blk s l) :
    picked d' s n l border = picked d s n l border := by
  unfold picked
  refine filterMap_congr_left fun q hq => ?_
  obtain ⟨k, -, rfl⟩ := List.mem_map.1 hq
  unfold slotFree entryAt slotData
  rw [h]

theorem picked_fresh {n : Nat} (hn : n ≤ 8) (h : FreshFile s d d' p first name type) (hw : Wf d s)
    (hp : p ∈ (List.range n).map fun k => (⟨p.location, UInt8.ofNat (32 * k), 32⟩ : Position))
    (hfree : slotFree d s p = true) (hne : p.location ≠ first) (hv : s.Valid p.location) :
    ∃ pre post, picked d s n p.location false = pre ++ post ∧
      picked d' s n p.location false = pre ++ (newFile name type first).entry p :: post := by
  have hpos : ∀ q ∈ ((List.range n).map fun k => (⟨p.location, UInt8.ofNat (32 * k), 32⟩ : Position)),
      ∃ k, k < 8 ∧ q = ⟨p.location, UInt8.ofNat (32 * k), 32⟩ := fun q hq => by
    obtain ⟨k, hk, rfl⟩ := List.mem_map.1 hq
    exact ⟨k, Nat.lt_of_lt_of_le (List.mem_range.1 hk) hn, rfl⟩
  obtain ⟨hs1, hs2⟩ := h.slot
  refine filterMap_insert (slots_nodup hn) hp (by rw [if_pos hfree]) ?_ fun q hq hqp => ?_
  · have hf : slotFree d' s p = false := by
      have hb := (slotIs_some.1 h.slot).2.attr
      unfold slotFree
      rw [← scratched_iff, hb]
      exact hs1
    rw [if_neg (by rw [hf]; decide)]
    unfold entryAt
    rw [hs2 p]
    rfl
  · obtain ⟨k, hk, rfl⟩ := hpos q hq
    obtain ⟨i, hi, hpi⟩ := hpos p hp
    have hki : k ≠ i := fun h => hqp (by rw [h, ← hpi])
    have ho : p.offset.toNat = 32 * i := by
      rw [hpi, UInt8.toNat_ofNat']
      omega
    have hd : slotData d' s ⟨p.location, UInt8.ofNat (32 * k), 32⟩ = slotData d s ⟨p.location, UInt8.ofNat (32 * k), 32⟩ := by
      rw [slotData_at _ _ _ hk, slotData_at _ _ _ hk]
      refine List.ext_getElem? fun j => ?_
      rw [getElem?_slice, getElem?_slice]
      split
      · refine h.frame _ _ hv hne fun hf => ?_
        have h1 := hf.2.1
        have h2 := hf.2.2
        omega
      · rfl
    unfold slotFree entryAt
    rw [hd]

theorem directory_fresh {f : DiskFormat} {content : List Byte} (hw : Wf disk.dev s) (hf : disk.format = some f)
    (hh : disk.header = some header) (hf' : disk'.format = some f) (hh' : disk'.header = some header)
    (hes : disk.directory = .ok es) (hd : dir.head? = some f.firstDirectoryLocation)
    (hc : IsChain disk.dev s dir content) (hborder : ∀ g, header.geos = some g → g.border ∉ dir ∧ g.border ≠ first)
    (hp : p ∈ dirSlots disk.dev s dir) (hfree : slotFree disk.dev s p = true) (hfd : first ∉ dir)
    (h : FreshFile s disk.dev disk'.dev p first name type) :
    (∃ content', IsChain disk'.dev s dir content') ∧ (∀ l ∈ dir, usedBytes (disk'.dev.blk s l) = usedBytes (disk.dev.blk s l)) ∧
    ∃ pre post, es = pre ++ post ∧ disk'.directory = .ok (pre ++ (newFile name type first).entry p :: post) := by
  have hb := directory_border hw hf hh hes
  obtain ⟨l, hl, k, hk, rfl⟩ := mem_dirSlots.1 hp
  have hlf : ∀ l' ∈ dir, l' ≠ first := fun l' hl' he => hfd (he ▸ hl')
  have hbytes : ∀ l' ∈ dir, ∀ j < 2, byteAt (disk'.dev.blk s l') j = byteAt (disk.dev.blk s l') j := fun l' hl' j hj => by
    unfold byteAt
    rw [List.getD_eq_getElem?_getD, List.getD_eq_getElem?_getD,
      h.frame l' j (hc.valid l' hl') (hlf l' hl') fun ht => by have := ht.2.1; omega]
  obtain ⟨content', hc'⟩ := chain_links (d' := disk'.dev) hc hbytes
  have hu : ∀ l' ∈ dir, usedBytes (disk'.dev.blk s l') = usedBytes (disk.dev.blk s l') := fun l' hl' => by
    unfold usedBytes
    rw [hbytes l' hl' 0 (by omega), hbytes l' hl' 1 (by omega)]
  have hother : ∀ l', s.Valid l' → l' ≠ l → l' ≠ first → disk'.dev.blk s l' = disk.dev.blk s l' := fun l' hv h1 h2 =>
    List.ext_getElem? fun j => h.frame l' j hv h2 fun ht => h1 ht.1
  refine ⟨⟨_, hc'⟩, hu, ?_⟩
  rw [directory_picked hw hf hh hd hc hb] at hes
  cases hes
  rw [directory_picked h.wf hf' hh' hd hc' hb]
  obtain ⟨d1, d2, rfl⟩ := List.append_of_mem hl
  obtain ⟨-, n2, n3⟩ := List.nodup_append.1 hc.nodup
  have hl1 : ∀ l' ∈ d1, l' ≠ l := fun l' hl' => n3 l' hl' l (by simp)
  have hl2 : ∀ l' ∈ d2, l' ≠ l := fun l' hl' he => (List.nodup_cons.1 n2).1 (he ▸ hl')
  have hn : usedBytes (disk.dev.blk s l) / 32 ≤ 8 := by have := usedBytes_le (disk.dev.blk s l); omega
  have hnb : ((header.geos.map GEOSDiskHeader.border) == some l) = false := by
    cases hg : header.geos with
    | none => rfl
    | some g =>
      have := (hborder g hg).1
      simp only [Option.map_some, beq_eq_false_iff_ne, ne_eq, Option.some.injEq]
      exact fun he => this (he ▸ hl)
  obtain ⟨pre, post, h1, h2⟩ := picked_fresh hn h hw (List.mem_map.2 ⟨k, List.mem_range.2 hk, rfl⟩) hfree
    (hlf l hl) (hc.valid l hl)
  have e1 : ∀ ls : List Location, (∀ l' ∈ ls, l' ∈ d1 ++ l :: d2 ∧ l' ≠ l) →
      (ls.flatMap fun l' => picked disk'.dev s (usedBytes (disk'.dev.blk s l') / 32) l'
        (header.geos.map GEOSDiskHeader.border == some l')) =
      ls.flatMap fun l' => picked disk.dev s (usedBytes (disk.dev.blk s l') / 32) l'
        (header.geos.map GEOSDiskHeader.border == some l') := fun ls hls => flatMap_congr_left fun l' hl' => by
    rw [hu l' (hls l' hl').1, picked_same (hother l' (hc.valid l' (hls l' hl').1) (hls l' hl').2 (hlf l' (hls l' hl').1))]
  have e2 : ((header.geos.map GEOSDiskHeader.border).toList.flatMap fun l' => picked disk'.dev s 8 l' true) =
      (header.geos.map GEOSDiskHeader.border).toList.flatMap fun l' => picked disk.dev s 8 l' true := by
    cases hg : header.geos with
    | none => rfl
    | some g =>
      refine flatMap_congr_left fun l' hl' => picked_same ?_
      simp only [Option.map_some, Option.toList_some, List.mem_singleton] at hl'
      subst hl'
      exact hother _ (hb g hg) (fun he => (hborder g hg).1 (he ▸ hl)) (hborder g hg).2
  refine ⟨(d1.flatMap fun l' => picked disk.dev s (usedBytes (disk.dev.blk s l') / 32) l'
        (header.geos.map GEOSDiskHeader.border == some l')) ++ pre, post ++ (d2.flatMap fun l' =>
        picked disk.dev s (usedBytes (disk.dev.blk s l') / 32) l' (header.geos.map GEOSDiskHeader.border == some l')) ++
        (header.geos.map GEOSDiskHeader.border).toList.flatMap fun l' => picked disk.dev s 8 l' true, ?_, ?_⟩
  · unfold allPicked
    rw [List.flatMap_append, List.flatMap_cons, hnb, h1]
    simp only [List.append_assoc]
  · refine congrArg Except.ok ?_
    unfold allPicked
    rw [List.flatMap_append, List.flatMap_cons, hnb, hu l hl, h2, e2, e1 d1 (fun l' hl' => ⟨by simp [hl'], hl1 l' hl'⟩),
      e1 d2 (fun l' hl' => ⟨by simp [hl'], hl2 l' hl'⟩)]
    simp only [List.append_assoc, List.cons_append]

/-! ## Files that are left alone -/

theorem same_file {o : DirectoryEntry} (hw : Wf disk.dev s) (hw' : Wf disk'.dev s) (hb : disk'.bam = disk.bam)
    (hls : scanFile disk o = .ok ls) (hsm : SameOn s (· ∈ ls) disk.dev disk'.dev) : SameFile disk disk' o o := by
  unfold scanFile at hls
  obtain ⟨⟨f, r⟩, hopen, hls⟩ := res_bind_eq_ok.1 hls
  obtain ⟨hr, hf⟩ := openFile_parts hopen
  obtain ⟨a1, a2, a3⟩ := file_on hw hw' hsm hf hls
  refine ⟨f, f, r, hopen, ?_, ?_, rfl, a2.trans hls.symm, a3⟩
  · unfold Disk.openFileFromEntry
    rw [show disk'.bamRef = .ok r by unfold Disk.bamRef; rw [hb]; simp only [hr], res_bind_ok, a1]
    rfl
  · rw [← file_entry hf, setEntry_self]

theorem scan_of_same {o o' : DirectoryEntry} (h : SameFile disk disk' o o') : scanFile disk' o' = scanFile disk o := by
  obtain ⟨f, f', r, k1, k2, -, -, k3, -⟩ := h
  unfold scanFile
  rw [k1, k2, res_bind_ok, res_bind_ok]
  exact k3

theorem Spec.SameFile.trans {disk₁ disk₂ disk₃ : Disk} {o₁ o₂ o₃ : DirectoryEntry} (h : SameFile disk₁ disk₂ o₁ o₂)
    (h' : SameFile disk₂ disk₃ o₂ o₃) : SameFile disk₁ disk₃ o₁ o₃ := by
  obtain ⟨f, f', r, k1, k2, k3, k4, k5, k6⟩ := h
  obtain ⟨g, g', r', l1, l2, l3, l4, l5, l6⟩ := h'
  rw [k2] at l1
  cases l1
  refine ⟨f, g', r, k1, l2, ?_, l4.trans k4, l5.trans k5, fun i => (l6 i).trans (k6 i)⟩
  rw [l3, k3]
  cases f <;> rfl

/-! ## Disks in order -/

/-- A writable disk on which validation finds nothing, the last sector of whose directory is in use to its end, and
whose border sector, if it has one, is not in its directory as well. -/
structure Tidy (disk : Disk) (s : Shape) (b : Bam) (header : Header) (dir : List Location)
    (es : List DirectoryEntry) : Prop where
  wf : Wf disk.dev s
  writable : Writable disk.dev
  can : CanValidate disk s.type b header dir es
  clean : disk.validate = .ok []
  border : ∀ g, header.geos = some g → g.border ∉ dir
  full : ∀ t, dir.getLast? = some t → usedBytes (disk.dev.blk s t) = 256

theorem Tidy.places (h : Tidy disk s b header dir es) : ∃ f r content, disk.format = some f ∧ disk.bam = some r ∧
    disk.cells[r]? = some b ∧ f.firstDirectoryLocation = firstDirectory s.type ∧
    dir.head? = some f.firstDirectoryLocation ∧ IsChain disk.dev s dir content := by
  obtain ⟨g, hg⟩ := h.can.format
  obtain ⟨dir', content, k1, k2⟩ := listed_chain h.wf hg h.can.header h.can.listed
  have hfirst : ({ s.type.format with geos := g } : DiskFormat).firstDirectoryLocation = firstDirectory s.type := by
    cases s.type <;> rfl
  have := chainLocations_chain h.wf k2 k1
  rw [hfirst, h.can.chain] at this
  cases this
  have hb := h.can.bam
  unfold bamOf at hb
  obtain ⟨r, hr, hcell⟩ := Option.bind_eq_some_iff.1 hb
  exact ⟨_, r, content, hg, hr, hcell, hfirst, k1, k2⟩

/-- The sectors of the directory are not free. -/
theorem Tidy.taken (h : Tidy disk s b header dir es) {l : Location} (hl : l ∈ homes dir header) (hv : s.Valid l) :
    isFree b l = false := by
  cases hf : isFree b l with
  | false => rfl
  | true =>
    exact absurd hl ((clean_of h.can h.clean).marked l (free_in_map h.can.tracks hf hv) hf).2.1

theorem pairwise_insert {α : Type} {R : α → α → Prop} {xs ys : List α} {a : α} (h : (xs ++ ys).Pairwise R)
    (h1 : ∀ x ∈ xs, R x a) (h2 : ∀ y ∈ ys, R a y) : (xs ++ a :: ys).Pairwise R := by
  obtain ⟨p1, p2, p3⟩ := List.pairwise_append.1 h
  refine List.pairwise_append.2 ⟨p1, List.pairwise_cons.2 ⟨h2, p2⟩, fun x hx y hy => ?_⟩
  rcases List.mem_cons.1 hy with rfl | hy
  · exact h1 x hx
  · exact p3 x hx y hy

theorem claimed {cs : List DirectoryEntry} {c : Petscii × List Location}
    (h : c ∈ cs.filterMap fun e => match scanFile disk e with
      | .ok ls => some (e.filename, ls)
      | .error _ => none) : ∃ o ∈ cs, scanFile disk o = .ok c.2 := by
  obtain ⟨o, ho, hc⟩ := List.mem_filterMap.1 h
  split at hc
  · rename_i hls
    cases hc
    exact ⟨o, ho, hls⟩
  · cases hc

theorem claims_same {border : Option Location} {es : List DirectoryEntry}
    (h : ∀ o ∈ es, scanFile disk' o = scanFile disk o) :
    claims disk' ty dir border es = claims disk ty dir border es := by
  unfold claims
  refine congrArg _ (filterMap_congr_left fun o ho => ?_)
  rw [h o ho]

/-! ## The slot for a new entry -/

/-- Between `disk` and `disk'` the layout is kept, the counts of the map still agree with its bits if they did, and the
sectors that the disk keeps for itself, other than those in `hs`, are as they were. -/
structure SelfKept (disk disk' : Disk) (s : Shape) (b b' : Bam) (hs : List Location) : Prop where
  format : disk'.format = disk.format
  even : Consistent b s.type → Consistent b' s.type
  frame : ∀ l ∈ ownSectors s.type, s.Valid l → l ∉ hs → disk'.dev.blk s l = disk.dev.blk s l

theorem SelfKept.self {hs : List Location} : SelfKept disk disk s b b hs := ⟨rfl, id, fun _ _ _ _ => rfl⟩

theorem nextFree_bam {r : Nat} {disk1 : Disk} (hb : BamOf b s.type) (hr : disk.bam = some r) (hcell : disk.cells[r]? = some b)
    (h : Disk.nextFreeDirectoryEntry disk = (.ok e, disk1)) (hnew : disk1.cells[r]? = some b') :
    BamOf b' s.type ∧ (Consistent b s.type → Consistent b' s.type) := by
  unfold Disk.nextFreeDirectoryEntry at h
  obtain ⟨d0, x0, h0, h⟩ := bind_inv h
  cases h0
  obtain ⟨f, x1, h1, h⟩ := bind_inv h
  rw [M.run_lift] at h1
  obtain ⟨-, rfl⟩ := Prod.mk.inj h1
  obtain ⟨y, x2, h2, h⟩ := bind_inv h
  rw [M.run_lift] at h2
  obtain ⟨-, rfl⟩ := Prod.mk.inj h2
  cases y with
  | inl e =>
    obtain ⟨-, rfl⟩ := Prod.mk.inj h
    rw [hcell] at hnew
    cases hnew
    exact ⟨hb, id⟩
  | inr last =>
    obtain ⟨r', x3, h3, h⟩ := bind_inv h
    rw [M.run_lift] at h3
    obtain ⟨h3, rfl⟩ := Prod.mk.inj h3
    have : r' = r := by
      unfold Disk.bamRef at h3
      rw [hr] at h3
      cases h3
      rfl
    subst this
    obtain ⟨q, st, hst⟩ : ∃ q st, extendDirectory last ⟨disk.dev, b⟩ = (q, st) := ⟨_, _, rfl⟩
    rw [withBam_run hcell hst] at h
    obtain ⟨rfl, rfl⟩ := Prod.mk.inj h
    have hb' : st.bam = b' := by
      have hlt := (List.getElem?_eq_some_iff.1 hcell).1
      have h1 : (disk.cells.set r' st.bam)[r']? = some b' := hnew
      rw [List.getElem?_set_self hlt] at h1
      exact Option.some.inj h1
    subst hb'
    unfold extendDirectory at hst
    obtain ⟨new, st1, h1, hst⟩ := bind_inv hst
    obtain ⟨_, st2, h2, hst⟩ := bind_inv hst
    obtain ⟨block, st3, h3, hst⟩ := bind_inv hst
    obtain ⟨entry, st4, h4, hst⟩ := bind_inv hst
    obtain ⟨_, st5, h5, hst⟩ := bind_inv hst
    obtain ⟨_, st6, h6, hst⟩ := bind_inv hst
    obtain ⟨-, rfl⟩ := Prod.mk.inj hst
    rw [readBam_run] at h1
    obtain ⟨hn, rfl⟩ := Prod.mk.inj h1
    obtain ⟨d2, -, rfl⟩ := updDev_inv h2
    rw [readDev_run] at h3
    obtain ⟨-, rfl⟩ := Prod.mk.inj h3
    rw [M.run_lift] at h4
    obtain ⟨-, rfl⟩ := Prod.mk.inj h4
    obtain ⟨b5, hal, rfl⟩ := updBam_inv h5
    obtain ⟨d6, -, rfl⟩ := updDev_inv h6
    obtain ⟨hv, -⟩ := C08_result_valid hb (some last) hn
    obtain ⟨b2, k1, k2⟩ := allocate_ok hb hv.inBam
    rw [k1] at hal
    cases hal
    exact ⟨k2.of, fun hc => k2.consistent hc hv⟩

theorem Tidy.nextSlot (h : Tidy disk s b header dir es) {r : Res DirectoryEntry} {disk1 : Disk}
    (hr : Disk.nextFreeDirectoryEntry disk = (r, disk1)) :
    (∃ y, r = .error y ∧ disk1 = disk) ∨
    ∃ slot p b1 dir1, r = .ok slot ∧ slot.position = some p ∧ Tidy disk1 s b1 header dir1 es ∧
      p ∈ dirSlots disk1.dev s dir1 ∧ slotFree disk1.dev s p = true ∧
      (∀ l, ValidLoc s.type (bamTracks s.type) l → isFree b1 l = true → isFree b l = true) ∧
      (∀ l ∈ dir1, l ∈ dir ∨ ValidLoc s.type (bamTracks s.type) l ∧ isFree b l = true) ∧
      SelfKept disk disk1 s b b1 (homes dir header) ∧ ∀ o ∈ es, SameFile disk disk1 o o := by
  obtain ⟨f, ref, content, hf, hbam, hcell, hfirst, hd, hc⟩ := h.places
  have hcl := clean_of h.can h.clean
  cases hfind : (dirSlots disk.dev s dir).find? (slotFree disk.dev s) with
  | some p =>
    obtain ⟨hp, pre, post, hs, hpre⟩ := List.find?_eq_some_iff_append.1 hfind
    obtain ⟨k1, k2⟩ := C30_first_free_slot h.wf hf hd hc hs hp fun q hq => by simpa using hpre q hq
    rw [k1] at hr
    obtain ⟨rfl, rfl⟩ := Prod.mk.inj hr
    refine .inr ⟨_, p, b, dir, rfl, k2, h, by rw [hs]; simp, hp, fun l _ hl => hl, fun l hl => .inl hl, .self, fun o ho => ?_⟩
    obtain ⟨ls, hls⟩ := hcl.scans o ho
    exact same_file h.wf h.wf rfl hls fun _ _ _ => rfl
  | none =>
    have hnone : ∀ p ∈ dirSlots disk.dev s dir, slotFree disk.dev s p = false := fun p hp => by
      simpa using List.find?_eq_none.1 hfind p hp
    obtain ⟨init, t, hit, -⟩ := hc.last
    have ht : dir.getLast? = some t := by rw [hit]; simp
    have htm : t ∈ dir := by rw [hit]; simp
    rcases C30_new_block h.wf h.writable hf hbam hcell h.can.tracks hd hc ht (h.full t ht) hnone
      (fun l hl => h.taken (List.mem_append_left _ hl) (hc.valid l hl)) with ⟨y, -, k⟩ | ⟨new, e, d', b', k0, k1, k2, k3, k4,
        ⟨c, k5⟩, k6, k7, k8, k9, k10⟩
    · rw [k] at hr
      obtain ⟨rfl, rfl⟩ := Prod.mk.inj hr
      exact .inl ⟨y, rfl, rfl⟩
    · rw [k1] at hr
      obtain ⟨rfl, rfl⟩ := Prod.mk.inj hr
      have hlt := (List.getElem?_eq_some_iff.1 hcell).1
      have hcell' : (disk.cells.set ref b')[ref]? = some b' := List.getElem?_set_self hlt
      obtain ⟨htr, heven⟩ := nextFree_bam h.can.tracks hbam hcell k1 hcell'
      have hw' : Wf d' s := by
        have := (keep_nextFreeDirectoryEntry (R := SameTail) disk s h.wf).1
        rw [k1] at this
        exact this
      have hwr' : Writable d' := by
        have := (keep_nextFreeDirectoryEntry (R := SameShape) disk).kind
        rw [k1] at this
        unfold Writable
        rw [show d'.image.kind = disk.dev.image.kind from this]
        exact h.writable
      obtain ⟨hnv, hnf, -, -⟩ := C08_result_valid h.can.tracks (some t) k0
      obtain ⟨m1, m2, m3⟩ := hcl.marked new hnv hnf
      have hborder : ∀ g, header.geos = some g → g.border ≠ new := fun g hg he => m2 (by
        unfold homes
        rw [hg, ← he]
        simp)
      have hused : ∀ l ∈ dir, usedBytes (d'.blk s l) = usedBytes (disk.dev.blk s l) := by
        intro l hl
        by_cases hlt : l = t
        · subst hlt
          rw [h.full l ht]
          unfold usedBytes
          rw [if_neg (chain_init k5 l hl)]
        · rw [k9 l (hc.valid l hl) (fun he => k3 (he ▸ hl)) hlt]
      have hslots : dirSlots d' s dir = dirSlots disk.dev s dir := by
        unfold dirSlots
        exact flatMap_congr_left fun l hl => by rw [hused l hl]
      have hnew : usedBytes (d'.blk s new) = 256 := by
        have hlen := congrArg List.length k6
        have happ : dirSlots d' s (dir ++ [new]) = dirSlots d' s dir ++
            (List.range (usedBytes (d'.blk s new) / 32)).map fun k => ⟨new, UInt8.ofNat (32 * k), 32⟩ := by
          unfold dirSlots
          rw [List.flatMap_append, List.flatMap_cons, List.flatMap_nil, List.append_nil]
        rw [happ, hslots, List.length_append, List.length_append, List.length_map, List.length_range] at hlen
        have h8 : (sectorSlots new).length = 8 := rfl
        have := usedBytes_le (d'.blk s new)
        omega
      have hsf : ∀ o ∈ es, SameFile disk { disk with dev := d', cells := disk.cells.set ref b' } o o := by
        intro o ho
        obtain ⟨ls, hls⟩ := hcl.scans o ho
        refine same_file h.wf hw' rfl hls fun l hl hv => k9 l hv ?_ ?_
        · rintro rfl
          exact m3 o ho ls hls hl
        · rintro rfl
          exact hcl.home o ho ls hls l hl (List.mem_append_left _ htm)
      have hscan := fun o ho => scan_of_same (hsf o ho)
      have hd' : (dir ++ [new]).head? = some f.firstDirectoryLocation := by
        rw [List.head?_append, hd]
        rfl
      have hbv := directory_border h.wf hf h.can.header h.can.listed
      have hlist : ({ disk with dev := d', cells := disk.cells.set ref b' } : Disk).directory = .ok es := by
        rw [directory_picked (disk := { disk with dev := d', cells := disk.cells.set ref b' }) hw' hf h.can.header hd' k5 hbv]
        have hes := h.can.listed
        rw [directory_picked h.wf hf h.can.header hd hc hbv] at hes
        rw [← hes]
        refine congrArg Except.ok ?_
        unfold allPicked
        rw [List.flatMap_append, List.flatMap_cons, List.flatMap_nil, List.append_nil]
        have hn : ∀ border, picked d' s (usedBytes (d'.blk s new) / 32) new border = [] := fun border => by
          rw [hnew]
          unfold picked
          refine List.filterMap_eq_nil_iff.2 fun q hq => ?_
          rw [if_pos (k7 q hq)]
        rw [hn, List.append_nil]
        refine congr (congrArg _ (flatMap_congr_left fun l hl => ?_)) ?_
        · rw [hused l hl]
          unfold picked
          refine filterMap_congr_left fun q hq => ?_
          obtain ⟨j, hj, rfl⟩ := List.mem_map.1 hq
          obtain ⟨e1, e2⟩ := k8 _ (mem_dirSlots.2 ⟨l, hl, j, List.mem_range.1 hj, rfl⟩)
          rw [e1, e2]
        · cases hg : header.geos with
          | none => rfl
          | some g =>
            refine flatMap_congr_left fun l' hl' => picked_same ?_
            simp only [Option.map_some, Option.toList_some, List.mem_singleton] at hl'
            subst hl'
            exact k9 _ (hbv g hg) (hborder g hg) fun he => h.border g hg (he ▸ htm)
      have hcan : CanValidate { disk with dev := d', cells := disk.cells.set ref b' } s.type b' header (dir ++ [new]) es := by
        refine ⟨h.can.format, h.can.header, ?_, htr, ?_, hlist, fun o ho => ?_⟩
        · unfold bamOf
          simp only [hbam, Option.bind_some]
          exact hcell'
        · rw [← hfirst]
          exact chainLocations_chain hw' k5 hd'
        · rw [hscan o ho]
          exact h.can.scans o ho
      obtain ⟨c1, c2, c3⟩ := (C32_empty_iff h.can).1 h.clean
      have hmono : ∀ l, ValidLoc s.type (bamTracks s.type) l → isFree b' l = true → isFree b l = true :=
        fun l hl hf => ((k10 l hl).1 hf).1
      refine .inr ⟨e, ⟨new, 0, 32⟩, b', dir ++ [new], rfl, k4, ⟨hw', hwr', hcan, (C32_empty_iff hcan).2 ⟨?_, ?_, ?_⟩, ?_, ?_⟩,
        ?_, k7 _ (List.mem_map.2 ⟨0, by decide, rfl⟩), hmono, fun l hl => ?_,
        ⟨rfl, heven, fun l hl hv hh => k9 l hv (fun he => m1 (he ▸ hl)) fun he => hh (List.mem_append_left _ (he ▸ htm))⟩, hsf⟩
      · intro o ho
        rw [hscan o ho]
        exact c1 o ho
      · unfold claims at c2 ⊢
        have := claims_same (ty := s.type) (dir := dir) (border := none) hscan
        unfold claims at this
        rw [(List.cons.inj this).2]
        rw [List.pairwise_cons] at c2 ⊢
        refine ⟨fun c hc l hl => ?_, c2.2⟩
        by_cases hln : l = new
        · subst hln
          obtain ⟨o, ho, hls⟩ := claimed hc
          exact m3 o ho _ hls
        · refine c2.1 c hc l ?_
          simp only [List.mem_append, List.mem_singleton] at hl ⊢
          rcases hl with (hl | hl | hl) | hl
          · exact .inl (.inl hl)
          · exact .inl (.inr hl)
          · exact absurd hl hln
          · exact .inr hl
      · intro l hl
        have hb' : isFree b' l = false ↔ l = new ∨ isFree b l = false := by
          have := k10 l hl
          cases h' : isFree b' l <;> cases h'' : isFree b l <;> simp_all
        rw [hb', c3 l hl]
        have := claims_same (ty := s.type) (dir := dir) (border := none) hscan
        unfold claims at this ⊢
        rw [(List.cons.inj this).2]
        simp only [List.mem_cons, exists_eq_or_imp, List.mem_append, List.not_mem_nil, or_false]
        constructor
        · rintro (h | ((h | h) | h) | h)
          · exact .inl (.inl (.inr (.inr h)))
          · exact .inl (.inl (.inl h))
          · exact .inl (.inl (.inr (.inl h)))
          · exact .inl (.inr h)
          · exact .inr h
        · rintro (((h | h | h) | h) | h)
          · exact .inr (.inl (.inl (.inl h)))
          · exact .inr (.inl (.inl (.inr h)))
          · exact .inl h
          · exact .inr (.inl (.inr h))
          · exact .inr (.inr h)
      · intro g hg hm
        rcases List.mem_append.1 hm with hm | hm
        · exact h.border g hg hm
        · exact hborder g hg (List.mem_singleton.1 hm)
      · intro t' ht'
        rw [List.getLast?_append] at ht'
        cases ht'
        exact hnew
      · rw [k6]
        exact List.mem_append_right _ (List.mem_map.2 ⟨0, by decide, rfl⟩)
      · rcases List.mem_append.1 hl with hl | hl
        · exact .inl hl
        · rw [List.mem_singleton.1 hl]
          exact .inr ⟨hnv, hnf⟩

/-! ## Creating a file -/

/-- The file `o` is new: it has the name and one sector, which was free, and no content. -/
structure Added (disk' : Disk) (s : Shape) (b : Bam) (o : DirectoryEntry) (name : Petscii) : Prop where
  name : o.filename = storedName name
  scheme : o.scheme = .linear
  size : o.fileSize = 1
  place : ValidLoc s.type (bamTracks s.type) o.firstSector
  free : isFree b o.firstSector = true
  empty : IsChain disk'.dev s [o.firstSector] []

theorem Tidy.fresh (h : Tidy disk s b header dir es) {ref : Nat} (hbam : disk.bam = some ref) (hcell : disk.cells[ref]? = some b)
    (hp : p ∈ dirSlots disk.dev s dir) (hfree : slotFree disk.dev s p = true)
    (hfv : ValidLoc s.type (bamTracks s.type) first) (hff : isFree b first = true) (hfl : Flip b b' s.type first false)
    (hx : FreshFile s disk.dev d' p first name type) :
    ∃ pre post o, es = pre ++ post ∧ o.position = some p ∧ o.firstSector = first ∧ Added (disk.withSt ref ⟨d', b'⟩) s b o name ∧
      Tidy (disk.withSt ref ⟨d', b'⟩) s b' header dir (pre ++ o :: post) ∧
      ∀ o ∈ es, SameFile disk (disk.withSt ref ⟨d', b'⟩) o o := by
  obtain ⟨f, ref', content, hf, hbam', -, hfirst, hd, hc⟩ := h.places
  have hcl := clean_of h.can h.clean
  obtain ⟨m1, m2, m3⟩ := hcl.marked first hfv hff
  have hfs := h.wf.valid_of_map hfv
  have hfd : first ∉ dir := fun hm => m2 (List.mem_append_left _ hm)
  have hborder : ∀ g, header.geos = some g → g.border ≠ first := fun g hg he => m2 (by
    unfold homes
    rw [hg, ← he]
    simp)
  obtain ⟨l, hl, k, hk, rfl⟩ := mem_dirSlots.1 hp
  obtain ⟨⟨content', hc'⟩, hu, pre, post, hes, hlist⟩ := directory_fresh (disk' := disk.withSt ref ⟨d', b'⟩) h.wf hf
    h.can.header hf h.can.header h.can.listed hd hc (fun g hg => ⟨h.border g hg, hborder g hg⟩) hp hfree hfd hx
  have hsf : ∀ o ∈ es, SameFile disk (disk.withSt ref ⟨d', b'⟩) o o := by
    intro o ho
    obtain ⟨ls, hls⟩ := hcl.scans o ho
    refine same_file h.wf hx.wf rfl hls fun l' hl' hv => List.ext_getElem? fun j => hx.frame l' j hv ?_ fun ht => ?_
    · rintro rfl
      exact m3 o ho ls hls hl'
    · exact hcl.home o ho ls hls l' hl' (List.mem_append_left _ (ht.1 ▸ hl))
  have hscan := fun o ho => scan_of_same (hsf o ho)
  have hone : IsChain d' s [first] [] := by
    refine ⟨by simpa using hfs, by simp, trivial, [], first, rfl, hx.link.1, by rw [hx.link.2]; decide, ?_⟩
    rw [hx.link.2]
    simp [payload, slice]
  obtain ⟨ls, hls, hmem⟩ : ∃ ls, scanFile (disk.withSt ref ⟨d', b'⟩)
      ((newFile name type first).entry ⟨l, UInt8.ofNat (32 * k), 32⟩) = .ok ls ∧ ∀ m, m ∈ ls ↔ m = first := by
    rcases C32_sectors_of_linear (disk := disk.withSt ref ⟨d', b'⟩)
      (e := (newFile name type first).entry ⟨l, UInt8.ofNat (32 * k), 32⟩) hx.wf
      (by show disk.bam.isSome = true; rw [hbam]; rfl) rfl with ⟨ls, locs, c, h1, h2, h3, h4⟩ | ⟨y, -, hno⟩
    · have : locs = [first] := by
        have a1 := chainLocations_chain hx.wf hone rfl
        have a2 := chainLocations_chain hx.wf h3 h2
        have a2 : chainLocations d' first = .ok locs := a2
        rw [a1] at a2
        exact (Except.ok.inj a2).symm
      subst this
      exact ⟨ls, h1, fun m => by rw [h4]; simp⟩
    · exact absurd ⟨[first], [], rfl, hone⟩ hno
  have hbam1 : bamOf (disk.withSt ref ⟨d', b'⟩) = some b' := by
    have hlt := (List.getElem?_eq_some_iff.1 hcell).1
    unfold bamOf Disk.withSt
    simp only [hbam, Option.bind_some]
    exact List.getElem?_set_self hlt
  subst hes
  have hin : ∀ o, o ∈ pre ++ (newFile name type first).entry ⟨l, UInt8.ofNat (32 * k), 32⟩ :: post →
      o ∈ pre ++ post ∨ o = (newFile name type first).entry ⟨l, UInt8.ofNat (32 * k), 32⟩ := fun o ho => by
    simp only [List.mem_append, List.mem_cons] at ho ⊢
    rcases ho with h | h | h
    · exact .inl (.inl h)
    · exact .inr h
    · exact .inl (.inr h)
  have hcan : CanValidate (disk.withSt ref ⟨d', b'⟩) s.type b' header dir
      (pre ++ (newFile name type first).entry ⟨l, UInt8.ofNat (32 * k), 32⟩ :: post) := by
    refine ⟨h.can.format, h.can.header, hbam1, hfl.of, ?_, hlist, fun o ho => ?_⟩
    · rw [← hfirst]
      exact chainLocations_chain hx.wf hc' hd
    · rcases hin o ho with ho | rfl
      · rw [hscan o ho]
        exact h.can.scans o ho
      · rw [hls]
        exact ⟨nofun, nofun⟩
  obtain ⟨c1, c2, c3⟩ := (C32_empty_iff h.can).1 h.clean
  have hcs : claims (disk.withSt ref ⟨d', b'⟩) s.type dir (header.geos.map GEOSDiskHeader.border)
      (pre ++ (newFile name type first).entry ⟨l, UInt8.ofNat (32 * k), 32⟩ :: post) =
      claims disk s.type dir (header.geos.map GEOSDiskHeader.border) pre ++
        (fromPaddedBytes name PADDING_BYTE, ls) :: (claims disk s.type dir none post).tail := by
    rw [← claims_same (disk := disk) (disk' := disk.withSt ref ⟨d', b'⟩) fun o ho => hscan o (by simp [ho]),
      ← claims_same (disk := disk) (disk' := disk.withSt ref ⟨d', b'⟩) fun o ho => hscan o (by simp [ho])]
    unfold claims
    rw [List.filterMap_append, List.filterMap_cons, hls]
    rfl
  have hold : claims disk s.type dir (header.geos.map GEOSDiskHeader.border) (pre ++ post) =
      claims disk s.type dir (header.geos.map GEOSDiskHeader.border) pre ++ (claims disk s.type dir none post).tail := by
    unfold claims
    rw [List.filterMap_append]
    rfl
  have hout : ∀ c ∈ claims disk s.type dir (header.geos.map GEOSDiskHeader.border) (pre ++ post), first ∉ c.2 := by
    intro c hc hm
    have := (c3 first hfv).2 ⟨c, hc, hm⟩
    rw [hff] at this
    cases this
  refine ⟨pre, post, (newFile name type first).entry ⟨l, UInt8.ofNat (32 * k), 32⟩, rfl, rfl, rfl, ⟨?_, rfl, rfl, hfv, hff, hone⟩,
    ⟨hx.wf, hx.writable, hcan, (C32_empty_iff hcan).2 ⟨?_, ?_, ?_⟩,
    h.border, fun t ht => ?_⟩, hsf⟩
  · rfl
  · intro o ho
    rcases hin o ho with ho | rfl
    · rw [hscan o ho]
      exact c1 o ho
    · exact ⟨_, hls⟩
  · rw [hcs]
    rw [hold] at c2 hout
    refine pairwise_insert c2 (fun c hc m hm hm' => ?_) fun c hc m hm hm' => ?_
    · rw [(hmem m).1 hm'] at hm
      exact hout c (List.mem_append_left _ hc) hm
    · rw [(hmem m).1 hm] at hm'
      exact hout c (List.mem_append_right _ hc) hm'
  · intro m hm
    have hb' : isFree b' m = false ↔ m = first ∨ isFree b m = false := by
      have h1 : isFree b' m = if m = first then false else isFree b m := by
        show freeAt b' _ _ = _
        rw [hfl.free]
        by_cases hmf : m = first
        · rw [if_pos hmf, if_pos (by rw [hmf]; exact ⟨rfl, rfl⟩)]
        · rw [if_neg hmf, if_neg fun ⟨h1, h2⟩ => hmf (loc_ext h1 h2)]
      rw [h1]
      split <;> simp_all
    rw [hb', c3 m hm, hcs, hold]
    simp only [List.mem_append, List.mem_cons]
    constructor
    · rintro (rfl | ⟨c, hc | hc, hm⟩)
      · exact ⟨_, .inr (.inl rfl), (hmem _).2 rfl⟩
      · exact ⟨c, .inl hc, hm⟩
      · exact ⟨c, .inr (.inr hc), hm⟩
    · rintro ⟨c, hc | rfl | hc, hm⟩
      · exact .inr ⟨c, .inl hc, hm⟩
      · exact .inl ((hmem _).1 hm)
      · exact .inr ⟨c, .inr hc, hm⟩
  · have ht' : t ∈ dir := List.mem_of_getLast? ht
    exact (hu t ht').trans (h.full t ht)

theorem Tidy.same (h : Tidy disk s b header dir es) : ∀ o ∈ es, SameFile disk disk o o := fun o ho => by
  obtain ⟨ls, hls⟩ := (clean_of h.can h.clean).scans o ho
  exact same_file h.wf h.wf rfl hls fun _ _ _ => rfl

theorem Tidy.createFile (h : Tidy disk s b header dir es) (ht : type.toByte &&& 0x0F ≠ 4)
    {r : Res (DirectoryEntry × Nat)} (hr : Disk.createFile name type .linear disk = (r, disk')) :
    ∃ b' dir' es', Tidy disk' s b' header dir' es' ∧ (∀ o ∈ es, SameFile disk disk' o o) ∧
      SelfKept disk disk' s b b' (homes dir header) ∧ (∀ l ∈ dir', l ∈ dir ∨ ValidLoc s.type (bamTracks s.type) l ∧ isFree b l = true) ∧
      ((∃ y, r = .error y ∧ es' = es) ∨
        ∃ e ref pre post o, r = .ok (e, ref) ∧ es = pre ++ post ∧ es' = pre ++ o :: post ∧
          (o.position = e.position ∧ o.firstSector = e.firstSector ∧ disk'.bam = some ref) ∧ Added disk' s b o name) := by
  unfold Disk.createFile at hr
  rw [if_neg (by simp)] at hr
  cases hn : checkFilenameValidity name with
  | error y =>
    rw [M.bind_of_error (s' := disk) (e := y) (by rw [M.run_lift, hn])] at hr
    cases hr
    exact ⟨b, dir, es, h, h.same, .self, fun l hl => .inl hl, .inl ⟨y, rfl, rfl⟩⟩
  | ok u =>
  rw [M.bind_of_ok (s' := disk) (a := u) (by rw [M.run_lift, hn])] at hr
  have hlen : name.length ≤ 16 := by
    refine Nat.le_of_not_lt fun h16 => ?_
    unfold checkFilenameValidity at hn
    rw [if_pos h16] at hn
    cases hn
  cases ha : disk.checkFilenameAvailability name with
  | error y =>
    rw [M.bind_of_error (s' := disk) (e := y) (by rw [M.run_read, ha])] at hr
    cases hr
    exact ⟨b, dir, es, h, h.same, .self, fun l hl => .inl hl, .inl ⟨y, rfl, rfl⟩⟩
  | ok u =>
  rw [M.bind_of_ok (s' := disk) (a := u) (by rw [M.run_read, ha])] at hr
  obtain ⟨q, disk1, hq⟩ : ∃ q disk1, Disk.nextFreeDirectoryEntry disk = (q, disk1) := ⟨_, _, rfl⟩
  rcases h.nextSlot hq with ⟨y, rfl, rfl⟩ | ⟨slot, p, b1, dir1, rfl, hpos, h1, hp, hfree, hmono, hgrow, hk1, hs1⟩
  · rw [M.bind_of_error hq] at hr
    cases hr
    exact ⟨b, dir, es, h, h.same, .self, fun l hl => .inl hl, .inl ⟨y, rfl, rfl⟩⟩
  rw [M.bind_of_ok hq] at hr
  obtain ⟨f, ref, content, hf, hbam, hcell, -, -, hc⟩ := h1.places
  rw [M.bind_of_ok (s' := disk1) (a := ref) (by rw [M.run_read]; unfold Disk.bamRef; rw [hbam])] at hr
  obtain ⟨l, hl, k, hk, rfl⟩ := mem_dirSlots.1 hp
  have hk8 : k < 8 := by have := usedBytes_le (disk1.dev.blk s l); omega
  have hoff : (UInt8.ofNat (32 * k)).toNat = 32 * k := by rw [UInt8.toNat_ofNat']; omega
  rcases createIn_exact (name := name) (type := type) h1.wf h1.writable h1.can.tracks hpos (hc.valid l hl)
    (by simp only [hoff]; omega) rfl hlen ht (h1.taken (List.mem_append_left _ hl) (hc.valid l hl)) with
    ⟨y, hy⟩ | ⟨first, b', d', hfv, hff, hfl, hx, hxf⟩
  · rw [M.bind_of_error (withBam_run hcell hy)] at hr
    rw [withSt_self hcell] at hr
    cases hr
    exact ⟨b1, dir1, es, h1, hs1, hk1, hgrow, .inl ⟨y, rfl, rfl⟩⟩
  · rw [M.bind_of_ok (withBam_run hcell hx)] at hr
    obtain ⟨pre, post, o, hes, ho, hfirst, hadd, htidy, hs2⟩ := h1.fresh hbam hcell hp hfree hfv hff hfl hxf
    rw [M.bind_of_ok (s' := disk1.withSt ref ⟨d', b'⟩) (a := ref) (by
      rw [M.run_read]
      show ((disk1.withSt ref ⟨d', b'⟩).bamRef, _) = _
      unfold Disk.bamRef Disk.withSt
      rw [hbam])] at hr
    cases hr
    refine ⟨b', dir1, _, htidy, fun o ho => (hs1 o ho).trans (hs2 o ho), ⟨hk1.format, fun hc => hfl.consistent (hk1.even hc) hfv,
      fun m hm hv hh => ?_⟩, hgrow, .inr ⟨_, ref, pre, post, o, rfl, hes, rfl, ⟨?_, hfirst, hbam⟩, ?_⟩⟩
    · rw [← hk1.frame m hm hv hh]
      refine List.ext_getElem? fun j => hxf.frame m j hv (fun he => ?_) fun hf => ?_
      · exact ((clean_of h1.can h1.clean).marked first hfv hff).1 (he ▸ hm)
      · have hml : m = l := hf.1
        rcases hgrow l hl with h2 | ⟨h2, h3⟩
        · exact hh (List.mem_append_left _ (hml ▸ h2))
        · exact ((clean_of h.can h.clean).marked l h2 h3).1 (hml ▸ hm)
    · rw [ho]
      exact hpos.symm
    · exact { hadd with free := hmono _ hadd.place hadd.free }

/-! ## Other calls -/

theorem used_same {l : Location} (h : ∀ j < 2, (d'.blk s l)[j]? = (d.blk s l)[j]?) :
    usedBytes (d'.blk s l) = usedBytes (d.blk s l) := by
  unfold usedBytes byteAt
  simp only [List.getD_eq_getElem?_getD, h 0 (by omega), h 1 (by omega)]

theorem Tidy.rename {original new : Petscii} (h : Tidy disk s b header dir es) {r : Res Unit}
    (hr : Disk.rename original new disk = (r, disk')) :
    ∃ es', Tidy disk' s b header dir es' ∧ ((∃ y, r = .error y ∧ es' = es) ∨ ∃ p, r = .ok () ∧
      es' = es.map (renamedAt p new)) := by
  cases r with
  | error y =>
    rw [rename_fails hr]
    exact ⟨es, h, .inl ⟨y, rfl, rfl⟩⟩
  | ok u =>
    obtain ⟨e, he, p, h1, h2, h3, h4, h5, h6, h7, h8⟩ := rename_clean h.wf h.can h.clean hr
    obtain ⟨f, ref, content, -, -, -, -, -, hc⟩ := h.places
    refine ⟨_, ⟨h6, ?_, h5, h8, h.border, fun t ht => ?_⟩, .inr ⟨p, rfl, rfl⟩⟩
    · have := (keep_rename (R := SameShape) original new disk).kind
      rw [hr] at this
      unfold Writable
      rw [show disk'.dev.image.kind = disk.dev.image.kind from this]
      exact h.writable
    · rw [used_same (h7 t (hc.valid t (List.mem_of_getLast? ht))), h.full t ht]

theorem Tidy.delete {x' : Session} {k : Nat} {mem stored : List Location} (h : OpenedEntry x s b k e es)
    (ht : Tidy x.disk s b header dir es) (hls : scanFile x.disk e = .ok ls) (hmem : ∀ l, l ∈ mem ↔ l ∈ ls)
    (hg : Gone x x' s b e es mem stored) (hx : Session.step (.delete k) x = (.ok (), x')) :
    ∃ b', Tidy x'.disk s b' header dir (es.filter fun e' => e'.position ≠ e.position) := by
  obtain ⟨b', h1, h2⟩ := stays_clean h ht.can ht.clean hls hmem hg
  refine ⟨b', hg.wf, ?_, h1, h2, ht.border, fun t htl => ?_⟩
  · have := (keep_step (R := SameShape) (.delete k) x).kind
    rw [hx] at this
    unfold Writable
    rw [show x'.disk.dev.image.kind = x.disk.dev.image.kind from this]
    exact ht.writable
  · obtain ⟨f, ref, content, hf, -, -, hfirst, hd, hc⟩ := ht.places
    obtain ⟨f', hdr, dir', content', k1, -, k3, k4, k5⟩ := h.directory
    rw [hf] at k1
    cases k1
    have : dir' = dir := by
      have a1 := chainLocations_chain h.wf hc hd
      have a2 := chainLocations_chain h.wf k4 k3
      rw [a1] at a2
      exact (Except.ok.inj a2).symm
    subst this
    have htm := List.mem_of_getLast? htl
    rw [used_same fun j hj => hg.others t j (hc.valid t htm) (fun ha => k5 t (List.mem_append_left _ htm) ⟨j, ha⟩)
      fun p _ _ => .inl (by omega), ht.full t htl]

/-! ## The property -/

/-- **C91** Creating a file on a disk in order leaves a disk in order, whatever the result: every file there was is listed
as before, in the same order, with the same sectors and the same records, and if the call succeeds then one file has
been added, with the name asked for, no content, and a sector that was free. -/
theorem C91_create {x' : Session} (h : Tidy x.disk s b header dir es) (ht : type.toByte &&& 0x0F ≠ 4) {r : Res Unit}
    (hstep : Session.step (.create name type .linear) x = (r, x')) :
    ∃ b' dir' es', Tidy x'.disk s b' header dir' es' ∧ (∀ o ∈ es, SameFile x.disk x'.disk o o) ∧
      ((∃ y, r = .error y ∧ es' = es) ∨
        ∃ pre post o, r = .ok () ∧ es = pre ++ post ∧ es' = pre ++ o :: post ∧ Added x'.disk s b o name) := by
  obtain ⟨q, disk', hq⟩ : ∃ q disk', Disk.createFile name type .linear x.disk = (q, disk') := ⟨_, _, rfl⟩
  obtain ⟨b', dir', es', h1, h2, -, -, h3⟩ := h.createFile ht hq
  unfold Session.step at hstep
  simp only at hstep
  rcases h3 with ⟨y, rfl, rfl⟩ | ⟨e, ref, pre, post, o, rfl, k1, k2, -, k3⟩
  · rw [M.bind_of_error (onDisk_run hq)] at hstep
    cases hstep
    exact ⟨b', dir', _, h1, h2, .inl ⟨y, rfl, rfl⟩⟩
  · rw [M.bind_of_ok (onDisk_run hq)] at hstep
    cases hstep
    exact ⟨b', dir', _, h1, h2, .inr ⟨pre, post, o, rfl, k1, k2, k3⟩⟩

/-- **C91** The same of renaming: the disk stays in order, whatever the result. -/
theorem C91_rename {x' : Session} {original new : Petscii} (h : Tidy x.disk s b header dir es) {r : Res Unit}
    (hstep : Session.step (.rename original new) x = (r, x')) :
    ∃ es', Tidy x'.disk s b header dir es' ∧ ((∃ y, r = .error y ∧ es' = es) ∨ ∃ p, r = .ok () ∧
      es' = es.map (renamedAt p new)) := by
  obtain ⟨q, disk', hq⟩ : ∃ q disk', Disk.rename original new x.disk = (q, disk') := ⟨_, _, rfl⟩
  rw [show Session.step (.rename original new) x = _ from onDisk_run hq] at hstep
  obtain ⟨rfl, rfl⟩ := Prod.mk.inj hstep
  exact h.rename hq

/-- **C91** The same of deleting a file of any kind whose blocks are in order. -/
theorem C91_delete {k : Nat} {mem : List Location} (h : OpenedEntry x s b k e es) (ht : Tidy x.disk s b header dir es)
    (hbl : FileBlocks x.disk.dev s e mem) (hin : ∀ l ∈ mem, ValidLoc s.type (bamTracks s.type) l) :
    ∃ x' b', Session.step (.delete k) x = (.ok (), x') ∧
      Tidy x'.disk s b' header dir (es.filter fun e' => e'.position ≠ e.position) := by
  obtain ⟨ls, hls, hmem⟩ := blocks_scan h hbl
  obtain ⟨x', stored, hx, hg⟩ := blocks_gone h hbl fun l hl =>
    ⟨hin l hl, fun ⟨j, hj⟩ => (clean_of ht.can ht.clean).own e h.entry ls hls l ((hmem l).1 hl) (area_own (.inl hj))⟩
  obtain ⟨b', h'⟩ := Tidy.delete h ht hls hmem hg hx
  exact ⟨x', b', hx, h'⟩

/-- Calls that create, rename and open files. -/
def Filing : Call → Prop
  | .create _ type scheme => scheme = .linear ∧ type.toByte &&& 0x0F ≠ 4
  | .rename _ _ | .openFile _ | .openEntry _ | .openWriter _ | .nextFreeDirectoryEntry => True
  | _ => False

/-- **C91** However many files are created, renamed and opened on a disk in order, whatever the results of the calls: the
disk stays in order, so that validation finds nothing. -/
theorem C91_stays_clean : ∀ (calls : List Call) {x : Session} {b : Bam} {dir : List Location} {es : List DirectoryEntry},
    (∀ c ∈ calls, Filing c) → Tidy x.disk s b header dir es →
    ∃ b' dir' es', Tidy (Session.run calls x).disk s b' header dir' es'
  | [], _, b, dir, es, _, h => ⟨b, dir, es, h⟩
  | c :: cs, x, b, dir, es, hcs, h => by
    have hc := hcs c (by simp)
    have key : ∃ b' dir' es', Tidy (Session.step c x).2.disk s b' header dir' es' := by
      cases c with
      | create name type scheme =>
        obtain ⟨rfl, ht⟩ := hc
        obtain ⟨b', dir', es', h', -⟩ := C91_create (x := x) (name := name) h ht rfl
        exact ⟨b', dir', es', h'⟩
      | rename original new =>
        obtain ⟨es', h', -⟩ := C91_rename (x := x) (original := original) (new := new) h rfl
        exact ⟨b, dir, es', h'⟩
      | openFile n =>
        refine ⟨b, dir, es, ?_⟩
        have : (Session.step (.openFile n) x).2.disk = x.disk := by
          unfold Session.step
          simp only
          cases hq : x.disk.openFile n with
          | error y => rw [M.bind_of_error (s' := x) (e := y) (by rw [M.run_read, hq])]
          | ok f => rw [M.bind_of_ok (s' := x) (a := f) (by rw [M.run_read, hq])]; rfl
        rw [this]
        exact h
      | openEntry e =>
        refine ⟨b, dir, es, ?_⟩
        have : (Session.step (.openEntry e) x).2.disk = x.disk := by
          unfold Session.step
          simp only
          cases hq : x.disk.openFileFromEntry e with
          | error y => rw [M.bind_of_error (s' := x) (e := y) (by rw [M.run_read, hq])]
          | ok f => rw [M.bind_of_ok (s' := x) (a := f) (by rw [M.run_read, hq])]; rfl
        rw [this]
        exact h
      | openWriter i =>
        refine ⟨b, dir, es, ?_⟩
        have : (Session.step (.openWriter i) x).2.disk = x.disk := by
          unfold Session.step
          simp only
          cases hq : indexRes x.files i with
          | error y => rw [M.bind_of_error (s' := x) (e := y) (by rw [M.run_read, hq])]
          | ok f =>
            rw [M.bind_of_ok (s' := x) (a := f) (by rw [M.run_read, hq])]
            cases hq' : f.1.writer x.disk.dev with
            | error y => rw [M.bind_of_error (s' := x) (e := y) (by rw [M.run_read, hq'])]
            | ok w => rw [M.bind_of_ok (s' := x) (a := w) (by rw [M.run_read, hq'])]; rfl
        rw [this]
        exact h
      | nextFreeDirectoryEntry =>
        obtain ⟨q, disk', hq⟩ : ∃ q disk', Disk.nextFreeDirectoryEntry x.disk = (q, disk') := ⟨_, _, rfl⟩
        unfold Session.step
        simp only
        rcases h.nextSlot hq with ⟨y, rfl, hd⟩ | ⟨slot, p, b1, dir1, rfl, -, h1, -⟩
        · rw [M.bind_of_error (onDisk_run hq), hd]
          exact ⟨b, dir, es, h⟩
        · rw [M.bind_of_ok (onDisk_run hq)]
          exact ⟨b1, dir1, es, h1⟩
      | _ => exact hc.elim
    obtain ⟨b', dir', es', h'⟩ := key
    exact C91_stays_clean cs (fun c hc => hcs c (by simp [hc])) h'

/-- The hypotheses of `C91_create`, `C91_rename`, `C91_delete` and `C91_stays_clean` hold of disks with a relative file, a
GEOS sequential file and a VLIR file. -/
example : ∀ sch ∈ [.relative, .geosSequential, Scheme.geosVLIR], ∃ x b e header dir mem, e.scheme = sch ∧
    OpenedEntry x ⟨.d64, 35, false⟩ b 0 e [e] ∧ Tidy x.disk ⟨.d64, 35, false⟩ b header dir [e] ∧
    FileBlocks x.disk.dev ⟨.d64, 35, false⟩ e mem ∧ mem ≠ [] ∧ ∀ l ∈ mem, ValidLoc .d64 (bamTracks .d64) l := by
  intro sch hsch
  simp only [List.mem_cons, List.not_mem_nil, or_false] at hsch
  rcases hsch with rfl | rfl | rfl
  · obtain ⟨_, b, e, data, side, h, hs, hp, hu, -, -, hl, -, h1, front, slot, f, rfl, hf, hsl⟩ := sampleRelative_opened
    obtain ⟨x, b, header, dir, r1, r2, r3, r4, r5, r6, r7⟩ := sample_tidy hf hsl h (.relative hs hp) hu h1
    exact ⟨x, b, e, header, dir, _, hs, r1, ⟨r1.wf, r1.writable, r2, r3, r6, r7⟩, r4,
      (fun hn => by rw [hn] at hl; cases hl), r5⟩
  · obtain ⟨_, b, e, data, info, h, hs, hp, hu, -, -, hl, -, h1, front, slot, f, rfl, hf, hsl⟩ :=
      sampleSequential_opened
    obtain ⟨x, b, header, dir, r1, r2, r3, r4, r5, r6, r7⟩ := sample_tidy hf hsl h (.sequential hs hp) hu h1
    exact ⟨x, b, e, header, dir, _, hs, r1, ⟨r1.wf, r1.writable, r2, r3, r6, r7⟩, r4,
      (fun hn => by rw [hn] at hl; cases hl), r5⟩
  · obtain ⟨_, b, e, info, chains, h, hs, hp, hu, -, -, -, h1, front, slot, f, rfl, hf, hsl⟩ := sampleVlir_opened
    obtain ⟨x, b, header, dir, r1, r2, r3, r4, r5, r6, r7⟩ := sample_tidy hf hsl h (.vlir hs hp) hu h1
    exact ⟨x, b, e, header, dir, _, hs, r1, ⟨r1.wf, r1.writable, r2, r3, r6, r7⟩, r4, nofun, r5⟩

end Cbm
