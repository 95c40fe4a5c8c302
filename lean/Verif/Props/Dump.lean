import Verif.Spec.Dump
import Verif.Lemmas.Report
import Verif.Props.Format
import Verif.Props.Text
import Verif.Props.Display
/-!
# C70: the dumps of `cdisk dump`
-/

namespace Cbm

open Spec

variable {d : Device} {s : Shape}

/-! ## Lines -/

theorem lines_join (x : List Char) : (splitLines x).flatMap (· ++ ['\n']) = x ++ ['\n'] := by
  induction x with
  | nil => rfl
  | cons c cs ih =>
    unfold splitLines
    split
    next h =>
      subst h
      rw [List.flatMap_cons, ih]
      rfl
    · cases hs : splitLines cs with
      | nil =>
        rw [hs] at ih
        exact absurd (congrArg List.length ih) (by simp)
      | cons l ls =>
        simp only []
        rw [hs, List.flatMap_cons] at ih
        rw [List.flatMap_cons, List.cons_append, List.cons_append, ih]
        rfl

theorem hexdump_join {block : List Byte} (h : block.length = 256) :
    hexdump [] block ++ ['\n'] = ((List.range 16).map (dumpLine [] block)).flatMap (· ++ ['\n']) := by
  rw [← lines_join, hexdump_lines (by simp) (by rintro rfl; simp at h), h]

theorem block_text {t n : Nat} {block : List Byte} (h : block.length = 256) :
    [] ++ ['\n'] ++ ((lit "track " ++ zeroPadded 2 t ++ lit " sector " ++ zeroPadded 2 n ++ ['\n']) ++
      (hexdump [] block ++ ['\n'])) = (blockLines t n block).flatMap (· ++ ['\n']) := by
  unfold blockLines
  rw [hexdump_join h, List.flatMap_append, List.flatMap_cons, List.flatMap_cons, List.flatMap_nil,
    show lit "track " = "track ".toList from by decide +kernel,
    show lit " sector " = " sector ".toList from by decide +kernel]
  simp only [List.append_nil, List.append_assoc]
  rfl

theorem blockLines_newline {t n : Nat} {block : List Byte} : ∀ r ∈ blockLines t n block, '\n' ∉ r := by
  intro r hr
  have h2 : ∀ n, '\n' ∉ twoDigits n := fun n => mem_zeroPadded (w := 2) (n := n) (by decide)
  unfold blockLines at hr
  rcases List.mem_append.1 hr with hr | hr
  · rcases List.mem_cons.1 hr with rfl | hr
    · simp
    · rw [List.mem_singleton.1 hr]
      simp only [List.mem_append, not_or]
      exact ⟨⟨⟨by decide +kernel, h2 _⟩, by decide +kernel⟩, h2 _⟩
  · obtain ⟨k, -, rfl⟩ := List.mem_map.1 hr
    exact dumpLine_newline (by simp) _ _

theorem errorRow_newline (ty : DiskType) (table : List Byte) (t : Nat) : '\n' ∉ errorRow ty table t := by
  have h2 : ∀ n, '\n' ∉ twoDigits n := fun n => mem_zeroPadded (w := 2) (n := n) (by decide)
  unfold errorRow
  simp only [List.mem_append, not_or]
  refine ⟨⟨⟨by decide +kernel, h2 _⟩, by decide +kernel⟩, fun h => ?_⟩
  obtain ⟨b, -, h⟩ := List.mem_flatMap.1 h
  rcases List.mem_append.1 h with h | h
  · exact (hexPair_chars b).1 h
  · exact absurd (List.mem_singleton.1 h) (by decide)

theorem imageLines_newline (s : Shape) (bytes : List Byte) : ∀ r ∈ imageLines s bytes, '\n' ∉ r := by
  intro r hr
  unfold imageLines at hr
  rcases List.mem_append.1 hr with hr | hr
  · obtain ⟨p, -, hr⟩ := List.mem_flatMap.1 hr
    exact blockLines_newline r hr
  · split at hr
    · rcases List.mem_append.1 hr with hr | hr
      · rcases List.mem_cons.1 hr with rfl | hr
        · simp
        · rw [List.mem_singleton.1 hr]; decide +kernel
      · obtain ⟨t, -, rfl⟩ := List.mem_map.1 hr
        exact errorRow_newline _ _ _
    · cases hr

/-! ## The dump of an image -/

theorem sector_blockOf (h : Wf d s) {p : Nat × Nat} (hp : p ∈ allSectors s.type s.tracks) :
    d.sector ⟨UInt8.ofNat p.1, UInt8.ofNat p.2⟩ = .ok (blockOf s.type d.image.bytes p.1 p.2) ∧
      (blockOf s.type d.image.bytes p.1 p.2).length = 256 := by
  obtain ⟨h1, h2, h3⟩ := mem_allSectors.1 hp
  have := shape_tracks_le s h.shape
  have := sectorsPerTrack_le s.type p.1
  have e1 : (UInt8.ofNat p.1).toNat = p.1 := by simp; omega
  have e2 : (UInt8.ofNat p.2).toNat = p.2 := by simp; omega
  have hv : s.Valid ⟨UInt8.ofNat p.1, UInt8.ofNat p.2⟩ := by
    unfold Shape.Valid ValidLoc
    simp only [e1, e2]
    exact ⟨h1, h2, h3⟩
  have hb : d.blk s ⟨UInt8.ofNat p.1, UInt8.ofNat p.2⟩ = blockOf s.type d.image.bytes p.1 p.2 := by
    unfold Device.blk blockOf sectorNumber
    simp only [e1, e2]
  rw [← hb]
  exact ⟨h.sector hv, h.blk_length hv⟩

theorem printErrors_says (h : Wf d s) (table : List Byte) (ht : table.length = s.sectors) : ∀ (n m : Nat),
    m + n = s.tracks →
    Says (printErrors d.geometry ((List.range' m n).map (· + 1)) (table.drop (sectorsUpTo s.type m))) (.ok ())
      (((List.range' m n).map fun t => errorRow s.type table (t + 1)).flatMap (· ++ ['\n']))
  | 0, m, hm => Says.pure ()
  | n + 1, m, hm => by
    obtain ⟨row, hr, hs, -⟩ := row_of_geometry (i := m + 1) h.geometry (by omega) (by rw [h.tracks]; omega)
    have hle : sectorsUpTo s.type (m + 1) ≤ table.length := by
      rw [ht]; exact sectorsUpTo_mono _ (by omega)
    have hle : sectorsUpTo s.type m + sectorsPerTrack s.type (m + 1) ≤ table.length := hle
    have ih := printErrors_says h table ht n (m + 1) (by omega)
    rw [List.range'_succ, List.map_cons, List.map_cons, List.flatMap_cons]
    unfold printErrors
    refine Says.bind_lift (a := row) (by unfold trackRow; rw [hr]) ?_
    have hline : errorLine (m + 1) row.sectors (table.drop (sectorsUpTo s.type m)) =
        .ok (errorRow s.type table (m + 1), table.drop (sectorsUpTo s.type (m + 1))) := by
      unfold errorLine
      rw [hs, if_pos (by rw [List.length_drop]; omega), List.drop_drop]
      refine congrArg Except.ok (Prod.ext ?_ rfl)
      unfold errorRow
      rw [show lit "track " = "track ".toList from by decide +kernel,
        show lit ": " = ": ".toList from by decide +kernel]
      simp only [paddedHex_two, Nat.add_sub_cancel]
      rfl
    refine Says.bind_lift hline ?_
    exact Says.bind (Says.println _) ih

theorem dump_says (h : Wf d s) :
    Says d.dump (.ok ()) ((imageLines s d.image.bytes).flatMap (· ++ ['\n'])) := by
  unfold Device.dump imageLines
  rw [List.flatMap_append]
  have hl := C39_geometry_iterator s.type d.geometry h.geometry
  rw [h.tracks] at hl
  refine Says.bind_lift hl ?_
  refine Says.bind (a := ()) ?_ ?_
  · rw [List.flatMap_assoc]
    refine Says.forEach fun p hp => ?_
    obtain ⟨h1, h2⟩ := sector_blockOf h hp
    rw [← block_text h2]
    exact Says.bind (Says.println _) (Says.bind (Says.println _) (Says.bind_lift h1 (Says.println _)))
  · refine Says.bind_lift (C59_error_table_place h) ?_
    cases he : s.errorTable with
    | false => exact Says.pure ()
    | true =>
      simp only [if_true]
      have htl : (slice d.image.bytes (256 * s.sectors) s.sectors).length = s.sectors := by
        apply length_slice
        rw [h.size]
        simp only [Shape.size, he, if_true]
        omega
      have hp := printErrors_says h _ htl s.tracks 0 (by omega)
      rw [← List.range_eq_range', show sectorsUpTo s.type 0 = 0 from rfl, List.drop_zero, ← h.tracks] at hp
      rw [List.flatMap_append, List.flatMap_cons, List.flatMap_cons, List.flatMap_nil, List.append_nil,
        List.append_assoc, ← h.tracks]
      refine Says.bind (Says.println _) (Says.bind (a := ()) ?_ hp)
      rw [show "Error table:".toList = lit "Error table:" from by decide +kernel]
      exact Says.println _

/-- **C70** The dump of an image that opens always succeeds; it shows every block under its
number, in order, and the error table. -/
theorem C70_dump (ext : Option (List Char)) (bytes : List Byte) (disk : Disk)
    (ho : Disk.openPath ext true bytes = .ok disk) :
    ∃ s ∈ shapes, disk.native = s.type.format ∧ bytes.length = s.size ∧
      (cmdDump ext none bytes).1 = .ok () ∧
      splitLines (cmdDump ext none bytes).2 = imageLines s bytes ++ [[]] := by
  obtain ⟨ty, -, -, hn⟩ := openPath_inv ho
  obtain ⟨s, rfl, hw, hnat, hi, -⟩ := new_ok hn
  have hs : cmdDump ext none bytes = _ := showing_ok ho (dump_says hw)
  have hb : disk.dev.image.bytes = bytes := by rw [hi]; rfl
  rw [hb] at hs
  refine ⟨s, hw.shape, hnat, by rw [← hb, hw.size], by rw [hs], ?_⟩
  rw [hs]
  have := splitLines_rows _ (imageLines_newline s bytes) []
  rw [List.append_nil] at this
  exact this

/-- The lines of a dump tell the type of the image. -/
theorem imageLines_length (s : Shape) (bytes : List Byte) :
    (imageLines s bytes).length = 18 * s.sectors + if s.errorTable then 2 + s.tracks else 0 := by
  have hall : ∀ n, (allSectors s.type n).length = sectorsUpTo s.type n := by
    intro n
    induction n with
    | zero => rfl
    | succ n ih => rw [allSectors_succ, List.length_append, ih, List.length_map, List.length_range]; rfl
  unfold imageLines
  rw [List.length_append, List.length_flatMap]
  have : ((allSectors s.type s.tracks).map fun p =>
      (blockLines p.1 p.2 (blockOf s.type bytes p.1 p.2)).length) =
      (allSectors s.type s.tracks).map fun _ => 18 :=
    List.map_congr_left fun p _ => by
      unfold blockLines; rw [List.length_append, List.length_map, List.length_range]; rfl
  rw [this, List.map_const', List.sum_replicate_nat, hall]
  rw [show s.sectors = sectorsUpTo s.type s.tracks from rfl, Nat.mul_comm]
  refine congrArg _ ?_
  split
  · rw [List.length_append, List.length_map, List.length_range]; rfl
  · rfl

theorem shape_of_length : ∀ s ∈ shapes, ∀ s' ∈ shapes,
    (18 * s.sectors + if s.errorTable then 2 + s.tracks else 0) =
      (18 * s'.sectors + if s'.errorTable then 2 + s'.tracks else 0) → s = s' := by
  decide +kernel

theorem blockLines_inj {t n : Nat} {a b : List Byte} (ha : a.length = 256) (hb : b.length = 256)
    (h : blockLines t n a = blockLines t n b) : a = b := by
  unfold blockLines at h
  have h := List.append_cancel_left h
  have h : ((List.range 16).map (dumpLine [] a)).flatMap (· ++ ['\n']) =
      ((List.range 16).map (dumpLine [] b)).flatMap (· ++ ['\n']) := by rw [h]
  rw [← hexdump_join ha, ← hexdump_join hb] at h
  exact (C49_injective [] a b).mp (List.append_cancel_right h)

theorem hexPairs_inj : ∀ {a b : List Byte}, a.length = b.length →
    (a.flatMap fun b => hexPair b ++ [' ']) = (b.flatMap fun b => hexPair b ++ [' ']) → a = b
  | [], [], _, _ => rfl
  | x :: a, y :: b, hl, h => by
    rw [List.flatMap_cons, List.flatMap_cons] at h
    obtain ⟨h1, h2⟩ := List.append_inj h rfl
    rw [hexPair_inj (List.append_cancel_right h1), hexPairs_inj (by simpa using hl) h2]

/-- **C70** Nothing is left out: two images with the same dump are the same, byte for byte. -/
theorem C70_same_dump (ext ext' : Option (List Char)) (bytes bytes' : List Byte) (disk disk' : Disk)
    (ho : Disk.openPath ext true bytes = .ok disk) (ho' : Disk.openPath ext' true bytes' = .ok disk')
    (h : (cmdDump ext none bytes).2 = (cmdDump ext' none bytes').2) : bytes = bytes' := by
  obtain ⟨s, hs, -, hlen, -, hl⟩ := C70_dump ext bytes disk ho
  obtain ⟨s', hs', -, hlen', -, hl'⟩ := C70_dump ext' bytes' disk' ho'
  rw [h, hl'] at hl
  have hl := List.append_cancel_right hl
  have := congrArg List.length hl
  rw [imageLines_length, imageLines_length] at this
  have := shape_of_length s' hs' s hs this
  subst this
  unfold imageLines at hl
  have hblen : ∀ {bytes : List Byte}, bytes.length = s'.size → ∀ p ∈ allSectors s'.type s'.tracks,
      (blockOf s'.type bytes p.1 p.2).length = 256 := by
    intro bytes hlen p hp
    obtain ⟨h1, h2, h3⟩ := mem_allSectors.1 hp
    apply length_slice
    have : sectorsUpTo s'.type (p.1 - 1) + sectorsPerTrack s'.type (p.1 - 1 + 1) ≤ sectorsUpTo s'.type s'.tracks :=
      sectorsUpTo_mono s'.type (a := p.1 - 1 + 1) (by omega)
    rw [Nat.sub_add_cancel h1] at this
    rw [hlen]
    simp only [Shape.size, Shape.sectors]
    omega
  have hbl : ∀ (b : List Byte) (p : Nat × Nat),
      (blockLines p.1 p.2 (blockOf s'.type b p.1 p.2)).length = 18 := by
    intro b p
    unfold blockLines
    rw [List.length_append, List.length_map, List.length_range]
    rfl
  obtain ⟨h1, h2⟩ := List.append_inj hl (by
    rw [List.length_flatMap, List.length_flatMap]
    simp only [hbl])
  have hblocks := flatMap_inj_length (fun p _ => by rw [hbl, hbl]) h1
  have hnum : ∀ i, i < s'.sectors → ∃ p ∈ allSectors s'.type s'.tracks,
      i = sectorsUpTo s'.type (p.1 - 1) + p.2 := by
    intro i hi
    obtain ⟨l, hv, hn⟩ := sectorNumber_surj s'.type s'.tracks
      (by have := shape_tracks_le s' hs'; omega) i hi
    exact ⟨(l.track.toNat, l.sector.toNat), mem_allSectors.2 hv, hn.symm⟩
  apply List.ext_getElem?
  intro i
  by_cases hi : i < 256 * s'.sectors
  · obtain ⟨p, hp, hn⟩ := hnum (i / 256) (by omega)
    have := blockLines_inj (hblen hlen' p hp) (hblen hlen p hp) (hblocks p hp)
    have := congrArg (fun l => l[i % 256]?) this
    simp only [blockOf, getElem?_slice] at this
    rw [if_pos (Nat.mod_lt _ (by omega)), if_pos (Nat.mod_lt _ (by omega)), ← hn, Nat.div_add_mod] at this
    exact this.symm
  · by_cases he : s'.errorTable = true
    · by_cases hi2 : i < s'.size
      · rw [if_pos he, if_pos he] at h2
        have h2 := List.append_cancel_left h2
        have hj : i - 256 * s'.sectors < s'.sectors := by
          simp only [Shape.size, he, if_true] at hi2
          omega
        obtain ⟨p, hp, hn⟩ := hnum _ hj
        obtain ⟨k1, k2, k3⟩ := mem_allSectors.1 hp
        have h2 := congrArg (fun l => l[p.1 - 1]?) h2
        simp only [List.getElem?_map, List.getElem?_range (show p.1 - 1 < s'.tracks by omega),
          Option.map_some, Option.some.injEq, Nat.sub_add_cancel k1] at h2
        unfold errorRow at h2
        have h2 := List.append_cancel_left h2
        have hle : sectorsUpTo s'.type (p.1 - 1) + sectorsPerTrack s'.type p.1 ≤ s'.sectors := by
          have : sectorsUpTo s'.type (p.1 - 1) + sectorsPerTrack s'.type (p.1 - 1 + 1) ≤
            sectorsUpTo s'.type s'.tracks := sectorsUpTo_mono s'.type (a := p.1 - 1 + 1) (by omega)
          rw [Nat.sub_add_cancel k1] at this
          exact this
        have hsl : ∀ {bytes : List Byte}, bytes.length = s'.size →
            (slice (slice bytes (256 * s'.sectors) s'.sectors) (sectorsUpTo s'.type (p.1 - 1))
              (sectorsPerTrack s'.type p.1)).length = sectorsPerTrack s'.type p.1 := by
          intro bytes hlen
          apply length_slice
          rw [length_slice]
          · exact hle
          · rw [hlen]; simp only [Shape.size, he, if_true]; omega
        have h2 := hexPairs_inj (by rw [hsl hlen, hsl hlen']) h2
        have h2 := congrArg (fun l => l[p.2]?) h2
        simp only [getElem?_slice] at h2
        rw [if_pos k3, if_pos k3, ← hn, if_pos hj, if_pos hj,
          show 256 * s'.sectors + (i - 256 * s'.sectors) = i by omega] at h2
        exact h2.symm
      · rw [List.getElem?_eq_none (by omega), List.getElem?_eq_none (by omega)]
    · have : s'.size = 256 * s'.sectors := by simp [Shape.size, he]
      rw [List.getElem?_eq_none (by omega), List.getElem?_eq_none (by omega)]

/-! ## The dump of a file -/

theorem hexdump_hexLines (content : List Byte) :
    hexdump [] content ++ ['\n'] = (hexLines content).flatMap (· ++ ['\n']) := by
  rw [← lines_join]
  refine congrArg _ ?_
  obtain ⟨h1, h2⟩ := C49_lines [] (by simp) content
  unfold hexLines
  split
  next h => exact h2 h
  next h => exact h1 h

theorem hexLines_inj {a b : List Byte} (h : hexLines a = hexLines b) : a = b := by
  have h : (hexLines a).flatMap (· ++ ['\n']) = (hexLines b).flatMap (· ++ ['\n']) := by rw [h]
  rw [← hexdump_hexLines, ← hexdump_hexLines] at h
  exact (C49_injective [] a b).mp (List.append_cancel_right h)

theorem hexNumber_letter (n : Nat) : 'R' ∉ hexNumber n := by
  have h : ∀ n, 'R' ∉ Nat.toDigits 16 n := by
    intro n
    induction n using Nat.strongRecOn with
    | ind n ih =>
      by_cases h : n < 16
      · rw [Nat.toDigits_of_lt_base h]
        have : ∀ n < 16, 'R' ∉ [n.digitChar] := by decide
        exact this n h
      · rw [Nat.toDigits_of_base_le (by omega) (by omega), List.mem_append, not_or]
        refine ⟨ih _ (by omega), ?_⟩
        have : ∀ n < 16, 'R' ∉ [n.digitChar] := by decide
        exact this _ (Nat.mod_lt _ (by omega))
  unfold hexNumber List.leftpad
  rw [List.mem_append, not_or]
  exact ⟨fun h => absurd (List.eq_of_mem_replicate h) (by decide), h n⟩

theorem hexLines_mem {content : List Byte} {r : List Char} (h : r ∈ hexLines content) :
    '\n' ∉ r ∧ r.head? ≠ some 'R' := by
  unfold hexLines at h
  split at h
  · rw [List.mem_singleton.1 h]
    exact ⟨by decide +kernel, by decide +kernel⟩
  · obtain ⟨k, -, rfl⟩ := List.mem_map.1 h
    refine ⟨dumpLine_newline (by simp) _ _, ?_⟩
    intro hh
    unfold dumpLine at hh
    have hne : hexNumber (16 * k) ≠ [] := by
      unfold hexNumber List.leftpad
      exact List.append_ne_nil_of_right_ne_nil _ Nat.toDigits_ne_nil
    obtain ⟨c, cs, hc⟩ := List.exists_cons_of_ne_nil hne
    rw [hc] at hh
    simp only [List.nil_append, List.cons_append, List.head?_cons, Option.some.injEq] at hh
    refine hexNumber_letter (16 * k) ?_
    rw [hc, hh]
    exact List.mem_cons_self ..

theorem recordLines_newline : ∀ (cs : List (List Byte)) (i : Nat), ∀ r ∈ recordLines i cs, '\n' ∉ r
  | [], _, _, h => nomatch h
  | c :: cs, i, r, h => by
    unfold recordLines at h
    rcases List.mem_cons.1 h with rfl | h
    · rw [List.mem_append, not_or]
      exact ⟨by decide +kernel, not_mem_decimal (by decide)⟩
    · rcases List.mem_append.1 h with h | h
      · exact (hexLines_mem h).1
      · exact recordLines_newline cs (i + 1) r h

theorem records_say {f : File} {d : Device} : ∀ (cs : List (List Byte)) (i : Nat),
    (∀ (k : Nat) (c : List Byte), cs[k]? = some c → f.record d (i + k) = .ok c) →
    Says (M.forEach (List.range' i cs.length) fun i => do
      println (lit "Record: " ++ decimal i)
      let content ← M.lift (f.record d i)
      println (hexdump [] content)) (.ok ()) ((recordLines i cs).flatMap (· ++ ['\n']))
  | [], i, _ => Says.pure ()
  | c :: cs, i, h => by
    rw [List.length_cons, List.range'_succ]
    unfold recordLines
    rw [List.flatMap_cons, List.flatMap_append, ← hexdump_hexLines, ← List.append_assoc]
    refine Says.bind (a := ()) ?_ (records_say cs (i + 1) ?_)
    · rw [show "Record: ".toList = lit "Record: " from by decide +kernel]
      refine Says.bind (Says.println _) (Says.bind_lift (h 0 c rfl) (Says.println _))
    · intro k c' hk
      have := h (k + 1) c' (by simpa using hk)
      rw [show i + 1 + k = i + (k + 1) by omega]
      exact this

/-- **C70** The dump of a file whose records can be read shows its name and every record
under its number. -/
theorem C70_file (ext : Option (List Char)) (bytes : List Byte) (disk : Disk) (name : List Nat)
    (f : File) (r : Nat) (records : List (List Byte)) (ho : Disk.openPath ext true bytes = .ok disk)
    (hf : disk.openFile (fromStrLossy name) = .ok (f, r)) (hlen : records.length = f.recordCount)
    (hr : ∀ (i : Nat) (c : List Byte), records[i]? = some c → f.record disk.dev i = .ok c) :
    (cmdDump ext (some name) bytes).1 = .ok () ∧
    splitLines (cmdDump ext (some name) bytes).2 = fileLines f.entry.filename records ++ [[]] := by
  have hd : Says (f.dump disk.dev) (.ok ()) ((fileLines f.entry.filename records).flatMap (· ++ ['\n'])) := by
    unfold File.dump fileLines
    rw [List.flatMap_cons]
    refine Says.bind (a := ()) ?_ ?_
    · rw [show "Filename: \"".toList = lit "Filename: \"" from by decide +kernel, ← chars_eq]
      exact Says.println _
    · have := records_say (f := f) (d := disk.dev) records 0 (by simpa using hr)
      rw [← List.range_eq_range', hlen] at this
      exact this
  have hs : cmdDump ext (some name) bytes = _ := showing_ok (w := true) ho (Says.bind_lift hf hd)
  rw [hs]
  refine ⟨rfl, ?_⟩
  have := splitLines_rows (fileLines f.entry.filename records) ?_ []
  · rw [List.append_nil] at this
    exact this
  · intro l hl
    unfold fileLines at hl
    rcases List.mem_cons.1 hl with rfl | hl
    · rw [← chars_eq]
      simp only [List.mem_append, not_or]
      exact ⟨⟨by decide +kernel, petsciiText_newline _⟩, by decide +kernel⟩
    · exact recordLines_newline _ _ _ hl

/-- The lines of the first record end at the next line that begins with an R. -/
theorem cut_record {xs ys us vs : List (List Char)} (hx : ∀ r ∈ xs, r.head? ≠ some 'R')
    (hy : ∀ r ∈ ys, r.head? ≠ some 'R') (hu : ∀ r ∈ us.head?, r.head? = some 'R')
    (hv : ∀ r ∈ vs.head?, r.head? = some 'R') (h : xs ++ us = ys ++ vs) : xs = ys ∧ us = vs := by
  induction xs generalizing ys with
  | nil =>
    cases ys with
    | nil => exact ⟨rfl, h⟩
    | cons y ys =>
      rw [List.nil_append] at h
      subst h
      exact absurd (hu y rfl) (hy y (List.mem_cons_self ..))
  | cons x xs ih =>
    cases ys with
    | nil =>
      rw [List.nil_append] at h
      subst h
      exact absurd (hv x rfl) (hx x (List.mem_cons_self ..))
    | cons y ys =>
      simp only [List.cons_append, List.cons.injEq] at h
      obtain ⟨h1, h2⟩ := ih (fun r hr => hx r (List.mem_cons_of_mem _ hr))
        (fun r hr => hy r (List.mem_cons_of_mem _ hr)) h.2
      exact ⟨by rw [h.1, h1], h2⟩

theorem recordLines_head (i : Nat) (cs : List (List Byte)) :
    ∀ r ∈ (recordLines i cs).head?, r.head? = some 'R' := by
  intro r hr
  cases cs with
  | nil => cases hr
  | cons c cs =>
    unfold recordLines at hr
    simp only [List.head?_cons, Option.mem_def, Option.some.injEq] at hr
    subst hr
    rw [show "Record: ".toList = 'R' :: "ecord: ".toList from by decide +kernel]
    rfl

theorem recordLines_inj : ∀ {cs cs' : List (List Byte)} {i : Nat},
    recordLines i cs = recordLines i cs' → cs = cs'
  | [], [], _, _ => rfl
  | [], c :: cs, i, h => by unfold recordLines at h; cases h
  | c :: cs, [], i, h => by unfold recordLines at h; cases h
  | c :: cs, c' :: cs', i, h => by
    unfold recordLines at h
    injection h with h1 h2
    obtain ⟨h3, h4⟩ := cut_record (fun r hr => (hexLines_mem hr).2) (fun r hr => (hexLines_mem hr).2)
      (recordLines_head _ _) (recordLines_head _ _) h2
    rw [hexLines_inj h3, recordLines_inj h4]

/-- **C70** Two files with the same dump have the same records and, as characters, the same
name. -/
theorem C70_same_file (name name' : List Byte) (records records' : List (List Byte)) :
    fileLines name records = fileLines name' records' ↔ chars name = chars name' ∧ records = records' := by
  unfold fileLines
  constructor
  · intro h
    injection h with h1 h2
    have h1 := List.append_cancel_right h1
    exact ⟨List.append_cancel_left h1, recordLines_inj h2⟩
  · rintro ⟨h1, rfl⟩
    rw [h1]

/-- **C70** The dump of a file with a record that cannot be read fails with the error of the
first such record. -/
theorem C70_file_fails (ext : Option (List Char)) (bytes : List Byte) (disk : Disk) (name : List Nat)
    (f : File) (r n : Nat) (e : Fail) (ho : Disk.openPath ext true bytes = .ok disk)
    (hf : disk.openFile (fromStrLossy name) = .ok (f, r)) (hn : n < f.recordCount)
    (hr : ∀ i < n, ∃ c, f.record disk.dev i = .ok c) (he : f.record disk.dev n = .error e) :
    (cmdDump ext (some name) bytes).1 = .error e := by
  have hrec : ∀ (k i : Nat), i ≤ n → n < i + k →
      Fails (M.forEach (List.range' i k) fun i => do
        println (lit "Record: " ++ decimal i)
        let content ← M.lift (f.record disk.dev i)
        println (hexdump [] content)) e := by
    intro k
    induction k with
    | zero => intro i h1 h2; omega
    | succ k ih =>
      intro i h1 h2
      rw [List.range'_succ]
      by_cases hi : i = n
      · subst hi
        refine Fails.bind (Fails.after (Says.println _) (Fails.bind ⟨[], ?_⟩))
        rw [he]
        exact Says.lift _
      · obtain ⟨c, hc⟩ := hr i (by omega)
        exact Fails.after (Says.bind (Says.println _) (Says.bind_lift hc (Says.println _)))
          (ih (i + 1) (by omega) (by omega))
  have hd : Fails (f.dump disk.dev) e := by
    unfold File.dump
    refine Fails.after (Says.println _) ?_
    rw [List.range_eq_range']
    exact hrec _ 0 (by omega) (by omega)
  obtain ⟨t, hd⟩ := hd
  have hs : cmdDump ext (some name) bytes = _ := showing_ok (w := true) ho (Says.bind_lift hf hd)
  rw [hs]

/-- **C70** In an image that was made by `cdisk` commands, the dump of a file shows what was
written to it. -/
theorem C70_files {ext : Option (List Char)} {bytes : List Byte} {c : Contents}
    (h : HoldsFiles ext bytes c) (name : List Nat) (i : Nat) (g : StoredFile)
    (hg : c.map.find (fromStrLossy name) = some (i, g)) :
    (cmdDump ext (some name) bytes).1 = .ok () ∧
    splitLines (cmdDump ext (some name) bytes).2 = fileLines (fromStrLossy name) [g.data] ++ [[]] := by
  obtain ⟨disk, he, hsz, hn, ho, hr, hi⟩ := holds_inv h
  obtain ⟨s, v, r, b, hrep⟩ := hr.rep
  have hop := hrep.ready.opened
  rcases opened_find hop hrep.slots (fun i f g hf hg => hrep.settled i f g hf hg (by intro w hw; cases hw))
    (fromStrLossy name) with ⟨h1, -⟩ | ⟨i', g', f, r', h1, hj, hopen, hfn, hfd⟩
  · rw [hg] at h1; cases h1
  · rw [hg] at h1
    cases h1
    have hreads := reads_chain hop.onDisk.wf rfl rfl (hop.onDisk.chains f (mem_files.2 ⟨_, hj⟩))
      (file := .linear (f.entry (slotPos v.dir i)))
    rw [hfd] at hreads
    have := C70_file ext bytes disk name _ r' [g.data] ho hopen rfl (by
      intro k c hk
      cases k with
      | zero =>
        simp only [List.getElem?_cons_zero, Option.some.injEq] at hk
        rw [← hk]
        exact hreads.1
      | succ k => simp at hk)
    rw [show (File.linear (f.entry (slotPos v.dir i))).entry.filename = f.name from rfl, hfn] at this
    exact this

/-- The dump of a file of three bytes. -/
example : ∃ bytes, splitLines (cmdDump (some "d64".toList) (some [104, 105]) bytes).2 =
    ["Filename: \"hi\"".toList, "Record: 0".toList,
      "0000: 01 41 ff                                        .A.".toList, []] := by
  obtain ⟨b₀, h₀⟩ := exists_holds (some "d64".toList) [104] [97, 98] (by decide)
  have hs : (Command.steps [.write [120] .SEQ [], .write [104, 105] .PRG [[1, 0x41, 0xff]]]
      ⟨(paddedName (fromStrLossy [104]), idFromBytes (fromStrLossy [97, 98])),
        FileMap.empty (namedType (some "d64".toList))⟩).map
          (fun p => (p.2.map.find (fromStrLossy [104, 105])).map fun q => (q.1, q.2.data)) =
      some (some (1, [1, 0x41, 0xff])) := by
    decide +kernel
  obtain ⟨⟨rs, c⟩, h1, h2⟩ := Option.map_eq_some_iff.1 hs
  obtain ⟨⟨i, g⟩, h3, h4⟩ := Option.map_eq_some_iff.1 h2
  obtain ⟨b₁, -, h₁⟩ := C63_commands_partial _ h₀ h1
  have hg : g.data = [1, 0x41, 0xff] := congrArg Prod.snd h4
  refine ⟨b₁, ?_⟩
  rw [(C70_files h₁ [104, 105] i g h3).2, hg]
  decide +kernel

/-- Two images that differ in one byte have different dumps. -/
example (i : Nat) (hi : i < 175531) :
    (cmdDump (some "d64".toList) none (List.replicate 175531 0)).1 = .ok () ∧
    (cmdDump (some "d64".toList) none (List.replicate 175531 0)).2 ≠
      (cmdDump (some "d64".toList) none ((List.replicate 175531 0).set i 1)).2 := by
  have hopen : ∀ bytes : List Byte, bytes.length = 175531 →
      ∃ disk, Disk.openPath (some "d64".toList) true bytes = .ok disk := by
    intro bytes hb
    rw [openPath_of (ty := .d64) (.inl (by decide)) true (by rw [hb]; decide)]
    exact (C05_accepts_exactly .d64 (pathImage true bytes)).1.2 (by show bytes.length ∈ _; rw [hb]; decide)
  obtain ⟨disk, ho⟩ := hopen (List.replicate 175531 0) List.length_replicate
  obtain ⟨disk', ho'⟩ := hopen ((List.replicate 175531 0).set i 1)
    (by rw [List.length_set, List.length_replicate])
  obtain ⟨s, hs, -, -, h1, -⟩ := C70_dump _ _ _ ho
  refine ⟨h1, fun h => ?_⟩
  have := C70_same_dump _ _ _ _ _ _ ho ho' h
  have := congrArg (fun l => l[i]?) this
  rw [List.getElem?_set_self (by rw [List.length_replicate]; exact hi),
    List.getElem?_replicate, if_pos hi] at this
  exact absurd this (by decide)

end Cbm
