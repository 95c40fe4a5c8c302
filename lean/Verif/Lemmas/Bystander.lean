import Verif.Lemmas.Fence
import Verif.Lemmas.Sort
/-!
# Devices that agree on some sectors
-/

namespace Cbm
open Spec

variable {s : Shape} {P : Location → Prop} {d d' : Device} {l m start : Location} {locs : List Location}
  {e : DirectoryEntry} {α : Type}

/-! ## Chains -/

theorem locations_walk (hw : Wf d s) (h : chainLocations d start = .ok locs) :
    ∃ ls t, locs = ls ++ [t] ∧ Path d s start ls t ∧ t ∉ ls ∧ s.Valid t ∧ byteAt (d.blk s t) 0 = 0 ∧
      byteAt (d.blk s t) 1 ≠ 0 := by
  unfold chainLocations at h
  obtain ⟨cs, hcs, h⟩ := res_bind_eq_ok.1 h
  cases h
  have hi := collectRes_inv hcs
  obtain ⟨ls, t, hi', hp, hst⟩ := chainItems_walk hw start
  rw [hi'] at hi
  have hlast : stopItem d s ls t ∈ cs.map Except.ok := by rw [← hi]; simp
  obtain ⟨c, hc, hs⟩ := List.mem_map.1 hlast
  have hsplit : cs = ls.map (fun l => ⟨d.blk s l, l⟩) ++ [c] := by
    rw [← hs] at hi
    have : (ls.map (fun l => (⟨d.blk s l, l⟩ : ChainSector)) ++ [c]).map Except.ok = cs.map (Except.ok (ε := Fail)) := by
      rw [← hi]; simp
    exact (List.map_inj_right (fun a b hab => Except.ok.inj hab)).1 this.symm
  unfold stopItem at hs
  split at hs
  · cases hs
  · rename_i hn
    split at hs
    · cases hs
    · rename_i hv
      replace hv := Classical.not_not.1 hv
      split at hs
      · cases hs
      · rename_i h1
        refine ⟨ls, t, ?_, hp, hn, hv, ?_, h1⟩
        · rw [hsplit]
          cases hs
          simp [Function.comp_def]
        · rcases hst with hst | hst | hst
          · exact (hn hst).elim
          · exact (hst hv).elim
          · exact hst

theorem linked_at : ∀ {a b : List Location} {l m : Location}, Linked d s (a ++ l :: m :: b) → linkBytes (d.blk s l) = m
  | [], _, _, _, h => h.1
  | [_], _, _, _, h => linked_at (a := []) h.2
  | _ :: y :: a, _, _, _, h => linked_at (a := y :: a) h.2

theorem path_closed {ls : List Location} {t : Location} (hp : Path d s start ls t) (hl : l ∈ ls) (hn : Next d s l m) :
    m ∈ ls ++ [t] := by
  obtain ⟨a, b, rfl⟩ := List.append_of_mem hl
  have h := hp.linked
  cases b with
  | nil =>
    have := linked_at (a := a) (b := []) (by simpa using h)
    rw [← hn.2.2, this]
    simp
  | cons c b =>
    have := linked_at (a := a) (b := b ++ [t]) (by simpa using h)
    rw [← hn.2.2, this]
    simp

theorem chain_next (hw : Wf d s) (h : chainLocations d start = .ok locs) (hl : l ∈ locs) (hn : Next d s l m) :
    m ∈ locs := by
  obtain ⟨ls, t, rfl, hp, -, -, h0, -⟩ := locations_walk hw h
  rcases List.mem_append.1 hl with hl | hl
  · exact path_closed hp hl hn
  · rw [List.mem_singleton.1 hl] at hn
    exact (hn.2.1 h0).elim

theorem chain_start (hw : Wf d s) (h : chainLocations d start = .ok locs) : start ∈ locs := by
  obtain ⟨ls, t, rfl, hp, -⟩ := locations_walk hw h
  have := hp.start
  exact List.mem_of_head? this

theorem chain_valid (hw : Wf d s) (h : chainLocations d start = .ok locs) (hl : l ∈ locs) : s.Valid l := by
  obtain ⟨ls, t, rfl, hp, -, hv, -⟩ := locations_walk hw h
  rcases List.mem_append.1 hl with hl | hl
  · exact hp.valid l hl
  · rw [List.mem_singleton.1 hl]; exact hv

theorem leads_in (hw : Wf d s) (h : chainLocations d start = .ok locs) (hl : LeadsTo d s start l) : l ∈ locs := by
  obtain ⟨ls, hp⟩ := hl
  exact closed_path (P := (· ∈ locs)) (fun a b ha hn => chain_next hw h ha hn) hp (chain_start hw h)

/-- What a reader finds at a sector that the chain leads to. -/
theorem leads_item (hw : Wf d s) (hl : LeadsTo d s start l) (hv : s.Valid l) :
    (byteAt (d.blk s l) 0 ≠ 0 → .ok ⟨d.blk s l, l⟩ ∈ chainItems d start) ∧
    (byteAt (d.blk s l) 0 = 0 → byteAt (d.blk s l) 1 ≠ 0 →
      .ok ⟨(d.blk s l).take ((byteAt (d.blk s l) 1).toNat + 1), l⟩ ∈ chainItems d start) := by
  obtain ⟨ls, t, hi, hp, hst⟩ := chainItems_walk hw start
  obtain ⟨ls', hp'⟩ := hl
  have hin : l ∈ ls ∨ (l = t ∧ t ∉ ls) := by
    have key : l ∈ ls ++ [t] := by
      refine closed_path (P := (· ∈ ls ++ [t])) (fun a b ha hn => ?_) hp' (List.mem_of_head? hp.start)
      by_cases ha' : a ∈ ls
      · exact path_closed hp ha' hn
      · rcases List.mem_append.1 ha with ha | ha
        · exact (ha' ha).elim
        · rw [List.mem_singleton.1 ha] at hn ha'
          rcases hst with h | h | h
          · exact (ha' h).elim
          · exact (h hn.1).elim
          · exact (hn.2.1 h).elim
    by_cases hls : l ∈ ls
    · exact .inl hls
    · rcases List.mem_append.1 key with h | h
      · exact (hls h).elim
      · rw [List.mem_singleton.1 h] at hls ⊢
        exact .inr ⟨rfl, hls⟩
  rw [hi]
  rcases hin with hin | ⟨rfl, hin⟩
  · have := hp.onward l hin
    exact ⟨fun _ => List.mem_append_left _ (List.mem_map.2 ⟨l, hin, rfl⟩), fun h => (this h).elim⟩
  · have h0 : byteAt (d.blk s l) 0 = 0 := by
      rcases hst with h | h | h
      · exact (hin h).elim
      · exact (h hv).elim
      · exact h
    refine ⟨fun h => (h h0).elim, fun _ h1 => List.mem_append_right _ ?_⟩
    unfold stopItem
    rw [if_neg hin, if_neg (Classical.not_not.2 hv), if_neg h1]
    exact List.mem_singleton.2 rfl

/-! ## Agreement -/

/-- The two devices have the same contents in these sectors. -/
def SameOn (s : Shape) (P : Location → Prop) (d d' : Device) : Prop :=
  ∀ l, P l → s.Valid l → d'.blk s l = d.blk s l

theorem SameOn.symm (h : SameOn s P d d') : SameOn s P d' d := fun l hl hv => (h l hl hv).symm

theorem next_on (h : SameOn s P d d') (hl : P l) (hn : Next d s l m) : Next d' s l m := by
  have := h l hl hn.1
  exact ⟨hn.1, by rw [this]; exact hn.2.1, by rw [this]; exact hn.2.2⟩

theorem linked_on : ∀ {ls : List Location} {t : Location}, (∀ l ∈ ls, d'.blk s l = d.blk s l) →
    Linked d s (ls ++ [t]) → Linked d' s (ls ++ [t])
  | [], _, _, _ => trivial
  | [a], _, h, hl => ⟨by rw [h a (by simp)]; exact hl.1, trivial⟩
  | a :: b :: ls, _, h, hl => ⟨by rw [h a (by simp)]; exact hl.1,
      linked_on (ls := b :: ls) (fun x hx => h x (List.mem_cons_of_mem _ hx)) hl.2⟩

theorem path_on {ls : List Location} {t : Location} (h : SameOn s P d d') (hls : ∀ l ∈ ls, P l)
    (hp : Path d s start ls t) : Path d' s start ls t := by
  have hb : ∀ l ∈ ls, d'.blk s l = d.blk s l := fun l hl => h l (hls l hl) (hp.valid l hl)
  exact ⟨hp.valid, hp.nodup, fun l hl => by rw [hb l hl]; exact hp.onward l hl, linked_on hb hp.linked, hp.start⟩

theorem items_on (hw : Wf d s) (hw' : Wf d' s) (h : SameOn s P d d') (hP : ∀ l, LeadsTo d s start l → P l) :
    chainItems d' start = chainItems d start := by
  obtain ⟨ls, t, hi, hp, hst⟩ := chainItems_walk hw start
  obtain ⟨ls', t', hi', hp', hst'⟩ := chainItems_walk hw' start
  have hls : ∀ l ∈ ls, P l := by
    intro l hl
    obtain ⟨a, c, rfl⟩ := List.append_of_mem hl
    exact hP l ⟨a, hp.cut⟩
  have hp'' := path_on h hls hp
  have ht : s.Valid t → d'.blk s t = d.blk s t := h t (hP t ⟨ls, hp⟩)
  have hst'' : Stops d' s ls t := by
    rcases hst with h | h | h
    · exact .inl h
    · exact .inr (.inl h)
    · by_cases hv : s.Valid t
      · exact .inr (.inr (by rw [ht hv]; exact h))
      · exact .inr (.inl hv)
  obtain ⟨rfl, rfl⟩ := path_unique hp'' hst'' hp' hst'
  rw [hi, hi']
  congr 1
  · refine List.map_congr_left fun l hl => ?_
    rw [h l (hls l hl) (hp.valid l hl)]
  · unfold stopItem
    by_cases hv : s.Valid t
    · rw [ht hv]
    · simp [hv]

theorem locations_on (hw : Wf d s) (hw' : Wf d' s) (h : SameOn s P d d') (hP : ∀ l, LeadsTo d s start l → P l) :
    chainLocations d' start = chainLocations d start := by
  unfold chainLocations chainSectors
  rw [items_on hw hw' h hP]

theorem content_on (hw : Wf d s) (hw' : Wf d' s) (h : SameOn s P d d') (hP : ∀ l, LeadsTo d s start l → P l) :
    chainContent d' start = chainContent d start := by
  unfold chainContent chainSectors
  rw [items_on hw hw' h hP]

theorem sector_on (hw : Wf d s) (hw' : Wf d' s) (h : SameOn s P d d') (hl : P l) : d'.sector l = d.sector l := by
  by_cases hv : s.Valid l
  · rw [hw.sector hv, hw'.sector hv, h l hl hv]
  · rw [hw.sector_invalid hv, hw'.sector_invalid hv]

/-! ## Files -/

theorem mem_sectors (l : Location) (xs : List Location) : l ∈ dedupLocs (sortLocs xs) ↔ l ∈ xs := by
  rw [mem_dedupLocs, mem_sortLocs]

theorem sideSectorLoop_items : ∀ {items : List (Res ChainSector)} {side data : List Location}
    {lists : List (List Location)} {r : List Location × List (List Location) × List Location},
    sideSectorLoop items side lists data = .ok r →
    ∃ cs : List ChainSector, items = cs.map Except.ok ∧ r.1 = side ++ cs.map ChainSector.location
  | [], side, _, _, _, h => by
    cases h
    exact ⟨[], rfl, by simp⟩
  | .error q :: items, _, _, _, _, h => by cases h
  | .ok c :: items, side, data, lists, r, h => by
    unfold sideSectorLoop at h
    obtain ⟨b1, -, h⟩ := res_bind_eq_ok.1 h
    obtain ⟨b2, -, h⟩ := res_bind_eq_ok.1 h
    obtain ⟨b3, -, h⟩ := res_bind_eq_ok.1 h
    have key : ∀ size : Nat, (if (decide (size < 16) || size % 2 == 1) = true then fail DiskError.invalidRelativeFile
      else do
        let dataBytes ← subSlice c.data 16 (size - 16)
        let sectors ← pairLocations dataBytes
        sideSectorLoop items (side ++ [c.location]) (lists ++ [List.filter (fun l => l.track != 0) b2])
          (data ++ sectors)) = .ok r →
        ∃ cs : List ChainSector, Except.ok c :: items = cs.map Except.ok ∧ r.1 = side ++ cs.map ChainSector.location := by
      intro size h
      split at h
      · cases h
      · obtain ⟨b4, -, h⟩ := res_bind_eq_ok.1 h
        obtain ⟨b5, -, h⟩ := res_bind_eq_ok.1 h
        obtain ⟨cs, h1, h2⟩ := sideSectorLoop_items h
        exact ⟨c :: cs, by rw [h1]; rfl, by rw [h2]; simp⟩
    cases b3 with
    | next l => exact key BLOCK_SIZE h
    | tail n => exact key n h

theorem relative_parts {f : RelativeFile} (h : RelativeFile.new d e = .ok f) :
    ∃ ex lists, e.extra = .relative ex ∧ f.entry = e ∧
      sideSectorLoop (chainItems d ex.firstSideSector) [] [] [] = .ok (f.sideSectors, lists, f.dataSectors) ∧
      chainLocations d ex.firstSideSector = .ok f.sideSectors := by
  unfold RelativeFile.new at h
  split at h
  · rename_i ex hex
    obtain ⟨⟨side, lists, data⟩, hs, h⟩ := res_bind_eq_ok.1 h
    simp only at h
    split at h
    · cases h
    · split at h
      · cases h
      · obtain ⟨last, -, h⟩ := res_bind_eq_ok.1 h
        generalize (if data.isEmpty = true then 0 else (data.length - 1) * (BLOCK_SIZE - 2)) + last = size at h
        split at h
        · cases h
        · split at h
          · cases h
          · cases h
            refine ⟨ex, lists, hex, rfl, hs, ?_⟩
            obtain ⟨cs, h1, h2⟩ := sideSectorLoop_items hs
            unfold chainLocations chainSectors
            rw [h1, collectRes_ok]
            simp only [List.nil_append] at h2
            rw [show side = _ from h2]
            rfl
  · cases h

theorem relative_on (hw : Wf d s) (hw' : Wf d' s) {f : RelativeFile} (h : RelativeFile.new d e = .ok f)
    (hs : SameOn s (fun l => l ∈ f.dataSectors ∨ l ∈ f.sideSectors) d d') : RelativeFile.new d' e = .ok f := by
  obtain ⟨ex, lists, hex, -, hl, hc⟩ := relative_parts h
  have hi : chainItems d' ex.firstSideSector = chainItems d ex.firstSideSector :=
    items_on hw hw' hs fun l hl => .inr (leads_in hw hc hl)
  have hlast : lastBlockBytes d' f.dataSectors = lastBlockBytes d f.dataSectors := by
    unfold lastBlockBytes
    cases hg : f.dataSectors.getLast? with
    | none => rfl
    | some l =>
      simp only
      rw [sector_on hw hw' hs (.inl (List.mem_of_getLast? hg))]
  rw [← h]
  unfold RelativeFile.new
  rw [hex]
  simp only [hi, hl, res_bind_ok, hlast]

theorem position_on (hw : Wf d s) (hw' : Wf d' s) (h : SameOn s P d d') {p : Position} (hp : P p.location) :
    d'.readPosition p = d.readPosition p := by
  unfold Device.readPosition
  rw [sector_on hw hw' h hp]

theorem indexRes_mem {xs : List α} {i : Nat} {a : α} (h : indexRes xs i = .ok a) : a ∈ xs := by
  unfold indexRes at h
  split at h
  · rename_i b hb
    cases h
    exact List.mem_of_getElem? hb
  · cases h

theorem record_position {f : RelativeFile} {i : Nat} {p : Position} {q : Option Position}
    (h : f.recordPosition i = .ok (p, q)) : p.location ∈ f.dataSectors ∧ ∀ q', q = some q' → q'.location ∈ f.dataSectors := by
  unfold RelativeFile.recordPosition at h
  split at h
  · cases h
  · obtain ⟨l, hl, h⟩ := res_bind_eq_ok.1 h
    simp only at h
    split at h
    · cases h
      exact ⟨indexRes_mem hl, fun _ h => by (cases h)⟩
    · obtain ⟨l', hl', h⟩ := res_bind_eq_ok.1 h
      cases h
      exact ⟨indexRes_mem hl, fun _ h => by (cases h); exact indexRes_mem hl'⟩

theorem relative_record_on (hw : Wf d s) (hw' : Wf d' s) {f : RelativeFile} (hs : SameOn s P d d')
    (hP : ∀ l ∈ f.dataSectors, P l) (i : Nat) : f.record d' i = f.record d i := by
  unfold RelativeFile.record
  cases h : f.recordPosition i with
  | error q => rfl
  | ok pq =>
    obtain ⟨p, q⟩ := pq
    obtain ⟨h1, h2⟩ := record_position h
    simp only [res_bind_ok]
    rw [position_on hw hw' hs (hP _ h1)]
    cases q with
    | none => rfl
    | some q => simp only [position_on hw hw' hs (hP _ (h2 q rfl))]

theorem recordChains_on (hw : Wf d s) (hw' : Wf d' s) (hs : SameOn s P d d') :
    ∀ {rs : List (Option Location)} {ls : List Location}, recordChains d rs = .ok ls → (∀ l ∈ ls, P l) →
      recordChains d' rs = .ok ls ∧ ∀ start, some start ∈ rs → ∃ locs, chainLocations d start = .ok locs ∧
        ∀ l ∈ locs, l ∈ ls
  | [], ls, h, _ => ⟨h, fun _ h => by (cases h)⟩
  | none :: rs, ls, h, hP => by
    obtain ⟨h1, h2⟩ := recordChains_on hw hw' hs (rs := rs) h hP
    refine ⟨h1, fun start hm => h2 start ?_⟩
    rcases List.mem_cons.1 hm with hm | hm
    · cases hm
    · exact hm
  | some l :: rs, ls, h, hP => by
    unfold recordChains at h ⊢
    obtain ⟨a, ha, h⟩ := res_bind_eq_ok.1 h
    obtain ⟨b, hb, h⟩ := res_bind_eq_ok.1 h
    cases h
    obtain ⟨h1, h2⟩ := recordChains_on hw hw' hs (rs := rs) hb fun l hl => hP l (List.mem_append_right _ hl)
    refine ⟨?_, fun start hm => ?_⟩
    · rw [locations_on hw hw' hs fun l hl => hP l (List.mem_append_left _ (leads_in hw ha hl)), ha, h1]
      rfl
    · rcases List.mem_cons.1 hm with hm | hm
      · cases hm
        exact ⟨a, ha, fun l hl => List.mem_append_left _ hl⟩
      · obtain ⟨locs, h3, h4⟩ := h2 start hm
        exact ⟨locs, h3, fun l hl => List.mem_append_right _ (h4 l hl)⟩

/-- The parts of a GEOS file. -/
theorem geos_parts {f : GEOSFile} {ls : List Location} (h : f.occupiedSectors d = .ok ls) :
    ∃ main info records, chainLocations d f.entry.firstSector = .ok main ∧ f.entry.infoLocation = .ok info ∧
      (∀ rs, f.vlir = some rs → recordChains d rs = .ok records) ∧ (f.vlir = none → records = []) ∧
      ls = dedupLocs (sortLocs (main ++ info.toList ++ records)) := by
  unfold GEOSFile.occupiedSectors at h
  obtain ⟨main, h1, h⟩ := res_bind_eq_ok.1 h
  obtain ⟨info, h2, h⟩ := res_bind_eq_ok.1 h
  cases hv : f.vlir with
  | none =>
    rw [hv] at h
    cases h
    exact ⟨main, info, [], h1, h2, fun _ h => by (cases h), fun _ => rfl, rfl⟩
  | some rs =>
    rw [hv] at h
    obtain ⟨records, h3, h⟩ := res_bind_eq_ok.1 h
    cases h
    exact ⟨main, info, records, h1, h2, fun rs' h => by (cases h); exact h3, fun h => by (cases h), rfl⟩

theorem geos_new {f : GEOSFile} (h : GEOSFile.new d e = .ok f) : f.entry = e := by
  unfold GEOSFile.new at h
  obtain ⟨v, -, h⟩ := res_bind_eq_ok.1 h
  split at h
  · obtain ⟨b, -, h⟩ := res_bind_eq_ok.1 h
    cases h
    rfl
  · cases h
    rfl

theorem geos_sectors {f : GEOSFile} {main records : List Location} {info : Option Location}
    (h1 : chainLocations d f.entry.firstSector = .ok main) (h2 : f.entry.infoLocation = .ok info)
    (h3 : ∀ rs, f.vlir = some rs → recordChains d rs = .ok records) (h4 : f.vlir = none → records = []) :
    f.occupiedSectors d = .ok (dedupLocs (sortLocs (main ++ info.toList ++ records))) := by
  unfold GEOSFile.occupiedSectors
  rw [h1, h2]
  simp only [res_bind_ok]
  cases hv : f.vlir with
  | none => rw [h4 hv]; rfl
  | some rs =>
    simp only
    rw [h3 rs hv]
    rfl

theorem geos_record_on (hw : Wf d s) (hw' : Wf d' s) {f : GEOSFile} {main records : List Location}
    (hs : SameOn s P d d') (h1 : chainLocations d f.entry.firstSector = .ok main)
    (h3 : ∀ rs, f.vlir = some rs → recordChains d rs = .ok records) (hmain : ∀ l ∈ main, P l)
    (hrec : ∀ l ∈ records, P l) (i : Nat) : f.record d' i = f.record d i := by
  unfold GEOSFile.record
  cases hr : f.recordStart i with
  | error q => simp only [res_bind_error]
  | ok o =>
    cases o with
    | none => simp only [res_bind_ok]
    | some start =>
      simp only [res_bind_ok]
      unfold GEOSFile.recordStart at hr
      split at hr
      · rename_i rs hv
        split at hr
        · rename_i o ho
          obtain ⟨locs, g1, g2⟩ := (recordChains_on hw hw' hs (h3 rs hv) hrec).2 start (by
            rw [← Except.ok.inj hr]
            exact List.mem_of_getElem? ho)
          exact content_on hw hw' hs fun l hl => hrec l (g2 l (leads_in hw g1 hl))
        · cases hr
      · cases hr
        exact content_on hw hw' hs fun l hl => hmain l (leads_in hw h1 hl)

theorem geos_on (hw : Wf d s) (hw' : Wf d' s) {f : GEOSFile} {ls : List Location} (hs : SameOn s (· ∈ ls) d d')
    (hn : GEOSFile.new d e = .ok f) (h : f.occupiedSectors d = .ok ls) :
    GEOSFile.new d' e = .ok f ∧ f.occupiedSectors d' = .ok ls ∧ ∀ i, f.record d' i = f.record d i := by
  obtain ⟨main, info, records, h1, h2, h3, h4, hls⟩ := geos_parts h
  have hmain : ∀ l ∈ main, l ∈ ls := fun l hl => by
    rw [hls]
    exact (mem_sectors _ _).2 (by simp [hl])
  have hrec : ∀ l ∈ records, l ∈ ls := fun l hl => by
    rw [hls]
    exact (mem_sectors _ _).2 (by simp [hl])
  have he := geos_new hn
  refine ⟨?_, ?_, geos_record_on hw hw' hs h1 h3 hmain hrec⟩
  · rw [← hn]
    unfold GEOSFile.new
    rw [sector_on hw hw' hs (hmain _ (by rw [← he]; exact chain_start hw h1))]
  · rw [hls]
    refine geos_sectors ?_ h2 (fun rs hv => (recordChains_on hw hw' hs (h3 rs hv) hrec).1) h4
    rw [locations_on hw hw' hs fun l hl => hmain l (leads_in hw h1 hl), h1]

theorem file_entry {f : File} (h : File.fromEntry d e = .ok f) : f.entry = e := by
  unfold File.fromEntry at h
  split at h
  · cases h; rfl
  · obtain ⟨g, hg, h⟩ := res_bind_eq_ok.1 h
    cases h
    obtain ⟨-, -, -, h, -⟩ := relative_parts hg
    exact h
  · obtain ⟨g, hg, h⟩ := res_bind_eq_ok.1 h
    cases h
    exact geos_new hg
  · obtain ⟨g, hg, h⟩ := res_bind_eq_ok.1 h
    cases h
    exact geos_new hg

/-- A file is opened, scanned and read in the same way on two devices that agree on its sectors. -/
theorem file_on (hw : Wf d s) (hw' : Wf d' s) {f : File} {ls : List Location} (hs : SameOn s (· ∈ ls) d d')
    (hn : File.fromEntry d e = .ok f) (h : f.occupiedSectors d = .ok ls) :
    File.fromEntry d' e = .ok f ∧ f.occupiedSectors d' = .ok ls ∧ ∀ i, f.record d' i = f.record d i := by
  unfold File.fromEntry at hn ⊢
  split at hn
  · cases hn
    unfold File.occupiedSectors at h ⊢
    simp only at h ⊢
    obtain ⟨main, hm, h⟩ := res_bind_eq_ok.1 h
    cases h
    have hlead : ∀ l, LeadsTo d s e.firstSector l → l ∈ dedupLocs (sortLocs main) := fun l hl =>
      (mem_sectors _ _).2 (leads_in hw hm hl)
    refine ⟨trivial, ?_, fun i => ?_⟩
    · rw [locations_on hw hw' hs hlead, hm]
      rfl
    · unfold File.record
      simp only [content_on hw hw' hs hlead]
  · obtain ⟨g, hg, hn⟩ := res_bind_eq_ok.1 hn
    cases hn
    cases h
    have hs' : SameOn s (fun l => l ∈ g.dataSectors ∨ l ∈ g.sideSectors) d d' := fun l hl hv =>
      hs l ((mem_sectors _ _).2 (List.mem_append.2 hl)) hv
    refine ⟨?_, rfl, fun i => ?_⟩
    · rw [relative_on hw hw' hg hs']
      rfl
    · exact relative_record_on hw hw' hs' (fun l hl => .inl hl) i
  · obtain ⟨g, hg, hn⟩ := res_bind_eq_ok.1 hn
    cases hn
    obtain ⟨h1, h2, h3⟩ := geos_on hw hw' hs hg h
    exact ⟨by rw [h1]; rfl, h2, h3⟩
  · obtain ⟨g, hg, hn⟩ := res_bind_eq_ok.1 hn
    cases hn
    obtain ⟨h1, h2, h3⟩ := geos_on hw hw' hs hg h
    exact ⟨by rw [h1]; rfl, h2, h3⟩

end Cbm
