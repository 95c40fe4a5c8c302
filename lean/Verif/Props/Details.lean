import Verif.Spec.Details
import Verif.Props.Info
import Verif.Props.Relative
import Verif.Props.Special
/-!
# C71: the details of files in a directory listing
-/

namespace Cbm

open Spec

variable {d : Device} {s : Shape} {e : DirectoryEntry}

theorem place_eq (l : Location) : l.text = place l := rfl

theorem joinBlank_eq : ∀ xs : List (List Char), joinBlank xs = [' '].intercalate xs
  | [] => rfl
  | [x] => by simp [joinBlank, List.intercalate]
  | x :: y :: rest => by
    rw [joinBlank, joinBlank_eq (y :: rest)]
    · simp [List.intercalate, List.intersperse]
    · simp

theorem places_eq (ls : List Location) : locationsText ls = places ls := joinBlank_eq _

theorem position_eq (p : Position) : lit "Directory position: " ++ p.text = slotLine p := by
  unfold Position.text slotLine
  simp only [paddedHex_two, lit_eq, List.append_assoc]
  rfl

theorem place_blank (l : Location) : ' ' ∉ place l := by
  rw [← place_eq]
  intro h
  rcases location_chars h with h | h
  · exact absurd h (by decide)
  · exact absurd h (by decide)

theorem places_cons (l m : Location) (ls : List Location) :
    places (l :: m :: ls) = place l ++ ' ' :: places (m :: ls) := by
  unfold places
  simp [List.intercalate]

theorem places_single (l : Location) : places [l] = place l := by
  simp [places, List.intercalate]

theorem place_ne_nil (l : Location) : place l ≠ [] := by
  unfold place
  simp

/-- **C71** The printed sectors can be read back. -/
theorem C71_places : ∀ {a b : List Location}, places a = places b → a = b
  | [], [], _ => rfl
  | [], [l], h => by
    have : place l = [] := by simpa [places, List.intercalate] using h.symm
    exact absurd this (place_ne_nil l)
  | [], l :: m :: ls, h => by
    rw [places_cons] at h
    have := congrArg List.length h
    simp [places, List.intercalate] at this
  | [l], [], h => by
    have : place l = [] := by simpa [places, List.intercalate] using h
    exact absurd this (place_ne_nil l)
  | l :: m :: ls, [], h => by
    rw [places_cons] at h
    have := congrArg List.length h
    simp [places, List.intercalate] at this
  | [l], [m], h => by
    have : place l = place m := by simpa [places, List.intercalate] using h
    rw [← place_eq, ← place_eq] at this
    rw [location_inj this]
  | [l], m :: n :: ms, h => by
    rw [places_cons] at h
    rw [places_single] at h
    exact absurd (h ▸ (by simp : ' ' ∈ place m ++ ' ' :: places (n :: ms))) (place_blank l)
  | m :: n :: ms, [l], h => by
    rw [places_cons] at h
    rw [places_single] at h
    exact absurd (h ▸ (by simp : ' ' ∈ place m ++ ' ' :: places (n :: ms))) (place_blank l)
  | l :: m :: ls, l' :: m' :: ls', h => by
    rw [places_cons, places_cons] at h
    obtain ⟨h1, h2⟩ := split_first (place_blank _) (place_blank _) h
    rw [← place_eq, ← place_eq] at h1
    rw [location_inj h1, C71_places h2]

/-! ## Records -/

theorem availableRecords_eq (rs : List (Option (List Location))) (locs : List (Option Location))
    (h : locs.map Option.isSome = rs.map Option.isSome) :
    availableRecords locs = (shownRecords rs).length := by
  have hany : locs.any Option.isSome = !rs.all Option.isNone := by
    have h1 : locs.any Option.isSome = (locs.map Option.isSome).any id := by rw [List.any_map]; rfl
    have h2 : rs.all Option.isNone = !(rs.map Option.isSome).any id := by
      rw [List.any_map, List.all_eq_not_any_not]
      congr 2
      funext r
      cases r <;> rfl
    rw [h1, h2, h, Bool.not_not]
  have hlen : locs.length = rs.length := by
    have := congrArg List.length h; simpa using this
  have hdrop : ∀ (a : List (Option Location)) (b : List (Option (List Location))),
      a.map Option.isSome = b.map Option.isSome →
      (a.dropWhile fun r => r.isNone).length = (b.dropWhile Option.isNone).length := by
    intro a
    induction a with
    | nil => intro b h; cases b with
      | nil => rfl
      | cons y b => simp at h
    | cons x a ih =>
      intro b h
      cases b with
      | nil => simp at h
      | cons y b =>
        simp only [List.map_cons, List.cons.injEq] at h
        rw [List.dropWhile_cons, List.dropWhile_cons]
        cases x with
        | none =>
          cases y with
          | none => exact ih b h.2
          | some y => cases h.1
        | some x =>
          cases y with
          | none => cases h.1
          | some y =>
            have := congrArg List.length h.2
            simpa using this
  unfold availableRecords shownRecords
  rw [hany]
  cases rs.all Option.isNone with
  | true => exact hlen
  | false =>
    simp only [Bool.not_false, if_true, Bool.false_eq_true, if_false, List.length_reverse]
    refine hdrop _ _ ?_
    rw [List.map_reverse, List.map_reverse, h]

/-- The records with their chains. -/
theorem recordPlaces_start {ps : List Location} {rs : List (Option (List Location))} (hw : Wf d s)
    (h : RecordPlaces d s ps rs) :
    (ps.map fun l => if l = noRecord then none else some l).map Option.isSome = rs.map Option.isSome ∧
    (ps.map fun l => if l = noRecord then none else some l).map (fun r =>
      match r with
      | some l => chainLocations d l
      | none => .ok []) = rs.map fun r => .ok (r.getD []) := by
  induction h with
  | nil => exact ⟨rfl, rfl⟩
  | absent _ ih =>
    simp only [List.map_cons, if_pos]
    exact ⟨by rw [ih.1]; rfl, by rw [ih.2]; rfl⟩
  | present hne hh hc _ ih =>
    simp only [List.map_cons, if_neg hne]
    exact ⟨by rw [ih.1]; rfl, by rw [ih.2, chainLocations_chain hw hc hh]; rfl⟩

theorem printRecords_says (total : Nat) : ∀ (locs : List (Option Location)) (rs : List (Option (List Location))) (i k : Nat),
    locs.map (fun r =>
      match r with
      | some l => chainLocations d l
      | none => .ok []) = rs.map (fun r => .ok (r.getD [])) →
    k ≤ rs.length →
    Says (printRecords d (i + k) total i locs) (.ok ())
      ((((rs.take k).mapIdx fun j r => "Record ".toList ++ Nat.toDigits 10 (i + j) ++ " sectors: ".toList ++ places (r.getD [])) ++
        if k < rs.length then [Nat.toDigits 10 (total - (i + k)) ++ " unavailable records follow...".toList] else []).flatMap
        (· ++ ['\n']))
  | [], rs, i, k, h, hk => by
    have : rs = [] := by cases rs with
      | nil => rfl
      | cons r rs => cases h
    subst this
    have : k = 0 := by simpa using hk
    subst this
    exact Says.pure ()
  | l :: locs, [], i, k, h, hk => by cases h
  | l :: locs, r :: rs, i, 0, h, hk => by
    unfold printRecords
    rw [if_pos (by omega)]
    simp only [List.take_zero, List.mapIdx_nil, List.nil_append, List.length_cons, Nat.zero_lt_succ, if_true,
      List.flatMap_cons, List.flatMap_nil, List.append_nil, Nat.add_zero]
    rw [← lit_eq]
    exact Says.println _
  | l :: locs, r :: rs, i, k + 1, h, hk => by
    simp only [List.map_cons, List.cons.injEq] at h
    unfold printRecords
    rw [if_neg (by omega)]
    refine Says.bind_lift h.1 ?_
    have ih := printRecords_says total locs rs (i + 1) k h.2 (by simpa using hk)
    rw [List.take_succ_cons, List.mapIdx_cons, List.cons_append, List.flatMap_cons]
    refine Says.bind (a := ()) ?_ ?_
    · rw [Nat.add_zero, ← places_eq, ← lit_eq, ← lit_eq]
      exact Says.println _
    · rw [show i + (k + 1) = i + 1 + k by omega]
      simp only [List.length_cons, Nat.add_lt_add_iff_right]
      have hf : (fun (j : Nat) (r : Option (List Location)) => "Record ".toList ++ Nat.toDigits 10 (i + (j + 1)) ++
          " sectors: ".toList ++ places (r.getD [])) =
          fun j r => "Record ".toList ++ Nat.toDigits 10 (i + 1 + j) ++ " sectors: ".toList ++ places (r.getD []) := by
        funext j r
        rw [show i + (j + 1) = i + 1 + j by omega]
      rw [hf]
      exact ih

theorem take_shown (rs : List (Option (List Location))) :
    rs.take (shownRecords rs).length = shownRecords rs ∧ (shownRecords rs).length ≤ rs.length := by
  unfold shownRecords
  split
  · exact ⟨List.take_length, Nat.le_refl _⟩
  · have := List.takeWhile_append_dropWhile (p := Option.isNone) (l := rs.reverse)
    have h2 : rs = (rs.reverse.dropWhile Option.isNone).reverse ++ (rs.reverse.takeWhile Option.isNone).reverse := by
      rw [← List.reverse_append, this, List.reverse_reverse]
    generalize (rs.reverse.dropWhile Option.isNone).reverse = x at h2 ⊢
    rw [h2, List.length_append]
    exact ⟨List.take_left, Nat.le_add_right _ _⟩

/-! ## Details of one file -/

theorem Says.silent {α β : Type} {m : M (List Char) α} {f : α → M (List Char) β} {a : α} {r : Res β}
    {u : List Char} (h : Says m (.ok a) []) (h' : Says (f a) r u) : Says (m >>= f) r u := Says.bind h h'

theorem InSlot.isVlir {p : Position} (hp : InSlot d s e p)
    (hs : e.scheme = .geosSequential ∨ e.scheme = .geosVLIR) :
    e.isVlir = .ok (decide (e.scheme = .geosVLIR)) := by
  obtain ⟨border, heq⟩ := hp.entry
  have hsch : e.scheme = entryScheme (slotData d s p) := by rw [heq]; rfl
  rw [hsch] at hs ⊢
  have := (parse32_geos (slotData d s p) (some p) hs).2
  rw [heq]
  exact this

theorem printPosition_says {p : Position} (hp : e.position = some p) (n : Nat) :
    Says (printPosition e n) (.ok ()) (if 0 < n then slotLine p ++ ['\n'] else []) := by
  unfold printPosition
  by_cases hn : 0 < n
  · rw [if_pos hn, if_pos hn, hp, ← position_eq]
    exact Says.println _
  · rw [if_neg hn, if_neg hn]
    exact Says.pure ()

theorem info_says {f : GEOSFile} {info : List Location} (hw : Wf d s) (he : f.entry = e)
    (hi : InfoBlock e info) (hv : ∀ l ∈ info, s.Valid l) :
    Says (M.lift (f.info d) >>= printInfo) (.ok ()) ((infoLines d s info).flatMap (· ++ ['\n'])) := by
  obtain ⟨o, ho, rfl⟩ := hi.location
  cases o with
  | none =>
    refine Says.bind_lift (a := none) ?_ (Says.pure ())
    unfold GEOSFile.info
    rw [he, ho]
    rfl
  | some l =>
    have hl : s.Valid l := hv l (by simp)
    refine Says.bind_lift (a := some (infoOf (d.blk s l))) ?_ ?_
    · unfold GEOSFile.info
      rw [he, ho, res_bind_ok]
      simp only []
      rw [hw.sector hl, res_bind_ok, info_parse (hw.blk_length hl)]
      rfl
    · show Says _ _ (("GEOS info block:".toList :: (InfoView.ofBlock (d.blk s l)).lines).flatMap _)
      rw [List.flatMap_cons, ← lit_eq]
      refine Says.bind (a := ()) (Says.println _) ?_
      refine Says.bind_lift (info_text (hw.blk_length hl)) ?_
      exact Says.print _

theorem lines_flat (xs : List (List Char)) (n : Nat) :
    (if decide (0 < n) = true then xs else []).flatMap (· ++ ['\n']) =
      if 0 < n then xs.flatMap (· ++ ['\n']) else [] := by
  by_cases h : 0 < n
  · simp [h]
  · simp [h]

/-- **C71** What is printed about a file that is listed in the directory. -/
theorem C71_file {disk : Disk} {es : List DirectoryEntry} {ref n : Nat} {lines : List (List Char)}
    (hw : Wf disk.dev s) (hes : disk.directory = .ok es) (he : e ∈ es) (hb : disk.bamRef = .ok ref)
    (h : Details disk.dev s e (decide (0 < n)) lines) :
    ∃ f, disk.openFileFromEntry e = .ok (f, ref) ∧
      ∀ out, f.details disk.dev n out = (.ok (), out ++ lines.flatMap (· ++ ['\n'])) := by
  have hopen : ∀ f, File.fromEntry disk.dev e = .ok f → disk.openFileFromEntry e = .ok (f, ref) := by
    intro f hf
    unfold Disk.openFileFromEntry
    rw [hb, res_bind_ok, hf]
    rfl
  obtain ⟨p₀, -, hslot⟩ := listed_slot hw hes he
  cases h with
  | @ordinary p locs content hsc hp hh hc =>
    refine ⟨.linear e, hopen _ (by unfold File.fromEntry; rw [hsc]), ?_⟩
    show Says _ _ _
    have hpos := printPosition_says hp n
    by_cases hn : 0 < n
    · rw [if_pos hn] at hpos
      simp only [hn, decide_true, if_true, List.flatMap_cons, List.flatMap_nil, List.append_nil]
      unfold File.details
      simp only []
      rw [if_pos hn]
      refine Says.bind (a := ()) hpos (Says.bind_lift (chainLocations_chain hw hc hh) ?_)
      rw [← places_eq, ← lit_eq]
      exact Says.println _
    · rw [if_neg hn] at hpos
      simp only [hn, decide_false, Bool.false_eq_true, if_false, List.flatMap_nil]
      unfold File.details
      simp only []
      rw [if_neg hn]
      exact Says.bind (a := ()) hpos (Says.pure ())
  | @relative p ex side data size hsc hp hx hs hd hL hm =>
    have hf := (C42_open_iff hw hx ⟨e, ex.recordLength.toNat, data, side, size / ex.recordLength.toNat⟩).2
      ⟨side, data, size, hs, hd, hL, hm, rfl⟩
    refine ⟨.relative _, hopen _ (by unfold File.fromEntry; rw [hsc]; simp only []; rw [hf]; rfl), ?_⟩
    show Says _ _ _
    have hpos := printPosition_says hp n
    by_cases hn : 0 < n
    · rw [if_pos hn] at hpos
      simp only [hn, decide_true, if_true, List.flatMap_cons, List.flatMap_nil, List.append_nil]
      unfold File.details
      simp only []
      rw [if_pos hn]
      refine Says.bind (a := ()) hpos (Says.bind (a := ()) ?_ ?_)
      · rw [← places_eq, ← lit_eq]
        exact Says.println _
      · rw [← places_eq, ← lit_eq]
        exact Says.println _
    · rw [if_neg hn] at hpos
      simp only [hn, decide_false, Bool.false_eq_true, if_false, List.flatMap_nil]
      unfold File.details
      simp only []
      rw [if_neg hn]
      exact Says.bind (a := ()) hpos (Says.pure ())
  | @sequential p data info hsc hp hs hv =>
    have hv' : e.isVlir = .ok false := by
      rw [hslot.isVlir (.inl hsc), hsc]; rfl
    have hf : File.fromEntry disk.dev e = .ok (.geosSequential ⟨e, none⟩) := by
      unfold File.fromEntry GEOSFile.new
      rw [hsc]
      simp only []
      rw [hv']
      rfl
    refine ⟨_, hopen _ hf, ?_⟩
    show Says _ _ _
    have hpos := printPosition_says hp n
    obtain ⟨content, hc⟩ := hs.chain
    have hinfo := info_says (f := ⟨e, none⟩) hw rfl hs.info hv
    unfold File.details GEOSFile.details
    rw [List.flatMap_append]
    simp only []
    by_cases hn : 0 < n
    · rw [if_pos hn] at hpos
      simp only [hn, decide_true, if_true, List.flatMap_cons, List.flatMap_nil, List.append_nil]
      rw [List.append_assoc]
      refine Says.bind (a := ()) hpos (Says.bind (a := ()) ?_ hinfo)
      unfold GEOSFile.printPlaces
      simp only []
      rw [if_pos hn]
      refine Says.bind_lift (chainLocations_chain hw hc hs.start) ?_
      rw [← places_eq, ← lit_eq]
      exact Says.println _
    · rw [if_neg hn] at hpos
      simp only [hn, decide_false, Bool.false_eq_true, if_false, List.flatMap_nil]
      refine Says.bind (a := ()) hpos (Says.bind (a := ()) (t := []) ?_ hinfo)
      unfold GEOSFile.printPlaces
      simp only []
      rw [if_neg hn]
      exact Says.pure ()
  | @vlir p info rs hsc hp hx hl hi hv hr =>
    have hv' : e.isVlir = .ok true := by
      rw [hslot.isVlir (.inr hsc), hsc]; rfl
    have hb0 : byteAt (disk.dev.blk s e.firstSector) 0 = 0 := congrArg Location.track hl
    have hb1 : byteAt (disk.dev.blk s e.firstSector) 1 = 0xFF := congrArg Location.sector hl
    have hrec := vlirRecords_index (hw.blk_length hx) hb0 (by rw [hb1]; decide)
    rw [if_pos hb1] at hrec
    have hf : File.fromEntry disk.dev e =
        .ok (.geosVLIR ⟨e, some (vlirRecords (disk.dev.blk s e.firstSector))⟩) := by
      unfold File.fromEntry GEOSFile.new
      rw [hsc]
      simp only []
      rw [hv']
      show (do
        let f ← (do
          let block ← disk.dev.sector e.firstSector
          pure (⟨e, some (vlirRecords block)⟩ : GEOSFile))
        pure (File.geosVLIR f)) = _
      rw [hw.sector hx]
      rfl
    refine ⟨_, hopen _ hf, ?_⟩
    show Says _ _ _
    rw [hrec]
    have hpos := printPosition_says hp n
    obtain ⟨h1, h2⟩ := recordPlaces_start hw hr
    have h1' : (none :: (vlirIndex (disk.dev.blk s e.firstSector)).map fun l =>
        if l = noRecord then none else some l).map Option.isSome = (none :: rs).map Option.isSome := by
      rw [List.map_cons, List.map_cons, h1]; rfl
    have hav := availableRecords_eq _ _ h1'
    have hlen : (none :: (vlirIndex (disk.dev.blk s e.firstSector)).map fun l =>
        if l = noRecord then none else some l).length = (none :: rs).length := by
      have := congrArg List.length h1'; simpa only [List.length_map] using this
    have hinfo := info_says (f := ⟨e, some (none :: (vlirIndex (disk.dev.blk s e.firstSector)).map fun l =>
        if l = noRecord then none else some l)⟩) hw rfl hi hv
    unfold File.details GEOSFile.details
    rw [List.flatMap_append]
    simp only []
    by_cases hn : 0 < n
    · rw [if_pos hn] at hpos
      simp only [hn, decide_true, if_true, List.cons_append, List.nil_append, List.flatMap_cons]
      rw [List.append_assoc]
      refine Says.bind (a := ()) hpos (Says.bind (a := ()) ?_ hinfo)
      unfold GEOSFile.printPlaces
      simp only []
      rw [if_pos hn]
      refine Says.bind (a := ()) ?_ ?_
      · rw [← place_eq, ← lit_eq]
        exact Says.println _
      · obtain ⟨ht, hle⟩ := take_shown (none :: rs)
        have := printRecords_says (d := disk.dev) (none :: rs).length
          (none :: (vlirIndex (disk.dev.blk s e.firstSector)).map fun l =>
            if l = noRecord then none else some l) (none :: rs) 0 (shownRecords (none :: rs)).length
          (by rw [List.map_cons, List.map_cons, h2]; rfl) hle
        rw [ht] at this
        simp only [Nat.zero_add] at this
        rw [hav, hlen]
        exact this
    · rw [if_neg hn] at hpos
      simp only [hn, decide_false, Bool.false_eq_true, if_false, List.flatMap_nil, List.flatMap_cons, List.append_nil]
      refine hpos.silent (Says.bind (a := ()) ?_ hinfo)
      unfold GEOSFile.printPlaces
      simp only []
      rw [if_neg hn, hav, ← lit_eq]
      exact Says.println _

/-! ## The listing -/

theorem firstNamed_mem {es : List DirectoryEntry} (he : e ∈ es) :
    firstNamed es e ∈ es ∧ (firstNamed es e).filename = e.filename ∧
      es.find? (fun x => x.filename == e.filename) = some (firstNamed es e) := by
  have : ∃ x, es.find? (fun x => x.filename == e.filename) = some x := by
    refine Option.isSome_iff_exists.1 (List.find?_isSome.2 ⟨e, he, ?_⟩)
    simp
  obtain ⟨x, hx⟩ := this
  unfold firstNamed
  rw [hx]
  refine ⟨List.mem_of_find?_eq_some hx, ?_, rfl⟩
  simpa using List.find?_some hx

/-- **C71** If no two entries have the same name, the details are those of the entry
itself. -/
theorem C71_distinct {es : List DirectoryEntry} (h : (es.map (·.filename)).Nodup) (he : e ∈ es) :
    firstNamed es e = e := by
  obtain ⟨h1, h2, -⟩ := firstNamed_mem he
  obtain ⟨i, hi, h1⟩ := List.mem_iff_getElem.1 h1
  obtain ⟨j, hj, he⟩ := List.mem_iff_getElem.1 he
  have hij : i = j := by
    refine (List.getElem_inj (xs := es.map (·.filename)) (h₀ := by simpa using hi) (h₁ := by simpa using hj) h).1 ?_
    simp only [List.getElem_map, h1, he, h2]
  subst hij
  rw [← h1, he]

theorem findItem_map (name : Petscii) : ∀ {es : List DirectoryEntry} {x : DirectoryEntry},
    es.find? (fun x => x.filename == name) = some x → findItem name (es.map .ok) = .ok x
  | [], _, h => nomatch h
  | y :: es, x, h => by
    rw [List.find?_cons] at h
    rw [List.map_cons, findItem]
    by_cases hy : y.filename = name
    · rw [if_pos hy]
      rw [show (y.filename == name) = true from by simpa using hy] at h
      cases h
      rfl
    · rw [if_neg hy]
      rw [show (y.filename == name) = false from by simpa using hy] at h
      exact findItem_map name h

theorem words_geos (info : Location) (st ty year month day hour minute : Byte) :
    (Extra.geos ⟨info, .fromByte st, .fromByte ty, year, month, day, hour, minute⟩).text =
      (More.geos st ty year month day hour minute).words := by
  show _ = geosWords st ty (timeWords year month day hour minute)
  show lit _ ++ _ ++ lit _ ++ _ ++ lit _ ++ _ ++ _ ++ _ ++ _ ++ _ ++ _ ++ _ ++ _ ++ _ ++ _ = _
  unfold geosWords timeWords
  rw [← nameOfCode_structure, ← nameOfCode_type, lit_eq, lit_eq]
  simp only [List.append_assoc]
  rfl

theorem words_eq (sch : Scheme) (x : List Byte) :
    (Extra.fromBytes sch x).text = (Extra.fromBytes sch x).more.words := by
  cases sch with
  | linear => exact lit_eq _
  | relative =>
    show lit _ ++ _ ++ lit _ ++ _ ++ _ = _
    rw [lit_eq, lit_eq]
    rfl
  | geosSequential =>
    simp only [Extra.fromBytes, Extra.more, structure_toByte_fromByte, geosType_toByte_fromByte]
    exact words_geos ..
  | geosVLIR =>
    simp only [Extra.fromBytes, Extra.more, structure_toByte_fromByte, geosType_toByte_fromByte]
    exact words_geos ..

theorem verbose_eq {b : Byte} (ha : e.attributes = .fromByte b) (hx : e.extra.text = e.extra.more.words) :
    e.text true = verboseLine (Row.of e) e.extra.more := by
  have h := line_of_row (e := { e with geosBorder := false }) (b := b) ha
  unfold verboseLine
  rw [show ({ Row.of e with border := false } : Row) = Row.of { e with geosBorder := false } from rfl, ← h,
    ← hx]
  unfold DirectoryEntry.text
  simp only [if_true, Bool.false_eq_true, if_false, List.append_nil, List.append_assoc]
  rw [show lit " (GEOS border)" = " (GEOS border)".toList from lit_eq _]
  rfl

/-- **C71** The verbose line of a file, from the bytes of its directory slot. -/
theorem C71_line (slot : List Byte) (pos : Option Position) (e : DirectoryEntry) (border : Bool)
    (h : DirectoryEntry.parse slot pos = .ok e) :
    ({ e with geosBorder := border } : DirectoryEntry).text true =
      verboseLine (Row.ofSlot slot border) (More.ofSlot slot) := by
  rw [verbose_eq (b := byteAt slot 2) (by rw [parse_fields h]; rfl) (by
    rw [parse_fields h]; exact words_eq (entryScheme slot) _), C67_row slot pos e border h,
    ← parse_more slot pos, ← parse_fields h]

example : ∃ e, DirectoryEntry.parse geosSlot none = .ok e ∧
    e.text true = verboseLine (Row.ofSlot geosSlot e.geosBorder) (More.ofSlot geosSlot) := by
  refine ⟨_, rfl, ?_⟩
  exact C71_line geosSlot none _ _ rfl

/-- The lines of the listing that belong to an entry. -/
def entryLines (es : List DirectoryEntry) (lines : DirectoryEntry → List (List Char)) (e : DirectoryEntry) :
    List (List Char) := e.text true :: (lines (firstNamed es e) ++ [[]])

theorem printDetails_says {disk : Disk} {es : List DirectoryEntry} {free n : Nat}
    {lines : DirectoryEntry → List (List Char)} (hw : Wf disk.dev s) (hes : disk.directory = .ok es)
    (hfree : disk.blocksFree = .ok free)
    (h : ∀ e ∈ es, Details disk.dev s e (decide (0 < n)) (lines e)) :
    Says (printListing (n + 2) disk) (.ok ()) (disk.text ++ ['\n'] ++
      ((es.flatMap (entryLines es lines)).flatMap (· ++ ['\n']) ++ (freeLine free ++ ['\n']))) := by
  obtain ⟨ref, hb⟩ : ∃ ref, disk.bamRef = .ok ref := by
    cases hb : disk.bamRef with
    | ok r => exact ⟨r, rfl⟩
    | error q => unfold Disk.blocksFree at hfree; rw [hb] at hfree; cases hfree
  have hit : disk.items = es.map .ok := collectRes_inv hes
  unfold printListing
  refine Says.bind (a := ()) (Says.println _) (Says.bind (a := ()) ?_ ?_)
  · rw [hit]
    have := Says.forEach (xs := es.map Except.ok) (f := printEntry disk (n + 2))
      (g := fun r => match r with
        | .ok e => (entryLines es lines e).flatMap (· ++ ['\n'])
        | .error _ => []) ?_
    · rw [List.flatMap_map, ← List.flatMap_assoc] at this
      exact this
    · intro r hr
      obtain ⟨e, he, rfl⟩ := List.mem_map.1 hr
      obtain ⟨h1, h2, h3⟩ := firstNamed_mem he
      obtain ⟨f, hf, hd⟩ := C71_file hw hes h1 hb (h _ h1)
      have hopen : disk.openFile e.filename = .ok (f, ref) := by
        unfold Disk.openFile Disk.findDirectoryEntry
        rw [hit, findItem_map _ h3, res_bind_ok, hf]
      unfold printEntry entryLines
      refine Says.bind_lift rfl ?_
      rw [if_pos (by omega), if_pos (by omega)]
      simp only []
      rw [List.flatMap_cons, List.flatMap_append]
      refine Says.bind (a := ()) (Says.println _) (Says.bind_lift hopen ?_)
      refine Says.bind (a := ()) hd ?_
      exact Says.println _
  · refine Says.bind_lift hfree ?_
    rw [← free_eq]
    exact Says.println _

theorem slotLine_newline (p : Position) : '\n' ∉ slotLine p := by
  unfold slotLine
  have h : ∀ n, '\n' ∉ Nat.toDigits 10 n := fun n => not_mem_decimal (by decide)
  simp only [List.mem_append, not_or]
  exact ⟨⟨⟨⟨⟨⟨by decide, h _⟩, by decide⟩, h _⟩, by decide⟩, (hexPair_chars _).1⟩, by decide⟩

theorem place_newline (l : Location) : '\n' ∉ place l := place_eq l ▸ location_newline l

theorem places_newline : ∀ ls : List Location, '\n' ∉ places ls
  | [] => by simp [places, List.intercalate]
  | [l] => by rw [places_single]; exact place_newline l
  | l :: m :: ls => by
    rw [places_cons, List.mem_append, List.mem_cons, not_or, not_or]
    exact ⟨place_newline l, by decide, places_newline (m :: ls)⟩

theorem infoLines_chars (info : List Location) : ∀ r ∈ infoLines d s info, '\n' ∉ r := by
  cases info with
  | nil => intro r h; cases h
  | cons l info =>
    intro r h
    rcases List.mem_cons.1 h with rfl | h
    · decide +kernel
    · exact infoLines_newline _ r h

theorem vlirLines_newline (rs : List (Option (List Location))) : ∀ r ∈ vlirLines rs, '\n' ∉ r := by
  have hd : ∀ n, '\n' ∉ Nat.toDigits 10 n := fun n => not_mem_decimal (by decide)
  intro r h
  unfold vlirLines at h
  rcases List.mem_append.1 h with h | h
  · obtain ⟨i, hi, rfl⟩ := List.mem_mapIdx.1 h
    simp only [List.mem_append, not_or]
    exact ⟨⟨⟨by decide +kernel, hd _⟩, by decide +kernel⟩, places_newline _⟩
  · split at h
    · rw [List.mem_singleton.1 h, List.mem_append, not_or]
      exact ⟨hd _, by decide +kernel⟩
    · cases h

theorem details_newline {full : Bool} {lines : List (List Char)} (h : Details d s e full lines) :
    ∀ r ∈ lines, '\n' ∉ r := by
  have hd : ∀ n, '\n' ∉ Nat.toDigits 10 n := fun n => not_mem_decimal (by decide)
  have happ : ∀ (a : List Char) (ls : List Location), '\n' ∉ a → '\n' ∉ a ++ places ls := by
    intro a ls ha
    rw [List.mem_append, not_or]
    exact ⟨ha, places_newline ls⟩
  cases h with
  | ordinary =>
    cases full with
    | false => intro r h; cases h
    | true =>
      intro r h
      simp only [if_true, List.mem_cons, List.not_mem_nil, or_false] at h
      rcases h with rfl | rfl
      · exact slotLine_newline _
      · exact happ _ _ (by decide +kernel)
  | relative =>
    cases full with
    | false => intro r h; cases h
    | true =>
      intro r h
      simp only [if_true, List.mem_cons, List.not_mem_nil, or_false] at h
      rcases h with rfl | rfl | rfl
      · exact slotLine_newline _
      · exact happ _ _ (by decide +kernel)
      · exact happ _ _ (by decide +kernel)
  | sequential =>
    intro r h
    rcases List.mem_append.1 h with h | h
    · cases full with
      | false => cases h
      | true =>
        simp only [if_true, List.mem_cons, List.not_mem_nil, or_false] at h
        rcases h with rfl | rfl
        · exact slotLine_newline _
        · exact happ _ _ (by decide +kernel)
    · exact infoLines_chars _ r h
  | vlir =>
    intro r h
    rcases List.mem_append.1 h with h | h
    · cases full with
      | false =>
        simp only [Bool.false_eq_true, if_false, List.mem_singleton] at h
        rw [h, List.mem_append, not_or]
        exact ⟨by decide +kernel, hd _⟩
      | true =>
        simp only [if_true, List.mem_append, List.mem_cons, List.not_mem_nil, or_false] at h
        rcases h with (rfl | rfl) | h
        · exact slotLine_newline _
        · rw [List.mem_append, not_or]
          exact ⟨by decide +kernel, place_newline _⟩
        · exact vlirLines_newline _ r h
    · exact infoLines_chars _ r h

theorem header_some {disk : Disk} {hd : Header} (hg : disk.getHeader = .ok hd) : disk.header = some hd := by
  unfold Disk.getHeader at hg
  cases hq : disk.header with
  | none => rw [hq] at hg; cases hg
  | some x => rw [hq] at hg; cases hg; rfl

theorem cmdDir_found {ext : Option (List Char)} {bytes : List Byte} {disk : Disk} {es : List DirectoryEntry}
    {free : Nat} (ho : Disk.openPath ext false bytes = .ok disk)
    (h : (cmdDir ext bytes).1 = .ok (es, free)) : disk.directory = .ok es ∧ disk.blocksFree = .ok free := by
  rw [cmdDir_eq ho] at h
  obtain ⟨es', h1, h⟩ := res_bind_eq_ok.1 h
  obtain ⟨free', h2, h⟩ := res_bind_eq_ok.1 h
  cases h
  exact ⟨h1, h2⟩

theorem details_text {ext : Option (List Char)} {bytes : List Byte} {disk : Disk} {hd : Header}
    {es : List DirectoryEntry} {free n : Nat} (ho : Disk.openPath ext false bytes = .ok disk)
    (hg : disk.getHeader = .ok hd) (hw : Wf disk.dev s) (hes : disk.directory = .ok es)
    (hfree : disk.blocksFree = .ok free) {lines : DirectoryEntry → List (List Char)}
    (hl : ∀ e ∈ es, Details disk.dev s e (decide (0 < n)) (lines e)) :
    (cmdDirText ext (n + 2) bytes).1 = .ok () ∧
    splitLines (cmdDirText ext (n + 2) bytes).2 =
      titleLine hd :: ((es.flatMap fun e => e.text true :: (lines (firstNamed es e) ++ [[]])) ++
        [freeLine free, []]) := by
  have hs : cmdDirText ext (n + 2) bytes = _ :=
    showing_ok (w := false) ho (printDetails_says hw hes hfree hl)
  rw [hs]
  refine ⟨rfl, ?_⟩
  rw [title_eq (header_some hg), List.append_assoc, List.singleton_append, splitLines_row (title_newline hd),
    splitLines_rows _ ?_, splitLines_row (free_newline _)]
  · rfl
  · intro r hr
    obtain ⟨e, he, hr⟩ := List.mem_flatMap.1 hr
    unfold entryLines at hr
    rcases List.mem_cons.1 hr with rfl | hr
    · exact entry_newline _ _
    · rcases List.mem_append.1 hr with hr | hr
      · exact details_newline (hl _ (firstNamed_mem he).1) r hr
      · rw [List.mem_singleton.1 hr]; simp

/-- **C71** `dir -vv` prints, for each file, a line, what describes the first file with
that name, and an empty line; with a further `-v` this includes where the file is
stored. -/
theorem C71_listing (ext : Option (List Char)) (bytes : List Byte) (es : List DirectoryEntry)
    (free n : Nat) (h : (cmdDir ext bytes).1 = .ok (es, free)) :
    ∃ disk s hd, Disk.openPath ext false bytes = .ok disk ∧ Wf disk.dev s ∧ disk.dev.image.bytes = bytes ∧
      disk.getHeader = .ok hd ∧
      ∀ lines : DirectoryEntry → List (List Char),
        (∀ e ∈ es, Details disk.dev s e (decide (0 < n)) (lines e)) →
        (cmdDirText ext (n + 2) bytes).1 = .ok () ∧
        splitLines (cmdDirText ext (n + 2) bytes).2 =
          titleLine hd :: ((es.flatMap fun e => e.text true :: (lines (firstNamed es e) ++ [[]])) ++
            [freeLine free, []]) := by
  obtain ⟨disk, hd, ho, hg, -, -⟩ := C67_listing ext bytes es free h
  obtain ⟨ty, -, -, hn⟩ := openPath_inv ho
  obtain ⟨s, rfl, hw, hnat, hi, -⟩ := new_ok hn
  obtain ⟨h1, h2⟩ := cmdDir_found ho h
  exact ⟨disk, s, hd, ho, hw, by rw [hi]; rfl, hg, fun lines hl => details_text ho hg hw h1 h2 hl⟩

/-- **C71** With a single `-v` the listing consists of the verbose lines. -/
theorem C71_brief (ext : Option (List Char)) (bytes : List Byte) (es : List DirectoryEntry)
    (free : Nat) (h : (cmdDir ext bytes).1 = .ok (es, free)) :
    ∃ disk hd, Disk.openPath ext false bytes = .ok disk ∧ disk.getHeader = .ok hd ∧
      (cmdDirText ext 1 bytes).1 = .ok () ∧
      splitLines (cmdDirText ext 1 bytes).2 =
        titleLine hd :: (es.map (·.text true) ++ [freeLine free, []]) := by
  obtain ⟨disk, hd, ho, hg, -, -⟩ := C67_listing ext bytes es free h
  have hes := cmdDir_found ho h
  have hsay : Says (printListing 1 disk) (.ok ()) (disk.text ++ ['\n'] ++
      ((es.map (·.text true)).flatMap (· ++ ['\n']) ++ (freeLine free ++ ['\n']))) := by
    have hi := Says.items (f := fun e : DirectoryEntry => println (e.text true))
      (g := fun e => e.text true ++ ['\n']) (fun e => Says.println _) disk.items
    rw [show collectRes disk.items = .ok es from hes.1] at hi
    rw [List.flatMap_map (fun e : DirectoryEntry => e.text true) (fun r => r ++ ['\n'])]
    refine Says.bind (a := ()) (Says.println _) (Says.bind (a := ()) ?_ ?_)
    · have hf : (fun x : Res DirectoryEntry => M.lift x >>= fun e => println (e.text true)) =
          printEntry disk 1 := by
        funext x
        cases x <;> rfl
      rw [hf] at hi
      exact hi
    · refine Says.bind_lift hes.2 ?_
      rw [← free_eq]
      exact Says.println _
  have hs : cmdDirText ext 1 bytes = _ := showing_ok (w := false) ho hsay
  rw [hs]
  refine ⟨disk, hd, ho, hg, rfl, ?_⟩
  rw [title_eq (header_some hg), List.append_assoc, List.singleton_append, splitLines_row (title_newline hd),
    splitLines_rows _ ?_, splitLines_row (free_newline _)]
  · rfl
  · intro r hr
    obtain ⟨e, -, rfl⟩ := List.mem_map.1 hr
    exact entry_newline e true

/-- The occupied slots of a volume beside those of a store. -/
def placed (v : Volume) (zs : List (Option StoredFile)) : List (Position × FileRec × StoredFile) :=
  (List.range v.slots.length).filterMap fun i =>
    match v.slots[i]?, zs[i]? with
    | some (some f), some (some g) => some (slotPos v.dir i, f, g)
    | _, _ => none

theorem mem_placed {v : Volume} {zs : List (Option StoredFile)} {x : Position × FileRec × StoredFile}
    (h : x ∈ placed v zs) : ∃ i, v.slots[i]? = some (some x.2.1) ∧ zs[i]? = some (some x.2.2) ∧
      x.1 = slotPos v.dir i := by
  obtain ⟨i, -, h⟩ := List.mem_filterMap.1 h
  refine ⟨i, ?_⟩
  split at h
  · rename_i f g h1 h2
    cases h
    exact ⟨h1, h2, rfl⟩
  · cases h

theorem placed_listing {v : Volume} {zs : List (Option StoredFile)} (h : SlotsRep v.slots zs) :
    (placed v zs).map (fun x => x.2.1.entry x.1) = v.listing := by
  unfold placed Volume.listing
  rw [List.map_filterMap]
  apply filterMap_congr_left
  intro i _
  cases hv : v.slots[i]? with
  | none => rfl
  | some y =>
    cases y with
    | none => rfl
    | some f =>
      obtain ⟨g, hg, -⟩ := h.some_left hv
      rw [hg]
      rfl

theorem placed_files {v : Volume} {zs : List (Option StoredFile)} (h : SlotsRep v.slots zs) :
    (placed v zs).map (fun x => x.2.1) = v.files := by
  rw [files_range]
  unfold placed
  rw [List.map_filterMap]
  apply filterMap_congr_left
  intro i _
  cases hv : v.slots[i]? with
  | none => rfl
  | some y =>
    cases y with
    | none => rfl
    | some f =>
      obtain ⟨g, hg, -⟩ := h.some_left hv
      rw [hg]
      rfl

theorem placed_stored {v : Volume} {zs : List (Option StoredFile)} (h : SlotsRep v.slots zs) :
    (placed v zs).map (fun x => x.2.2) = zs.filterMap id := by
  have hz : zs.filterMap id = (List.range v.slots.length).filterMap fun i => (zs[i]?).join := by
    have h' : zs = (List.range v.slots.length).map fun i => (zs[i]?).join := by
      apply List.ext_getElem
      · simpa using h.1.symm
      · intro i h1 h2
        simp [List.getElem?_eq_getElem h1]
    conv => lhs; rw [h']
    rw [List.filterMap_map]
    rfl
  rw [hz]
  unfold placed
  rw [List.map_filterMap]
  apply filterMap_congr_left
  intro i _
  cases hv : zs[i]? with
  | none => cases v.slots[i]? with
    | none => rfl
    | some y => cases y <;> rfl
  | some y =>
    cases y with
    | none => cases v.slots[i]? with
      | none => rfl
      | some y => cases y <;> rfl
    | some f =>
      obtain ⟨g, hg, -⟩ := h.some_right hv
      rw [hg]
      rfl

theorem find_nodup {α β : Type} [BEq β] [LawfulBEq β] (f : α → β) : ∀ {l : List α} {x : α}, (l.map f).Nodup →
    x ∈ l → l.find? (fun y => f y == f x) = some x
  | y :: l, x, hn, hx => by
    rw [List.map_cons, List.nodup_cons] at hn
    rw [List.find?_cons]
    rcases List.mem_cons.1 hx with rfl | hx
    · rw [show (f x == f x) = true from by simp]
    · rw [show (f y == f x) = false from by
        rw [beq_eq_false_iff_ne]
        exact fun h => hn.1 (h ▸ List.mem_map_of_mem hx)]
      exact find_nodup f hn.2 hx

/-- What is printed for an ordinary file: its line, with `full` its directory slot and its
sectors, and an empty line. -/
def fileReport (full : Bool) (p : Position) (locs : List Location) (g : StoredFile) : List (List Char) :=
  verboseLine (Row.ofFile g.name g.attr (max 1 ((g.data.length + 253) / 254))) .ordinary ::
    ((if full then [slotLine p, "Occupied sectors: ".toList ++ places locs] else []) ++ [[]])

/-- **C71** In an image that was made by `cdisk` commands, and in which no two files have the
same name, `dir -vvv` shows for each file the chain of sectors in which its content is
stored, and no sector twice. -/
theorem C71_files {ext : Option (List Char)} {bytes : List Byte} {c : Contents}
    (h : HoldsFiles ext bytes c) (hnames : (c.map.files.map StoredFile.name).Nodup) (n : Nat) :
    ∃ (disk : Disk) (s : Shape) (title : List Char) (rows : List (Position × List Location × StoredFile)),
      Disk.openPath ext false bytes = .ok disk ∧ Wf disk.dev s ∧ disk.dev.image.bytes = bytes ∧
      rows.map (·.2.2) = c.map.files ∧ (rows.flatMap (·.2.1)).Nodup ∧
      (∀ r ∈ rows, IsChain disk.dev s r.2.1 r.2.2.data) ∧
      (cmdDirText ext (n + 2) bytes).1 = .ok () ∧
      splitLines (cmdDirText ext (n + 2) bytes).2 =
        title :: ((rows.flatMap fun r => fileReport (decide (0 < n)) r.1 r.2.1 r.2.2) ++
          [freeLine c.map.free, []]) := by
  obtain ⟨disk, he, hsz, hn, ho, hr, hi⟩ := holds_inv h
  obtain ⟨s, v, r, b, hrep⟩ := hr.rep
  obtain ⟨disk', hd, hl⟩ := open_readOnly hrep.ready (hrep.saved rfl)
  rw [show disk.dev.image.bytes = bytes by rw [hi]; rfl] at hd
  have ht : c.map.type = s.type := hrep.type
  have hopen : Disk.openPath ext false bytes = .ok disk' := by
    rw [openPath_of he false hsz, ht]; exact hd
  have hfree := hl.blocksFree
  rw [← hrep.room] at hfree
  have hdir := hl.opened.directory
  have hg : disk'.getHeader = .ok v.header := by
    unfold Disk.getHeader
    rw [hl.opened.header]
  have hslots : SlotsRep v.slots c.map.slots := hrep.slots
  have hent : ∀ x ∈ placed v c.map.slots, FileRep x.2.1 x.2.2 ∧ x.2.1.data = x.2.2.data ∧
      x.2.1 ∈ v.files := by
    intro x hx
    obtain ⟨i, h1, h2, h3⟩ := mem_placed hx
    refine ⟨?_, hrep.settled i _ _ h1 h2 (by intro w hw; cases hw), mem_files.2 ⟨_, h1⟩⟩
    cases hslots.2 i _ _ h1 h2 with
    | some h => exact h
  have hnd : ((v.listing).map (·.filename)).Nodup := by
    rw [← placed_listing hslots, List.map_map]
    rw [← show _ = c.map.files from placed_stored hslots, List.map_map] at hnames
    have : (placed v c.map.slots).map ((·.filename) ∘ fun x => x.2.1.entry x.1) =
        (placed v c.map.slots).map (StoredFile.name ∘ fun x => x.2.2) := by
      apply List.map_congr_left
      intro x hx
      exact (hent x hx).1.name
    rw [this]
    exact hnames
  let lines : DirectoryEntry → List (List Char) := fun e =>
    if decide (0 < n) then
      [slotLine (e.position.getD ⟨⟨0, 0⟩, 0, 0⟩), "Occupied sectors: ".toList ++ places
        (((v.files.find? fun f => f.name == e.filename).map FileRec.locs).getD [])]
    else []
  have hfind : ∀ x ∈ placed v c.map.slots, v.files.find? (fun f => f.name == x.2.1.name) = some x.2.1 := by
    intro x hx
    refine find_nodup FileRec.name ?_ (hent x hx).2.2
    rw [← placed_listing hslots, List.map_map] at hnd
    rw [← placed_files hslots, List.map_map]
    exact hnd
  have hlines : ∀ x ∈ placed v c.map.slots, lines (x.2.1.entry x.1) =
      if decide (0 < n) then [slotLine x.1, "Occupied sectors: ".toList ++ places x.2.1.locs] else [] := by
    intro x hx
    show (if _ then [_, _ ++ places (Option.getD (Option.map _ (v.files.find? fun f : FileRec =>
      f.name == x.2.1.name)) [])] else _) = _
    rw [hfind x hx]
    rfl
  have hdet : ∀ e ∈ v.listing, Details disk'.dev s e (decide (0 < n)) (lines e) := by
    intro e he
    rw [← placed_listing hslots] at he
    obtain ⟨x, hx, rfl⟩ := List.mem_map.1 he
    have hc := hl.opened.onDisk.chains _ (hent x hx).2.2
    rw [hlines x hx]
    refine Details.ordinary rfl rfl ?_ hc
    show _ = some x.2.1.first
    unfold FileRec.first
    cases hq : x.2.1.locs with
    | nil =>
      obtain ⟨init, t, h, -⟩ := hc.last
      rw [hq] at h
      exact absurd h (by simp)
    | cons a t => rfl
  obtain ⟨h1, h2⟩ := details_text (n := n) hopen hg hl.opened.onDisk.wf hdir hfree hdet
  refine ⟨disk', s, titleLine v.header, (placed v c.map.slots).map fun x => (x.1, x.2.1.locs, x.2.2), hopen,
    hl.opened.onDisk.wf, by obtain ⟨_, -, -, -, hi, -⟩ := new_ok hd; rw [hi], ?_, ?_, ?_, h1, ?_⟩
  · rw [List.map_map]
    exact placed_stored hslots
  · rw [List.flatMap_map]
    have := hl.opened.onDisk.apart
    unfold Volume.used at this
    rw [← placed_files hslots, List.flatMap_map] at this
    exact this
  · intro y hy
    obtain ⟨x, hx, rfl⟩ := List.mem_map.1 hy
    obtain ⟨-, h2, h3⟩ := hent x hx
    show IsChain _ _ x.2.1.locs x.2.2.data
    rw [← h2]
    exact hl.opened.onDisk.chains _ h3
  · rw [h2, List.flatMap_map]
    refine congrArg _ (congr (congrArg _ ?_) rfl)
    rw [show (v.listing.flatMap fun e => e.text true :: (lines (firstNamed v.listing e) ++ [[]])) =
      v.listing.flatMap fun e => e.text true :: (lines e ++ [[]]) from
        flatMap_congr_left fun e he => by rw [C71_distinct hnd he], ← placed_listing hslots, List.flatMap_map]
    apply flatMap_congr_left
    intro x hx
    obtain ⟨hf, -, hm⟩ := hent x hx
    rw [hlines x hx, verbose_eq (e := x.2.1.entry x.1) (b := x.2.1.attr) rfl (lit_eq _), row_of_file]
    unfold fileReport
    rw [hf.name, hf.attr, hrep.ready.exact _ hm, hf.blocks]
    rfl

/-- The verbose listing of two files. -/
example : ∃ bytes title p₁ p₂ locs₁ locs₂,
    splitLines (cmdDirText (some "d64".toList) 3 bytes).2 =
      [title, "1    \"hi\"               prg  REGULAR".toList, slotLine p₁,
        "Occupied sectors: ".toList ++ places locs₁, [],
        "2    \"x\"                seq  REGULAR".toList, slotLine p₂,
        "Occupied sectors: ".toList ++ places locs₂, [],
        "661 blocks free.".toList, []] := by
  obtain ⟨b₀, h₀⟩ := exists_holds (some "d64".toList) [104] [97, 98] (by decide)
  have hs : (Command.steps twoFiles
      ⟨(paddedName (fromStrLossy [104]), idFromBytes (fromStrLossy [97, 98])),
        FileMap.empty (namedType (some "d64".toList))⟩).map (fun p => (p.2.map.files.map fun g =>
          (g.name, verboseLine (Row.ofFile g.name g.attr (max 1 ((g.data.length + 253) / 254))) .ordinary),
        freeLine p.2.map.free)) = some ([
        ([72, 73], "1    \"hi\"               prg  REGULAR".toList),
        ([88], "2    \"x\"                seq  REGULAR".toList)],
        "661 blocks free.".toList) := by
    decide +kernel
  obtain ⟨⟨rs, c⟩, h1, h2⟩ := Option.map_eq_some_iff.1 hs
  obtain ⟨b₁, -, h₁⟩ := C63_commands_partial _ h₀ h1
  simp only [Prod.mk.injEq] at h2
  have hnames : (c.map.files.map StoredFile.name).Nodup := by
    have := congrArg (List.map Prod.fst) h2.1
    rw [List.map_map] at this
    rw [show c.map.files.map StoredFile.name = _ from this]
    decide +kernel
  obtain ⟨disk, s, title, rows, -, -, -, hr, -, -, -, ht⟩ := C71_files h₁ hnames 1
  rw [h2.2] at ht
  have hw := congrArg (List.map Prod.snd) h2.1
  rw [List.map_map, ← hr, List.map_map] at hw
  match rows, hw, ht with
  | [], hw, ht => cases hw
  | [_], hw, ht => exact absurd (congrArg List.length hw) (by simp)
  | _ :: _ :: _ :: _, hw, ht => exact absurd (congrArg List.length hw) (by simp)
  | [a, b], hw, ht =>
    refine ⟨b₁, title, a.1, b.1, a.2.1, b.2.1, ?_⟩
    rw [ht]
    simp only [List.map_cons, List.map_nil, List.cons.injEq, and_true] at hw
    simp only [fileReport, List.flatMap_cons, List.flatMap_nil, List.append_nil, List.cons_append]
    rw [show verboseLine _ _ = _ from hw.1, show verboseLine _ _ = _ from hw.2]
    rfl

/-- What is printed about a VLIR file with two records: the record with number 0 is the
link of the index sector. -/
example : ∃ info, Details sampleVlir ⟨.d64, 35, false⟩
    (DirectoryEntry.parse32 sampleVlirSlot (some ⟨⟨18, 1⟩, 32, 32⟩)) true
    (["Directory position: (18,1@0x20)".toList, "VLIR record sector: (1,0)".toList,
      "Record 0 sectors: ".toList, "Record 1 sectors: (1,1)".toList, "Record 2 sectors: ".toList,
      "Record 3 sectors: (1,2)".toList] ++ info) := by
  refine ⟨infoLines sampleVlir ⟨.d64, 35, false⟩ [⟨1, 3⟩], ?_⟩
  have c1 : IsChain sampleVlir ⟨.d64, 35, false⟩ [⟨1, 1⟩] [1, 2, 3] :=
    ⟨by decide +kernel, by decide, trivial, [], ⟨1, 1⟩, rfl, by decide +kernel, by decide +kernel,
      by decide +kernel⟩
  have c2 : IsChain sampleVlir ⟨.d64, 35, false⟩ [⟨1, 2⟩] [9] :=
    ⟨by decide +kernel, by decide, trivial, [], ⟨1, 2⟩, rfl, by decide +kernel, by decide +kernel,
      by decide +kernel⟩
  have e : vlirIndex (sampleVlir.blk ⟨.d64, 35, false⟩ ⟨1, 0⟩) = [⟨1, 1⟩, noRecord, ⟨1, 2⟩] := by
    decide +kernel
  have h := Details.vlir (d := sampleVlir) (s := ⟨.d64, 35, false⟩)
    (e := DirectoryEntry.parse32 sampleVlirSlot (some ⟨⟨18, 1⟩, 32, 32⟩)) (full := true)
    (p := ⟨⟨18, 1⟩, 32, 32⟩) (info := [⟨1, 3⟩]) (rs := [some [⟨1, 1⟩], none, some [⟨1, 2⟩]])
    (by decide +kernel) rfl (by decide +kernel) (by decide +kernel) ?_ (by decide +kernel) ?_
  · rw [if_pos rfl] at h
    have hl : [slotLine ⟨⟨18, 1⟩, 32, 32⟩, "VLIR record sector: ".toList ++
        place (DirectoryEntry.parse32 sampleVlirSlot (some ⟨⟨18, 1⟩, 32, 32⟩)).firstSector] ++
        vlirLines [none, some [⟨1, 1⟩], none, some [⟨1, 2⟩]] =
      ["Directory position: (18,1@0x20)".toList, "VLIR record sector: (1,0)".toList,
      "Record 0 sectors: ".toList, "Record 1 sectors: (1,1)".toList, "Record 2 sectors: ".toList,
      "Record 3 sectors: (1,2)".toList] := by decide +kernel
    rw [hl] at h
    exact h
  · exact ⟨⟨⟨1, 3⟩, .vlir, .applicationData, 0, 0, 0, 0, 0⟩, by decide +kernel, by decide +kernel⟩
  · rw [show (DirectoryEntry.parse32 sampleVlirSlot (some ⟨⟨18, 1⟩, 32, 32⟩)).firstSector = ⟨1, 0⟩ from by
      decide +kernel, e]
    exact .present (by decide) rfl c1 (.absent (.present (by decide) rfl c2 .nil))

/-- What is printed about a relative file. -/
example : Details sampleRelative ⟨.d64, 35, false⟩
    (DirectoryEntry.parse32 sampleRelativeSlot (some ⟨⟨18, 1⟩, 64, 32⟩)) true
    ["Directory position: (18,1@0x40)".toList, "Data sectors: (1,1) (1,2)".toList,
      "Side sectors: (1,0)".toList] := by
  have hsize : DataSize sampleRelative ⟨.d64, 35, false⟩ [⟨1, 1⟩, ⟨1, 2⟩] 260 := by
    have h := DataStream.length sampleRelative_wf sampleRelative_stream
    have e : (List.replicate 254 (7 : Byte) ++ [1, 2, 3, 4, 5, 6]).length = 260 := by decide +kernel
    exact e ▸ h
  have h := Details.relative (d := sampleRelative) (s := ⟨.d64, 35, false⟩)
    (e := DirectoryEntry.parse32 sampleRelativeSlot (some ⟨⟨18, 1⟩, 64, 32⟩)) (full := true)
    (p := ⟨⟨18, 1⟩, 64, 32⟩) (ex := ⟨⟨1, 0⟩, 10, [0, 0, 0, 0, 0, 0]⟩) (by decide +kernel) rfl
    (by decide +kernel) sampleRelative_sides hsize (by decide) ⟨26, by decide⟩
  rw [if_pos rfl] at h
  have hl : [slotLine ⟨⟨18, 1⟩, 64, 32⟩, "Data sectors: ".toList ++ places [⟨1, 1⟩, ⟨1, 2⟩],
      "Side sectors: ".toList ++ places [⟨1, 0⟩]] =
      ["Directory position: (18,1@0x40)".toList, "Data sectors: (1,1) (1,2)".toList,
      "Side sectors: (1,0)".toList] := by decide +kernel
  rw [hl] at h
  exact h

end Cbm
