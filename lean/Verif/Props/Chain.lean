import Verif.Lemmas.Reader
/-!
# Chains and reading: C15, C16, C17
-/

namespace Cbm
open Spec
variable {d : Device} {s : Shape}

/-- A memory image of 174848 bytes whose first sectors are given; used for
witnesses. -/
def imageOf (front : List Byte) : Device :=
  ⟨⟨.memory, front ++ List.replicate (174848 - front.length) 0⟩, D64.GEOMETRY_35, []⟩

theorem imageOf_wf (front : List Byte) (h : front.length ≤ 174848) :
    Wf (imageOf front) ⟨.d64, 35, false⟩ where
  shape := by decide
  geometry := by simp [imageOf, DiskType.geometries, D64.ALLOWED_GEOMETRIES]
  tracks := rfl
  errorTable := rfl
  size := by
    simp only [imageOf, List.length_append, List.length_replicate]
    rw [show (⟨.d64, 35, false⟩ : Shape).size = 174848 from by decide +kernel]
    omega

/-- **C15** Walking a chain ends (there is no `diverge` item), visits distinct
existing sectors, at most as many as the disk has, and yields at most one error,
as its last item; the error is one of the three documented ones. -/
theorem C15_walk_terminates (hw : Wf d s) (start : Location) :
    ∃ (good : List ChainSector) (bad : List (Res ChainSector)),
      chainItems d start = good.map .ok ++ bad ∧
      (good.map (·.location)).Nodup ∧ (∀ x ∈ good, s.Valid x.location) ∧
      good.length ≤ s.sectors ∧
      (bad = [] ∨ bad = [fail .chainLoop] ∨ bad = [fail .invalidLocation] ∨
        bad = [fail .invalidChainLink]) := by
  obtain ⟨ls, e, hit, hp, hst⟩ := chainItems_walk hw start
  have hm : ls.map (fun l => (Except.ok ⟨d.blk s l, l⟩ : Res ChainSector))
      = (ls.map fun l => (⟨d.blk s l, l⟩ : ChainSector)).map .ok := by simp
  have hml : (ls.map fun l => (⟨d.blk s l, l⟩ : ChainSector)).map (·.location) = ls := by
    simp [Function.comp_def]
  have base : ∀ x ∈ ls.map (fun l => (⟨d.blk s l, l⟩ : ChainSector)), s.Valid x.location := by
    intro x hx
    obtain ⟨l, hl, rfl⟩ := List.mem_map.1 hx
    exact hp.valid l hl
  have hlen := nodup_valid_length ls hp.nodup hp.valid
  rw [hm] at hit
  unfold stopItem at hit
  split at hit
  · exact ⟨_, _, hit, by rw [hml]; exact hp.nodup, base, by simpa using hlen, .inr (.inl rfl)⟩
  · rename_i hne
    split at hit
    · exact ⟨_, _, hit, by rw [hml]; exact hp.nodup, base, by simpa using hlen, .inr (.inr (.inl rfl))⟩
    · rename_i hv
      simp only [Decidable.not_not] at hv
      split at hit
      · exact ⟨_, _, hit, by rw [hml]; exact hp.nodup, base, by simpa using hlen,
          .inr (.inr (.inr rfl))⟩
      · have hnd : (ls ++ [e]).Nodup := by
          rw [List.nodup_append]
          refine ⟨hp.nodup, by simp, ?_⟩
          intro a ha b hb hab
          simp at hb; subst hb; subst hab; exact hne ha
        have hval : ∀ l ∈ ls ++ [e], s.Valid l := by
          intro l hl
          rcases List.mem_append.1 hl with hl | hl
          · exact hp.valid l hl
          · simp at hl; exact hl ▸ hv
        refine ⟨ls.map (fun l => (⟨d.blk s l, l⟩ : ChainSector)) ++
          [⟨(d.blk s e).take ((byteAt (d.blk s e) 1).toNat + 1), e⟩], [], ?_, ?_, ?_, ?_, .inl rfl⟩
        · rw [hit, List.append_nil, List.map_append]; rfl
        · rw [List.map_append, hml]; exact hnd
        · intro x hx
          rcases List.mem_append.1 hx with hx | hx
          · exact base x hx
          · simp at hx; subst hx; exact hv
        · have := nodup_valid_length _ hnd hval
          simpa using this

example : Wf (imageOf [1, 1]) ⟨.d64, 35, false⟩ := imageOf_wf _ (by decide)

theorem content_of_walk (hw : Wf d s) (start : Location) :
    ∃ ls e, Path d s start ls e ∧ Stops d s ls e ∧
      chainContent d start =
        if e ∈ ls then fail .chainLoop
        else if ¬ s.Valid e then fail .invalidLocation
        else if byteAt (d.blk s e) 1 = 0 then fail .invalidChainLink
        else .ok (payload d s ls ++ slice (d.blk s e) 2 ((byteAt (d.blk s e) 1).toNat - 1)) := by
  obtain ⟨ls, e, hp, hst, hcs⟩ := chainSectors_walk hw start
  refine ⟨ls, e, hp, hst, ?_⟩
  unfold chainContent
  rw [hcs]
  unfold stopItem
  split
  · rfl
  · split
    · rfl
    · split
      · rfl
      · simp only [Except.map, res_bind_ok, res_pure]
        congr 1
        simp only [List.flatMap_append, List.flatMap_cons, List.flatMap_nil, List.append_nil]
        rw [drop_take_slice]
        congr 1
        simp [payload, List.flatMap_map]

/-- **C16** Reading succeeds exactly on well-formed chains, and returns their
content. -/
theorem C16_read_ok_iff (hw : Wf d s) (start : Location) (content : List Byte) :
    chainContent d start = .ok content ↔
      ∃ locs, locs.head? = some start ∧ IsChain d s locs content := by
  obtain ⟨ls, e, hp, hst, hc⟩ := content_of_walk hw start
  rw [hc]
  constructor
  · intro h
    split at h
    · cases h
    · rename_i hne
      split at h
      · cases h
      · rename_i hv
        simp only [Decidable.not_not] at hv
        split at h
        · cases h
        · rename_i h1
          cases h
          have h0 : byteAt (d.blk s e) 0 = 0 := by
            rcases hst with h | h | h
            exacts [absurd h hne, absurd hv h, h]
          exact ⟨ls ++ [e], isChain_iff_path.2 ⟨ls, e, rfl, hp, hne, hv, h0, h1, rfl⟩⟩
  · rintro ⟨locs, hch⟩
    obtain ⟨ls', e', rfl, hp', hne, hv, h0, h1, rfl⟩ := isChain_iff_path.1 hch
    obtain ⟨rfl, rfl⟩ := path_unique hp hst hp' (.inr (.inr h0))
    rw [if_neg hne, if_neg (by simpa using hv), if_neg h1]

/-- **C16** `ChainLoop` exactly when following the links comes back to a sector
already visited. -/
theorem C16_loop_iff (hw : Wf d s) (start : Location) :
    chainContent d start = fail .chainLoop ↔ ∃ ls e, Path d s start ls e ∧ e ∈ ls := by
  obtain ⟨ls, e, hp, hst, hc⟩ := content_of_walk hw start
  rw [hc]
  constructor
  · intro h
    split at h
    · exact ⟨ls, e, hp, by assumption⟩
    · split at h
      · cases h
      · split at h <;> cases h
  · rintro ⟨ls', e', hp', he⟩
    obtain ⟨rfl, rfl⟩ := path_unique hp hst hp' (.inl he)
    rw [if_pos he]

/-- **C16** `InvalidLocation` exactly when following the links leads to a
location that does not exist. -/
theorem C16_invalid_location_iff (hw : Wf d s) (start : Location) :
    chainContent d start = fail .invalidLocation ↔
      ∃ ls e, Path d s start ls e ∧ ¬ s.Valid e := by
  obtain ⟨ls, e, hp, hst, hc⟩ := content_of_walk hw start
  rw [hc]
  constructor
  · intro h
    split at h
    · cases h
    · split at h
      · exact ⟨ls, e, hp, by assumption⟩
      · split at h <;> cases h
  · rintro ⟨ls', e', hp', he⟩
    obtain ⟨rfl, rfl⟩ := path_unique hp hst hp' (.inr (.inl he))
    rw [if_neg (fun hm => he (hp.valid _ hm)), if_pos he]

/-- **C16** `InvalidChainLink` exactly when following the links leads to an
existing sector that starts with `00 00`. -/
theorem C16_invalid_link_iff (hw : Wf d s) (start : Location) :
    chainContent d start = fail .invalidChainLink ↔
      ∃ ls e, Path d s start ls e ∧ s.Valid e ∧ linkBytes (d.blk s e) = ⟨0, 0⟩ := by
  obtain ⟨ls, e, hp, hst, hc⟩ := content_of_walk hw start
  rw [hc]
  constructor
  · intro h
    split at h
    · cases h
    · rename_i hne
      split at h
      · cases h
      · rename_i hv
        simp only [Decidable.not_not] at hv
        split at h
        · rename_i h1
          refine ⟨ls, e, hp, hv, ?_⟩
          have h0 : byteAt (d.blk s e) 0 = 0 := by
            rcases hst with h | h | h
            exacts [absurd h hne, absurd hv h, h]
          simp only [linkBytes, h0, h1]
        · cases h
  · rintro ⟨ls', e', hp', hv, hl⟩
    simp only [linkBytes, Location.mk.injEq] at hl
    obtain ⟨rfl, rfl⟩ := path_unique hp hst hp' (.inr (.inr hl.1))
    rw [if_neg (fun hm => hp.onward _ hm hl.1), if_neg (by simpa using hv), if_pos hl.2]

/-- **C16** There is no other outcome. -/
theorem C16_outcomes (hw : Wf d s) (start : Location) :
    (∃ content, chainContent d start = .ok content) ∨ chainContent d start = fail .chainLoop ∨
    chainContent d start = fail .invalidLocation ∨
    chainContent d start = fail .invalidChainLink := by
  obtain ⟨ls, e, hp, hst, hc⟩ := content_of_walk hw start
  rw [hc]
  split
  · exact .inr (.inl rfl)
  · split
    · exact .inr (.inr (.inl rfl))
    · split
      · exact .inr (.inr (.inr rfl))
      · exact .inl ⟨_, rfl⟩

/-! ## C17 -/

/-- A sequence of `read` calls with the given buffer sizes on one reader. -/
def runReads (d : Device) (r : ChainReader) : List Nat → List (Res (List Byte))
  | [] => []
  | n :: ns => (r.read d n).1 :: runReads d (r.read d n).2 ns

/-- What such a sequence must return for a file with this content: consecutive
pieces, each as long as asked for until the content is exhausted. -/
def Spec.pieces (content : List Byte) : List Nat → List (List Byte)
  | [] => []
  | n :: ns => content.take n :: pieces (content.drop n) ns

/-- **C17** Any sequence of `read` calls returns consecutive pieces of the
content. -/
theorem C17_reads (hw : Wf d s) {locs : List Location} {start : Location} {content : List Byte}
    (hh : locs.head? = some start) (hc : IsChain d s locs content) (sizes : List Nat) :
    runReads d (ChainReader.new start) sizes = (pieces content sizes).map .ok := by
  obtain ⟨rest, fin, n, hn, hf, _, hrl, hr, hcc⟩ := newReader_remaining hw start
  rw [(C16_read_ok_iff hw start content).2 ⟨locs, hh, hc⟩] at hcc
  have hfin : fin = none ∧ rest = content := by
    cases fin with
    | none => simp only [finish, Except.ok.injEq] at hcc; exact ⟨rfl, hcc.symm⟩
    | some e => cases hcc
  obtain ⟨rfl, rfl⟩ := hfin
  clear hcc hc hrl
  generalize ChainReader.new start = r at hr
  induction sizes generalizing r rest n with
  | nil => rfl
  | cons k ks ih =>
    obtain ⟨r', n', h1, h2, h3⟩ := (read_spec (by simp) hn hr k).1 (.inr rfl)
    simp only [runReads, pieces, List.map_cons, h1]
    rw [ih _ n' h2 r' h3]

/-- **C17** The pieces join to a prefix of the content, of length
`min (sum of sizes) (content length)`. -/
theorem C17_pieces_join (content : List Byte) (sizes : List Nat) :
    (pieces content sizes).flatten = content.take sizes.sum := by
  induction sizes generalizing content with
  | nil => simp [pieces]
  | cons k ks ih =>
    simp only [pieces, List.flatten_cons, ih, List.sum_cons]
    rw [List.take_add]

/-- **C17** `read_to_end`, whatever positive buffer sizes it uses, returns the
content or the error of the chain (this also justifies the definition of
`chainContent`). -/
theorem C17_read_to_end (hw : Wf d s) (start : Location) (sizes : List Nat)
    (hpos : ∀ k ∈ sizes, 0 < k) (hlen : 256 * s.sectors < sizes.length) :
    ((ChainReader.new start).readToEnd d sizes).1 = chainContent d start := by
  obtain ⟨rest, fin, n, hn, hf, _, hrl, hr, hcc⟩ := newReader_remaining hw start
  have hlt : rest.length < sizes.length := by omega
  obtain ⟨r', h⟩ := readToEnd_spec hf sizes _ rest n hn hr hpos hlt
  rw [h, hcc]

/-- A two-sector file, and chains with each of the three defects. -/
def sampleChain : Device :=
  imageOf ([1, 1] ++ List.replicate 254 65 ++ [0, 3, 66, 67] ++ List.replicate 252 9 ++
    [1, 2] ++ List.replicate 254 0 ++ [99, 0])

theorem sampleChain_wf : Wf sampleChain ⟨.d64, 35, false⟩ :=
  imageOf_wf _ (by simp only [List.length_append, List.length_replicate]; decide)

theorem sampleChain_isChain : IsChain sampleChain ⟨.d64, 35, false⟩ [⟨1, 0⟩, ⟨1, 1⟩]
    (List.replicate 254 65 ++ [66, 67]) where
  valid := by decide
  nodup := by decide
  linked := ⟨by decide +kernel, trivial⟩
  last := ⟨[⟨1, 0⟩], ⟨1, 1⟩, rfl, by decide +kernel, by decide +kernel, by decide +kernel⟩

example : chainContent sampleChain ⟨1, 0⟩ = .ok (List.replicate 254 65 ++ [66, 67]) :=
  (C16_read_ok_iff sampleChain_wf _ _).2 ⟨_, rfl, sampleChain_isChain⟩

example : chainContent sampleChain ⟨1, 2⟩ = fail .chainLoop :=
  (C16_loop_iff sampleChain_wf _).2 ⟨[⟨1, 2⟩], ⟨1, 2⟩,
    ⟨by decide, by decide, by decide +kernel, ⟨by decide +kernel, trivial⟩, rfl⟩, by decide⟩

example : chainContent sampleChain ⟨1, 3⟩ = fail .invalidLocation :=
  (C16_invalid_location_iff sampleChain_wf _).2 ⟨[⟨1, 3⟩], ⟨99, 0⟩,
    ⟨by decide, by decide, by decide +kernel, ⟨by decide +kernel, trivial⟩, rfl⟩, by decide⟩

example : chainContent sampleChain ⟨1, 4⟩ = fail .invalidChainLink :=
  (C16_invalid_link_iff sampleChain_wf _).2 ⟨[], ⟨1, 4⟩,
    ⟨by simp, by simp, by simp, trivial, rfl⟩, by decide, by decide +kernel⟩

end Cbm
