import Verif.Lemmas.Settled
import Verif.Lemmas.Standing
import Verif.Props.Listing
/-!
# Operations that return on every image

A small program logic: from the states of `P` the operation ends with a result and in `Q`, or without
one and in `E`; unless `X` holds it does not panic and does not loop for ever.
-/

namespace Cbm
open Spec

variable {σ τ α β : Type}

/-- Started in `P`, ends with a value and in `Q`, or with an error and in `E`, or, if `X`, with a panic or
an endless loop and in `E`. -/
def Safe (X : Prop) (P : σ → Prop) (m : M σ α) (Q : α → σ → Prop) (E : σ → Prop) : Prop :=
  ∀ x, P x → (∃ a, (m x).1 = .ok a ∧ Q a (m x).2) ∨
    (∃ q, (m x).1 = .error q ∧ E (m x).2 ∧ (X ∨ ∃ y, q = .err y))

/-- A result that is a value or an error, or anything at all if `X`. -/
def SafeRes (X : Prop) (r : Res α) : Prop := X ∨ Returns r

theorem SafeRes.error {X : Prop} {q : Fail} (h : SafeRes X (.error q : Res α)) : X ∨ ∃ y, q = .err y := by
  rcases h with h | h
  · exact .inl h
  · cases q with
    | err y => exact .inr ⟨y, rfl⟩
    | panic => exact absurd rfl h.1
    | diverge => exact absurd rfl h.2

namespace Safe
variable {X : Prop} {P P' : σ → Prop} {Q Q' : α → σ → Prop} {E E' : σ → Prop} {R : β → σ → Prop}

theorem weaken {m : M σ α} (h : Safe X P m Q E) (hP : ∀ x, P' x → P x) (hQ : ∀ a x, Q a x → Q' a x)
    (hE : ∀ x, E x → E' x) : Safe X P' m Q' E' := by
  intro x hx
  rcases h x (hP x hx) with ⟨a, h1, h2⟩ | ⟨y, h1, h2, h3⟩
  · exact .inl ⟨a, h1, hQ _ _ h2⟩
  · exact .inr ⟨y, h1, hE _ h2, h3⟩

theorem pre {m : M σ α} (h : Safe X P m Q E) (hP : ∀ x, P' x → P x) : Safe X P' m Q E :=
  h.weaken hP (fun _ _ h => h) fun _ h => h

theorem post {m : M σ α} (h : Safe X P m Q E) (hQ : ∀ a x, Q a x → Q' a x) : Safe X P m Q' E :=
  h.weaken (fun _ h => h) hQ fun _ h => h

/-- What always holds can be kept. -/
theorem frame {m : M σ α} {I : σ → Prop} (h : Safe X P m Q E) (hk : ∀ x, P x → I (m x).2) :
    Safe X P m (fun a x => Q a x ∧ I x) (fun x => E x ∧ I x) := by
  intro x hx
  rcases h x hx with ⟨a, h1, h2⟩ | ⟨y, h1, h2, h3⟩
  · exact .inl ⟨a, h1, h2, hk x hx⟩
  · exact .inr ⟨y, h1, ⟨h2, hk x hx⟩, h3⟩

theorem bind {m : M σ α} {k : α → M σ β} (h1 : Safe X P m Q E) (h2 : ∀ a, Safe X (Q a) (k a) R E) :
    Safe X P (m >>= k) R E := by
  intro x hx
  rcases hm : m x with ⟨r, x'⟩
  have h := h1 x hx
  rw [hm] at h
  rcases h with ⟨a, hr, hq⟩ | ⟨y, hr, hq, hy⟩
  · cases hr
    rw [M.bind_of_ok hm]
    exact h2 a x' hq
  · cases hr
    rw [M.bind_of_error hm]
    exact .inr ⟨y, rfl, hq, hy⟩

theorem pure {a : α} (h : ∀ x, P x → Q a x) : Safe X P (Pure.pure a : M σ α) Q E :=
  fun x hx => .inl ⟨a, rfl, h x hx⟩

theorem fails {y : DiskError} (h : ∀ x, P x → E x) : Safe X P (M.throw (.err y) : M σ α) Q E :=
  fun x hx => .inr ⟨_, rfl, h x hx, .inr ⟨y, rfl⟩⟩

theorem throws {q : Fail} (hX : ∀ x, P x → X) (h : ∀ x, P x → E x) : Safe X P (M.throw q : M σ α) Q E :=
  fun x hx => .inr ⟨_, rfl, h x hx, .inl (hX x hx)⟩

theorem lift {r : Res α} (hr : ∀ x, P x → SafeRes X r) (h : ∀ x, P x → E x) :
    Safe X P (M.lift r : M σ α) (fun a x => P x ∧ r = .ok a) E := by
  intro x hx
  cases r with
  | ok a => exact .inl ⟨a, rfl, hx, rfl⟩
  | error q => exact .inr ⟨q, rfl, h x hx, (hr x hx).error⟩

theorem read {f : σ → Res α} (hr : ∀ x, P x → SafeRes X (f x)) (h : ∀ x, P x → E x) :
    Safe X P (M.read f) (fun a x => P x ∧ f x = .ok a) E := by
  intro x hx
  rw [M.run_read]
  have := hr x hx
  cases hf : f x with
  | ok a => exact .inl ⟨a, rfl, hx, hf⟩
  | error q =>
    rw [hf] at this
    exact .inr ⟨q, rfl, h x hx, this.error⟩

theorem get : Safe X P (M.get : M σ σ) (fun a x => P x ∧ a = x) E := fun x hx => .inl ⟨x, rfl, hx, rfl⟩

theorem modify {f : σ → σ} {Q : Unit → σ → Prop} (h : ∀ x, P x → Q () (f x)) : Safe X P (M.modify f) Q E :=
  fun x hx => .inl ⟨(), rfl, h x hx⟩

theorem update {f : σ → Res σ} {Q : Unit → σ → Prop}
    (h : ∀ x, P x → (∃ x', f x = .ok x' ∧ Q () x') ∨ (∃ q, f x = .error q ∧ E x ∧ (X ∨ ∃ y, q = .err y))) :
    Safe X P (M.update f) Q E := by
  intro x hx
  rcases h x hx with ⟨x', h1, h2⟩ | ⟨y, h1, h2, h3⟩
  · rw [M.update_ok h1]; exact .inl ⟨(), rfl, h2⟩
  · rw [M.update_error h1]; exact .inr ⟨y, rfl, h2, h3⟩

theorem zoom {gets : τ → σ} {sets : σ → τ → τ} {m : M σ α} {P' : τ → Prop} {Q' : α → τ → Prop} {E' : τ → Prop}
    (h : ∀ t, P' t → Safe X (fun x => x = gets t) m (fun a x => Q' a (sets x t)) (fun x => E' (sets x t))) :
    Safe X P' (M.zoom gets sets m) Q' E' := by
  intro t ht
  rw [M.run_zoom]
  exact h t ht (gets t) rfl

theorem forEach {f : β → M σ Unit} : ∀ {xs : List β}, (∀ b ∈ xs, Safe X P (f b) (fun _ => P) E) →
    Safe X P (M.forEach xs f) (fun _ => P) E
  | [], _ => pure fun _ h => h
  | x :: xs, h => bind (h x (by simp)) fun _ => forEach fun b hb => h b (List.mem_cons_of_mem _ hb)

theorem returns {m : M σ α} (h : Safe X P m Q E) (hX : ¬ X) {x : σ} (hx : P x) : Returns (m x).1 := by
  rcases h x hx with ⟨a, h1, -⟩ | ⟨y, h1, -, h2 | ⟨z, rfl⟩⟩
  · rw [h1]; exact ⟨nofun, nofun⟩
  · exact absurd h2 hX
  · rw [h1]; exact ⟨nofun, nofun⟩

theorem ends {m : M σ α} (h : Safe X P m Q E) {x : σ} (hx : P x) : (∃ a, Q a (m x).2) ∨ E (m x).2 := by
  rcases h x hx with ⟨a, -, h1⟩ | ⟨y, -, h1, -⟩
  · exact .inl ⟨a, h1⟩
  · exact .inr h1

/-- What holds in either case. -/
theorem kept {m : M σ α} {I : σ → Prop} (h : Safe X P m (fun _ => I) I) {x : σ} (hx : P x) : I (m x).2 := by
  rcases h.ends hx with ⟨-, h⟩ | h <;> exact h

end Safe

/-! ## BAMs -/

variable {X : Prop} {s : Shape} {ty : DiskType} {b : Bam} {l : Location} {d : Device}

/-- A BAM of the right size, which may have been invalidated. -/
structure BamSize (b : Bam) (ty : DiskType) : Prop where
  format : b.format = { ty.format with geos := b.format.geos }
  length : b.entries.length = bamTracks ty

theorem Spec.BamOf.size (h : BamOf b ty) : BamSize b ty := ⟨h.format, h.length⟩

theorem BamSize.live (h : BamSize b ty) : BamOf b ty ∨ b.checkValidity = fail .invalidBAM := by
  cases hi : b.invalidated with
  | false => exact .inl ⟨h.format, h.length, hi⟩
  | true => right; unfold Bam.checkValidity; rw [hi]; rfl

theorem modify_invalid {t : Nat} {f : BamEntry → Res BamEntry} (h : b.checkValidity = fail .invalidBAM) :
    b.modifyEntry t f = fail .invalidBAM := by
  unfold Bam.modifyEntry
  rw [h]
  rfl

theorem modifyEntry_size {b b' : Bam} {t : Nat} {f : BamEntry → Res BamEntry}
    (h : b.modifyEntry t f = .ok b') (hb : BamSize b ty) : BamSize b' ty := by
  unfold Bam.modifyEntry at h
  obtain ⟨_, -, h⟩ := res_bind_eq_ok.1 h
  obtain ⟨_, -, h⟩ := res_bind_eq_ok.1 h
  obtain ⟨_, -, h⟩ := res_bind_eq_ok.1 h
  obtain ⟨_, -, h⟩ := res_bind_eq_ok.1 h
  cases h
  exact ⟨hb.format, by simp [hb.length]⟩

theorem InMap_iff : InMap ty l ↔ InBam ty l := Iff.rfl

theorem allocate_returns (h : BamSize b ty) (hl : InMap ty l) : Returns (b.allocate l) := by
  rcases h.live with h | h
  · obtain ⟨b', hb', -⟩ := allocate_ok h hl
    rw [hb']; exact ⟨nofun, nofun⟩
  · unfold Bam.allocate
    rw [modify_invalid h]; exact ⟨nofun, nofun⟩

theorem free_returns (h : BamSize b ty) (hl : InMap ty l) : Returns (b.free l) := by
  rcases h.live with h | h
  · obtain ⟨b', hb', -⟩ := free_ok h hl
    rw [hb']; exact ⟨nofun, nofun⟩
  · unfold Bam.free
    rw [modify_invalid h]; exact ⟨nofun, nofun⟩

theorem next_returns (h : BamSize b ty) (prev : Option Location)
    (hp : ∀ p, prev = some p → ValidLoc ty (bamTracks ty) p) : Returns (b.nextFreeBlock prev) := by
  rcases h.live with h | h
  · rcases C10_total h prev hp with ⟨n, hn⟩ | hn | hn
    · rw [hn]; exact ⟨nofun, nofun⟩
    · rw [hn]; exact ⟨nofun, nofun⟩
    · rw [hn]; exact ⟨nofun, nofun⟩
  · unfold Bam.nextFreeBlock
    rw [h]; exact ⟨nofun, nofun⟩

theorem next_valid (h : BamSize b ty) {prev : Option Location} {n : Location} (hn : b.nextFreeBlock prev = .ok n) :
    ValidLoc ty (bamTracks ty) n ∧ isFree b n = true := by
  rcases h.live with h | h
  · exact ⟨(C08_result_valid h prev hn).1, (C08_result_valid h prev hn).2.1⟩
  · unfold Bam.nextFreeBlock at hn
    rw [h] at hn; cases hn

/-- A block from the BAM exists. -/
theorem Spec.Wf.valid_of_map {l : Location} (hw : Wf d s) (h : ValidLoc s.type (bamTracks s.type) l) : s.Valid l := by
  have hle : bamTracks s.type ≤ s.tracks :=
    (by decide : ∀ s ∈ shapes, bamTracks s.type ≤ s.tracks) s hw.shape
  exact ⟨h.1, Nat.le_trans h.2.1 hle, h.2.2⟩

/-! ## The device and the BAM -/

theorem sectorMut_returns {d : Device} (hw : Wf d s) {l : Location} {f : List Byte → Res (List Byte)}
    (hf : s.Valid l → ∃ n, f (d.blk s l) = .ok n ∧ n.length = 256) :
    (∃ n, s.Valid l ∧ f (d.blk s l) = .ok n ∧ n.length = 256 ∧ d.sectorMut l f = .ok (d.put s l n) ∧
      Wf (d.put s l n) s) ∨ ∃ y, d.sectorMut l f = fail y := by
  by_cases hwr : Writable d
  · by_cases hv : s.Valid l
    · obtain ⟨n, hn, hl⟩ := hf hv
      exact .inl ⟨n, hv, hn, hl, hw.sectorMut_ok hwr hv hn, hw.put hv hl⟩
    · exact .inr ⟨_, hw.sectorMut_invalid hwr hv _⟩
  · exact .inr ⟨_, sectorMut_readOnly' hwr _ _⟩

/-- An image of the shape, and a BAM of the size. -/
structure Sound (s : Shape) (st : St) : Prop where
  wf : Wf st.dev s
  bam : BamSize st.bam s.type

theorem safe_allocate (hl : ¬ X → InMap s.type l) :
    Safe X (Sound s) (St.updBam fun b => b.allocate l) (fun _ => Sound s) (Sound s) := by
  intro st h
  cases ha : st.bam.allocate l with
  | ok b' => rw [updBam_ok ha]; exact .inl ⟨(), rfl, h.wf, modifyEntry_size ha h.bam⟩
  | error q =>
    rw [show St.updBam (fun b => b.allocate l) st = (.error q, st) by
      unfold St.updBam; exact M.update_error (by simp only [ha]; rfl)]
    refine .inr ⟨q, rfl, h, SafeRes.error (α := Bam) ?_⟩
    by_cases hX : X
    · exact .inl hX
    · right; rw [← ha]; exact allocate_returns h.bam (hl hX)

theorem safe_free (hl : ¬ X → InMap s.type l) :
    Safe X (Sound s) (St.updBam fun b => b.free l) (fun _ => Sound s) (Sound s) := by
  intro st h
  cases ha : st.bam.free l with
  | ok b' => rw [updBam_ok ha]; exact .inl ⟨(), rfl, h.wf, modifyEntry_size ha h.bam⟩
  | error q =>
    rw [show St.updBam (fun b => b.free l) st = (.error q, st) by
      unfold St.updBam; exact M.update_error (by simp only [ha]; rfl)]
    refine .inr ⟨q, rfl, h, SafeRes.error (α := Bam) ?_⟩
    by_cases hX : X
    · exact .inl hX
    · right; rw [← ha]; exact free_returns h.bam (hl hX)

theorem safe_next (prev : Option Location) (hp : ¬ X → ∀ p, prev = some p → ValidLoc s.type (bamTracks s.type) p) :
    Safe X (Sound s) (St.readBam fun b => b.nextFreeBlock prev)
      (fun n st => Sound s st ∧ ValidLoc s.type (bamTracks s.type) n ∧ isFree st.bam n = true) (Sound s) := by
  refine (Safe.read (E := Sound s) (fun st h => ?_) fun _ h => h).post fun n st h => ⟨h.1, next_valid h.1.bam h.2⟩
  by_cases hX : X
  · exact .inl hX
  · exact .inr (next_returns h.bam prev (hp hX))

theorem safe_flushBam : Safe X (Sound s) St.flushBam (fun _ => Sound s) (Sound s) := by
  intro st h
  rcases h.bam.live with hl | hl
  · rcases flushBam_or h.wf hl with ⟨d', h1, h2⟩ | h1
    · rw [h1]; exact .inl ⟨(), rfl, h2, h.bam⟩
    · rw [h1]; exact .inr ⟨_, rfl, h, .inr ⟨_, rfl⟩⟩
  · right
    refine ⟨.err .invalidBAM, ?_, ?_, .inr ⟨_, rfl⟩⟩
    all_goals
      unfold St.flushBam
      rw [M.bind_of_ok (m := M.get) (s := st) (s' := st) (a := st) rfl]
      unfold St.onDev
      rw [M.run_zoom]
      unfold Bam.flush
      rw [M.bind_of_error (s' := st.dev) (e := .err .invalidBAM) (by rw [M.run_lift, hl])]
    exact h

theorem safe_sectorMut {l : Location} {f : List Byte → Res (List Byte)}
    (hf : ∀ blk : List Byte, blk.length = 256 → ∃ n, f blk = .ok n ∧ n.length = 256) :
    Safe X (Sound s) (St.updDev fun d => d.sectorMut l f) (fun _ => Sound s) (Sound s) := by
  intro st h
  rcases sectorMut_returns h.wf (l := l) (f := f) fun hv => hf _ (h.wf.blk_length hv) with
    ⟨n, -, -, -, h1, h2⟩ | ⟨y, h1⟩
  · rw [updDev_ok h1]; exact .inl ⟨(), rfl, h2, h.bam⟩
  · rw [updDev_error h1]; exact .inr ⟨_, rfl, h, .inr ⟨y, rfl⟩⟩

/-! ## Entries -/

/-- A parsed entry can be written back. -/
theorem parse_placed {bytes : List Byte} {p : Position} (hl : bytes.length = 32) (hv : s.Valid p.location)
    (ho : p.offset.toNat + 32 ≤ 256) (hz : p.size = 32) : Placed s (DirectoryEntry.parse32 bytes (some p)) := by
  refine ⟨⟨p, rfl, hv, ho, hz⟩, ?_, ?_⟩
  · refine Nat.le_trans (fromPadded_length _ _) ?_
    simp only [slice, List.length_take, ENTRY_FILENAME_LENGTH]
    omega
  · intro old hold
    simp only [DirectoryEntry.parse32]
    have h9 : (slice bytes ENTRY_EXTRA_OFFSET EXTRA_SIZE).length = 9 :=
      length_slice _ _ _ (by rw [hl]; decide)
    generalize slice bytes ENTRY_EXTRA_OFFSET EXTRA_SIZE = xs at h9 ⊢
    cases entryScheme bytes with
    | linear =>
      refine ⟨xs, ?_⟩
      show copyFromSlice xs old = _
      unfold copyFromSlice
      rw [if_pos (by rw [h9, hold])]
    | relative =>
      simp only [Extra.fromBytes, Extra.toBytes]
      rw [if_pos (by simp only [List.length_drop]; omega)]
      exact ⟨_, rfl⟩
    | geosSequential => exact ⟨_, rfl⟩
    | geosVLIR => exact ⟨_, rfl⟩

/-- Reading an entry anew. -/
theorem readEntry_any {e : DirectoryEntry} {p : Position} (hw : Wf d s) (hp : e.position = some p)
    (hv : s.Valid p.location) (ho : p.offset.toNat + 32 ≤ 256) (hz : p.size = 32) :
    d.readEntry e = .ok (entryAt d s p) := by
  have hsz : p.size.toNat = 32 := by rw [hz]; rfl
  have hpos : e.pos = .ok p := by unfold DirectoryEntry.pos; rw [hp]
  have hl : (slice (d.blk s p.location) p.offset.toNat 32).length = 32 :=
    length_slice _ _ _ (by rw [hw.blk_length hv]; exact ho)
  unfold Device.readEntry Device.positionedRead
  rw [hpos, res_bind_ok, hw.sector hv, res_bind_ok]
  unfold subSlice
  rw [hsz, if_pos (by rw [hw.blk_length hv]; exact ho), res_bind_ok]
  unfold DirectoryEntry.positionedRead
  rw [hpos, res_bind_ok, if_neg (by rw [hl, hsz]; decide)]
  unfold DirectoryEntry.parse
  rw [if_pos hl, hp]
  rfl

/-- Writing an entry back: done, or refused. -/
theorem writeEntry_returns {e : DirectoryEntry} {p : Position} (hw : Wf d s) (h : Placed s e)
    (hp : e.position = some p) :
    (∃ out, out.length = 32 ∧ slice out 0x1E 2 = [UInt8.ofNat (e.fileSize % 256), UInt8.ofNat (e.fileSize / 256)] ∧
      s.Valid p.location ∧ p.offset.toNat + 32 ≤ 256 ∧
      d.writeEntry e = .ok (d.put s p.location (splice (d.blk s p.location) p.offset.toNat out)) ∧
      Wf (d.put s p.location (splice (d.blk s p.location) p.offset.toNat out)) s) ∨
    d.writeEntry e = fail .readOnly := by
  obtain ⟨p', hp', hv, ho, hz⟩ := h.position
  have : p' = p := Option.some.inj (hp'.symm.trans hp)
  subst this
  have hpos : e.pos = .ok p' := by unfold DirectoryEntry.pos; rw [hp]
  by_cases hwr : Writable d
  · left
    have hl := hw.blk_length hv
    have hsz : p'.size.toNat = 32 := by rw [hz]; rfl
    have h1 : subSlice (d.blk s p'.location) p'.offset.toNat p'.size.toNat =
        .ok (slice (d.blk s p'.location) p'.offset.toNat 32) := by
      unfold subSlice
      rw [hsz, if_pos (by omega)]
    have h2 : (slice (d.blk s p'.location) p'.offset.toNat 32).length = 32 :=
      length_slice _ _ _ (by omega)
    have h9 : (slice (slice (d.blk s p'.location) p'.offset.toNat 32) 0x15 9).length = 9 :=
      length_slice _ _ _ (by rw [h2]; decide)
    obtain ⟨x, h3⟩ := h.extra (slice (slice (d.blk s p'.location) p'.offset.toNat 32) 0x15 9) h9
    have h4 := toBytes_ok h2 h.name h3
    have hx9 := length_extraToBytes h9 h3
    have hn16 : (e.filename ++ List.replicate (16 - e.filename.length) PADDING_BYTE).length = 16 := by
      rw [List.length_append, List.length_replicate]
      have := h.name
      omega
    have hlen : (slotBytes (slice (d.blk s p'.location) p'.offset.toNat 32)
        [e.attributes.toByte, e.firstSector.track, e.firstSector.sector]
        (e.filename ++ List.replicate (16 - e.filename.length) PADDING_BYTE) x
        [UInt8.ofNat (e.fileSize % 256), UInt8.ofNat (e.fileSize / 256)]).length = 32 :=
      slotBytes_length h2 rfl hn16 hx9 rfl
    refine ⟨_, hlen, ?_, hv, ho, ?_, ?_⟩
    · unfold slotBytes
      exact slice_splice_same' _ _ _ _ rfl (by
        have h1 : (splice (slice (d.blk s p'.location) p'.offset.toNat 32) 2
          [e.attributes.toByte, e.firstSector.track, e.firstSector.sector]).length = 32 := by
          rw [length_splice] <;> simp [h2]
        have h3 : (splice (splice (slice (d.blk s p'.location) p'.offset.toNat 32) 2
          [e.attributes.toByte, e.firstSector.track, e.firstSector.sector]) 5
          (e.filename ++ List.replicate (16 - e.filename.length) PADDING_BYTE)).length = 32 := by
          rw [length_splice] <;> omega
        rw [length_splice]
        · show 30 + 2 ≤ _; omega
        · omega)
    · unfold Device.writeEntry Device.positionedWrite
      rw [hpos, res_bind_ok]
      refine hw.sectorMut_ok hwr hv ?_
      rw [h1, res_bind_ok]
      unfold DirectoryEntry.positionedWrite
      rw [hpos, res_bind_ok, if_neg (by rw [h2, hsz]; decide), h4]
      rfl
    · refine hw.put hv ?_
      rw [length_splice _ _ _ (by rw [hlen]; omega), hl]
  · right
    unfold Device.writeEntry Device.positionedWrite
    rw [hpos, res_bind_ok]
    exact sectorMut_readOnly' hwr _ _

theorem safe_writeEntry {e : DirectoryEntry} (he : ¬ X → Placed s e) :
    Safe X (Sound s) (St.updDev fun d => d.writeEntry e) (fun _ => Sound s) (Sound s) := by
  intro st h
  have hk : Wf ((St.updDev fun d => d.writeEntry e) st).2.dev s :=
    (keep_updDev_writeEntry (R := SameTail) e st s h.wf).1
  by_cases hX : X
  · cases hd : st.dev.writeEntry e with
    | ok d' => rw [updDev_ok hd] at hk ⊢; exact .inl ⟨(), rfl, hk, h.bam⟩
    | error q => rw [show St.updDev (fun d => d.writeEntry e) st = (.error q, st) by
        unfold St.updDev; exact M.update_error (by simp only [hd]; rfl)]
                 exact .inr ⟨q, rfl, h, .inl hX⟩
  · obtain ⟨p, hp, -⟩ := (he hX).position
    rcases writeEntry_returns h.wf (he hX) hp with ⟨out, -, -, -, -, h1, h2⟩ | h1
    · rw [updDev_ok h1]; exact .inl ⟨(), rfl, h2, h.bam⟩
    · rw [updDev_error h1]; exact .inr ⟨_, rfl, h, .inr ⟨_, rfl⟩⟩

end Cbm
