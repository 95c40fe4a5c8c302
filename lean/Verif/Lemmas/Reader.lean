import Verif.Lemmas.Chain
import Verif.Model.File
/-!
# Lemmas about `ChainReader`
-/

namespace Cbm
open Spec
variable {d : Device} {s : Shape}

/-- The iterator will yield the sectors `secs` and then end, or fail with `fin`. -/
def Later (d : Device) (it : ChainIter) (secs : List ChainSector) (fin : Option Fail) : Prop :=
  ∃ fuel, it.items d fuel = secs.map .ok ++ (match fin with | none => [] | some e => [.error e])

/-- The overall result of reading: everything, or the final error. -/
def finish (fin : Option Fail) (rest : List Byte) : Res (List Byte) :=
  match fin with
  | none => .ok rest
  | some e => .error e

/-- The reader still has `rest` to deliver before ending or failing with `fin`;
`n` sectors are still to be fetched. -/
def Remaining (d : Device) (r : ChainReader) (rest : List Byte) (fin : Option Fail) (n : Nat) : Prop :=
  (r.eof = true ∧ rest = [] ∧ fin = none) ∨
  (r.eof = false ∧ ∃ secs, Later d r.chain secs fin ∧ n = secs.length ∧
    (∀ x ∈ secs, 2 ≤ x.data.length) ∧
    rest = r.block.getD [] ++ secs.flatMap fun x => x.data.drop 2)

theorem later_nil_none {it : ChainIter} (h : Later d it [] none) : ∃ it', it.step d = (none, it') := by
  obtain ⟨fuel, h⟩ := h
  cases fuel with
  | zero => simp [ChainIter.items] at h
  | succ f =>
    simp only [ChainIter.items] at h
    split at h
    · exact ⟨_, by assumption⟩
    · simp at h

theorem later_nil_some {it : ChainIter} {e : Fail} (he : e ≠ .diverge) (h : Later d it [] (some e)) :
    ∃ it', it.step d = (some (.error e), it') := by
  obtain ⟨fuel, h⟩ := h
  cases fuel with
  | zero => simp [ChainIter.items] at h; exact absurd h.symm he
  | succ f =>
    simp only [ChainIter.items] at h
    split at h
    · simp at h
    · rename_i r it' heq
      simp at h
      exact ⟨it', by rw [heq, h.1]⟩

theorem later_cons {it : ChainIter} {x : ChainSector} {xs : List ChainSector} {fin : Option Fail}
    (h : Later d it (x :: xs) fin) : ∃ it', it.step d = (some (.ok x), it') ∧ Later d it' xs fin := by
  obtain ⟨fuel, h⟩ := h
  cases fuel with
  | zero => simp [ChainIter.items] at h
  | succ f =>
    simp only [ChainIter.items] at h
    split at h
    · simp at h
    · rename_i r it' heq
      simp at h
      exact ⟨it', by rw [heq, h.1], f, h.2⟩

theorem readLoop_spec {fin : Option Fail} (hfin : fin ≠ some .diverge) :
    ∀ (fuel : Nat) (r : ChainReader) (want : Nat) (acc rest : List Byte) (n : Nat),
    Remaining d r rest fin n → 2 * n + (if r.block.isSome then 1 else 0) + 2 ≤ fuel →
    (want ≤ rest.length ∨ fin = none →
      ∃ r' n', r.readLoop d fuel want acc = (.ok (), acc ++ rest.take want, r') ∧ n' ≤ n ∧
        Remaining d r' (rest.drop want) fin n') ∧
    (∀ e, rest.length < want → fin = some e →
      ∃ out r', r.readLoop d fuel want acc = (.error e, out, r') ∧ Remaining d r' [] none 0)
  | 0, _, _, _, _, _, _, hf => by omega
  | fuel + 1, r, want, acc, rest, n, hr, hf => by
    rcases hr with ⟨heof, hrest, hfn⟩ | ⟨heof, secs, hl, hn, hlen, hrest⟩
    · subst hrest; subst hfn
      constructor
      · intro _
        refine ⟨r, n, ?_, Nat.le_refl _, .inl ⟨heof, by simp, rfl⟩⟩
        rw [ChainReader.readLoop, if_pos (.inr heof)]; simp
      · intro e _ he; cases he
    by_cases hw0 : want = 0
    · subst hw0
      constructor
      · intro _
        refine ⟨r, n, ?_, Nat.le_refl _, .inr ⟨heof, secs, hl, hn, hlen, by simpa using hrest⟩⟩
        rw [ChainReader.readLoop, if_pos (.inl rfl)]; simp
      · intro e h; omega
    rw [ChainReader.readLoop, if_neg (by simp [hw0, heof])]
    cases hb : r.block with
    | some block =>
      rw [hb] at hrest hf
      simp only [Option.getD_some, Option.isSome_some, if_true] at hrest hf
      by_cases hle : block.length ≤ want
      · -- the whole pending block is consumed
        have hmin : min block.length want = block.length := by omega
        simp only [hmin, if_true, List.take_length]
        have ih := readLoop_spec hfin fuel { r with block := none } (want - block.length)
          (acc ++ block) (secs.flatMap fun x => x.data.drop 2) n
          (.inr ⟨heof, secs, hl, hn, hlen, by simp⟩) (by simp; omega)
        constructor
        · intro hc
          obtain ⟨r', n', h1, h2, h3⟩ := ih.1 (by
            rcases hc with hc | hc
            · left; rw [hrest] at hc; simp only [List.length_append] at hc; omega
            · right; exact hc)
          refine ⟨r', n', ?_, h2, ?_⟩
          · rw [h1, hrest, List.take_append, List.take_of_length_le hle, List.append_assoc]
          · rw [hrest, List.drop_append, List.drop_of_length_le hle, List.nil_append]; exact h3
        · intro e hlt he
          exact ih.2 e (by rw [hrest] at hlt; simp only [List.length_append] at hlt; omega) he
      · have hmin : min block.length want = want := by omega
        simp only [hmin, Nat.sub_self]
        rw [if_neg (by omega)]
        obtain ⟨k, rfl⟩ : ∃ k, fuel = k + 1 := ⟨fuel - 1, by omega⟩
        have hlt : want ≤ rest.length := by rw [hrest]; simp; omega
        constructor
        · intro _
          refine ⟨{ r with block := some (block.drop want) }, n, ?_, Nat.le_refl _, ?_⟩
          · rw [ChainReader.readLoop, if_pos (.inl rfl), hrest, List.take_append,
              show want - block.length = 0 by omega]
            simp
          · refine .inr ⟨heof, secs, hl, hn, hlen, ?_⟩
            rw [hrest, List.drop_append, show want - block.length = 0 by omega]
            simp
        · intro e h; omega
    | none =>
      rw [hb] at hrest hf
      simp only [Option.getD_none, List.nil_append, Option.isSome_none] at hrest hf
      cases secs with
      | nil =>
        simp only [List.flatMap_nil] at hrest
        subst hrest
        cases fin with
        | none =>
          obtain ⟨it', hst⟩ := later_nil_none hl
          rw [hst]
          obtain ⟨k, rfl⟩ : ∃ k, fuel = k + 1 := ⟨fuel - 1, by omega⟩
          refine ⟨fun _ => ⟨{ r with chain := it', eof := true }, 0, ?_, by omega,
            .inl ⟨rfl, by simp, rfl⟩⟩, fun e _ he => by cases he⟩
          simp only
          rw [ChainReader.readLoop, if_pos (.inr rfl)]; simp [hb]
        | some e =>
          obtain ⟨it', hst⟩ := later_nil_some (fun h => hfin (by rw [h])) hl
          rw [hst]
          refine ⟨fun hc => ?_, fun e' _ he => ?_⟩
          · rcases hc with hc | hc
            · simp at hc; omega
            · cases hc
          · cases he
            exact ⟨_, _, rfl, .inl ⟨rfl, rfl, rfl⟩⟩
      | cons x xs =>
        obtain ⟨it', hst, hl'⟩ := later_cons hl
        rw [hst]
        have hx := hlen x (by simp)
        simp only
        rw [if_neg (by omega)]
        have ih := readLoop_spec hfin fuel { r with chain := it', block := some (x.data.drop 2) }
          want acc rest xs.length
          (.inr ⟨heof, xs, hl', rfl, fun y hy => hlen y (by simp [hy]), by
            rw [hrest]; simp⟩) (by simp at hn ⊢; omega)
        constructor
        · intro hc
          obtain ⟨r', n', h1, h2, h3⟩ := ih.1 hc
          exact ⟨r', n', h1, by simp at hn; omega, h3⟩
        · exact ih.2

/-- One `read` call. -/
theorem read_spec {fin : Option Fail} (hfin : fin ≠ some .diverge) {r : ChainReader}
    {rest : List Byte} {n : Nat} (hn : n ≤ 65536) (hr : Remaining d r rest fin n) (want : Nat) :
    (want ≤ rest.length ∨ fin = none →
      ∃ r' n', r.read d want = (.ok (rest.take want), r') ∧ n' ≤ 65536 ∧
        Remaining d r' (rest.drop want) fin n') ∧
    (∀ e, rest.length < want → fin = some e →
      ∃ r', r.read d want = (.error e, r') ∧ Remaining d r' [] none 0) := by
  have h := readLoop_spec hfin (2 * chainFuel + 2 * want + 2) r want [] rest n hr (by
    simp only [chainFuel]; split <;> omega)
  unfold ChainReader.read
  constructor
  · intro hc
    obtain ⟨r', n', h1, h2, h3⟩ := h.1 hc
    rw [h1]
    exact ⟨r', n', by simp, by omega, h3⟩
  · intro e hlt he
    obtain ⟨out, r', h1, h2⟩ := h.2 e hlt he
    rw [h1]
    exact ⟨r', rfl, h2⟩

/-- `ChainReader.readToEnd` in terms of what remains. -/
theorem readToEnd_spec {fin : Option Fail} (hfin : fin ≠ some .diverge) :
    ∀ (sizes : List Nat) (r : ChainReader) (rest : List Byte) (n : Nat), n ≤ 65536 →
    Remaining d r rest fin n → (∀ k ∈ sizes, 0 < k) → rest.length < sizes.length →
    ∃ r', r.readToEnd d sizes = ((finish fin rest), r')
  | [], _, _, _, _, _, _, h => by simp at h
  | k :: ks, r, rest, n, hn, hr, hpos, hlen => by
    have hk := hpos k (by simp)
    obtain ⟨hA, hB⟩ := read_spec hfin hn hr k
    have cont : ∀ r' n', r.read d k = (.ok (rest.take k), r') → n' ≤ 65536 →
        Remaining d r' (rest.drop k) fin n' → rest ≠ [] →
        ∃ r'', r.readToEnd d (k :: ks) =
          ((finish fin rest), r'') := by
      intro r' n' h1 h2 h3 hne
      obtain ⟨r'', h4⟩ := readToEnd_spec hfin ks r' (rest.drop k) n' h2 h3
        (fun j hj => hpos j (by simp [hj])) (by
          simp only [List.length_drop]
          have : 0 < rest.length := List.length_pos_iff.2 hne
          simp at hlen; omega)
      rw [ChainReader.readToEnd, h1]
      rcases ht : rest.take k with _ | ⟨a, t⟩
      · rw [List.take_eq_nil_iff] at ht
        rcases ht with ht | ht
        · omega
        · exact absurd ht hne
      · simp only [h4]
        refine ⟨r'', ?_⟩
        cases fin with
        | none => simp only [finish]; rw [← ht, List.take_append_drop]
        | some e => rfl
    cases fin with
    | none =>
      obtain ⟨r', n', h1, h2, h3⟩ := hA (.inr rfl)
      by_cases hne : rest = []
      · subst hne
        rw [ChainReader.readToEnd, h1]
        exact ⟨r', by simp [finish]⟩
      · exact cont r' n' h1 h2 h3 hne
    | some e =>
      by_cases hc : k ≤ rest.length
      · obtain ⟨r', n', h1, h2, h3⟩ := hA (.inl hc)
        exact cont r' n' h1 h2 h3 (by rintro rfl; simp at hc; omega)
      · obtain ⟨r', h1, _⟩ := hB e (by omega) rfl
        rw [ChainReader.readToEnd, h1]
        exact ⟨r', rfl⟩

/-- A new reader, on any image: it delivers the data of the full sectors and then
either the rest or the error. -/
theorem newReader_remaining (hw : Wf d s) (start : Location) :
    ∃ rest fin n, n ≤ 65536 ∧ fin ≠ some .diverge ∧ fin ≠ some .panic ∧
      rest.length ≤ 256 * s.sectors ∧
      Remaining d (ChainReader.new start) rest fin n ∧
      chainContent d start = (finish fin rest) := by
  obtain ⟨ls, e, hit, hp, hst⟩ := chainItems_walk hw start
  have hlen := nodup_valid_length ls hp.nodup hp.valid
  have hsec := sectors_le hw.shape
  have hm : ls.map (fun l => (Except.ok ⟨d.blk s l, l⟩ : Res ChainSector))
      = (ls.map fun l => (⟨d.blk s l, l⟩ : ChainSector)).map .ok := by simp
  have hfull : ∀ x ∈ ls.map (fun l => (⟨d.blk s l, l⟩ : ChainSector)), 2 ≤ x.data.length := by
    intro x hx
    obtain ⟨l, hl, rfl⟩ := List.mem_map.1 hx
    simp only [hw.blk_length (hp.valid l hl)]; omega
  have hflat : ∀ ys : List ChainSector, (∀ y ∈ ys, y.data.length ≤ 256) →
      (ys.flatMap fun x => x.data.drop 2).length ≤ 256 * ys.length := by
    intro ys
    induction ys with
    | nil => simp
    | cons y ys ih =>
      intro hy
      have h1 := hy y (by simp)
      have h2 := ih fun z hz => hy z (by simp [hz])
      simp only [List.flatMap_cons, List.length_append, List.length_drop, List.length_cons]
      omega
  have hup : ∀ x ∈ ls.map (fun l => (⟨d.blk s l, l⟩ : ChainSector)), x.data.length ≤ 256 := by
    intro x hx
    obtain ⟨l, hl, rfl⟩ := List.mem_map.1 hx
    simp only [hw.blk_length (hp.valid l hl)]; omega
  cases hstop : stopItem d s ls e with
  | ok t =>
    have hstop' : e ∉ ls ∧ s.Valid e ∧ byteAt (d.blk s e) 1 ≠ 0 ∧
        t = ⟨(d.blk s e).take ((byteAt (d.blk s e) 1).toNat + 1), e⟩ := by
      unfold stopItem at hstop
      split at hstop
      · cases hstop
      · split at hstop
        · cases hstop
        · rename_i hv
          simp only [Decidable.not_not] at hv
          split at hstop
          · cases hstop
          · cases hstop; exact ⟨by assumption, hv, by assumption, rfl⟩
    obtain ⟨hne, hv, h1, ht⟩ := hstop'
    have hnd : (ls ++ [e]).Nodup := by
      rw [List.nodup_append]
      refine ⟨hp.nodup, by simp, ?_⟩
      intro a ha b hb hab
      simp at hb; subst hb; subst hab; exact hne ha
    have hlen' := nodup_valid_length (s := s) (ls ++ [e]) hnd (by
      intro l hl
      rcases List.mem_append.1 hl with hl | hl
      · exact hp.valid l hl
      · simp at hl; exact hl ▸ hv)
    have htl : t.data.length ≤ 256 := by
      rw [ht]; simp only [List.length_take, hw.blk_length hv]; omega
    rw [hstop, hm, show [(Except.ok t : Res ChainSector)] = [t].map .ok from rfl,
      ← List.map_append] at hit
    refine ⟨_, none, (ls.map (fun l => (⟨d.blk s l, l⟩ : ChainSector)) ++ [t]).length, ?_, by simp,
      by simp, ?_, .inr ⟨rfl, _, ⟨chainFuel, by simpa [ChainReader.new, chainItems] using hit⟩, rfl, ?_, rfl⟩, ?_⟩
    · simp; omega
    · have := hflat (ls.map (fun l => (⟨d.blk s l, l⟩ : ChainSector)) ++ [t]) (by
        intro y hy
        rcases List.mem_append.1 hy with hy | hy
        · exact hup y hy
        · simp at hy; exact hy ▸ htl)
      simp only [List.length_append, List.length_map, List.length_singleton] at this hlen'
      simp only [ChainReader.new, Option.getD_none, List.nil_append]
      omega
    · intro x hx
      rcases List.mem_append.1 hx with hx | hx
      · exact hfull x hx
      · simp only [List.mem_singleton] at hx; subst hx
        have : (byteAt (d.blk s e) 1).toNat ≠ 0 := fun hc => h1 (by
          rw [← UInt8.toNat_inj]; simpa using hc)
        rw [ht]
        simp only [List.length_take, hw.blk_length hv]; omega
    · unfold chainContent chainSectors
      rw [hit, collectRes_ok]
      simp [ChainReader.new, finish]
  | error er =>
    rw [hstop, hm] at hit
    have her : er ≠ .diverge ∧ er ≠ .panic := by
      unfold stopItem at hstop
      split at hstop
      · cases hstop; simp
      · split at hstop
        · cases hstop; simp
        · split at hstop
          · cases hstop; simp
          · cases hstop
    refine ⟨_, some er, (ls.map (fun l => (⟨d.blk s l, l⟩ : ChainSector))).length, ?_,
      by simpa using her.1, by simpa using her.2, ?_,
      .inr ⟨rfl, _, ⟨chainFuel, by simpa [ChainReader.new, chainItems] using hit⟩, rfl, hfull, rfl⟩, ?_⟩
    · simp; omega
    · have := hflat _ hup
      simp only [List.length_map] at this
      simp only [ChainReader.new, Option.getD_none, List.nil_append]
      omega
    · unfold chainContent chainSectors
      rw [hit, collectRes_error]; rfl

end Cbm
