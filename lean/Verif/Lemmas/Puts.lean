import Verif.Lemmas.Device
/-!
# Sequences of sector writes

Every mutating operation of the library amounts to a list of whole-sector
writes; a crash leaves the image after a prefix of that list.
-/

namespace Cbm
open Spec

/-- The device after the given sector writes, in order. -/
def Device.puts (d : Device) (s : Shape) (ws : List (Location × List Byte)) : Device :=
  ws.foldl (fun d w => d.put s w.1 w.2) d

/-- Writes of whole sectors to existing locations. -/
def WsOK (s : Shape) (ws : List (Location × List Byte)) : Prop :=
  ∀ w ∈ ws, s.Valid w.1 ∧ w.2.length = 256

variable {d : Device} {s : Shape} {l : Location} {ws vs : List (Location × List Byte)}

@[simp] theorem puts_nil : d.puts s [] = d := rfl
@[simp] theorem puts_cons (w) : d.puts s (w :: ws) = (d.put s w.1 w.2).puts s ws := rfl
theorem puts_append : d.puts s (ws ++ vs) = (d.puts s ws).puts s vs := by
  simp [Device.puts, List.foldl_append]

theorem WsOK.nil : WsOK s [] := by intro w hw; cases hw
theorem WsOK.cons {w} (h1 : s.Valid w.1) (h2 : w.2.length = 256) (h : WsOK s ws) :
    WsOK s (w :: ws) := by
  intro x hx
  rcases List.mem_cons.1 hx with rfl | hx
  · exact ⟨h1, h2⟩
  · exact h x hx
theorem WsOK.single {new : List Byte} (h1 : s.Valid l) (h2 : new.length = 256) :
    WsOK s [(l, new)] := WsOK.cons h1 h2 WsOK.nil
theorem WsOK.append (h : WsOK s ws) (h' : WsOK s vs) : WsOK s (ws ++ vs) := by
  intro x hx
  rcases List.mem_append.1 hx with hx | hx
  · exact h x hx
  · exact h' x hx
theorem WsOK.head {w} (h : WsOK s (w :: ws)) : s.Valid w.1 ∧ w.2.length = 256 := h w (by simp)
theorem WsOK.tail {w} (h : WsOK s (w :: ws)) : WsOK s ws := fun x hx => h x (by simp [hx])
theorem WsOK.left (h : WsOK s (ws ++ vs)) : WsOK s ws := fun x hx => h x (by simp [hx])
theorem WsOK.right (h : WsOK s (ws ++ vs)) : WsOK s vs := fun x hx => h x (by simp [hx])
theorem WsOK.take (h : WsOK s ws) (k : Nat) : WsOK s (ws.take k) :=
  fun x hx => h x (List.mem_of_mem_take hx)

theorem Spec.Wf.puts (h : Wf d s) (hw : WsOK s ws) : Wf (d.puts s ws) s := by
  induction ws generalizing d with
  | nil => exact h
  | cons w t ih => exact ih (h.put hw.head.1 hw.head.2) hw.tail

theorem puts_kind : (d.puts s ws).image.kind = d.image.kind := by
  induction ws generalizing d with
  | nil => rfl
  | cons w t ih => exact ih

theorem puts_geometry : (d.puts s ws).geometry = d.geometry := by
  induction ws generalizing d with
  | nil => rfl
  | cons w t ih => exact ih

theorem Spec.Writable.puts (h : Writable d) : Writable (d.puts s ws) := by
  unfold Writable; rw [puts_kind]; exact h

theorem Spec.Wf.blk_puts_other (h : Wf d s) (hw : WsOK s ws) (hl : s.Valid l)
    (hne : ∀ w ∈ ws, w.1 ≠ l) : (d.puts s ws).blk s l = d.blk s l := by
  induction ws generalizing d with
  | nil => rfl
  | cons w t ih =>
    rw [puts_cons, ih (h.put hw.head.1 hw.head.2) hw.tail fun x hx => hne x (by simp [hx])]
    exact h.blk_put_other hw.head.1 hl (fun e => hne w (by simp) e.symm) hw.head.2

/-- The last write to a sector wins. -/
theorem Spec.Wf.blk_puts (h : Wf d s) (hw : WsOK s ws) (hl : s.Valid l) :
    (d.puts s ws).blk s l = ws.foldl (fun b w => if w.1 = l then w.2 else b) (d.blk s l) := by
  induction ws generalizing d with
  | nil => rfl
  | cons w t ih =>
    rw [puts_cons, ih (h.put hw.head.1 hw.head.2) hw.tail, List.foldl_cons]
    congr 1
    rw [h.blk_put hw.head.1 hl hw.head.2]
    by_cases e : l = w.1
    · simp [e]
    · rw [if_neg e, if_neg (fun h => e h.symm)]

/-- Images on disk after each single write, newest first. -/
def crashImages (d : Device) (s : Shape) (ws : List (Location × List Byte)) : List (List Byte) :=
  ((List.range ws.length).map fun k => (d.puts s (ws.take (k + 1))).image.bytes).reverse

theorem hist_puts : (d.puts s ws).hist = crashImages d s ws ++ d.hist := by
  induction ws generalizing d with
  | nil => rfl
  | cons w t ih =>
    rw [puts_cons, ih]
    unfold crashImages
    rw [List.length_cons, List.range_succ_eq_map, List.map_cons, List.reverse_cons]
    simp [Device.put, Function.comp_def]

theorem mem_crashImages {img : List Byte} :
    img ∈ crashImages d s ws ↔ ∃ k, 1 ≤ k ∧ k ≤ ws.length ∧
      img = (d.puts s (ws.take k)).image.bytes := by
  unfold crashImages
  simp only [List.mem_reverse, List.mem_map, List.mem_range]
  constructor
  · rintro ⟨k, hk, rfl⟩; exact ⟨k + 1, by omega, by omega, rfl⟩
  · rintro ⟨k, h1, h2, rfl⟩; exact ⟨k - 1, by omega, by rw [show k - 1 + 1 = k by omega]⟩

/-- The device a program sees when it opens image bytes `img` of the same shape. -/
def Device.with (d : Device) (img : List Byte) : Device :=
  { d with image := { d.image with bytes := img } }

theorem blk_with (d : Device) (img : List Byte) (e : Device) (h : e.image.bytes = img) :
    (d.with img).blk s l = e.blk s l := by
  unfold Device.blk Device.with; rw [h]

end Cbm
