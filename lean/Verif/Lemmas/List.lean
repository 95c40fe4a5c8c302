/-!
# List lemmas
-/

namespace Cbm
variable {α β : Type}

theorem nodup_length_le_of_subset [DecidableEq α] :
    ∀ (l₁ l₂ : List α), l₁.Nodup → (∀ x ∈ l₁, x ∈ l₂) → l₁.length ≤ l₂.length
  | [], _, _, _ => by simp
  | a :: t, l₂, hn, hs => by
    rw [List.nodup_cons] at hn
    have ha : a ∈ l₂ := hs a (by simp)
    have := nodup_length_le_of_subset t (l₂.erase a) hn.2 (by
      intro x hx
      have hxa : x ≠ a := by rintro rfl; exact hn.1 hx
      exact (List.mem_erase_of_ne hxa).2 (hs x (by simp [hx])))
    rw [List.length_erase_of_mem ha] at this
    have : 0 < l₂.length := List.length_pos_of_mem ha
    simp only [List.length_cons]; omega

theorem nodup_length_le_of_lt (l : List Nat) (n : Nat) (hn : l.Nodup) (h : ∀ x ∈ l, x < n) :
    l.length ≤ n := by
  have := nodup_length_le_of_subset l (List.range n) hn (fun x hx => List.mem_range.2 (h x hx))
  simpa using this

theorem nodup_map_of_injOn {f : α → β} : ∀ (l : List α), l.Nodup →
    (∀ a ∈ l, ∀ b ∈ l, f a = f b → a = b) → (l.map f).Nodup
  | [], _, _ => by simp
  | a :: t, hn, hi => by
    rw [List.nodup_cons] at hn
    rw [List.map_cons, List.nodup_cons]
    constructor
    · intro hm
      obtain ⟨b, hb, he⟩ := List.mem_map.1 hm
      have := hi b (by simp [hb]) a (by simp) he
      exact hn.1 (this ▸ hb)
    · exact nodup_map_of_injOn t hn.2 fun x hx y hy => hi x (by simp [hx]) y (by simp [hy])

theorem flatMap_congr_left {α β : Type} {g h : α → List β} : ∀ {xs : List α},
    (∀ x ∈ xs, g x = h x) → xs.flatMap g = xs.flatMap h
  | [], _ => rfl
  | x :: xs, e => by
    rw [List.flatMap_cons, List.flatMap_cons, e x (by simp),
      flatMap_congr_left (xs := xs) fun y hy => e y (by simp [hy])]

end Cbm
