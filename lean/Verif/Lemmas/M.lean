import Verif.Model.Basic
/-!
# Running computations in `M`
-/

namespace Cbm.M
variable {σ τ α β : Type}

@[simp] theorem run_pure (a : α) (s : σ) : (pure a : M σ α) s = (.ok a, s) := rfl
@[simp] theorem run_pure' (a : α) (s : σ) : (M.pure a : M σ α) s = (.ok a, s) := rfl

theorem run_bind (m : M σ α) (f : α → M σ β) (s : σ) :
    (m >>= f) s = match m s with
      | (.ok a, s') => f a s'
      | (.error e, s') => (.error e, s') := rfl

theorem run_bind' (m : M σ α) (f : α → M σ β) (s : σ) :
    (M.bind m f) s = match m s with
      | (.ok a, s') => f a s'
      | (.error e, s') => (.error e, s') := rfl

theorem bind_of_ok {m : M σ α} {f : α → M σ β} {s s' : σ} {a : α} (h : m s = (.ok a, s')) :
    (m >>= f) s = f a s' := by rw [run_bind, h]

theorem bind_of_error {m : M σ α} {f : α → M σ β} {s s' : σ} {e : Fail}
    (h : m s = (.error e, s')) : (m >>= f) s = (.error e, s') := by rw [run_bind, h]

@[simp] theorem run_throw (e : Fail) (s : σ) : (M.throw e : M σ α) s = (.error e, s) := rfl
@[simp] theorem run_lift (r : Res α) (s : σ) : (M.lift r : M σ α) s = (r, s) := rfl
@[simp] theorem run_get (s : σ) : (M.get : M σ σ) s = (.ok s, s) := rfl
@[simp] theorem run_set (s s' : σ) : (M.set s' : M σ Unit) s = (.ok (), s') := rfl
@[simp] theorem run_modify (f : σ → σ) (s : σ) : (M.modify f : M σ Unit) s = (.ok (), f s) := rfl
@[simp] theorem run_read (f : σ → Res α) (s : σ) : (M.read f : M σ α) s = (f s, s) := rfl

theorem run_update (f : σ → Res σ) (s : σ) : (M.update f : M σ Unit) s =
    match f s with
    | .ok s' => (.ok (), s')
    | .error e => (.error e, s) := rfl

theorem update_ok {f : σ → Res σ} {s s' : σ} (h : f s = .ok s') :
    (M.update f : M σ Unit) s = (.ok (), s') := by rw [run_update, h]

theorem update_error {f : σ → Res σ} {s : σ} {e : Fail} (h : f s = .error e) :
    (M.update f : M σ Unit) s = (.error e, s) := by rw [run_update, h]

theorem run_zoom (gets : τ → σ) (sets : σ → τ → τ) (m : M σ α) (t : τ) :
    (M.zoom gets sets m) t = ((m (gets t)).1, sets (m (gets t)).2 t) := rfl

@[simp] theorem run_forEach_nil (f : β → M σ Unit) (s : σ) :
    M.forEach [] f s = (.ok (), s) := rfl

theorem run_forEach_cons (x : β) (xs : List β) (f : β → M σ Unit) (s : σ) :
    M.forEach (x :: xs) f s = match f x s with
      | (.ok _, s') => M.forEach xs f s'
      | (.error e, s') => (.error e, s') := by
  simp only [M.forEach, run_bind']; rcases f x s with ⟨_ | _, _⟩ <;> rfl

end Cbm.M

namespace Cbm
variable {α β : Type}

@[simp] theorem res_bind_ok (a : α) (f : α → Res β) : ((.ok a : Res α) >>= f) = f a := rfl
@[simp] theorem res_bind_error (e : Fail) (f : α → Res β) :
    ((.error e : Res α) >>= f) = .error e := rfl
@[simp] theorem res_pure (a : α) : (pure a : Res α) = .ok a := rfl

theorem res_bind_eq_ok {r : Res α} {f : α → Res β} {b : β} :
    (r >>= f) = .ok b ↔ ∃ a, r = .ok a ∧ f a = .ok b := by
  cases r <;> simp

theorem bind_inv {σ α β : Type} {m : M σ α} {g : α → M σ β} {x y : σ} {c : β}
    (h : (m >>= g) x = (.ok c, y)) : ∃ a z, m x = (.ok a, z) ∧ g a z = (.ok c, y) := by
  cases hm : m x with
  | mk res z =>
    cases res with
    | ok a => exact ⟨a, z, rfl, by rw [M.bind_of_ok hm] at h; exact h⟩
    | error e => rw [M.bind_of_error hm] at h; cases h

end Cbm
