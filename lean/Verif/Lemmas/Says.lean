import Verif.Model.Display
/-!
# What a printing computation prints

`Says m r t`: started with any output, `m` ends with `r` and has added `t`.
-/

namespace Cbm

variable {α β : Type}

/-- The computation ends with `r` and adds `t` to the output. -/
def Says (m : M (List Char) α) (r : Res α) (t : List Char) : Prop := ∀ out, m out = (r, out ++ t)

theorem Says.pure (a : α) : Says (pure a) (.ok a) [] := fun out => by rw [List.append_nil]; rfl

theorem Says.lift (r : Res α) : Says (M.lift r) r [] := fun out => by rw [List.append_nil]; rfl

theorem Says.print (t : List Char) : Says (Cbm.print t) (.ok ()) t := fun _ => rfl

theorem Says.println (t : List Char) : Says (Cbm.println t) (.ok ()) (t ++ ['\n']) := fun _ => rfl

theorem Says.bind {m : M (List Char) α} {f : α → M (List Char) β} {a : α} {r : Res β}
    {t u : List Char} (h : Says m (.ok a) t) (h' : Says (f a) r u) :
    Says (m >>= f) r (t ++ u) := fun out => by
  show M.bind m f out = _
  unfold M.bind
  rw [h out]
  simp only []
  rw [h' (out ++ t), List.append_assoc]

theorem Says.bind_lift {r : Res α} {f : α → M (List Char) β} {a : α} {r' : Res β}
    {u : List Char} (h : r = .ok a) (h' : Says (f a) r' u) : Says (M.lift r >>= f) r' u := by
  subst h
  exact Says.bind (Says.lift _) h'

theorem Says.bind_error {m : M (List Char) α} {f : α → M (List Char) β} {e : Fail}
    {t : List Char} (h : Says m (.error e) t) : Says (m >>= f) (.error e) t := fun out => by
  show M.bind m f out = _
  unfold M.bind
  rw [h out]

theorem Says.forEach {xs : List α} {f : α → M (List Char) Unit} {g : α → List Char}
    (h : ∀ x ∈ xs, Says (f x) (.ok ()) (g x)) : Says (M.forEach xs f) (.ok ()) (xs.flatMap g) := by
  induction xs with
  | nil => exact Says.pure ()
  | cons x xs ih =>
    rw [List.flatMap_cons]
    exact Says.bind (h x (List.mem_cons_self ..)) (ih fun y hy => h y (List.mem_cons_of_mem _ hy))

/-- A computation that ends with a failure has printed something. -/
def Fails (m : M (List Char) α) (e : Fail) : Prop := ∃ t, Says m (.error e) t

theorem Fails.bind {m : M (List Char) α} {f : α → M (List Char) β} {e : Fail} (h : Fails m e) :
    Fails (m >>= f) e := by
  obtain ⟨t, h⟩ := h
  exact ⟨t, Says.bind_error h⟩

theorem Fails.after {m : M (List Char) α} {f : α → M (List Char) β} {e : Fail} {a : α}
    {t : List Char} (h : Says m (.ok a) t) (h' : Fails (f a) e) : Fails (m >>= f) e := by
  obtain ⟨u, h'⟩ := h'
  exact ⟨t ++ u, Says.bind h h'⟩

/-- Printing a list of results, up to the first failure. -/
theorem Says.items {f : α → M (List Char) Unit} {g : α → List Char}
    (h : ∀ x, Says (f x) (.ok ()) (g x)) : ∀ (xs : List (Res α)),
    match collectRes xs with
    | .ok as => Says (M.forEach xs fun x => M.lift x >>= f) (.ok ()) (as.flatMap g)
    | .error e => Fails (M.forEach xs fun x => M.lift x >>= f) e := by
  intro xs
  induction xs with
  | nil => exact Says.pure ()
  | cons x xs ih =>
    cases x with
    | error e => exact Fails.bind (Fails.bind ⟨[], Says.lift _⟩)
    | ok a =>
      have h1 : Says (M.lift (.ok a) >>= f) (.ok ()) (g a) := Says.bind_lift rfl (h a)
      simp only [collectRes]
      cases hc : collectRes xs with
      | error e =>
        rw [hc] at ih
        exact Fails.after h1 ih
      | ok as =>
        rw [hc] at ih
        exact Says.bind h1 ih

/-- The opened image and what is printed about it. -/
theorem showing_ok {ext : Option (List Char)} {w : Bool} {body : Disk → M (List Char) α}
    {bytes : List Byte} {disk : Disk} (h : Disk.openPath ext w bytes = .ok disk) {r : Res α}
    {t : List Char} (hs : Says (body disk) r t) : showing ext w body bytes = (r, t) := by
  unfold showing
  rw [h]
  exact hs []

theorem showing_error {ext : Option (List Char)} {w : Bool} {body : Disk → M (List Char) α}
    {bytes : List Byte} {e : Fail} (h : Disk.openPath ext w bytes = .error e) :
    showing ext w body bytes = (.error e, []) := by
  unfold showing
  rw [h]

end Cbm
