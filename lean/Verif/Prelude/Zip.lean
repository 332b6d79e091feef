import Verif.Prelude.GridFn

/-!
# Elementwise operations on two arrays of the same shape
-/
namespace Surfalize

/-- Containers with an elementwise binary operation (numpy arithmetic on equally shaped arrays). -/
class ZipContainer (C : Type → Type) extends Container C where
  /-- elementwise binary operation -/
  zipW : {α β γ : Type} → (α → β → γ) → C α → C β → C γ
  /-- equal `shape` -/
  SameShape : {α β : Type} → C α → C β → Prop
  zipW_left : ∀ {α β γ δ : Type} (f : α → β → γ) (g : γ → β → δ) (a : C α) (b : C β),
    zipW g (zipW f a b) b = zipW (fun x y => g (f x y) y) a b
  zipW_fst : ∀ {α β : Type} (f : α → β → α) (a : C α) (b : C β), SameShape a b →
    (∀ x ∈ flat a, ∀ y ∈ flat b, f x y = x) → zipW f a b = a

/-- zipping twice with the same right operand -/
theorem zipWith_left {α β γ δ : Type} (f : α → β → γ) (g : γ → β → δ) :
    ∀ (a : List α) (b : List β), List.zipWith g (List.zipWith f a b) b = List.zipWith (fun x y => g (f x y) y) a b
  | [], _ => by simp
  | _ :: _, [] => by simp
  | x :: a, y :: b => by simp [zipWith_left f g a b]

theorem zipWith_fst {α β : Type} (f : α → β → α) :
    ∀ (a : List α) (b : List β), a.length = b.length → (∀ x ∈ a, ∀ y ∈ b, f x y = x) → List.zipWith f a b = a
  | [], _, _, _ => by simp
  | _ :: _, [], h, _ => by simp at h
  | x :: a, y :: b, h, hf => by
    simp only [List.zipWith_cons_cons, List.cons.injEq]
    refine ⟨hf x (by simp) y (by simp), zipWith_fst f a b (by simpa using h) ?_⟩
    intro u hu v hv
    exact hf u (by simp [hu]) v (by simp [hv])

/-- 1-d arrays. -/
instance : ZipContainer List where
  zipW := fun f a b => List.zipWith f a b
  SameShape := fun a b => a.length = b.length
  zipW_left := fun f g a b => zipWith_left f g a b
  zipW_fst := fun f a b h hf => zipWith_fst f a b h hf

/-- Shape equality of well-formed 2-d arrays, row by row. -/
def rowsShape {α β : Type} (a : List (List α)) (b : List (List β)) : Prop := a.map List.length = b.map List.length

theorem rows_zip_fst {α β : Type} (f : α → β → α) :
    ∀ (a : List (List α)) (b : List (List β)), rowsShape a b → (∀ x ∈ a.flatten, ∀ y ∈ b.flatten, f x y = x) →
      List.zipWith (List.zipWith f) a b = a
  | [], _, _, _ => by simp
  | _ :: _, [], h, _ => by simp [rowsShape] at h
  | r :: a, s :: b, h, hf => by
    simp only [rowsShape, List.map_cons, List.cons.injEq] at h
    simp only [List.zipWith_cons_cons, List.cons.injEq]
    refine ⟨zipWith_fst f r s h.1 ?_, rows_zip_fst f a b h.2 ?_⟩
    · intro x hx y hy; exact hf x (by simp [hx]) y (by simp [hy])
    · intro x hx y hy
      exact hf x (by simp only [List.flatten_cons, List.mem_append]; exact Or.inr hx) y
        (by simp only [List.flatten_cons, List.mem_append]; exact Or.inr hy)

theorem rows_zip_left {α β γ δ : Type} (f : α → β → γ) (g : γ → β → δ) :
    ∀ (a : List (List α)) (b : List (List β)),
      List.zipWith (List.zipWith g) (List.zipWith (List.zipWith f) a b) b
        = List.zipWith (List.zipWith fun x y => g (f x y) y) a b
  | [], _ => by simp
  | _ :: _, [] => by simp
  | r :: a, s :: b => by simp [rows_zip_left f g a b, zipWith_left]

/-- 2-d arrays. -/
instance : ZipContainer Grid where
  zipW := fun f a b => { rows := List.zipWith (List.zipWith f) a.rows b.rows, nx := a.nx }
  SameShape := fun a b => rowsShape a.rows b.rows ∧ a.nx = b.nx
  zipW_left := fun f g a b => by simp [rows_zip_left]
  zipW_fst := fun f a b h hf => by
    cases a
    simp only [Grid.mk.injEq, and_true]
    exact rows_zip_fst f _ _ h.1 hf

end Surfalize
