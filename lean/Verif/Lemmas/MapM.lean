import Mathlib.Data.List.Basic

/-! Lemmas about `List.mapM` in `Except`. -/
namespace Surfalize

variable {ε α β : Type}

theorem mapM_ok_of {f : α → Except ε β} {g : α → β} : ∀ {l : List α}, (∀ a ∈ l, f a = .ok (g a)) → l.mapM f = .ok (l.map g)
  | [], _ => rfl
  | a :: l, h => by
    rw [List.mapM_cons, h a (by simp), mapM_ok_of (l := l) fun b hb => h b (by simp [hb])]
    rfl

theorem mapM_exists {f : α → Except ε β} : ∀ {l : List α}, (∀ a ∈ l, ∃ b, f a = .ok b) → ∃ r, l.mapM f = .ok r
  | [], _ => ⟨[], rfl⟩
  | a :: l, h => by
    obtain ⟨b, hb⟩ := h a (by simp)
    obtain ⟨r, hr⟩ := mapM_exists (l := l) fun c hc => h c (by simp [hc])
    exact ⟨b :: r, by rw [List.mapM_cons, hb, hr]; rfl⟩

theorem mapM_ok_mem {f : α → Except ε β} : ∀ {l : List α} {r : List β}, l.mapM f = .ok r → ∀ b ∈ r, ∃ a ∈ l, f a = .ok b
  | [], r, h, b, hb => by
    simp only [List.mapM_nil, pure, Except.pure, Except.ok.injEq] at h
    subst h; simp at hb
  | a :: l, r, h, b, hb => by
    rw [List.mapM_cons] at h
    cases ha : f a with
    | error e => rw [ha] at h; simp [bind, Except.bind] at h
    | ok v =>
      rw [ha] at h
      cases hl : l.mapM f with
      | error e => rw [hl] at h; simp [bind, Except.bind] at h
      | ok vs =>
        rw [hl] at h
        simp only [bind, Except.bind, pure, Except.pure, Except.ok.injEq] at h
        subst h
        rcases List.mem_cons.1 hb with rfl | hb
        · exact ⟨a, by simp, ha⟩
        · obtain ⟨c, hc, e⟩ := mapM_ok_mem hl b hb
          exact ⟨c, by simp [hc], e⟩

theorem mapM_get {f : α → Except ε β} : ∀ {l : List α} {r : List β}, l.mapM f = .ok r → ∀ {k : Nat} {a : α}, l[k]? = some a →
    ∃ b, r[k]? = some b ∧ f a = .ok b
  | [], _, _, _, _, h => by simp at h
  | x :: l, r, h, k, a, ha => by
    rw [List.mapM_cons] at h
    cases hx : f x with
    | error e => rw [hx] at h; cases h
    | ok y =>
      cases hl : l.mapM f with
      | error e => rw [hx, hl] at h; cases h
      | ok ys =>
        rw [hx, hl] at h
        have h' : (y :: ys) = r := by injection h
        subst h'
        cases k with
        | zero =>
          rw [List.getElem?_cons_zero, Option.some.injEq] at ha
          subst ha
          exact ⟨y, rfl, hx⟩
        | succ k => exact mapM_get hl (by simpa using ha)

theorem mapM_error {f : α → Except ε β} {e : ε} : ∀ {l : List α}, (∀ a ∈ l, (∃ b, f a = .ok b) ∨ f a = .error e) →
    (∃ a ∈ l, f a = .error e) → l.mapM f = .error e
  | [], _, h => by simp at h
  | a :: l, h, he => by
    rw [List.mapM_cons]
    rcases h a (by simp) with ⟨b, hb⟩ | hb
    · rw [hb]
      have : l.mapM f = .error e := by
        apply mapM_error fun c hc => h c (by simp [hc])
        obtain ⟨c, hc, e'⟩ := he
        rcases List.mem_cons.1 hc with rfl | hc
        · rw [hb] at e'; simp at e'
        · exact ⟨c, hc, e'⟩
      rw [this]; rfl
    · rw [hb]; rfl

theorem mapM_congr' {m : Type → Type} [Monad m] {f g : α → m β} : ∀ {l : List α}, (∀ a ∈ l, f a = g a) → [LawfulMonad m] → l.mapM f = l.mapM g
  | [], _, _ => by simp
  | a :: l, h, _ => by
    rw [List.mapM_cons, List.mapM_cons, h a (by simp), mapM_congr' (l := l) fun b hb => h b (by simp [hb])]

end Surfalize
