import Verif.Model.Basic

/-! # Comprehensions that may raise -/

namespace Ross

theorem mapM_ok_iff {α β : Type} (f : α → Res β) (l : List α) (r : List β) :
    l.mapM f = .ok r ↔ l.map f = r.map .ok := by
  induction l generalizing r with
  | nil => cases r <;> simp [pure, Except.pure]
  | cons a l ih =>
    rw [List.mapM_cons]
    cases h : f a with
    | error e => cases r <;> simp [bind, Except.bind, h]
    | ok b =>
      cases h2 : l.mapM f with
      | error e =>
        cases r with
        | nil => simp [bind, Except.bind]
        | cons c r =>
          simp only [bind, Except.bind, List.map_cons, h]
          constructor
          · intro h3; cases h3
          · intro h3
            have := (List.cons.inj h3).2
            rw [(ih r).2 this] at h2
            cases h2
      | ok t =>
        simp only [bind, Except.bind, pure, Except.pure, Except.ok.injEq]
        have h3 := (ih t).1 h2
        constructor
        · intro h4; subst h4; simp [h, h3]
        · intro h4
          cases r with
          | nil => simp at h4
          | cons c r =>
            simp only [List.map_cons, List.cons.injEq, h, Except.ok.injEq] at h4
            obtain ⟨h5, h6⟩ := h4
            have := (ih r).2 h6
            rw [h2] at this
            cases this
            rw [h5]

end Ross
