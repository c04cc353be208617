import Verif.Model.World
/-
Lemmas about the effect monad.
-/
namespace Records
variable {W : World}

theorem M.bind_pure {α} (x : M W α) : M.bind x M.pure = x := by
  funext s; unfold M.bind; rcases x s with ⟨_ | _, _⟩ <;> rfl

theorem M.bind_assoc {α β γ} (x : M W α) (f : α → M W β) (g : β → M W γ) :
    M.bind (M.bind x f) g = M.bind x fun a => M.bind (f a) g := by
  funext s; unfold M.bind; rcases x s with ⟨_ | _, _⟩ <;> rfl

theorem foldM_append {α β} (f : β → α → M W α) (l₁ l₂ : List β) (a : α) :
    M.foldM f (l₁ ++ l₂) a = M.bind (M.foldM f l₁ a) (M.foldM f l₂) := by
  induction l₁ generalizing a with
  | nil => rfl
  | cons b l ih => simp only [List.cons_append, M.foldM, M.bind_assoc]; congr 1; funext x; exact ih x

theorem M.pure_bind {α β} (a : α) (f : α → M W β) : M.bind (M.pure a) f = f a := rfl

theorem M.bind_ok {α β} {x : M W α} {f : α → M W β} {s s' : LState W} {a : α} (h : x s = (.ok a, s')) :
    M.bind x f s = f a s' := by unfold M.bind; rw [h]

theorem M.bind_error {α β} {x : M W α} {f : α → M W β} {s s' : LState W} {e : Exc} (h : x s = (.error e, s')) :
    M.bind x f s = (.error e, s') := by unfold M.bind; rw [h]

/-- inversion of a successful `bind` -/
theorem M.generator_ok {α} {x : M W α} {s s' : LState W} {a : α} (h : x s = (.ok a, s')) : M.generator x s = (.ok a, s') := by
  unfold M.generator; rw [h]

theorem M.generator_error {α} {x : M W α} {s s' : LState W} {e : Exc} (h : x s = (.error e, s')) :
    M.generator x s = (.error e.leaving, s') := by
  unfold M.generator; rw [h]

theorem M.generator_eq_ok {α} {x : M W α} {s s' : LState W} {a : α} (h : M.generator x s = (.ok a, s')) : x s = (.ok a, s') := by
  unfold M.generator at h
  rcases hx : x s with ⟨_ | b, s1⟩ <;> rw [hx] at h <;> cases h
  rfl

theorem M.generator_eq_error {α} {x : M W α} {s s' : LState W} {e : Exc} (h : M.generator x s = (.error e, s')) :
    ∃ e', x s = (.error e', s') ∧ e = e'.leaving := by
  unfold M.generator at h
  rcases hx : x s with ⟨e' | b, s1⟩ <;> rw [hx] at h <;> cases h
  exact ⟨e', rfl, rfl⟩

theorem Exc.leaving_of_ne {e : Exc} (h : e.kind ≠ .stopIteration) : e.leaving = e := if_neg h

theorem Exc.leaving_stop {e : Exc} (h : e.kind = .stopIteration) : e.leaving = .runtimeError := if_pos h

theorem Exc.leaving_isException (e : Exc) : e.leaving.isException = e.isException := by
  unfold Exc.leaving
  split
  · next h => unfold Exc.isException; rw [h]; rfl
  · rfl

theorem M.bind_eq_ok {α β} {x : M W α} {f : α → M W β} {s s' : LState W} {b : β} (h : M.bind x f s = (.ok b, s')) :
    ∃ a s1, x s = (.ok a, s1) ∧ f a s1 = (.ok b, s') := by
  unfold M.bind at h
  rcases hx : x s with ⟨r, s1⟩
  cases r with
  | error e => rw [hx] at h; cases h
  | ok a => rw [hx] at h; exact ⟨a, s1, rfl, h⟩

end Records
