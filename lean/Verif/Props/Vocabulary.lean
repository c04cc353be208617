import Verif.Model.Base
/-
The exceptions named in the theorems are the Python exceptions of the same name.
-/
namespace Records

/-- Each named exception is of the kind of its name, and all of them are ordinary exceptions; only TypeError and
ParseFailure are caught by `except TypeError`. -/
theorem exception_vocabulary :
    Exc.typeError.kind = .typeError ∧ Exc.parseFailure.kind = .parseFailure ∧ Exc.valueError.kind = .valueError ∧
    Exc.keyError.kind = .keyError ∧ Exc.attributeError.kind = .attributeError ∧ Exc.runtimeError.kind = .runtimeError ∧
    Exc.lookupError.kind = .lookupError ∧ Exc.indexError.kind = .indexError ∧ Exc.recursionError.kind = .recursionError ∧
    Exc.zeroDivision.kind = .zeroDivision ∧ Exc.overflow.kind = .overflow ∧
    (∀ e ∈ [Exc.typeError, .parseFailure, .valueError, .keyError, .attributeError, .runtimeError, .lookupError, .indexError,
      .recursionError, .zeroDivision, .overflow], e.isException = true) ∧
    (∀ e ∈ [Exc.typeError, .parseFailure], e.isTypeError = true) ∧
    (∀ e ∈ [Exc.valueError, .keyError, .attributeError, .runtimeError, .lookupError, .indexError,
      .recursionError, .zeroDivision, .overflow], e.isTypeError = false) := by
  refine ⟨rfl, rfl, rfl, rfl, rfl, rfl, rfl, rfl, rfl, rfl, rfl, ?_, ?_, ?_⟩ <;>
    · intro e he
      simp only [List.mem_cons, List.not_mem_nil, or_false] at he
      repeat (rcases he with h | he; · subst h; rfl)
      subst he; rfl

end Records
