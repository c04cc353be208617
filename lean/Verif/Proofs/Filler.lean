import Verif.Model.Filler
import Verif.Spec.Filler
import Verif.Proofs.Monad
/-
Helper lemmas about leaf fillers.
-/
namespace Records
variable {W : World}

theorem foldM_pipeline {vs : List (Coercer W)} {v : W.Obj} {s : LState W} {w : W.Obj} {s' : LState W} :
    M.foldM (fun f v => f v) vs v s = (.ok w, s') ↔ Pipeline vs v s w s' := by
  induction vs generalizing v s with
  | nil =>
    constructor
    · intro h; cases h; exact .nil _ _
    · intro h; cases h; rfl
  | cons f fs ih =>
    constructor
    · intro h
      obtain ⟨a, s1, h1, h2⟩ := M.bind_eq_ok h
      exact .cons h1 (ih.1 h2)
    · intro h
      cases h with
      | cons h1 h2 => rw [M.foldM, M.bind_ok h1]; exact ih.2 h2

theorem foldM_pipelineFails {vs : List (Coercer W)} {v : W.Obj} {s : LState W} {e : Exc} {s' : LState W} :
    M.foldM (fun f v => f v) vs v s = (.error e, s') ↔ PipelineFails vs v s e s' := by
  induction vs generalizing v s with
  | nil =>
    constructor
    · intro h; cases h
    · intro h; cases h
  | cons f fs ih =>
    constructor
    · intro h
      rcases hf : f v s with ⟨r, s1⟩
      cases r with
      | error e1 =>
        rw [M.foldM, M.bind_error hf] at h; cases h; exact .here hf
      | ok w => rw [M.foldM, M.bind_ok hf] at h; exact .later hf (ih.1 h)
    · intro h
      cases h with
      | here h1 => rw [M.foldM, M.bind_error h1]
      | later h1 h2 => rw [M.foldM, M.bind_ok h1]; exact ih.2 h2

theorem validate_ok {vs : List (Coercer W)} {v : W.Obj} {k k' : TPK} {s : LState W} {w : W.Obj} {s' : LState W} :
    validate vs v k s = (.ok (w, k'), s') ↔ k' = k ∧ Pipeline vs v s w s' := by
  rw [← foldM_pipeline]
  constructor
  · intro h
    obtain ⟨a, s1, h1, h2⟩ := M.bind_eq_ok h
    cases h2
    exact ⟨rfl, h1⟩
  · rintro ⟨rfl, h⟩
    rw [validate, M.bind_ok h]; rfl

theorem validate_error {vs : List (Coercer W)} {v : W.Obj} {k : TPK} {s : LState W} {e : Exc} {s' : LState W} :
    validate vs v k s = (.error e, s') ↔ PipelineFails vs v s e s' := by
  rw [← foldM_pipelineFails]
  constructor
  · intro h
    rcases hf : M.foldM (fun f v => f v) vs v s with ⟨r, s1⟩
    cases r with
    | error e1 => rw [validate, M.bind_error hf] at h; cases h; exact hf
    | ok w => rw [validate, M.bind_ok hf] at h; cases h
  · intro h
    rw [validate, M.bind_error h]

/-- the value of `call` is the value of `fill` -/
theorem Ann.call_eq (a : Ann W) (v : W.Obj) : a.call v = M.bind (a.fill v) fun r => M.pure r.1 := by
  unfold Ann.call
  split
  · rename_i h
    have hv : a.validators = [] := by simpa using h.2
    unfold Ann.fill
    simp only [h.1, hv]
    rfl
  · rfl

theorem F.call_eq (f : F W) (v : W.Obj) : f.call v = M.bind (f.fill v) fun r => M.pure r.1 := by
  cases f <;> first | rfl | exact Ann.call_eq _ v

theorem F.call_ok {f : F W} {v w : W.Obj} {s s' : LState W} :
    f.call v s = (.ok w, s') ↔ ∃ k, f.fill v s = (.ok (w, k), s') := by
  rw [F.call_eq]
  constructor
  · intro h
    obtain ⟨⟨a, k⟩, s1, h1, h2⟩ := M.bind_eq_ok h
    cases h2; exact ⟨k, h1⟩
  · rintro ⟨k, h⟩; rw [M.bind_ok h]; rfl

theorem F.call_error {f : F W} {v : W.Obj} {e : Exc} {s s' : LState W} :
    f.call v s = (.error e, s') ↔ f.fill v s = (.error e, s') := by
  rw [F.call_eq]
  constructor
  · intro h
    rcases hf : f.fill v s with ⟨r, s1⟩
    cases r with
    | error e1 => rw [M.bind_error hf] at h; cases h; rfl
    | ok w => rw [M.bind_ok hf] at h; cases h
  · intro h; rw [M.bind_error h]

/-- acceptable after coercion, for the model's kinds -/
def Kind.good (k : Kind W) (st : Style) (w : W.Obj) (s : LState W) : Prop :=
  (k.typeCheck w s).badAfterCoercion st = false

theorem coerceLoop_attempts {k : Kind W} {st : Style} {pre post : List (Coercer W)} {v v' : W.Obj} {s s' : LState W}
    (h : Attempts (k.good st) pre v s v' s') (hp : post ≠ []) :
    coerceLoop k st (pre ++ post) v s = coerceLoop k st post v' s' := by
  induction h with
  | nil => rfl
  | @raised c cs v s e s1 v' s' h1 he _ ih =>
    have h1 : c v s = _ := h1
    have hne : (cs ++ post).isEmpty = false := by cases cs <;> cases post <;> simp_all
    rw [List.cons_append, coerceLoop]
    simp only [h1, he, if_true, hne]
    exact ih
  | @wrong c cs v s w s1 v' s' h1 hg _ ih =>
    have h1 : c v s = _ := h1
    have hne : (cs ++ post).isEmpty = false := by cases cs <;> cases post <;> simp_all
    have hg : (k.typeCheck w s1).badAfterCoercion st = true := by simpa [Kind.good] using hg
    rw [List.cons_append, coerceLoop]
    simp only [h1, hg, if_true, hne]
    exact ih

/-- inversion of the coercion loop -/
theorem coerceLoop_ok {k : Kind W} {st : Style} {cs : List (Coercer W)} {v w : W.Obj} {s s' : LState W}
    (h : coerceLoop k st cs v s = (.ok w, s')) (hne : cs ≠ []) :
    ∃ pre c post v1 s1, cs = pre ++ c :: post ∧ Attempts (k.good st) pre v s v1 s1 ∧ Returns (c v1) s1 w s' ∧
      k.good st w s' := by
  induction cs generalizing v s with
  | nil => exact absurd rfl hne
  | cons c cs ih =>
    rw [coerceLoop] at h
    rcases hc : c v s with ⟨r, s1⟩
    simp only [hc] at h
    cases r with
    | ok x =>
      cases hb : (k.typeCheck x s1).badAfterCoercion st with
      | false =>
        simp only [hb] at h
        cases h
        exact ⟨[], c, cs, v, s, rfl, .nil v s, hc, hb⟩
      | true =>
        simp only [hb, if_true] at h
        cases hcs : cs.isEmpty with
        | true => simp [hcs] at h
        | false =>
          simp only [hcs] at h
          obtain ⟨pre, c', post, v1, s2, e, ha, hr, hg⟩ := ih h (by rintro rfl; simp at hcs)
          exact ⟨c :: pre, c', post, v1, s2, by rw [e]; rfl, .wrong hc (by simp [Kind.good, hb]) ha, hr, hg⟩
    | error e =>
      cases he : e.isException with
      | false => simp [he] at h
      | true =>
        simp only [he, if_true] at h
        cases hcs : cs.isEmpty with
        | true => simp [hcs] at h
        | false =>
          simp only [hcs] at h
          obtain ⟨pre, c', post, v1, s2, e', ha, hr, hg⟩ := ih h (by rintro rfl; simp at hcs)
          exact ⟨c :: pre, c', post, v1, s2, by rw [e']; rfl, .raised hc he ha, hr, hg⟩

theorem coerceLoop_error {k : Kind W} {st : Style} {cs : List (Coercer W)} {v : W.Obj} {e : Exc} {s s' : LState W}
    (h : coerceLoop k st cs v s = (.error e, s')) :
    (∃ pre c v1 s1, cs = pre ++ [c] ∧ Attempts (k.good st) pre v s v1 s1 ∧
      (Raises (c v1) s1 e s' ∨ ∃ w, Returns (c v1) s1 w s' ∧ ¬ k.good st w s' ∧ e = .typeError)) ∨
    (∃ pre c post v1 s1, cs = pre ++ c :: post ∧ Attempts (k.good st) pre v s v1 s1 ∧ Raises (c v1) s1 e s' ∧
      e.isException = false) := by
  induction cs generalizing v s with
  | nil => cases h
  | cons c cs ih =>
    rw [coerceLoop] at h
    rcases hc : c v s with ⟨r, s1⟩
    simp only [hc] at h
    cases r with
    | ok x =>
      cases hb : (k.typeCheck x s1).badAfterCoercion st with
      | false => simp [hb] at h
      | true =>
        simp only [hb, if_true] at h
        cases hcs : cs.isEmpty with
        | true =>
          simp only [hcs, if_true] at h
          cases h
          have : cs = [] := by simpa using hcs
          subst this
          exact .inl ⟨[], c, v, s, rfl, .nil v s, .inr ⟨x, hc, by simp [Kind.good, hb], rfl⟩⟩
        | false =>
          simp only [hcs] at h
          rcases ih h with ⟨pre, c', v1, s2, e', ha, hr⟩ | ⟨pre, c', post, v1, s2, e', ha, hr⟩
          · exact .inl ⟨c :: pre, c', v1, s2, by rw [e']; rfl, .wrong hc (by simp [Kind.good, hb]) ha, hr⟩
          · exact .inr ⟨c :: pre, c', post, v1, s2, by rw [e']; rfl, .wrong hc (by simp [Kind.good, hb]) ha, hr⟩
    | error e1 =>
      cases he : e1.isException with
      | false =>
        simp only [he] at h
        cases h
        exact .inr ⟨[], c, cs, v, s, rfl, .nil v s, hc, he⟩
      | true =>
        simp only [he, if_true] at h
        cases hcs : cs.isEmpty with
        | true =>
          simp only [hcs, if_true] at h
          cases h
          have : cs = [] := by simpa using hcs
          subst this
          exact .inl ⟨[], c, v, s, rfl, .nil v s, .inl hc⟩
        | false =>
          simp only [hcs] at h
          rcases ih h with ⟨pre, c', v1, s2, e', ha, hr⟩ | ⟨pre, c', post, v1, s2, e', ha, hr⟩
          · exact .inl ⟨c :: pre, c', v1, s2, by rw [e']; rfl, .raised hc he ha, hr⟩
          · exact .inr ⟨c :: pre, c', post, v1, s2, by rw [e']; rfl, .raised hc he ha, hr⟩

/-- the fill of a checking filler, by outcome of the type check -/
theorem Ann.fill_checked (a : Ann W) (hst : a.style = .check ∨ a.style = .checkStrict) (v : W.Obj) (s : LState W) :
    a.fill v s =
      if a.kind.typeCheck v s = .exact then validate a.validators v .noCoerceStrict s
      else if a.kind.typeCheck v s = .inexact ∧ a.style = .check then validate a.validators v .noCoerce s
      else if a.coercers.isEmpty then (.error .typeError, s)
      else M.bind (coerceLoop a.kind a.style a.coercers v) (fun w => validate a.validators w .coerce) s := by
  rcases hst with h | h <;> unfold Ann.fill <;> simp only [h]

end Records
