import Verif.Spec.Tokens
import Verif.Spec.Legal
import Verif.Props.Coercers
import Verif.Props.Hints
import Verif.Spec.ToyTok
import Verif.Proofs.Dict
/-
C92-C96: how objects become tokens, adders, type constraints, binding errors; and the calls of the target type by `Whole`
(C15) and `ToBytes` (C14), and unusable inputs of the unpacking coercers (C17).
-/
namespace Records
variable {W : World}

/-! ### C92 -/

/-- An object applied to a filler has exactly the effect of the token it stands for. -/
theorem C92_meaning {o : PyArg W} {t : Tok W} (h : Means o t) (a : Ann W) : a.applyObj o = a.apply t := by
  unfold Ann.applyObj Ann.apply
  cases ha : a.bound with
  | true => rfl
  | false =>
    simp only [Bool.false_eq_true, if_false]
    cases h with
    | style h => simp only [h]
    | coercion h =>
      obtain ⟨h1, h2, rfl⟩ := h
      simp only [h1, PyArg.asInstance, h2, if_true] <;> rfl
    | coercionClass h =>
      obtain ⟨h1, h2, h3, h4⟩ := h
      simp only [h1, PyArg.asInstance, h2, h3, h4, if_true, Bool.false_eq_true, if_false] <;> rfl
    | wrapped h =>
      obtain ⟨h1, h2, h3, h4, h5⟩ := h
      simp only [h1, PyArg.asInstance, h2, h3, h4, h5, if_true, Bool.false_eq_true, if_false] <;> rfl
    | validation h =>
      obtain ⟨h1, h2, h3, h4, h5, rfl⟩ := h
      simp only [h1, PyArg.asInstance, h2, h3, h4, h5, if_true, Bool.false_eq_true, if_false] <;> rfl
    | validationClass h =>
      obtain ⟨h1, h2, h3, h4, h5, h6, h7⟩ := h
      simp only [h1, PyArg.asInstance, h2, h3, h4, h5, h6, h7, if_true, Bool.false_eq_true, if_false] <;> rfl
    | tag h1 h2 h3 h4 h5 h6 h7 =>
      simp only [h1, PyArg.asInstance, h2, h3, h4, h5, h6, Bool.false_eq_true, if_false] <;> rfl
    | other h h6 =>
      obtain ⟨h1, -, h2, h3, h4, h5⟩ := h
      simp only [h1, PyArg.asInstance, h2, h3, h4, h5, h6, Bool.false_eq_true, if_false] <;> rfl

/-- An object that raises when it is inspected or called makes the declaration fail with that exception. -/
theorem C92_raises {o : PyArg W} {e : Exc} (a : Ann W) (ha : a.bound = false) (hs : o.style = none) (hc : o.isCo = false)
    (h : o.subCo = true ∧ o.call = .error e ∨ o.subCo = false ∧ o.wrapped = .error e ∨
      o.subCo = false ∧ o.wrapped = .ok true ∧ o.call = .error e ∨
      o.subCo = false ∧ o.wrapped = .ok false ∧ o.isVa = false ∧ o.subVa = true ∧ o.call = .error e) :
    a.applyObj o = .error e := by
  rcases h with ⟨h1, h2⟩ | ⟨h1, h2⟩ | ⟨h1, h2, h3⟩ | ⟨h1, h2, h3, h4, h5⟩ <;>
    simp [Ann.applyObj, PyArg.asInstance, *]

/-- Objects that stand for the same token are interchangeable in any declaration: listed anywhere in `Annotated`, applied to
any field. -/
theorem C92_interchangeable {o o' : PyArg W} {t : Tok W} (h : Means o t) (h' : Means o' t) (a : Ann W) :
    a.applyObj o = a.applyObj o' := by rw [C92_meaning h, C92_meaning h']

/-- A token class without arguments is the same as its instance. -/
theorem C92_class_is_instance {o o' : PyArg W} {t : Usable W} (a : Ann W)
    (h : o.IsCoercionClass t ∧ o'.IsCoercion t ∨ o.IsValidationClass t ∧ o'.IsValidation t) :
    a.applyObj o = a.applyObj o' := by
  rcases h with ⟨h1, h2⟩ | ⟨h1, h2⟩
  · exact C92_interchangeable (.coercionClass h1) (.coercion h2) a
  · exact C92_interchangeable (.validationClass h1) (.validation h2) a

/-- Unrelated objects without a `__wrapped__` attribute are ignored. -/
theorem C92_ignored {o : PyArg W} (h : o.Unrelated) (hw : o.wrapped = .ok false) (a : Ann W) (ha : a.bound = false) :
    a.applyObj o = .ok a := by
  rw [C92_meaning (.other h hw)]
  simp [Ann.apply, ha]

/-- An unrelated object with a `__wrapped__` attribute (any function decorated with `functools.wraps`) is called without
arguments when the class is created, and what it returns is used as a coercion token, whatever it is. -/
theorem C92_wrapped {o : PyArg W} {t : Usable W} (h : o.IsWrapped t) (a : Ann W) (ha : a.bound = false) :
    a.applyObj o = match getCoercer a.kind.isBool a.kind.origin t.co with
      | .ok c => .ok { a with coercers := a.coercers ++ [c] }
      | .error e => .error e := by
  rw [C92_meaning (.wrapped h)]
  simp only [Ann.apply, ha, Bool.false_eq_true, if_false]
  rfl

end Records

namespace Records.Toy.Tk
open Records Records.Toy

/-- no token at all: neither `get_coercer` nor `get_validator` would take it -/
def plain : Usable Toy.W := ⟨.notToken, fun _ => .error .typeError⟩

/-- a decorated function of another library, in `Annotated` for that library only; calling it without arguments fails -/
def foreign : PyArg Toy.W := { self := plain, wrapped := .ok true, call := .error .typeError }

/-- a (wrapped) factory of a validation token: `obj()` gives a token object, which is callable like any token -/
def factory : PyArg Toy.W :=
  { self := plain, wrapped := .ok true, call := .ok (some ⟨.coercer fun _ => .ok (pass 1), fun _ => .ok (pass 1)⟩) }

/-- an ordinary object -/
def plainArg : PyArg Toy.W := { self := plain, call := .error .typeError }

/-- a validation token class -/
def vclass : PyArg Toy.W :=
  { self := plain, subVa := true, call := .ok (some ⟨.coercer fun _ => .ok (pass 1), fun _ => .ok (pass 1)⟩) }

/-- a filler of `int` -/
def intAnn : Ann Toy.W := { kind := .simple TCls.int false, args := [] }

end Records.Toy.Tk

namespace Records
open Toy Toy.Tk

/-- The claim that metadata unrelated to the library is ignored -/
def C92_claim : Prop := ∀ (o : PyArg Toy.W) (a : Ann Toy.W), o.Unrelated → a.bound = false → a.applyObj o = .ok a

/-- Refuted: a decorated function listed for another library breaks the class. -/
theorem C92_refuted : ¬ C92_claim := by
  intro h
  have := h foreign intAnn ⟨rfl, rfl, rfl, rfl, rfl, rfl⟩ rfl
  cases this

/-- a validation token made by a wrapped factory ends up among the coercers -/
example : (intAnn.applyObj factory).map (fun a => (a.coercers.length, a.validators.length)) = .ok (1, 0) ∧
    (intAnn.applyObj vclass).map (fun a => (a.coercers.length, a.validators.length)) = .ok (0, 1) := ⟨rfl, rfl⟩

example : intAnn.applyObj plainArg = .ok intAnn ∧ plainArg.Unrelated := ⟨rfl, rfl, rfl, rfl, rfl, rfl, rfl⟩

end Records

namespace Records
variable {W : World}

/-! ### C93 -/

/-- the token an adder makes of a function, for given keywords -/
def Adder.token (opts : Dict W.Obj → AssertOpts W) (g : Func W) (kw : Dict W.Obj) : Adder → Tok W
  | .validator => .validation fun _ => .ok fun v => g [v] kw
  | .coercer => .coercion (.coercer fun _ => .ok fun v => g [v] kw)
  | .assertValidator => .validation fun _ => .ok fun v => M.bind (g [v] []) fun r =>
      if W.truthy r then M.pure v else M.bind ((opts kw).cfg.raise (opts kw).emit) fun _ => M.pure v

/-- which keywords an adder takes besides `sub_key` -/
def Adder.allows (kw : Dict W.Obj) : Adder → Prop
  | .assertValidator => ∀ p ∈ kw, p.1 = "err" ∨ p.1 = "warn"
  | _ => ∀ p ∈ kw, p.1 ≠ "self" ∧ p.1 ≠ "func"

/-- With a function the adder applies its token to the addressed part of the field and returns the function; keywords other
than `sub_key` are passed to every call of the function (to the assertion, for `add_assert_validator`). -/
theorem C93_adds (opts : Dict W.Obj → AssertOpts W) (a : Adder) (g : Func W) (kw : AddKw W) (hk : a.allows kw.rest) (f : F W) :
    a.call opts (some g) kw f = .added (f.applySub kw.subKey (a.token opts g kw.rest)) g := by
  have hnone : ∀ k : String, (∀ p ∈ kw.rest, p.1 ≠ k) → kw.rest.has k = false := by
    intro k hk
    cases hb : kw.rest.has k with
    | false => rfl
    | true =>
      exfalso
      unfold Dict.has at hb
      cases hg : Dict.get? kw.rest k with
      | none => rw [hg] at hb; cases hb
      | some v =>
        have : ∃ p ∈ kw.rest, p.1 = k := by
          clear hb hk
          revert hg
          generalize kw.rest = l
          intro hg
          induction l with
          | nil => simp [Dict.get?] at hg
          | cons p l ih =>
            by_cases hp : p.1 = k
            · exact ⟨p, by simp, hp⟩
            · have : Dict.get? l k = some v := by
                obtain ⟨k', v'⟩ := p
                simpa [Dict.get?, hp] using hg
              obtain ⟨q, hq, hk⟩ := ih this
              exact ⟨q, by simp [hq], hk⟩
        obtain ⟨p, hp, e⟩ := this
        exact hk p hp e
  have hres : adderReserved.any (fun k => kw.rest.has k) = false := by
    have : ∀ k ∈ adderReserved, kw.rest.has k = false := by
      intro k hkm
      apply hnone
      intro p hp e
      simp only [adderReserved, List.mem_cons, List.not_mem_nil, or_false] at hkm
      cases a with
      | assertValidator =>
        have := hk p hp
        rcases hkm with rfl | rfl <;> rcases this with h | h <;> rw [e] at h <;> exact absurd h (by decide)
      | validator =>
        have := hk p hp
        rcases hkm with rfl | rfl
        · exact this.1 e
        · exact this.2 e
      | coercer =>
        have := hk p hp
        rcases hkm with rfl | rfl
        · exact this.1 e
        · exact this.2 e
    simpa using this
  unfold Adder.call Adder.core
  rw [hres]
  cases a with
  | validator => rfl
  | coercer => rfl
  | assertValidator =>
    have : (kw.rest.any fun p => p.1 != "err" && p.1 != "warn") = false := by
      rw [List.any_eq_false]
      intro p hp
      rcases hk p hp with h | h <;> simp [h]
    have htok : assertCallTok g (opts kw.rest) = fun _ => .ok fun v => M.bind (g [v] []) fun r =>
        if W.truthy r then M.pure v else M.bind ((opts kw.rest).cfg.raise (opts kw.rest).emit) fun _ => M.pure v := by
      funext _
      refine congrArg Except.ok (funext fun v => funext fun s => ?_)
      simp only [AssertCfg.inner, assertCall, M.bind]
      rcases g [v] [] s with ⟨e | r, s1⟩
      · rfl
      · simp only [M.pure]
        cases W.truthy r <;> rfl
    simp only [this, htok]
    rfl

/-- Used as a decorator with keywords, the adder changes nothing yet; the decorator then does to the field, as it is at
that time, what the direct call does, every time it is used, and returns the function. -/
theorem C93_decorator (opts : Dict W.Obj → AssertOpts W) (a : Adder) (kw : AddKw W) (f : F W) :
    ∃ d, a.call opts none kw f = .decorator d ∧
      ∀ g f', a.call opts (some g) kw f' = .added (d g f').1 (d g f').2 ∧ (d g f').2 = g := ⟨_, rfl, fun _ _ => ⟨rfl, rfl⟩⟩

/-- Other keywords: a parameter name of the method (`self`, `func`) is refused by all, and `add_assert_validator` takes only
`err` and `warn`; the field is not changed. -/
theorem C93_refuses (opts : Dict W.Obj → AssertOpts W) (a : Adder) (g : Func W) (kw : AddKw W) (f : F W)
    (hk : kw.rest.has "self" = true ∨ kw.rest.has "func" = true ∨
      a = .assertValidator ∧ ∃ p ∈ kw.rest, p.1 ≠ "err" ∧ p.1 ≠ "warn") :
    a.call opts (some g) kw f = .added (.error .typeError) g := by
  unfold Adder.call Adder.core
  by_cases hr : adderReserved.any (fun k => kw.rest.has k) = true
  · simp only [hr, if_true]
  · rcases hk with h | h | ⟨rfl, p, hp, h1, h2⟩
    · exact absurd (by simp [adderReserved, h]) hr
    · exact absurd (by simp [adderReserved, h]) hr
    · have : (kw.rest.any fun p => p.1 != "err" && p.1 != "warn") = true := by
        rw [List.any_eq_true]
        exact ⟨p, hp, by simp [h1, h2]⟩
      have hr' : (adderReserved.any fun k => kw.rest.has k) = false := by simpa using hr
      simp only [hr', this, if_true, Bool.false_eq_true, if_false]

/-- The documented equivalence: `CallValidation(foo, a, b, c=d)` is `CallValidation(lambda v: foo(v, a, b, c=d))`; likewise
`CallCoercion`, and `ClassMethodCoercion` with the class method as `foo` (any field, any other tokens). -/
theorem C93_equivalent (g : Func W) (a : List W.Obj) (kw : Dict W.Obj) (f : Func W) (hf : ∀ v, f [v] [] = g (v :: a) kw)
    (b : Ann W) :
    b.apply (.validation (callValidation g a kw)) = b.apply (.validation (callValidation f [] [])) ∧
    b.apply (.coercion (callCoercion g a kw)) = b.apply (.coercion (callCoercion f [] [])) ∧
    ∀ attr : Option W.Cls → Except Exc (Func W), attr b.kind.origin = .ok g →
      b.apply (.coercion (classMethodCoercion attr a kw)) = b.apply (.coercion (callCoercion f [] [])) := by
  have h : (fun v => g (v :: a) kw) = fun v => f [v] [] := funext fun v => (hf v).symm
  refine ⟨?_, ?_, fun attr ha => ?_⟩ <;>
    simp only [callValidation, callCoercion, classMethodCoercion, Ann.apply, getCoercer, *]

/-- A field of a class to which functions were added by `add_validator` in `pre_bind`: each is called once, in the order they
were added, with the value and its own keywords, on the result of the previous one, before the validators listed in
`Annotated` (`b.bare`: type check and coercion only). -/
theorem C93_runs {d : Style} {c : W.Cls} (opts : Dict W.Obj → AssertOpts W) (gs : List (Func W × Dict W.Obj)) {args : List (Tok W)}
    {f : F W} (hf : makeFiller d (gs.map fun p => (none, Adder.token opts p.1 p.2 .validator)) (.annotated (.cls c) args) = .ok f) :
    ∃ b, f = .ann b ∧ ∀ v w s s', f.call v s = (.ok w, s') ↔
      ∃ x s1, (F.ann b.bare).call v s = (.ok x, s1) ∧
        Pipeline ((gs.map fun p v => p.1 [v] p.2) ++ tokValidators (classKind c).origin args) x s1 w s' := by
  have e0 : (gs.map fun p => ((none : Option Int), Adder.token opts p.1 p.2 .validator)) =
      ((gs.map fun p => Adder.token opts p.1 p.2 .validator).map fun t => (none, t)) := by simp
  rw [e0, makeFiller_cls] at hf
  cases hb : Ann.make d (classKind c) (gs.map fun p => Adder.token opts p.1 p.2 .validator) args with
  | error e => rw [hb] at hf; cases hf
  | ok b =>
    rw [hb] at hf
    cases hf
    refine ⟨b, rfl, fun v w s s' => ?_⟩
    obtain ⟨lit, hl, -, hw, -⟩ := C25_leaf hb v s
    have hlit : lit = [] := by
      apply hl
      intro id vals
      unfold classKind
      repeat' split
      all_goals exact fun h => nomatch h
    have htok : tokValidators (classKind c).origin (gs.map fun p => Adder.token opts p.1 p.2 .validator) =
        gs.map fun p v => p.1 [v] p.2 := by
      clear hb hw e0
      induction gs with
      | nil => rfl
      | cons p gs ih =>
        simp only [tokValidators, List.map_cons, List.filterMap_cons] at ih ⊢
        simp only [Adder.token, Tok.validator?]
        rw [← ih]
        rfl
    rw [hw w s', hlit, htok, List.append_nil]

end Records

namespace Records
open Toy Toy.Tk

/-- a function that logs its keyword `a` and returns its argument -/
def Toy.Tk.fn : Func Toy.W := fun l kw => match Dict.get? kw "a", l with
  | some (.int i), [v] => M.bind (log i.toNat) fun _ => M.pure v
  | _, [v] => M.pure v
  | _, _ => M.throw .typeError

/-- two functions added with different keywords to `x: Annotated[int, check]`: they run in order, each with its keyword -/
example : ∃ f, makeFiller (W := Toy.W) .check
      [(none, Adder.token (fun _ => ⟨⟨none, .off⟩, fun _ => M.pure ()⟩) fn [("a", .int 7)] .validator),
       (none, Adder.token (fun _ => ⟨⟨none, .off⟩, fun _ => M.pure ()⟩) fn [("a", .int 8)] .validator)] (.annotated (.cls .int) []) = .ok f ∧
    f.call (.int 1) Toy.s0 = (.ok (.int 1), ⟨[7, 8], fun _ => []⟩) := ⟨_, rfl, rfl⟩

example : Adder.allows (W := Toy.W) [("a", .int 7)] .coercer ∧ ¬ Adder.allows (W := Toy.W) [("a", .int 7)] .assertValidator := by
  constructor
  · intro p hp
    rcases List.mem_singleton.1 hp with rfl
    decide
  · intro h
    rcases h _ (List.mem_singleton.2 rfl) with h | h <;> exact absurd h (by decide)

end Records

namespace Records
variable {W : World}

/-! ### C94 -/

mutual
theorem Info.check_spec (v : W.Obj) : ∀ i : Info W, match Info.check v i with
    | .ok true => Info.Inst v i
    | .ok false => ¬ Info.Inst v i ∧ Info.Good i
    | .error e => e = .typeError ∧ ¬ Info.Good i
  | .cls c => by
    simp only [Info.check]
    cases h : W.isInstance v c with
    | true => exact .cls c h
    | false =>
      refine ⟨fun hi => ?_, .cls c⟩
      cases hi with
      | cls _ h' => rw [h] at h'; cases h'
  | .bad => by
    simp only [Info.check]
    exact ⟨trivial, fun h => nomatch h⟩
  | .tuple l => by
    have ih := Info.checkAny_spec v l
    simp only [Info.check]
    cases h : Info.checkAny v l with
    | error e =>
      rw [h] at ih
      obtain ⟨rfl, i, hi, hg⟩ := ih
      refine ⟨rfl, fun hG => ?_⟩
      cases hG with
      | tuple _ hG => exact hg (hG i hi)
    | ok b =>
      rw [h] at ih
      cases b with
      | true =>
        obtain ⟨i, hi, hv⟩ := ih
        exact .tuple l i hi hv
      | false =>
        refine ⟨fun hI => ?_, .tuple l fun i hi => (ih i hi).2⟩
        cases hI with
        | tuple _ i hi hv => exact (ih i hi).1 hv
theorem Info.checkAny_spec (v : W.Obj) : ∀ l : List (Info W), match Info.checkAny v l with
    | .ok true => ∃ i ∈ l, Info.Inst v i
    | .ok false => ∀ i ∈ l, ¬ Info.Inst v i ∧ Info.Good i
    | .error e => e = .typeError ∧ ∃ i ∈ l, ¬ Info.Good i
  | [] => by simp [Info.checkAny]
  | i :: l => by
    have h1 := Info.check_spec v i
    have h2 := Info.checkAny_spec v l
    simp only [Info.checkAny]
    cases h : Info.check v i with
    | error e =>
      rw [h] at h1
      exact ⟨h1.1, i, by simp, h1.2⟩
    | ok b =>
      rw [h] at h1
      cases b with
      | true => exact ⟨i, by simp, h1⟩
      | false =>
        simp only
        cases h' : Info.checkAny v l with
        | error e =>
          rw [h'] at h2
          obtain ⟨he, j, hj, hg⟩ := h2
          exact ⟨he, j, by simp [hj], hg⟩
        | ok b =>
          rw [h'] at h2
          cases b with
          | true =>
            obtain ⟨j, hj, hg⟩ := h2
            exact ⟨j, by simp [hj], hg⟩
          | false =>
            intro j hj
            rcases List.mem_cons.1 hj with rfl | hj
            · exact h1
            · exact h2 j hj
end

theorem Info.check_inst {v : W.Obj} {i : Info W} (hg : i.Good) (h : i.Inst v) : i.check v = .ok true := by
  have hs := Info.check_spec v i
  cases hc : Info.check v i with
  | error e => rw [hc] at hs; exact absurd hg hs.2
  | ok b => cases b with
    | true => rfl
    | false => rw [hc] at hs; exact absurd h hs.1

theorem Info.check_not_inst {v : W.Obj} {i : Info W} (h : ¬ i.Inst v) : i.check v = .ok false ∨ i.check v = .error .typeError := by
  have hs := Info.check_spec v i
  cases hc : Info.check v i with
  | error e => rw [hc] at hs; rw [hs.1]; exact .inr rfl
  | ok b => cases b with
    | true => rw [hc] at hs; exact absurd hs h
    | false => exact .inl rfl

/-- A constraint made of classes (nested tuples allowed) is accepted by `Loose.constrain`; one containing something else is
refused with TypeError, unless None is an instance of one of its classes. -/
theorem C94_declared (none : W.Obj) (item : Info W) :
    (item.Good → looseConstrain none item = .ok item) ∧
    (¬ item.Good → ¬ item.Inst none → looseConstrain none item = .error .typeError) := by
  have hs := Info.check_spec none item
  unfold looseConstrain
  constructor
  · intro hg
    cases hc : Info.check none item with
    | error e => rw [hc] at hs; exact absurd hg hs.2
    | ok b => rfl
  · intro hg hi
    rcases Info.check_not_inst hi with h | h
    · rw [h] at hs; exact absurd hs.2 hg
    · rw [h]

/-- A constrained `Loose` calls the target type with the input and its own arguments if the input is an instance of the
constraint, and raises TypeError without calling it if it is not (also for an ill-formed constraint that was accepted). -/
theorem C94_loose (item : Info W) (ht : item ≠ .tuple []) (c : W.Cls) (args : List W.Obj) (kw : List (String × W.Obj)) (v : W.Obj) :
    (item.Good → item.Inst v → Calls (looseInfo item c args kw v) c (v :: args) kw) ∧
    (¬ item.Inst v → Rejects (looseInfo item c args kw v)) := by
  have htr : item.truth = true := by
    cases item with
    | cls => rfl
    | bad => rfl
    | tuple l => cases l with
      | nil => exact absurd rfl ht
      | cons => rfl
  unfold looseInfo
  simp only [htr, if_true]
  refine ⟨fun hg hi s => ?_, fun hi s => ?_⟩
  · rw [Info.check_inst hg hi]; rfl
  · rcases Info.check_not_inst hi with h | h <;> rw [h] <;> rfl

/-- The empty tuple is no constraint for `Loose`; `LooseUnpack` refuses what cannot be unpacked. -/
theorem C94_degenerate (c : W.Cls) (args : List W.Obj) (kw : List (String × W.Obj)) (v : W.Obj) :
    Calls (looseInfo (.tuple []) c args kw v) c (v :: args) kw ∧
    (W.isIterable v = false → ∀ u, Rejects (looseUnpackInfo u c args kw v)) := by
  refine ⟨fun s => rfl, fun h u s => ?_⟩
  simp only [looseUnpackInfo, h, Bool.not_false, if_true]
  rfl

theorem anyNot_all (l : List (W.Obj × Info W)) (h : ∀ p ∈ l, p.2.Good ∧ p.2.Inst p.1) : anyNot l = .ok false := by
  induction l with
  | nil => rfl
  | cons p l ih =>
    obtain ⟨v, i⟩ := p
    have := h (v, i) (by simp)
    simp only [anyNot, Info.check_inst this.1 this.2]
    exact ih fun q hq => h q (by simp [hq])

theorem anyNot_some (l : List (W.Obj × Info W)) (h : ¬ ∀ p ∈ l, p.2.Inst p.1) : anyNot l = .ok true ∨ anyNot l = .error .typeError := by
  induction l with
  | nil => exact absurd (by simp) h
  | cons p l ih =>
    obtain ⟨v, i⟩ := p
    simp only [anyNot]
    by_cases hi : i.Inst v
    · have hs := Info.check_spec v i
      cases hc : Info.check v i with
      | error e => rw [hc] at hs; rw [hs.1]; exact .inr rfl
      | ok b => cases b with
        | false => exact .inl rfl
        | true =>
          apply ih
          intro hall
          apply h
          intro q hq
          rcases List.mem_cons.1 hq with rfl | hq
          · exact hi
          · exact hall q hq
    · rcases Info.check_not_inst hi with h | h <;> rw [h]
      · exact .inl rfl
      · exact .inr rfl

theorem unpackCheck_good (none : W.Obj) (l : List (Info W)) (h : ∀ i ∈ l, i.Good) : unpackCheck none (l.map .info) = .ok l := by
  induction l with
  | nil => rfl
  | cons i l ih =>
    have hi := h i (by simp)
    simp only [List.map_cons, unpackCheck, ih fun j hj => h j (by simp [hj])]
    have hs := Info.check_spec none i
    cases hc : Info.check none i with
    | error e => rw [hc] at hs; exact absurd hi hs.2
    | ok b => rfl

/-- `LooseUnpack.constrain` reads `(T, ...)` as "any number of `T`" and any other list of classes position by position. -/
theorem C94_declared_unpack (none : W.Obj) :
    (∀ i : Info W, i.Good → looseUnpackConstrain none [.info i, .dots] = .ok (.each i)) ∧
    (∀ l : List (Info W), (∀ i ∈ l, i.Good) → looseUnpackConstrain none (l.map .info) = .ok (.fixed l)) ∧
    (∀ l : List (UItem W), .dots ∈ l → (∀ i, l ≠ [.info i, .dots]) → looseUnpackConstrain none l = .error .typeError) := by
  refine ⟨fun i hi => ?_, fun l hl => ?_, fun l hd hn => ?_⟩
  · simp only [looseUnpackConstrain]
    have hs := Info.check_spec none i
    cases hc : Info.check none i with
    | error e => rw [hc] at hs; exact absurd hi hs.2
    | ok b => rfl
  · have hu := unpackCheck_good none l hl
    have : looseUnpackConstrain none (l.map UItem.info) = (unpackCheck none (l.map .info)).map .fixed := by
      match l with
      | [] => rfl
      | [_] => rfl
      | [_, _] => rfl
      | _ :: _ :: _ :: _ => rfl
    rw [this, hu]
    rfl
  · have key : ∀ l : List (UItem W), .dots ∈ l → unpackCheck none l = .error .typeError := by
      intro l
      induction l with
      | nil => intro h; cases h
      | cons x l ih =>
        intro h
        cases x with
        | dots => rfl
        | info i =>
          have hl : UItem.dots ∈ l := by
            rcases List.mem_cons.1 h with h | h
            · cases h
            · exact h
          simp only [unpackCheck, ih hl]
          have hs := Info.check_spec none i
          cases hc : Info.check none i with
          | error e => rw [hc] at hs; rw [hs.1]
          | ok b => rfl
    have hk := key l hd
    match l, hn, hk with
    | [], _, hk => cases hd
    | [x], _, hk => simp only [looseUnpackConstrain, hk]; rfl
    | [.dots, .dots], _, _ => rfl
    | [.info i, .dots], hn, _ => exact absurd rfl (hn i)
    | [x, .info i], _, hk => cases x <;> simp only [looseUnpackConstrain, hk] <;> rfl
    | _ :: _ :: _ :: _, _, hk => simp only [looseUnpackConstrain, hk]; rfl

/-- A constrained `LooseUnpack`: any number of elements of the class, or exactly the listed ones, position by position. -/
theorem C94_unpack (c : W.Cls) (args : List W.Obj) (kw : List (String × W.Obj)) (v : W.Obj) (hv : W.isIterable v = true) :
    (∀ i : Info W,
      (i.Good → (∀ e ∈ W.elems v, i.Inst e) → Calls (looseUnpackInfo (.each i) c args kw v) c (W.elems v ++ args) kw) ∧
      (¬ (∀ e ∈ W.elems v, i.Inst e) → Rejects (looseUnpackInfo (.each i) c args kw v))) ∧
    (∀ l : List (Info W),
      ((∀ i ∈ l, i.Good) → (W.elems v).length = l.length → (∀ p ∈ (W.elems v).zip l, p.2.Inst p.1) →
        Calls (looseUnpackInfo (.fixed l) c args kw v) c (W.elems v ++ args) kw) ∧
      (¬ ((W.elems v).length = l.length ∧ ∀ p ∈ (W.elems v).zip l, p.2.Inst p.1) →
        Rejects (looseUnpackInfo (.fixed l) c args kw v))) := by
  constructor
  · intro i
    constructor
    · intro hg hall s
      have : anyNot ((W.elems v).map fun e => (e, i)) = .ok false := by
        apply anyNot_all
        intro p hp
        obtain ⟨e, he, rfl⟩ := List.mem_map.1 hp
        exact ⟨hg, hall e he⟩
      simp only [looseUnpackInfo, hv, this, Bool.not_true, Bool.false_eq_true, if_false]
      rfl
    · intro hall s
      have : anyNot ((W.elems v).map fun e => (e, i)) = .ok true ∨ anyNot ((W.elems v).map fun e => (e, i)) = .error .typeError := by
        apply anyNot_some
        intro h
        apply hall
        intro e he
        exact h (e, i) (List.mem_map.2 ⟨e, he, rfl⟩)
      simp only [looseUnpackInfo, hv, Bool.not_true, Bool.false_eq_true, if_false]
      rcases this with h | h <;> rw [h] <;> rfl
  · intro l
    constructor
    · intro hg hlen hall s
      have : anyNot ((W.elems v).zip l) = .ok false := by
        apply anyNot_all
        intro p hp
        exact ⟨hg p.2 (List.of_mem_zip hp).2, hall p hp⟩
      simp only [looseUnpackInfo, hv, hlen, this, Bool.not_true, Bool.false_eq_true, if_false, ne_eq, not_true]
      rfl
    · intro hn s
      simp only [looseUnpackInfo, hv, Bool.not_true, Bool.false_eq_true, if_false]
      by_cases hlen : (W.elems v).length = l.length
      · have : anyNot ((W.elems v).zip l) = .ok true ∨ anyNot ((W.elems v).zip l) = .error .typeError :=
          anyNot_some _ fun h => hn ⟨hlen, h⟩
        simp only [hlen, ne_eq, not_true, if_false]
        rcases this with h | h <;> rw [h] <;> rfl
      · simp only [ne_eq, hlen, not_false_iff, if_true]
        rfl

theorem mapConCheck_good (none : W.Obj) (items : Dict (Info W)) (h : ∀ p ∈ items, p.2.Good) : mapConCheck none items = .ok () := by
  induction items with
  | nil => rfl
  | cons p l ih =>
    obtain ⟨n, i⟩ := p
    have hi := h (n, i) (by simp)
    have hs := Info.check_spec none i
    simp only [mapConCheck, ih fun q hq => h q (by simp [hq])]
    cases hc : Info.check none i with
    | error e => rw [hc] at hs; exact absurd hi hs.2
    | ok b => rfl

theorem mapConCheck_bad (none : W.Obj) (items : Dict (Info W)) (h : ∃ p ∈ items, ¬ p.2.Good ∧ ¬ p.2.Inst none) :
    mapConCheck none items = .error .typeError := by
  induction items with
  | nil => obtain ⟨p, hp, -⟩ := h; cases hp
  | cons p l ih =>
    obtain ⟨n, i⟩ := p
    have hs := Info.check_spec none i
    simp only [mapConCheck]
    cases hc : Info.check none i with
    | error e => rw [hc] at hs; rw [hs.1]
    | ok b =>
      simp only
      apply ih
      obtain ⟨q, hq, hg, hn⟩ := h
      rcases List.mem_cons.1 hq with rfl | hq
      · rw [hc] at hs
        cases b with
        | true => exact absurd hs hn
        | false => exact absurd hs.2 hg
      · exact ⟨q, hq, hg, hn⟩

/-- `LooseUnpackMap.constrain`: constraints made of classes are accepted under every keyword but `cls`; an ill-formed one is
refused unless None is an instance of it. -/
theorem C94_declared_map (none : W.Obj) (items : Dict (Info W)) :
    ((∀ p ∈ items, p.1 ≠ "cls" ∧ p.2.Good) → looseMapConstrain none items = .ok items) ∧
    ((∃ p ∈ items, p.1 = "cls" ∨ (¬ p.2.Good ∧ ¬ p.2.Inst none)) → looseMapConstrain none items = .error .typeError) := by
  unfold looseMapConstrain
  constructor
  · intro h
    rw [if_neg, mapConCheck_good none items fun p hp => (h p hp).2]
    intro hh
    obtain ⟨p, hp, he⟩ := List.any_eq_true.1 hh
    exact (h p hp).1 (by simpa using he)
  · rintro ⟨p, hp, h | h⟩
    · rw [if_pos (List.any_eq_true.2 ⟨p, hp, by simp [h]⟩)]
    · split
      · rfl
      · rw [mapConCheck_bad none items ⟨p, hp, h⟩]

/-- every entry of the mapping has a constraint, and meets it -/
def MapInst (cons : Dict (Info W)) (l : List (W.Obj × W.Obj)) : Prop :=
  ∀ p ∈ l, ∃ n i, W.strOf p.1 = some n ∧ Dict.get? cons n = some i ∧ i.Inst p.2

theorem MapInst.split {cons : Dict (Info W)} {k a : W.Obj} {l : List (W.Obj × W.Obj)} :
    MapInst cons ((k, a) :: l) ↔ (∃ n i, W.strOf k = some n ∧ Dict.get? cons n = some i ∧ i.Inst a) ∧ MapInst cons l := by
  constructor
  · intro h
    exact ⟨h (k, a) (by simp), fun p hp => h p (by simp [hp])⟩
  · rintro ⟨h1, h2⟩ p hp
    rcases List.mem_cons.1 hp with rfl | hp
    · exact h1
    · exact h2 p hp

theorem unpackMapInfo_ok (cons : Dict (Info W)) (hg : ∀ n i, Dict.get? cons n = some i → i.Good) (l : List (W.Obj × W.Obj))
    (h : MapInst cons l) : unpackMapInfo cons l = .ok () := by
  induction l with
  | nil => rfl
  | cons p l ih =>
    obtain ⟨k, a⟩ := p
    obtain ⟨⟨n, i, hn, hi, ha⟩, hl⟩ := MapInst.split.1 h
    simp only [unpackMapInfo, hn, Option.bind_some, hi, Info.check_inst (hg n i hi) ha]
    exact ih hl

theorem unpackMapInfo_bad (cons : Dict (Info W)) (l : List (W.Obj × W.Obj)) (h : ¬ MapInst cons l) :
    unpackMapInfo cons l = .error .typeError := by
  induction l with
  | nil => exact absurd (fun p hp => by cases hp) h
  | cons p l ih =>
    obtain ⟨k, a⟩ := p
    simp only [unpackMapInfo]
    cases hn : W.strOf k with
    | none => rfl
    | some n =>
      simp only [Option.bind_some]
      cases hi : Dict.get? cons n with
      | none => rfl
      | some i =>
        simp only
        have hs := Info.check_spec a i
        cases hc : Info.check a i with
        | error e => rw [hc] at hs; rw [hs.1]
        | ok b => cases b with
          | false => rfl
          | true =>
            rw [hc] at hs
            exact ih fun hl => h (MapInst.split.2 ⟨⟨n, i, hn, hi, hs⟩, hl⟩)

/-- A constrained `LooseUnpackMap`: the target type is called with the entries as keywords if each has a constraint and meets it
(constraints without entry do not matter); otherwise, and if an entry is also a keyword of the token, TypeError and no call. -/
theorem C94_unpack_map (cons : Dict (Info W)) (c : W.Cls) (args : List W.Obj) (kw : List (String × W.Obj)) (v : W.Obj)
    (hv : W.isMapping v = true) :
    (∀ m, (∀ n i, Dict.get? cons n = some i → i.Good) → KwArgs (W.items v) m → MapInst cons (W.items v) →
      (∀ p ∈ m, ∀ q ∈ kw, p.1 ≠ q.1) → Calls (looseMapInfo cons c args kw v) c args (m ++ kw)) ∧
    (¬ MapInst cons (W.items v) → Rejects (looseMapInfo cons c args kw v)) ∧
    (∀ m, KwArgs (W.items v) m → ¬ (∀ p ∈ m, ∀ q ∈ kw, p.1 ≠ q.1) → Rejects (looseMapInfo cons c args kw v)) := by
  refine ⟨?_, ?_, ?_⟩
  · intro m hg hm hi hd s
    have : (m.any fun p => kw.any fun q => p.1 == q.1) = false := by
      rw [← Bool.not_eq_true]; intro hh
      simp only [List.any_eq_true, beq_iff_eq] at hh
      obtain ⟨p, hp, q, hq, he⟩ := hh
      exact hd p hp q hq he
    simp only [looseMapInfo, hv, unpackMapInfo_ok cons hg _ hi, looseUnpackMap.call, (kwOf_iff _ _).2 hm, this]
    rfl
  · intro hi s
    simp only [looseMapInfo, hv, unpackMapInfo_bad cons _ hi]; rfl
  · intro m hm hd s
    have : (m.any fun p => kw.any fun q => p.1 == q.1) = true := by
      cases hh : (m.any fun p => kw.any fun q => p.1 == q.1) with
      | true => rfl
      | false =>
        refine (hd fun p hp q hq he => ?_).elim
        have := List.any_eq_false.1 hh p hp
        exact this (List.any_eq_true.2 ⟨q, hq, by simp [he]⟩)
    by_cases hi : MapInst cons (W.items v)
    · have h1 : unpackMapInfo cons (W.items v) = .ok () ∨ unpackMapInfo cons (W.items v) = .error .typeError := by
        have gen : ∀ l : List (W.Obj × W.Obj), unpackMapInfo cons l = .ok () ∨ unpackMapInfo cons l = .error .typeError := by
          intro l
          induction l with
          | nil => exact .inl rfl
          | cons p l ih =>
            obtain ⟨k, a⟩ := p
            simp only [unpackMapInfo]
            cases (W.strOf k).bind (fun n => Dict.get? cons n) with
            | none => exact .inr rfl
            | some i =>
              simp only
              have hs := Info.check_spec a i
              cases hc : Info.check a i with
              | error e => rw [hc] at hs; rw [hs.1]; exact .inr rfl
              | ok b => cases b with
                | false => exact .inr rfl
                | true => exact ih
        exact gen _
      rcases h1 with h1 | h1
      · simp only [looseMapInfo, hv, h1, looseUnpackMap.call, (kwOf_iff _ _).2 hm, this]; rfl
      · simp only [looseMapInfo, hv, h1]; rfl
    · simp only [looseMapInfo, hv, unpackMapInfo_bad cons _ hi]; rfl

end Records

namespace Records
open Toy Toy.Tk

/-- The claim (comment in `Loose.constrain`) that an ill-formed constraint is always noticed when it is declared -/
def C94_claim : Prop := ∀ item : Info Toy.W, ¬ item.Good → ∃ e, looseConstrain (W := Toy.W) .none item = .error e

/-- Refuted: the check stops at the first class None is an instance of. -/
theorem C94_refuted : ¬ C94_claim := by
  intro h
  obtain ⟨e, he⟩ := h (.tuple [.cls TCls.none, .bad]) fun hg => by
    cases hg with
    | tuple _ hg => exact nomatch hg .bad (by simp)
  cases he

/-- `LooseUnpackMap.constrain(a=int, b=(int, str))` on `{'b': 1}`, `{'b': None}` and `{'c': 1}`, and `constrain(cls=int)` -/
example : looseMapConstrain (W := Toy.W) .none [("a", .cls .int), ("b", .tuple [.cls .int, .cls .str])] =
      .ok [("a", .cls .int), ("b", .tuple [.cls .int, .cls .str])] ∧
    MapInst (W := Toy.W) [("a", .cls .int), ("b", .tuple [.cls .int, .cls .str])] (Toy.W.items (Toy.dict [(.str "b", .int 1)])) ∧
    (looseMapInfo (W := Toy.W) [("b", .tuple [.cls .int, .cls .str])] TCls.int [] [] (Toy.dict [(.str "b", .none)]) s0).1 =
      .error .typeError ∧
    (looseMapInfo (W := Toy.W) [("b", .tuple [.cls .int, .cls .str])] TCls.int [] [] (Toy.dict [(.str "c", .int 1)]) s0).1 =
      .error .typeError ∧
    looseMapConstrain (W := Toy.W) .none [("cls", .cls .int)] = .error .typeError := by
  refine ⟨rfl, ?_, rfl, rfl, rfl⟩
  intro p hp
  have hp : p ∈ [((TObj.str "b" : TObj), (TObj.int 1 : TObj))] := hp
  rcases List.mem_singleton.1 hp with rfl
  exact ⟨"b", _, rfl, rfl, .tuple _ (.cls TCls.int) (by simp) (.cls _ rfl)⟩

/-- `Loose.constrain((int, (str,)))` on the target int -/
example : looseConstrain (W := Toy.W) .none (.tuple [.cls .int, .tuple [.cls .str]]) = .ok (.tuple [.cls .int, .tuple [.cls .str]]) ∧
    (looseInfo (W := Toy.W) (.tuple [.cls .int, .tuple [.cls .str]]) TCls.int [] [] (.str "5") s0).1 = .ok (.int 5) ∧
    (looseInfo (W := Toy.W) (.tuple [.cls .int, .tuple [.cls .str]]) TCls.int [] [] .none s0).1 = .error .typeError :=
  ⟨rfl, rfl, rfl⟩

example : Info.Good (W := Toy.W) (.tuple [.cls .int, .tuple [.cls .str]]) ∧
    Info.Inst (W := Toy.W) (.str "5") (.tuple [.cls .int, .tuple [.cls .str]]) := by
  refine ⟨.tuple _ ?_, .tuple _ (.tuple [.cls .str]) (by simp) (.tuple _ (.cls .str) (by simp) (.cls _ rfl))⟩
  intro i hi
  simp only [List.mem_cons, List.not_mem_nil, or_false] at hi
  rcases hi with rfl | rfl
  · exact .cls _
  · refine .tuple _ ?_
    intro j hj
    simp only [List.mem_cons, List.not_mem_nil, or_false] at hj
    subst hj
    exact .cls _

end Records

namespace Records
variable {W : World}

/-! ### C95 -/

theorem classKind_isBool (c : W.Cls) : (classKind c).isBool = true ↔ BoolType c := by
  unfold classKind BoolType
  by_cases h1 : c = W.boolCls
  · rw [if_pos h1]; exact ⟨fun _ => .inl h1, fun _ => rfl⟩
  by_cases h2 : c = W.noneCls
  · rw [if_neg h1, if_pos h2]
    exact ⟨nofun, fun h => h.elim (fun h => absurd h h1) (fun h => absurd h2 h.2.1)⟩
  by_cases h3 : c = W.ellipsisCls
  · rw [if_neg h1, if_neg h2, if_pos h3]
    exact ⟨nofun, fun h => h.elim (fun h => absurd h h1) (fun h => absurd h3 h.2.2.1)⟩
  by_cases h4 : c = W.objectCls
  · rw [if_neg h1, if_neg h2, if_neg h3, if_pos h4]
    exact ⟨nofun, fun h => h.elim (fun h => absurd h h1) (fun h => absurd h4 h.2.2.2)⟩
  rw [if_neg h1, if_neg h2, if_neg h3, if_neg h4]
  by_cases h5 : W.isSub c W.boolCls = true
  · rw [if_pos h5]; exact ⟨fun _ => .inr ⟨h5, h2, h3, h4⟩, fun _ => rfl⟩
  · rw [if_neg h5]
    refine ⟨fun h => ?_, fun h => h.elim (fun h => absurd h h1) (fun h => absurd h.1 h5)⟩
    split at h <;> cases h

theorem classKind_origin (c : W.Cls) : (classKind c).origin = some c := by
  unfold classKind; repeat' split
  all_goals rfl

/-- When a token does not fit the target type `c`: -/
inductive Unfit (c : W.Cls) : CTok W → Exc → Prop
  /-- `LiteralEval` on a class that has no literals -/
  | literalEval (L : LiteralTypes W) (run) : L.mem c = false → Unfit c (literalEvalTok L run) .typeError
  /-- `Loose` and its relatives on an abstract class; `mk` is the callback for a concrete class -/
  | loose (mk : W.Cls → Coercer W) : W.isAbstract c = true →
      Unfit c (.coercer fun o => (looseBind o).map mk) .typeError
  /-- `ClassMethodCoercion` with a method the class does not have -/
  | classMethod (attr args kw e) : attr (some c) = .error e → Unfit c (classMethodCoercion attr args kw) e
  /-- `FromInteger` on anything but bool -/
  | fromInteger : ¬ BoolType c → Unfit c .fromInteger .typeError
  /-- an object that is no coercion token (as an argument of `ComposeCoercer`) -/
  | notToken : Unfit c .notToken .typeError
  /-- a composition containing an unfit token, after fit ones -/
  | compose (fit t rest e) (h : ∀ u ∈ fit, ∃ g, getCoercer (classKind c).isBool (some c) u = .ok g) : Unfit c t e →
      Unfit c (.compose (fit ++ t :: rest)) e

theorem Unfit.get {c : W.Cls} {t : CTok W} {e : Exc} (h : Unfit c t e) :
    getCoercer (classKind c).isBool (some c) t = .error e := by
  induction h with
  | literalEval L run hm => simp [literalEvalTok, getCoercer, hm]
  | loose mk ha => simp [getCoercer, looseBind, ha, Except.map]
  | classMethod attr args kw e he => simp [classMethodCoercion, getCoercer, he]
  | fromInteger hb =>
    have : (classKind c).isBool = false := by
      cases h : (classKind c).isBool with
      | false => rfl
      | true => exact absurd ((classKind_isBool c).1 h) hb
    simp [getCoercer, this]
  | notToken => rfl
  | compose fit t rest e hf _ ih =>
    have : getCoercers (classKind c).isBool (some c) (fit ++ t :: rest) = .error e := by
      induction fit with
      | nil => simp [getCoercers, ih]
      | cons u fit ih' =>
        obtain ⟨g, hg⟩ := hf u (by simp)
        simp only [List.cons_append, getCoercers, hg, ih' fun w hw => hf w (by simp [hw])]
    simp only [getCoercer, this]

/-- A token that does not fit its target class, listed in `Annotated` or added in `pre_bind`, makes class creation fail: the
class never exists, so the misfit cannot show up as a coercion failure later. -/
theorem C95_refused {d : Style} {c : W.Cls} {pre args : List (Tok W)} {t : CTok W} {e : Exc}
    (hu : Unfit c t e) (ht : .coercion t ∈ pre ++ args) :
    ∀ f, makeFiller d (pre.map fun t => (none, t)) (.annotated (.cls c) args) ≠ .ok f := by
  have ho := classKind_origin c
  intro f hf
  rw [makeFiller_cls] at hf
  cases hb : Ann.make d (classKind c) pre args with
  | error e => rw [hb] at hf; cases hf
  | ok b =>
    have := ((C26_leaf d (classKind c) pre args).1.1 ⟨b, hb⟩).1 _ ht
    simp only [Tok.usable, ho, hu.get] at this
    obtain ⟨x, hx⟩ := this
    cases hx

/-- ... and the exception is the token's own, if nothing fails before. -/
theorem C95_exception {d : Style} {c : W.Cls} {fit rest : List (Tok W)} {t : CTok W} {e : Exc}
    (hu : Unfit c t e)
    (hfit : ∀ u ∈ fit, u.usable (classKind c).isBool (classKind c).origin) :
    makeFiller d [] (.annotated (.cls c) (fit ++ .coercion t :: rest)) = .error e := by
  have ho := classKind_origin c
  have key : ∀ (a : Ann W), a.bound = false → a.kind = classKind c → a.applyAll (fit ++ .coercion t :: rest) = .error e := by
    induction fit with
    | nil =>
      intro a ha hk
      simp only [List.nil_append, Ann.applyAll, Ann.apply, ha, hk, ho, hu.get, Bool.false_eq_true, if_false]
    | cons u fit ih =>
      intro a ha hk
      obtain ⟨a', h1⟩ : ∃ a', a.apply u = .ok a' := by
        have := (Ann.applyAll_usable (a := a) ha [u]).2 (by
          intro t ht
          rw [List.mem_singleton] at ht
          subst ht
          rw [hk]
          exact hfit t (by simp))
        obtain ⟨a1, h1⟩ := this
        simp only [Ann.applyAll] at h1
        cases h2 : a.apply u with
        | ok a' => exact ⟨a', rfl⟩
        | error e => rw [h2] at h1; cases h1
      have hk' : a'.kind = classKind c ∧ a'.bound = false := by
        revert h1
        unfold Ann.apply
        simp only [ha, Bool.false_eq_true, if_false]
        intro h1
        cases u with
        | style s => cases h1; exact ⟨hk, rfl⟩
        | coercion ct =>
          simp only at h1
          cases hg : getCoercer a.kind.isBool a.kind.origin ct with
          | ok c => rw [hg] at h1; cases h1; exact ⟨hk, rfl⟩
          | error e => rw [hg] at h1; cases h1
        | validation f =>
          simp only at h1
          cases hg : f a.kind.origin with
          | ok c => rw [hg] at h1; cases h1; exact ⟨hk, rfl⟩
          | error e => rw [hg] at h1; cases h1
        | raises e => cases h1
        | tag n => cases h1; exact ⟨hk, ha⟩
        | other => cases h1; exact ⟨hk, ha⟩
      simp only [List.cons_append, Ann.applyAll, h1]
      exact ih (fun u hu => hfit u (by simp [hu])) a' hk'.2 hk'.1
  have := makeFiller_cls (W := W) d [] (fit ++ .coercion t :: rest) c
  simp only [List.map_nil] at this
  rw [this]
  have hk := key { kind := classKind c, args := fit ++ .coercion t :: rest } rfl rfl
  simp only [Ann.make, Ann.applyAll, Ann.bind, hk]
  rfl

/-! ### C96 -/

/-- the last of the objects with this name -/
def lastNamed (n : String) : List (EvalArg W) → Option W.Obj
  | [] => none
  | .named (some m) o :: l => match lastNamed n l with
    | some x => some x
    | none => if m = n then some o else none
  | _ :: l => lastNamed n l

theorem evalUpdate_get {ns ns' : Dict W.Obj} {l : List (EvalArg W)} (h : evalUpdate ns l = .ok ns') (n : String) :
    Dict.get? ns' n = match lastNamed n l with
      | some x => some x
      | none => Dict.get? ns n := by
  induction l generalizing ns with
  | nil => cases h; rfl
  | cons a l ih =>
    cases a with
    | dots => cases h
    | named m o =>
      cases m with
      | none => cases h
      | some m =>
        simp only [evalUpdate] at h
        rw [ih h]
        simp only [lastNamed]
        cases lastNamed n l with
        | some x => rfl
        | none =>
          simp only [Dict.get?_set]
          by_cases hm : m = n
          · simp [hm]
          · simp [hm, show ¬ n = m from fun h => hm h.symm]

/-- The names an `Eval(*args, **kwargs)` field can use: with a leading `...` the target type by its own name first; then the
positional objects by their `__name__` (the last one of a name wins); then the keywords.  Nothing else (but `__builtins__`,
by which an expression can reach the namespace itself, see `C96_refuted`). -/
theorem C96_names (dots : Bool) (args : List (EvalArg W)) (kw : Dict W.Obj) (hd : ∀ a l, args = a :: l → a ≠ .dots)
    (name : String) (target : W.Obj) {t : EvalTok W} {ns : Dict W.Obj}
    (ht : evalMake (if dots then .dots :: args else args) kw = .ok t) (hn : t.namespace (.named (some name) target) = .ok ns)
    (n : String) :
    Dict.get? ns n = if dots ∧ n = name then some target else match lastNamed n args with
      | some x => some x
      | none => Dict.get? kw n := by
  have key : ∃ ns0, evalUpdate kw args = .ok ns0 ∧ t = ⟨dots, ns0⟩ := by
    cases dots with
    | true =>
      simp only [if_true, evalMake] at ht
      cases he : evalUpdate kw args with
      | error e => rw [he] at ht; cases ht
      | ok ns0 => rw [he] at ht; cases ht; exact ⟨ns0, rfl, rfl⟩
    | false =>
      simp only [Bool.false_eq_true, if_false] at ht
      have : evalMake args kw = (evalUpdate kw args).map fun ns => ⟨false, ns⟩ := by
        cases args with
        | nil => rfl
        | cons a l =>
          cases a with
          | dots => exact absurd rfl (hd _ _ rfl)
          | named m o => rfl
      rw [this] at ht
      cases he : evalUpdate kw args with
      | error e => rw [he] at ht; cases ht
      | ok ns0 => rw [he] at ht; cases ht; exact ⟨ns0, rfl, rfl⟩
  obtain ⟨ns0, he, rfl⟩ := key
  have hg := evalUpdate_get he n
  cases dots with
  | false =>
    simp only [EvalTok.namespace, Bool.false_eq_true, if_false] at hn
    cases hn
    rw [hg]
    simp
  | true =>
    simp only [EvalTok.namespace, if_true, evalUpdate] at hn
    cases hn
    rw [Dict.get?_set, hg]
    simp only [true_and]

/-- An object without a `__name__` (in particular `...` anywhere but in front) is refused when the token is made. -/
theorem C96_unnamed (pre post : List (EvalArg W)) (a : EvalArg W) (kw : Dict W.Obj) (hp : ∀ b ∈ pre, ∃ m o, b = .named (some m) o)
    (ha : (∃ o, a = .named none o) ∨ a = .dots ∧ pre ≠ []) (dots : Bool) :
    evalMake (if dots then .dots :: (pre ++ a :: post) else pre ++ a :: post) kw = .error .attributeError := by
  have key : ∀ ns : Dict W.Obj, evalUpdate ns (pre ++ a :: post) = .error .attributeError := by
    have ha' : (∃ o, a = .named none o) ∨ a = .dots := ha.imp id fun h => h.1
    clear ha
    induction pre with
    | nil => intro ns; rcases ha' with ⟨o, rfl⟩ | rfl <;> rfl
    | cons b pre ih =>
      intro ns
      obtain ⟨m, o, rfl⟩ := hp b (by simp)
      exact ih (fun b hb => hp b (by simp [hb])) _
  cases dots with
  | true => simp only [if_true, evalMake, key]; rfl
  | false =>
    simp only [Bool.false_eq_true, if_false]
    have : evalMake (pre ++ a :: post) kw = (evalUpdate kw (pre ++ a :: post)).map fun ns => ⟨false, ns⟩ := by
      cases pre with
      | nil =>
        rcases ha with ⟨o, rfl⟩ | ⟨-, h⟩
        · rfl
        · exact absurd rfl h
      | cons b pre =>
        obtain ⟨m, o, rfl⟩ := hp b (by simp)
        rfl
    rw [this, key]
    rfl

/-- the coercions of a program: which field (namespace object) gets which string; their outcomes in order -/
def evalRun (ev : String → Dict W.Obj → Except Exc W.Obj × Dict W.Obj) : List (Nat × String) → NsStore W → List (Nat × Except Exc W.Obj)
  | [], _ => []
  | (c, v) :: l, st => (c, (evalIn ev c v st).1) :: evalRun ev l (evalIn ev c v st).2

/-- What a field does with its inputs does not depend on the inputs of fields with another namespace object, however the
expressions change theirs. -/
theorem C96_isolated (ev : String → Dict W.Obj → Except Exc W.Obj × Dict W.Obj) (c : Nat) (l : List (Nat × String)) (st : NsStore W) :
    (evalRun ev l st).filter (fun p => p.1 = c) = evalRun ev (l.filter fun p => p.1 = c) st := by
  have cong : ∀ (l : List (Nat × String)) (st st' : NsStore W), st.cells c = st'.cells c → (∀ p ∈ l, p.1 = c) →
      evalRun ev l st = evalRun ev l st' := by
    intro l
    induction l with
    | nil => intros; rfl
    | cons p l ih =>
      intro st st' h hp
      obtain ⟨d, v⟩ := p
      obtain rfl : d = c := hp (d, v) (by simp)
      simp only [evalRun, evalIn, h]
      refine congrArg _ (ih _ _ ?_ fun q hq => hp q (by simp [hq]))
      simp
  induction l generalizing st with
  | nil => rfl
  | cons p l ih =>
    obtain ⟨d, v⟩ := p
    by_cases hd : d = c
    · subst hd
      simp only [evalRun, List.filter_cons, decide_true, if_true, ih]
    · simp only [evalRun, List.filter_cons, hd, decide_false, Bool.false_eq_true, if_false, ih]
      apply cong
      · simp only [evalIn]
        rw [if_neg fun h => hd h.symm]
      · intro p hp
        simpa using (List.mem_filter.1 hp).2

/-- With `...` every bound field gets a namespace object of its own (not the token's, nor that of any earlier field);
without, all fields to which the token is applied use the token's. -/
theorem C96_bind (cell : Nat) (name : String) (origin : W.Obj) (st : NsStore W) :
    ((evalBind false cell name origin st) = (cell, st)) ∧
    (∀ used : List Nat, (∀ i ∈ used, i < st.next) → cell < st.next →
      (evalBind true cell name origin st).1 ∉ used ∧ (evalBind true cell name origin st).1 ≠ cell ∧
      (evalBind true cell name origin st).1 < (evalBind true cell name origin st).2.next ∧
      (∀ i < st.next, (evalBind true cell name origin st).2.cells i = st.cells i) ∧
      ∀ n, Dict.get? ((evalBind true cell name origin st).2.cells (evalBind true cell name origin st).1) n =
        if n = name then some origin else Dict.get? (st.cells cell) n) := by
  refine ⟨rfl, fun used hu hc => ⟨fun h => Nat.lt_irrefl _ (hu _ h), fun h => ?_, Nat.lt_succ_self _, fun i hi => ?_, fun n => ?_⟩⟩
  · exact Nat.lt_irrefl _ (h ▸ hc)
  · simp [evalBind, Nat.ne_of_lt hi]
  · simp only [evalBind, if_true, Dict.get?_set]

/-- If no evaluated expression changes the namespace, the outcome of a coercion depends on the string only. -/
theorem C96_pure (ev : String → Dict W.Obj → Except Exc W.Obj × Dict W.Obj) (hev : ∀ v ns, (ev v ns).2 = ns)
    (l : List (Nat × String)) (st : NsStore W) :
    evalRun ev l st = l.map fun p => (p.1, (evalIn ev p.1 p.2 st).1) := by
  have h1 : ∀ c v (st : NsStore W), (evalIn ev c v st).2 = st := by
    intro c v st
    simp only [evalIn, hev]
    have : (fun i => if i = c then st.cells c else st.cells i) = st.cells := by
      funext i
      by_cases h : i = c
      · simp [h]
      · simp [h]
    rw [this]
  induction l with
  | nil => rfl
  | cons p l ih => simp only [evalRun, List.map_cons, h1, ih]

/-! ### C14, C15, C17: the call of the target type -/

/-- the object `Whole` passes on for an exact whole number: the numerator of the rational (real part) -/
inductive Numerator : NumObj W → W.Obj → Prop
  | rational (o n d) : Numerator (.rational o n d) o
  | complex (re o) : Numerator re o → Numerator (.complex re true) o

/-- **C15.** `Whole` on numbers without floats: if the input is the whole number `i` (`o` is its numerator, an integer object
of value `i`), the target type is called with `o` and the token's own arguments; otherwise TypeError and no call. -/
theorem C15_calls (c : W.Cls) (args : List W.Obj) (kw : List (String × W.Obj)) (x : NumObj W) (hx : x.num.Exact) :
    (∀ i, x.num.IsWhole i → ∃ o, Numerator x o ∧ Calls (wholeCall c args kw x) c (o :: args) kw) ∧
    ((∀ i, ¬ x.num.IsWhole i) → Rejects (wholeCall c args kw x)) := by
  induction x with
  | other =>
    constructor
    · intro i h; cases h
    · intro _ s; rfl
  | real o r => exact nomatch hx
  | rational o n d =>
    have hw := C15_whole (.rational n d) hx
    constructor
    · intro i hi
      have := (hw.1 i).2 hi
      simp only [whole] at this
      by_cases hd : d = 1
      · exact ⟨o, .rational o n d, fun s => by simp only [wholeCall, hd, if_true]; rfl⟩
      · rw [if_neg hd] at this; cases this
    · intro hno s
      have := hw.2 hno
      simp only [whole] at this
      by_cases hd : d = 1
      · rw [if_pos hd] at this; cases this
      · simp only [wholeCall, hd, if_false]; rfl
  | complex re z ih =>
    simp only [NumObj.num] at hx
    cases hx with
    | complex _ _ hre =>
      obtain ⟨i1, i2⟩ := ih hre
      cases z with
      | false =>
        constructor
        · intro i h
          simp only [NumObj.num] at h
          cases h
        · intro _ s; simp only [wholeCall, Bool.false_eq_true, if_false]; rfl
      | true =>
        constructor
        · intro i h
          simp only [NumObj.num] at h
          cases h with
          | complex _ _ h =>
            obtain ⟨o, ho, hc⟩ := i1 i h
            exact ⟨o, .complex re o ho, fun s => by simp only [wholeCall, if_true]; exact hc s⟩
        · intro hno s
          simp only [wholeCall, if_true]
          exact i2 (fun i hi => hno i (.complex _ i hi)) s

/-- **C86** for a field with its namespace: what the evaluation returns is returned, an Exception becomes TypeError, any other
exception propagates; the changes the expression made to the namespace stay, also if it raised. -/
theorem C86_namespace (ev : String → Dict W.Obj → Except Exc W.Obj × Dict W.Obj) (cell : Nat) (v : String) (st : NsStore W)
    {out : Except Exc W.Obj} {ns : Dict W.Obj} (h : ev v (st.cells cell) = (out, ns)) :
    (∀ w, out = .ok w → (evalIn ev cell v st).1 = .ok w) ∧
    (∀ e, out = .error e → e.isException = true → (evalIn ev cell v st).1 = .error .typeError) ∧
    (∀ e, out = .error e → e.isException = false → (evalIn ev cell v st).1 = .error e) ∧
    (evalIn ev cell v st).2.cells cell = ns := by
  refine ⟨?_, ?_, ?_, ?_⟩
  · rintro w rfl; simp only [evalIn, h]
  · rintro e rfl he; simp only [evalIn, h, he, if_true]
  · rintro e rfl he; simp only [evalIn, h, he, Bool.false_eq_true, if_false]
  · simp only [evalIn, h, if_true]

/-- **C95**, the other direction for `LiteralEval`: it binds exactly to the classes with literals; hints without a class
refuse it with TypeError. -/
theorem C95_literal (L : LiteralTypes W) (run : Coercer W) (b : Bool) :
    (∀ c, L.mem c = true → getCoercer b (some c) (literalEvalTok L run) = .ok run) ∧
    (∀ c, L.mem c = false → getCoercer b (some c) (literalEvalTok L run) = .error .typeError) ∧
    getCoercer b none (literalEvalTok L run) = .error .typeError := by
  refine ⟨fun c h => ?_, fun c h => ?_, ?_⟩ <;> simp [literalEvalTok, getCoercer, *]

/-- **C14.** `ToBytes` without an explicit length calls the target type with one argument, bytes that decode to the input;
negative integers without `signed` and non-integers raise without a call. -/
theorem C14_calls (ofBytes : List Nat → W.Obj) (c : W.Cls) (little signed : Bool) :
    (∀ v, signed = true ∨ 0 ≤ v → ∃ b, fromBytes little signed b = v ∧
      Calls (toBytesCall ofBytes c none little signed (some v)) c [ofBytes b] []) ∧
    (∀ v s, v < 0 → toBytesCall (W := W) ofBytes c none little false (some v) s = (.error .overflow, s)) ∧
    (∀ len, Rejects (toBytesCall (W := W) ofBytes c len little signed none)) := by
  refine ⟨fun v hv => ?_, fun v s hv => ?_, fun len s => ?_⟩
  · obtain ⟨b, h1, h2⟩ := C14_roundtrip little signed v hv
    exact ⟨b, h2, fun s => by simp only [toBytesCall, h1]; rfl⟩
  · have := (C14_rejects little signed none v hv).1
    simp only [toBytesCall, this]
    rfl
  · rfl

/-- **C17.** Inputs that cannot be unpacked: the target type is not called; `LooseUnpack` raises TypeError, and so does
`LooseUnpackMap` without constraints (with constraints AttributeError). -/
theorem C17_not_unpackable (c : W.Cls) (args : List W.Obj) (kw : List (String × W.Obj)) (v : W.Obj) :
    (W.isIterable v = false → ∀ con, Rejects (looseUnpack con c args kw v)) ∧
    (W.isMapping v = false → Rejects (looseUnpackMap none c args kw v) ∧
      ∀ cons s, looseUnpackMap (some cons) c args kw v s = (.error .attributeError, s)) ∧
    (W.isMapping v = true → (∃ p ∈ W.items v, W.strOf p.1 = none) → ∀ cons, Rejects (looseUnpackMap cons c args kw v)) := by
  refine ⟨fun h con s => ?_, fun h => ⟨fun s => ?_, fun cons s => ?_⟩, fun h hk cons s => ?_⟩
  · simp [looseUnpack, h, M.throw]
  · simp [looseUnpackMap, h, M.throw]
  · simp [looseUnpackMap, h, M.throw]
  · have hn : kwOf (W.items v) = none := by
      cases he : kwOf (W.items v) with
      | none => rfl
      | some m =>
        exfalso
        have := (kwOf_iff _ _).1 he
        obtain ⟨p, hp, hs⟩ := hk
        clear he
        generalize W.items v = l at *
        induction this with
        | nil => simp at hp
        | cons h1 _ ih =>
          cases hp with
          | head => rw [h1] at hs; cases hs
          | tail _ hp => exact ih hp
    cases cons with
    | none => simp [looseUnpackMap, looseUnpackMap.call, h, hn, M.throw]
    | some cs =>
      simp only [looseUnpackMap, looseUnpackMap.call, h, hn]
      cases unpackMapCheck cs (W.items v) <;> rfl

/-- **C17.** Without constraints `LooseUnpack` calls the target type with all elements, then its own arguments, and
`LooseUnpackMap` with the entries as keywords. -/
theorem C17_unconstrained (c : W.Cls) (args : List W.Obj) (kw : List (String × W.Obj)) (v : W.Obj) :
    (W.isIterable v = true → Calls (looseUnpack none c args kw v) c (W.elems v ++ args) kw) ∧
    (W.isMapping v = true → ∀ m, KwArgs (W.items v) m → (∀ p ∈ m, ∀ q ∈ kw, p.1 ≠ q.1) →
      Calls (looseUnpackMap none c args kw v) c args (m ++ kw)) := by
  refine ⟨fun h s => ?_, fun h m hm hne s => ?_⟩
  · simp [looseUnpack, h, M.lift]
  · have : (m.any fun p => kw.any fun q => p.1 == q.1) = false := by
      rw [← Bool.not_eq_true]; intro hh
      simp only [List.any_eq_true, beq_iff_eq] at hh
      obtain ⟨p, hp, q, hq, he⟩ := hh
      exact hne p hp q hq he
    simp only [looseUnpackMap, h, looseUnpackMap.call, (kwOf_iff _ _).2 hm, this]; rfl

end Records

namespace Records
open Toy Toy.Tk

/-- `x: Annotated[deque, LiteralEval]` is refused at class creation; `x: Annotated[int, LiteralEval]` (next) is not -/
example : makeFiller (W := Toy.W) .check [] (.annotated (.cls .deque) [.coercion (literalEvalTok ⟨fun c => c == TCls.int⟩ (ret 1 (.int 1)))]) =
    .error .typeError :=
  C95_exception (fit := []) (rest := []) (.literalEval _ _ rfl) (by simp)

example : ∃ f, makeFiller (W := Toy.W) .check [] (.annotated (.cls .int) [.coercion (literalEvalTok ⟨fun c => c == TCls.int⟩ (ret 1 (.int 1)))]) =
    .ok f := ⟨_, rfl⟩

/-- `Eval(..., sin, x=1)` for the target `int`: the names `int`, `sin`, `x` -/
example : ∃ t ns, evalMake (W := Toy.W) [.dots, .named (some "sin") (.str "f")] [("x", .int 1), ("sin", .int 2)] = .ok t ∧
    t.namespace (.named (some "int") (.str "cls")) = .ok ns ∧ Dict.get? ns "int" = some (.str "cls") ∧
    Dict.get? ns "sin" = some (.str "f") ∧ Dict.get? ns "x" = some (.int 1) ∧ Dict.get? ns "print" = none :=
  ⟨_, _, rfl, rfl, rfl, rfl, rfl, rfl⟩

/-- `Whole` on `Fraction(6, 2)` (numerator 3), on `1/2`, on `3+0j` -/
example : (wholeCall (W := Toy.W) TCls.int [] [] (.rational (.int 3) 3 1) s0).1 = .ok (.int 3) ∧
    (wholeCall (W := Toy.W) TCls.int [] [] (.rational (.int 1) 1 2) s0).1 = .error .typeError ∧
    (wholeCall (W := Toy.W) TCls.int [] [] (.complex (.rational (.int 3) 3 1) true) s0).1 = .ok (.int 3) := ⟨rfl, rfl, rfl⟩

/-- `eval` on two expressions: `__builtins__.update(x=2)` and `x` -/
def Toy.Tk.ev (v : String) (ns : Dict TObj) : Except Exc TObj × Dict TObj :=
  if v = "x" then (match Dict.get? ns "x" with | some o => .ok o | none => .error .typeError, ns)
  else (.ok .none, Dict.set ns "x" (.int 2))

/-- The claim that the outcome of a coercion by an `Eval` field depends on the evaluated string only -/
def C96_claim : Prop := ∀ (ev : String → Dict TObj → Except Exc TObj × Dict TObj) (l : List (Nat × String)) (st : NsStore Toy.W),
  evalRun (W := Toy.W) ev l st = l.map fun p => (p.1, (evalIn (W := Toy.W) ev p.1 p.2 st).1)

/-- Refuted: `Eval(x=1)` gives 1 for `x`, but 2 after `__builtins__.update(x=2)` was evaluated. -/
theorem C96_refuted : ¬ C96_claim := by
  intro h
  have := h ev [(0, "u"), (0, "x")] ⟨fun _ => [("x", .int 1)], 1⟩
  simp [evalRun, evalIn, ev, Dict.get?, Dict.set] at this
  cases this

/-- an undefined name gives TypeError, the namespace is as before -/
example : (evalIn (W := Toy.W) ev 0 "x" ⟨fun _ => [("y", .int 1)], 1⟩).1 = .error .typeError :=
  (C86_namespace (W := Toy.W) ev 0 "x" ⟨fun _ => [("y", .int 1)], 1⟩ (out := .error .typeError) rfl).2.1 .typeError rfl rfl

/-- the same with a field bound with `...` in between: it is not affected -/
example : evalRun (W := Toy.W) ev [(0, "u"), (1, "x"), (0, "x")] (evalBind (W := Toy.W) true 0 "int" .none ⟨fun _ => [("x", .int 1)], 1⟩).2 =
    [(0, .ok .none), (1, .ok (.int 1)), (0, .ok (.int 2))] := by
  simp [evalRun, evalIn, evalBind, ev, Dict.get?, Dict.set]

end Records
