import Verif.Model.Tokens
/-
Specification vocabulary for tokens and constraints.
-/
namespace Records
variable {W : World}

/-- `v` is an instance of some class of the constraint, however nested -/
inductive Info.Inst (v : W.Obj) : Info W → Prop
  | cls (c) : W.isInstance v c = true → Info.Inst v (.cls c)
  | tuple (l i) : i ∈ l → Info.Inst v i → Info.Inst v (.tuple l)

/-- the constraint consists of classes only -/
inductive Info.Good : Info W → Prop
  | cls (c) : Info.Good (.cls c)
  | tuple (l) : (∀ i ∈ l, Info.Good i) → Info.Good (.tuple l)

/-- an object the library has no reason to look at: no style, no token, no token class, no tag, nothing wrapped -/
def PyArg.Unrelated (o : PyArg W) : Prop :=
  o.style = none ∧ o.tag = none ∧ o.isCo = false ∧ o.isVa = false ∧ o.subCo = false ∧ o.subVa = false

/-- `o` is an instance of a coercion token class; `t` is what it is as a token -/
def PyArg.IsCoercion (o : PyArg W) (t : Usable W) : Prop := o.style = none ∧ o.isCo = true ∧ o.self = t

/-- `o` is a coercion token class; without arguments it makes the token `t` -/
def PyArg.IsCoercionClass (o : PyArg W) (t : Usable W) : Prop :=
  o.style = none ∧ o.isCo = false ∧ o.subCo = true ∧ o.call = .ok (some t)

/-- `o` is an instance of a validation token class that does not imitate a wrapped function -/
def PyArg.IsValidation (o : PyArg W) (t : Usable W) : Prop :=
  o.style = none ∧ o.isCo = false ∧ o.subCo = false ∧ o.wrapped = .ok false ∧ o.isVa = true ∧ o.self = t

/-- `o` is a validation token class (likewise); without arguments it makes the token `t` -/
def PyArg.IsValidationClass (o : PyArg W) (t : Usable W) : Prop :=
  o.style = none ∧ o.isCo = false ∧ o.subCo = false ∧ o.wrapped = .ok false ∧ o.isVa = false ∧ o.subVa = true ∧
    o.call = .ok (some t)

/-- `o` is neither a style, nor a coercion token (class), but has a `__wrapped__` attribute; called without arguments it
gives `t` -/
def PyArg.IsWrapped (o : PyArg W) (t : Usable W) : Prop :=
  o.style = none ∧ o.isCo = false ∧ o.subCo = false ∧ o.wrapped = .ok true ∧ o.call = .ok (some t)

/-- The token an object stands for; all other properties speak about these. -/
inductive Means : PyArg W → Tok W → Prop
  | style {o s} : o.style = some s → Means o (.style s)
  | coercion {o t} : o.IsCoercion t → Means o (.coercion t.co)
  | coercionClass {o t} : o.IsCoercionClass t → Means o (.coercion t.co)
  | wrapped {o t} : o.IsWrapped t → Means o (.coercion t.co)
  | validation {o t} : o.IsValidation t → Means o (.validation t.va)
  | validationClass {o t} : o.IsValidationClass t → Means o (.validation t.va)
  | tag {o n} : o.style = none → o.isCo = false → o.isVa = false → o.subCo = false → o.subVa = false →
      o.wrapped = .ok false → o.tag = some n → Means o (.tag n)
  | other {o} : o.Unrelated → o.wrapped = .ok false → Means o .other

end Records
