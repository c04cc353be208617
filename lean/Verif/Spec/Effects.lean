import Verif.Model.Effects
/-
What exporting, hashing and comparing records ask of the field values: vocabulary for C109.
-/
namespace Records
variable {W : World}

/-- `Runs f l s rs s'`: calling `f` on the elements of `l`, one after the other, starting in state `s`, gives the results `rs` without
any exception, and the final state is `s'` -/
inductive Runs {α β : Type} (f : α → M W β) : List α → LState W → List β → LState W → Prop
  | nil (s : LState W) : Runs f [] s [] s
  | cons {a : α} {l : List α} {r : β} {rs : List β} {s s1 s2 : LState W} :
      f a s = (.ok r, s1) → Runs f l s1 rs s2 → Runs f (a :: l) s (r :: rs) s2

/-- `Stops f l s e s'`: calling `f` on the elements of `l`, one after the other, ends with the exception `e` of one of the calls; the
elements after that one are not used -/
def Stops {α β : Type} (f : α → M W β) (l : List α) (s : LState W) (e : Exc) (s' : LState W) : Prop :=
  ∃ pre a post rs s1, l = pre ++ a :: post ∧ Runs f pre s rs s1 ∧ f a s1 = (.error e, s')

/-- `e` raised inside a generator leaves it as `e'`: as it is, but StopIteration as RuntimeError -/
def Leaves (e e' : Exc) : Prop := (e.kind ≠ .stopIteration ∧ e' = e) ∨ (e.kind = .stopIteration ∧ e' = .runtimeError)

/-- A field of a record as the export sees it: name, value, and the plain default with which the value must be compared, if any. -/
structure Shown (W : World) where
  name : String
  value : W.Obj
  default : Option W.Obj

/-- a field of the record, unless its tags rule it out; the value is compared with the default only if the field has a plain default, is
not whitelisted, and defaults are to be left out -/
def candidate (incl : Bool) (black : List Nat) (white : List String) (i : Inst W) (k : String) (f : Field W) : Option (Shown W) :=
  if k ∈ white ∨ ∀ t ∈ f.tags, t ∉ black then
    (i.dict.get? k).map fun v => ⟨k, v,
      if k ∈ white ∨ incl = true then none
      else match f.default with
        | some (.value d) => some d
        | _ => none⟩
  else none

/-- the fields that are not ruled out by their tags, in field order -/
def candidates (incl : Bool) (black : List Nat) (white : List String) (C : RecClass W) (i : Inst W) : List (Shown W) :=
  C.fields.filterMap fun kf => candidate incl black white i kf.1 kf.2

/-- the comparisons: pairs of a default and a value, in field order -/
def questions (cs : List (Shown W)) : List (W.Obj × W.Obj) := cs.filterMap fun c => c.default.map fun d => (d, c.value)

/-- the fields that are left when the questions have these answers -/
def keep : List (Shown W) → List Bool → Dict W.Obj
  | [], _ => []
  | c :: cs, bs => match c.default, bs with
    | none, bs => (c.name, c.value) :: keep cs bs
    | some _, true :: bs => keep cs bs
    | some _, false :: bs => (c.name, c.value) :: keep cs bs
    | some _, [] => keep cs []

/-- the pairs of values of the fields of two records, in field order -/
def fieldPairs (C : RecClass W) (a b : Inst W) : List (W.Obj × W.Obj) := C.fields.filterMap fun kf =>
  match a.dict.get? kf.1, b.dict.get? kf.1 with
  | some v, some w => some (v, w)
  | _, _ => none

/-- The loop of `==` over the fields, started in state `s`: `!=` is asked for the pairs of values in field order, until the first answer
that is true or the first exception. -/
def EqLoop (V : ValueOps W) (C : RecClass W) (a b : Inst W) (s : LState W) (r : Except Exc Bool) (s' : LState W) : Prop :=
  (r = .ok true ∧ ∃ bs, (∀ x ∈ bs, x = false) ∧ Runs (fun p => V.ne p.1 p.2) (fieldPairs C a b) s bs s') ∨
  ∃ pre p post bs s1, fieldPairs C a b = pre ++ p :: post ∧ (∀ x ∈ bs, x = false) ∧ Runs (fun p => V.ne p.1 p.2) pre s bs s1 ∧
    ((r = .ok false ∧ V.ne p.1 p.2 s1 = (.ok true, s')) ∨ ∃ e, r = .error e ∧ V.ne p.1 p.2 s1 = (.error e, s'))

/-- no field has a plain default -/
def NoPlainDefaults (C : RecClass W) : Prop := ∀ kf ∈ C.fields, ∀ d, kf.2.default ≠ some (.value d)

end Records
