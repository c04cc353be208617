import Verif.Model.Field
/-
Specification vocabulary for record classes.  Uses the data types of class statements and classes, and the filler of a
single field (`makeFiller`), but none of the steps of class creation.
-/
namespace Records
variable {W : World}

/-- What holds of every Python class statement: an own annotation occurs once, so does a name annotated elsewhere in the MRO,
and the class object is new, so no inherited field is owned by it. -/
structure ClassSpec.OK (sp : ClassSpec W) : Prop where
  anns : (sp.anns.map (·.1)).Nodup
  bases : sp.baseAnns.Nodup
  fresh : ∀ p ∈ sp.parents, ∀ kf ∈ p.fields, kf.2.owner ≠ sp.cid

/-- The classes that can be created, over hierarchies of any depth and width. -/
inductive Creatable : RecClass W → Prop
  | intro (sp : ClassSpec W) (C : RecClass W) : sp.OK → (∀ p ∈ sp.parents, Creatable p) → mkClass sp = .ok C → Creatable C

/-- `Desc R C`: `C` is `R` or derives from it through record classes -/
inductive Desc (R : RecClass W) : RecClass W → Prop
  | refl : Desc R R
  | step (sp : ClassSpec W) (C p : RecClass W) : sp.OK → (∀ p ∈ sp.parents, Creatable p) → mkClass sp = .ok C →
      p ∈ sp.parents → Desc R p → Desc R C

/-- declares a field (everything but a `ClassVar`) -/
def FHint.declares : FHint W → Bool
  | .classVar => false
  | _ => true

/-- the type of the field, without `Final` -/
def FHint.type? : FHint W → Option (Hint W)
  | .plain h => some h
  | .final h _ => some h
  | _ => none

/-- a `RecordField` can be made from the declaration: not a raw `Final`, `Final` only in frozen classes, and a type from which a
filler can be made -/
def FHint.resolvable (frozen : Bool) (h : FHint W) : Prop :=
  h = .classVar ∨ ∃ t, h.type? = some t ∧ (∃ g, getFiller t = .ok g) ∧ (∀ toks, h = .final t toks → frozen = true)

/-- a raw `Final`, or a `Final` field of a non-frozen class -/
def FHint.badFinal (frozen : Bool) (h : FHint W) : Prop :=
  h = .rawFinal ∨ frozen = false ∧ ∃ t toks, h = .final t toks

/-- `h.ListsTag n`: the tag `n` is among the `Annotated` arguments of the declaration, inside or outside a `Final` -/
inductive FHint.ListsTag (n : Nat) : FHint W → Prop
  | annotated (h toks) : .tag n ∈ toks → FHint.ListsTag n (.plain (.annotated h toks))
  | final (h toks) : .tag n ∈ toks → FHint.ListsTag n (.final h toks)
  | inFinal (h toks toks') : .tag n ∈ toks → FHint.ListsTag n (.final (.annotated h toks) toks')

/-- `Final[T]` replaced by `T` -/
def FHint.noFinal : FHint W → FHint W
  | .final h [] => .plain h
  | h => h

/-- the names of the own fields in declaration order -/
def ClassSpec.declared (sp : ClassSpec W) : List String := (sp.anns.filter fun a => a.2.declares).map (·.1)

/-- the names of the inherited fields, in order of the parents -/
def ClassSpec.inherited (sp : ClassSpec W) : List String := sp.parents.flatMap fun p => p.fields.map (·.1)

/-- the tokens `pre_bind` adds to the field `n` -/
def ClassSpec.tokensFor (sp : ClassSpec W) (n : String) : List (Option Int × Tok W) :=
  sp.pre.filterMap fun q => if q.1 = n then some (q.2.1, q.2.2) else none

/-- an own declaration that is legal by itself: not a raw `Final`, `Final` only in frozen classes, and a type and tokens
from which a filler can be made -/
def ClassSpec.legal (sp : ClassSpec W) (n : String) (h : FHint W) : Prop :=
  match h with
  | .classVar => True
  | .rawFinal => False
  | .plain t => ∃ f, makeFiller sp.style (sp.tokensFor n) t = .ok f
  | .final t _ => sp.frozen = true ∧ ∃ f, makeFiller sp.style (sp.tokensFor n) t = .ok f

/-- the default a declaration of `n` gets: the value assigned in the class body, else an attribute of a base class -/
def ClassSpec.defaultIs (sp : ClassSpec W) (n : String) (d : Option (Deflt W)) : Prop :=
  (sp.attrs.get? n = none ∧ d = sp.mroAttrs n) ∨ (∃ v, sp.attrs.get? n = some v ∧ d = some v)

mutual
/-- every part of the filler has been bound -/
def F.Bound : F W → Prop
  | .dumb b => b = true
  | .failing _ => False
  | .ann a => a.bound = true
  | .union b _ _ subs => b = true ∧ F.AllBound subs
  | .wrap b _ inner subs => b = true ∧ inner.bound = true ∧ F.AllBound subs
def F.AllBound : List (F W) → Prop
  | [] => True
  | f :: fs => f.Bound ∧ F.AllBound fs
end

/-- the shape of a record class -/
structure RecClass.WF (C : RecClass W) : Prop where
  nodup : (C.fields.map (·.1)).Nodup
  ne : C.fields ≠ []
  named : ∀ k f, C.fields.get? k = some f → f.name = k
  req : ∀ k, k ∈ C.required ↔ ∃ f, C.fields.get? k = some f ∧ f.default = none
  opt : ∀ k, k ∈ C.optional ↔ ∃ f d, C.fields.get? k = some f ∧ f.default = some d
  req_nodup : C.required.Nodup
  opt_nodup : C.optional.Nodup
  bound : ∀ k f, C.fields.get? k = some f → f.filler.Bound

end Records
