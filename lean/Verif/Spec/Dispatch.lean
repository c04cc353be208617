import Verif.Model.Dispatch
/-
What a type hint means, and which hints mean the same.
-/
namespace Records
variable {W : World}

/-- `Sequence`, `MutableSequence`, `Set`, `MutableSet`, `list`, `set`, `frozenset` -/
def StdClasses.iterables (S : StdClasses W) : List W.Cls :=
  [S.sequence, S.mutableSequence, S.setAbc, S.mutableSet, S.list, S.set, S.frozenset]

/-- `Mapping`, `MutableMapping`, `dict` -/
def StdClasses.mappings (S : StdClasses W) : List W.Cls := [S.mapping, S.mutableMapping, S.dict]

/-- the abstract generics whose parameters cannot be checked -/
def StdClasses.generics (S : StdClasses W) : List W.Cls :=
  [S.iterable, S.iterator, S.reversible, S.collection, S.container, S.asyncIterator, S.asyncIterable, S.contextManager,
   S.asyncContextManager, S.asyncGenerator, S.generator]

/-- all these classes -/
def StdClasses.known (S : StdClasses W) : List W.Cls :=
  [W.tupleCls, W.typeCls, S.deque, S.defaultdict] ++ S.iterables ++ S.mappings ++ S.generics

/-- they are different classes -/
def StdClasses.OK (S : StdClasses W) : Prop := S.known.Nodup ∧ S.callable ∉ S.known

/-- `Tuple[A, ...]` and `Tuple[A, B]` -/
def tupleMeaning : List (TypeObj W) → List (Hint W) → Hint W
  | [_, .ellipsis], h :: _ => .tupleVar h
  | _, hs => .tupleFix hs

/-- a parametrised class; `hs` are the meanings of the parameters -/
def aliasMeaning (S : StdClasses W) (o : W.Cls) (as : List (TypeObj W)) (hs : List (Hint W)) : Hint W :=
  if o = S.callable then .callable
  else if ∀ a ∈ as, a.isVar = true then .bareGeneric o
  else if o = W.typeCls then .typeOf (match as with | .cls c :: _ => some c | _ => Option.none)
  else if o = W.tupleCls then tupleMeaning as hs
  else match hs with
    | [] => .opaque
    | h :: hs =>
      if o = S.deque then .deque o h
      else if o = S.defaultdict then .defaultdict o h (hs.head?.getD .opaque)
      else if o ∈ S.iterables then .iter o h
      else if o ∈ S.mappings then .mapping o h (hs.head?.getD .opaque)
      else if o ∈ S.generics then .generic o (h :: hs)
      else .opaque

mutual
/-- the hint, as all other properties speak about it -/
def TypeObj.meaning (S : StdClasses W) : TypeObj W → Hint W
  | .cls c => .cls c
  | .none => .none
  | .any => .any
  | .callableFn => .callable
  | .newType t => .newType (t.meaning S)
  | .union ts => .union (meanings S ts)
  | .literal id vals => .literal id vals
  | .alias o as => aliasMeaning S o as (meanings S as)
  | .annotated t toks => .annotated (t.meaning S) toks
  | .typeVar => .opaque
  | .ellipsis => .opaque
  | .other => .opaque
def meanings (S : StdClasses W) : List (TypeObj W) → List (Hint W)
  | [] => []
  | t :: ts => t.meaning S :: meanings S ts
end

mutual
/-- mappings have two parameters, throughout the hint -/
def TypeObj.Arity (S : StdClasses W) : TypeObj W → Prop
  | .newType t => t.Arity S
  | .union ts => Arities S ts
  | .alias o as => ((∃ a ∈ as, a.isVar = false) → o ∈ S.defaultdict :: S.mappings → as.length = 2) ∧ Arities S as
  | .annotated t _ => t.Arity S
  | _ => True
def Arities (S : StdClasses W) : List (TypeObj W) → Prop
  | [] => True
  | t :: ts => t.Arity S ∧ Arities S ts
end

/-- not `Annotated`, a type variable or `...` -/
def TypeObj.ordinary : TypeObj W → Bool
  | .annotated _ _ => false
  | .typeVar => false
  | .ellipsis => false
  | _ => true

/-- Two ways to write the same type: `Any` and `object`; `None` and `type(None)`; `Callable[...]` and `callable`; `List`, `List[T]` with a
type variable, and `list`; a `NewType` and its supertype; also as parts of other types, but not in `Type[...]`. -/
inductive SameType (S : StdClasses W) : TypeObj W → TypeObj W → Prop
  | refl (t) : SameType S t t
  | symm {t u} : SameType S t u → SameType S u t
  | trans {t u v} : SameType S t u → SameType S u v → SameType S t v
  | any : SameType S .any (.cls W.objectCls)
  | none : SameType S .none (.cls W.noneCls)
  | callable (as) : SameType S (.alias S.callable as) .callableFn
  | bare (o as) : o ≠ S.callable → (∀ a ∈ as, a = .typeVar) → SameType S (.alias o as) (.cls o)
  | newType (t) : t.ordinary = true → SameType S (.newType t) t
  | inNewType {t u} : SameType S t u → SameType S (.newType t) (.newType u)
  | inAnnotated {t u toks} : SameType S t u → SameType S (.annotated t toks) (.annotated u toks)
  | inUnion {t u} (pre post) : SameType S t u → SameType S (.union (pre ++ t :: post)) (.union (pre ++ u :: post))
  | inAlias {t u o} (pre post) : o ≠ W.typeCls → SameType S t u → SameType S (.alias o (pre ++ t :: post)) (.alias o (pre ++ u :: post))

end Records
