import Verif.Model.Filler
/-
Model of the way from `typing` objects to fillers: `get_filler`, `get_annotated_filler` (records/fillers/get_filler.py:31-70), the
checkers (std_fillers.py:368-377, typing_fillers.py:414-444) and the constructors of the generic fillers (typing_fillers.py:26-31,
122-124, 144-146, 164-170, 255-258, 314-318, 375-377).

Simplifications: hints are hashable (`builtin_filler_map.get` raises TypeError otherwise); an alias such as `List[int]` is not itself a
class (in CPython 3.9 and 3.10 `isinstance(list[int], type)` holds, which matters only for origins that are not in the table).
-/
namespace Records
variable {W : World}

/-- What the library can see of a type hint.
`cls`: a class; `callableFn`: the function `callable`; `newType`: has `__supertype__`; `union`, `literal`: `get_origin` is `Union`,
`Literal`; `alias o args`: `get_origin` is the class `o`, `get_args` is `args` (bare `List` is `alias list []`; with type variables in
older versions); `ellipsis`: `...`; `other`: strings, lists (as in `Callable[[int], str]`), `()`, ... -/
inductive TypeObj (W : World)
  | cls (c : W.Cls)
  | none
  | any
  | callableFn
  | newType (t : TypeObj W)
  | union (ts : List (TypeObj W))
  | literal (id : Nat) (vals : List W.Obj)
  | alias (o : W.Cls) (args : List (TypeObj W))
  | annotated (t : TypeObj W) (toks : List (Tok W))
  | typeVar
  | ellipsis
  | other

/-- the classes `genric_origin_map` mentions, and `collections.abc.Callable` -/
structure StdClasses (W : World) where
  deque : W.Cls
  defaultdict : W.Cls
  sequence : W.Cls
  mutableSequence : W.Cls
  setAbc : W.Cls
  mutableSet : W.Cls
  list : W.Cls
  set : W.Cls
  frozenset : W.Cls
  iterable : W.Cls
  iterator : W.Cls
  reversible : W.Cls
  collection : W.Cls
  container : W.Cls
  asyncIterator : W.Cls
  asyncIterable : W.Cls
  contextManager : W.Cls
  asyncContextManager : W.Cls
  mapping : W.Cls
  mutableMapping : W.Cls
  dict : W.Cls
  asyncGenerator : W.Cls
  generator : W.Cls
  callable : W.Cls

/-- the filler classes of the table -/
inductive GKind
  | tuple | type | deque | defaultdict | iterable | mapping | generic
  deriving DecidableEq

/-- `genric_origin_map` (typing_fillers.py:391-411) -/
def StdClasses.origins (S : StdClasses W) : List (W.Cls × GKind) :=
  [(W.tupleCls, .tuple), (W.typeCls, .type), (S.deque, .deque), (S.defaultdict, .defaultdict),
   (S.sequence, .iterable), (S.mutableSequence, .iterable), (S.setAbc, .iterable), (S.mutableSet, .iterable),
   (S.list, .iterable), (S.set, .iterable), (S.frozenset, .iterable),
   (S.iterable, .generic), (S.iterator, .generic), (S.reversible, .generic), (S.collection, .generic), (S.container, .generic),
   (S.asyncIterator, .generic), (S.asyncIterable, .generic), (S.contextManager, .generic), (S.asyncContextManager, .generic),
   (S.mapping, .mapping), (S.mutableMapping, .mapping), (S.dict, .mapping), (S.asyncGenerator, .generic), (S.generator, .generic)]

/-- `genric_origin_map.get(o)` (typing_fillers.py:440-441) -/
def StdClasses.kindOf (S : StdClasses W) (o : W.Cls) : Option GKind := (S.origins.find? fun p => decide (p.1 = o)).map (·.2)

/-- `isinstance(a, TypeVar)` -/
def TypeObj.isVar : TypeObj W → Bool
  | .typeVar => true
  | _ => false

/-- `a is ...` -/
def TypeObj.isDots : TypeObj W → Bool
  | .ellipsis => true
  | _ => false

/-- `has_args` (typing_fillers.py:414-416) -/
def hasArgs (as : List (TypeObj W)) : Bool := as.any fun a => !a.isVar

/-- `len(args) == 2 and args[-1] is ...` (typing_fillers.py:167) -/
def variadic : List (TypeObj W) → Bool
  | [_, a] => a.isDots
  | _ => false

/-- the fillers in order, or the first exception -/
def sequenceF : List (Except Exc (F W)) → Except Exc (List (F W))
  | [] => .ok []
  | .error e :: _ => .error e
  | .ok f :: fs => match sequenceF fs with
    | .error e => .error e
    | .ok fs => .ok (f :: fs)

/-- the class in `issubclass(v, self.base_type)` (typing_fillers.py:146, 154); anything else makes `issubclass` raise TypeError -/
def baseOf : List (TypeObj W) → Option W.Cls
  | .cls c :: _ => some c
  | _ => Option.none

/-- the end of `get_annotated_filler` (get_filler.py:68-70) -/
def dumbFiller (args : List (Tok W)) : Except Exc (F W) := if args.isEmpty then .ok (.dumb false) else .error .typeError

/-- `_typing` for a class origin `o` with parameters `as` (typing_fillers.py:428-444), followed by the constructor of the filler class it
returns; `fs` are the results of `get_filler` on the parameters -/
def aliasFiller (S : StdClasses W) (o : W.Cls) (as : List (TypeObj W)) (fs : List (Except Exc (F W))) (args : List (Tok W)) :
    Except Exc (F W) :=
  if o = W.typeCls then
    -- typing_fillers.py:433-436, 144-146
    if hasArgs as then .ok (.wrap false (.typeF (baseOf as)) (classAnn o args) []) else .ok (.ann (classAnn W.typeCls args))
  else if o = S.callable then .ok (.ann { kind := .callable, args := args })
  else if hasArgs as then
    match S.kindOf o with
    | Option.none => dumbFiller args
    | some .type => .ok (.wrap false (.typeF (baseOf as)) (classAnn o args) [])
    | some .tuple =>
      -- typing_fillers.py:164-170
      if variadic as then match fs with
        | .ok f :: _ => .ok (.wrap false .tupleVar (classAnn o args) [f])
        | .error e :: _ => .error e
        | [] => .error .indexError
      else match sequenceF fs with
        | .ok fs => .ok (.wrap false .tupleFix (classAnn o args) fs)
        | .error e => .error e
    | some .iterable => match fs with
      | .ok f :: _ => .ok (.wrap false .iter (classAnn o args) [f])
      | .error e :: _ => .error e
      | [] => .error .indexError
    | some .deque => match fs with
      | .ok f :: _ => .ok (.wrap false .deque (classAnn o args) [f])
      | .error e :: _ => .error e
      | [] => .error .indexError
    -- typing_fillers.py:314-318: unpacking into two names raises ValueError for another number
    | some .mapping => match fs with
      | [.error e, _] => .error e
      | [.ok _, .error e] => .error e
      | [.ok k, .ok v] => .ok (.wrap false .mapping (classAnn o args) [k, v])
      | _ => .error .valueError
    | some .defaultdict => match fs with
      | [.error e, _] => .error e
      | [.ok _, .error e] => .error e
      | [.ok k, .ok v] => .ok (.wrap false .defaultdict (classAnn o args) [k, v])
      | _ => .error .valueError
    -- typing_fillers.py:375-382: the parameters are looked at in `bind`
    | some .generic => .ok (.wrap false .generic (classAnn o args) (fs.map fun f => match f with | .ok f => f | .error e => .failing e))
  else .ok (.ann (classAnn o args))

mutual
/-- `get_filler(t)` is `dispatch S t none`: split off the `Annotated` arguments, then go on (get_filler.py:31-38);
`get_annotated_filler(t, args)` is `dispatch S t (some args)` (get_filler.py:41-70).  Classes are looked up in the map of built-in
classes, then by superclass (`classKind`). -/
def dispatch (S : StdClasses W) : TypeObj W → Option (List (Tok W)) → Except Exc (F W)
  | .cls c, args => .ok (.ann (classAnn c (args.getD [])))
  | .none, args => .ok (.ann (classAnn W.noneCls (args.getD [])))          -- std_fillers.py:374-377
  | .any, args => .ok (.ann (classAnn W.objectCls (args.getD [])))         -- typing_fillers.py:425-426
  | .callableFn, args => .ok (.ann { kind := .callable, args := args.getD [] })   -- std_fillers.py:368-371
  | .newType t, args => dispatch S t (some (args.getD []))                 -- typing_fillers.py:421-423
  | .union ts, args => match sequenceF (dispatchAll S ts) with             -- typing_fillers.py:26-31, 429-430
    | .ok fs => .ok (.union false (args.getD []) [] fs)
    | .error e => .error e
  | .literal id vals, args => .ok (.ann { kind := .literal id vals, args := args.getD [] })   -- typing_fillers.py:431-432
  | .alias o as, args => aliasFiller S o as (dispatchAll S as) (args.getD [])
  | .annotated t toks, Option.none => dispatch S t (some toks)
  | .annotated _ _, some args => dumbFiller args
  | .typeVar, args => dumbFiller (args.getD [])
  | .ellipsis, args => dumbFiller (args.getD [])
  | .other, args => dumbFiller (args.getD [])
/-- `get_filler` of each -/
def dispatchAll (S : StdClasses W) : List (TypeObj W) → List (Except Exc (F W))
  | [] => []
  | t :: ts => dispatch S t Option.none :: dispatchAll S ts
end

end Records
