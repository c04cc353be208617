import Verif.Model.Filler
import Verif.Model.Validators
/-
Model of how objects become tokens: records/fillers/util.py, records/utils/decorators.py, the adders of records/field.py,
and the constructors and binding of the tokens in records/fillers/{coercers,validators}.py and
records/fillers/builtin_fillers/std_fillers.py.

Simplification: calling a token class or an object with `__wrapped__` when a class is created (`obj()`) has no side
effect and gives the same result every time.
-/
namespace Records
variable {W : World}

/-! ### Objects as tokens -/

/-- What `get_coercer` and `get_validator` would make of an object if it were given to them (filler.py:249-258, 260-269);
an object that is not callable is refused with TypeError by both. -/
structure Usable (W : World) where
  co : CTok W
  va : Option W.Cls → Except Exc (Coercer W)

/-- An arbitrary object listed in `Annotated[T, ...]`, as the library inspects it. -/
structure PyArg (W : World) where
  self : Usable W
  /-- the member, if it is a `TypeCheckStyle` -/
  style : Option Style := none
  /-- `isinstance(obj, Tag)` and the tag -/
  tag : Option Nat := none
  /-- `isinstance(obj, CoercionToken)`, `isinstance(obj, ValidationToken)` -/
  isCo : Bool := false
  isVa : Bool := false
  /-- `isinstance(obj, type) and issubclass(obj, CoercionToken)`, ... `ValidationToken` -/
  subCo : Bool := false
  subVa : Bool := false
  /-- `getattr(obj, '__wrapped__', None) is not None`, or the exception of the attribute access -/
  wrapped : Except Exc Bool := .ok false
  /-- `obj()`: raises, or returns `None`, or an object -/
  call : Except Exc (Option (Usable W))

/-- `_as_instance(obj, cls)` (util.py:6-20); `isI`, `sub`: is `obj` an instance/a subclass of `cls`? -/
def PyArg.asInstance (o : PyArg W) (isI sub : Bool) : Except Exc (Option (Usable W)) :=
  if isI then .ok (some o.self)
  else if sub then o.call
  else match o.wrapped with
    | .error e => .error e
    | .ok w => if w then o.call else .ok none

/-- `AnnotatedFiller.apply` (filler.py:226-238) on an arbitrary object -/
def Ann.applyObj (a : Ann W) (o : PyArg W) : Except Exc (Ann W) :=
  if a.bound then .error .runtimeError
  else match o.style with
  | some s => .ok { a with style := s }
  | none => match o.asInstance o.isCo o.subCo with
    | .error e => .error e
    | .ok (some t) => match getCoercer a.kind.isBool a.kind.origin t.co with
      | .ok c => .ok { a with coercers := a.coercers ++ [c] }
      | .error e => .error e
    | .ok none => match o.asInstance o.isVa o.subVa with
      | .error e => .error e
      | .ok (some t) => match t.va a.kind.origin with
        | .ok c => .ok { a with validators := a.validators ++ [c] }
        | .error e => .error e
      | .ok none => .ok a

/-! ### Tokens that carry a function -/

/-- a Python callable: positional and keyword arguments -/
abbrev Func (W : World) := List W.Obj → Dict W.Obj → M W W.Obj

/-- `CallCoercion(func, *args, **kwargs)` (coercers.py:37-60) -/
def callCoercion (g : Func W) (args : List W.Obj) (kw : Dict W.Obj) : CTok W :=
  .coercer fun _ => .ok fun v => g (v :: args) kw

/-- `CallValidation(func, *args, **kwargs)` (validators.py:109-132) -/
def callValidation (g : Func W) (args : List W.Obj) (kw : Dict W.Obj) : Option W.Cls → Except Exc (Coercer W) :=
  fun _ => .ok fun v => g (v :: args) kw

/-- `ClassMethodCoercion(method, *args, **kwargs)` (coercers.py:93-109); `attr c` is `getattr(c, method)` for the class
`c`, `attr none` for a target that is no class. -/
def classMethodCoercion (attr : Option W.Cls → Except Exc (Func W)) (args : List W.Obj) (kw : Dict W.Obj) : CTok W :=
  .coercer fun o => match attr o with
    | .error e => .error e
    | .ok g => .ok fun v => g (v :: args) kw

/-- The options of an assertion validator (validators.py:37-44), with the effect of warning (see `AssertCfg.raise`) -/
structure AssertOpts (W : World) where
  cfg : AssertCfg
  emit : Bool → M W Unit

/-- `AssertCallValidation(func, ...)` (validators.py:89-102), `AssertValidation.inner` (77-86) -/
def assertCallTok (g : Func W) (o : AssertOpts W) : Option W.Cls → Except Exc (Coercer W) :=
  fun _ => .ok (o.cfg.inner o.emit (assertCall fun v => g [v] []))

/-! ### Adders (field.py:132-220) -/

/-- the three adders -/
inductive Adder
  | validator
  | assertValidator
  | coercer
  deriving DecidableEq

/-- The keyword arguments of an adder call: `sub_key` (None if not given) and the others. `opts` reads `err` and `warn`
of an assertion validator out of the others (they are the only ones allowed). -/
structure AddKw (W : World) where
  subKey : Option Int := none
  rest : Dict W.Obj := []

/-- keywords that collide with parameters of the adder methods -/
def adderReserved : List String := ["self", "func"]

/-- the undecorated adder (field.py:132-220): the token for `func`, applied to the addressed sub-filler -/
def Adder.core (opts : Dict W.Obj → AssertOpts W) (a : Adder) (g : Func W) (kw : AddKw W) (f : F W) : Except Exc (F W) :=
  if adderReserved.any (fun k => kw.rest.has k) then .error .typeError
  else match a with
    | .validator => f.applySub kw.subKey (.validation (callValidation g [] kw.rest))
    | .coercer => f.applySub kw.subKey (.coercion (callCoercion g [] kw.rest))
    | .assertValidator =>
      if kw.rest.any (fun p => p.1 != "err" && p.1 != "warn") then .error .typeError
      else f.applySub kw.subKey (.validation (assertCallTok g (opts kw.rest)))

/-- What a call of a decorated adder gives: the change of the field was made (and `func` is returned), or a decorator. -/
inductive AddRes (W : World)
  | added (f : Except Exc (F W)) (returned : Func W)
  | decorator (d : Func W → F W → Except Exc (F W) × Func W)

/-- `decorator_kw_method` (utils/decorators.py:19-25) around an adder; `func` is `f`, or absent -/
def Adder.call (opts : Dict W.Obj → AssertOpts W) (a : Adder) (func : Option (Func W)) (kw : AddKw W) (f : F W) : AddRes W :=
  match func with
  | none => .decorator fun g f' => (a.core opts g kw f', g)
  | some g => .added (a.core opts g kw f) g

/-! ### Number coercers with their call of the target type -/

/-- What `Whole` sees of an object (std_fillers.py:261-272): `numerator` is the object `v.numerator`, a real number is passed
on itself, for a complex number `re` is `v.real`. -/
inductive NumObj (W : World)
  | rational (numerator : W.Obj) (num : Int) (den : Nat)
  | real (v : W.Obj) (r : Rat)
  | complex (re : NumObj W) (imZero : Bool)
  | other

/-- forget the objects -/
def NumObj.num : NumObj W → Num
  | .rational _ n d => .rational n d
  | .real _ r => .real r
  | .complex re z => .complex re.num z
  | .other => .other

/-- `Whole.func_args` (std_fillers.py:261-272) -/
def wholeCall (c : W.Cls) (args : List W.Obj) (kw : List (String × W.Obj)) : NumObj W → M W W.Obj
  | .rational o _ d => if d = 1 then M.lift (W.construct c (o :: args) kw) else M.throw .typeError
  | .real o r =>
    match floatMod r 1 with
    | .error e => M.throw e
    | .ok mod => if isclose mod 0 || isclose mod 1 then M.lift (W.construct c (o :: args) kw) else M.throw .typeError
  | .complex re z => if z then wholeCall c args kw re else M.throw .typeError
  | .other => M.throw .typeError

/-- `ToBytes.func_args` (std_fillers.py:280-290): the target type is called with the bytes only; `ofBytes` makes the bytes
object, `v` is the value of an `Integral` input -/
def toBytesCall (ofBytes : List Nat → W.Obj) (c : W.Cls) (length : Option Nat) (little signed : Bool) (v : Option Int) :
    M W W.Obj :=
  match toBytesArg length little signed v with
  | .error e => M.throw e
  | .ok b => M.lift (W.construct c [ofBytes b] [])

/-! ### Binding of the evaluating tokens -/

/-- one of `int, str, float, complex, set, tuple, dict, list, bool` (std_fillers.py:63): given as a predicate -/
structure LiteralTypes (W : World) where
  mem : W.Cls → Bool

/-- `LiteralEval.__call__` (std_fillers.py:62-74): refuses other targets; `run` is the loop -/
def literalEvalTok (L : LiteralTypes W) (run : Coercer W) : CTok W :=
  .coercer fun o => match o with
    | some c => if L.mem c then .ok run else .error .typeError
    | none => .error .typeError

/-- `Eval.__init__` (std_fillers.py:23-37): `kwargs` updated with the positional objects by their `__name__` (in order);
`bound`: the first positional argument was `...` -/
structure EvalTok (W : World) where
  bound : Bool
  ns : Dict W.Obj

/-- a positional argument of `Eval`: `...`, or an object with its `__name__` (none: it has no name) -/
inductive EvalArg (W : World)
  | dots
  | named (name : Option String) (o : W.Obj)

/-- `self.kwargs.update((k.__name__, k) for k in args)` (std_fillers.py:35-37); an Ellipsis has no `__name__` -/
def evalUpdate (ns : Dict W.Obj) : List (EvalArg W) → Except Exc (Dict W.Obj)
  | [] => .ok ns
  | .named (some n) o :: l => evalUpdate (ns.set n o) l
  | .named none _ :: _ => .error .attributeError
  | .dots :: _ => .error .attributeError

/-- `Eval(*args, **kwargs)` (std_fillers.py:23-37) -/
def evalMake (args : List (EvalArg W)) (kw : Dict W.Obj) : Except Exc (EvalTok W) :=
  match args with
  | .dots :: l => (evalUpdate kw l).map fun ns => ⟨true, ns⟩
  | l => (evalUpdate kw l).map fun ns => ⟨false, ns⟩

/-- The namespace in which a field evaluates (std_fillers.py:39-42): with `...` the target by its `__name__` is put on top
(`name`, `obj` of the origin; no name: AttributeError). -/
def EvalTok.namespace (t : EvalTok W) (origin : EvalArg W) : Except Exc (Dict W.Obj) :=
  if t.bound then evalUpdate t.ns [origin] else .ok t.ns

/-- The namespaces alive in a program: a token keeps one dict object (std_fillers.py:34); a cell of this store is one such
object.  `eval(v, {'__builtins__': ns})` (std_fillers.py:48) hands the very dict to the expression, which can change it
through the name `__builtins__`. -/
structure NsStore (W : World) where
  cells : Nat → Dict W.Obj
  next : Nat

/-- `Eval.__call__` (std_fillers.py:39-54), the namespace object of the bound field: the token's own (cell `cell`), or with
`...` a new dict `{**self.kwargs, origin.__name__: origin}`. -/
def evalBind (dots : Bool) (cell : Nat) (name : String) (origin : W.Obj) (st : NsStore W) : Nat × NsStore W :=
  if dots then
    (st.next, ⟨fun i => if i = st.next then (st.cells cell).set name origin else st.cells i, st.next + 1⟩)
  else (cell, st)

/-- One coercion by a field bound to the namespace `cell` (std_fillers.py:44-52).  `ev` is `eval`: given the expression and
the namespace it returns or raises, leaving the namespace possibly changed.  The input is a string (others: `evalCoercer`);
effects on anything but the namespace are not modelled here. -/
def evalIn (ev : String → Dict W.Obj → Except Exc W.Obj × Dict W.Obj) (cell : Nat) (v : String) (st : NsStore W) :
    Except Exc W.Obj × NsStore W :=
  let (r, ns) := ev v (st.cells cell)
  (match r with
    | .ok w => .ok w
    | .error e => .error (if e.isException then .typeError else e),
   { st with cells := fun i => if i = cell then ns else st.cells i })

/-! ### Type constraints (`constrain`) -/

/-- The second argument of `isinstance`: a class, a tuple (nested), or something else. -/
inductive Info (W : World)
  | cls (c : W.Cls)
  | tuple (l : List (Info W))
  | bad

mutual
/-- `isinstance(v, info)`: tuples are searched left to right up to the first hit; a non-class raises TypeError when reached -/
def Info.check (v : W.Obj) : Info W → Except Exc Bool
  | .cls c => .ok (W.isInstance v c)
  | .bad => .error .typeError
  | .tuple l => Info.checkAny v l
/-- the search in a tuple -/
def Info.checkAny (v : W.Obj) : List (Info W) → Except Exc Bool
  | [] => .ok false
  | i :: l => match Info.check v i with
    | .error e => .error e
    | .ok true => .ok true
    | .ok false => Info.checkAny v l
end

/-- is the constraint itself true in a condition (std_fillers.py:127)? All but the empty tuple -/
def Info.truth : Info W → Bool
  | .tuple l => !l.isEmpty
  | _ => true

/-- `Loose.constrain(item)` (std_fillers.py:131-149): the check `isinstance(None, item)`; `none` is the object None -/
def looseConstrain (none : W.Obj) (item : Info W) : Except Exc (Info W) :=
  match item.check none with
  | .error e => .error e
  | .ok _ => .ok item

/-- `Loose.func_args` with such a constraint (std_fillers.py:126-129) -/
def looseInfo (item : Info W) (c : W.Cls) (args : List W.Obj) (kw : List (String × W.Obj)) (v : W.Obj) : M W W.Obj :=
  if item.truth then
    match item.check v with
    | .error e => M.throw e
    | .ok b => if b then M.lift (W.construct c (v :: args) kw) else M.throw .typeError
  else M.lift (W.construct c (v :: args) kw)

/-- an argument of `LooseUnpack.constrain`: a constraint or `...` -/
inductive UItem (W : World)
  | info (i : Info W)
  | dots

/-- `isinstance(None, i)` for every item -/
def unpackCheck (none : W.Obj) : List (UItem W) → Except Exc (List (Info W))
  | [] => .ok []
  | .dots :: _ => .error .typeError
  | .info i :: l => match i.check none with
    | .error e => .error e
    | .ok _ => match unpackCheck none l with
      | .error e => .error e
      | .ok r => .ok (i :: r)

/-- the stored constraints of a `LooseUnpack` (std_fillers.py:165-171): the same for every element, or one per element -/
inductive UnpackInfo (W : World)
  | each (i : Info W)
  | fixed (l : List (Info W))

/-- `LooseUnpack.constrain(*items)` (std_fillers.py:175-198) -/
def looseUnpackConstrain (none : W.Obj) (items : List (UItem W)) : Except Exc (UnpackInfo W) :=
  match items with
  | [.info i, .dots] => match i.check none with
    | .error e => .error e
    | .ok _ => .ok (.each i)
  | [.dots, .dots] => .error .typeError
  | l => (unpackCheck none l).map .fixed

/-- `any(not isinstance(i, t) for (i, t) in ...)` -/
def anyNot : List (W.Obj × Info W) → Except Exc Bool
  | [] => .ok false
  | (v, i) :: l => match i.check v with
    | .error e => .error e
    | .ok false => .ok true
    | .ok true => anyNot l

/-- `LooseUnpack.func_args` with such a constraint (std_fillers.py:163-173) -/
def looseUnpackInfo (u : UnpackInfo W) (c : W.Cls) (args : List W.Obj) (kw : List (String × W.Obj)) (v : W.Obj) : M W W.Obj :=
  if !W.isIterable v then M.throw .typeError
  else
    let bad : Except Exc Bool := match u with
      | .each i => anyNot ((W.elems v).map fun e => (e, i))
      | .fixed l => if (W.elems v).length ≠ l.length then .ok true else anyNot ((W.elems v).zip l)
    match bad with
    | .error e => M.throw e
    | .ok true => M.throw .typeError
    | .ok false => M.lift (W.construct c (W.elems v ++ args) kw)

/-- the loop over the values in `LooseUnpackMap.constrain` (std_fillers.py:227-228) -/
def mapConCheck (none : W.Obj) : Dict (Info W) → Except Exc Unit
  | [] => .ok ()
  | (_, i) :: l => match i.check none with
    | .error e => .error e
    | .ok _ => mapConCheck none l

/-- `LooseUnpackMap.constrain(**items)` (std_fillers.py:219-236); the keyword `cls` clashes with the parameter of the class method -/
def looseMapConstrain (none : W.Obj) (items : Dict (Info W)) : Except Exc (Dict (Info W)) :=
  if items.any (fun p => p.1 == "cls") then .error .typeError
  else match mapConCheck none items with
    | .error e => .error e
    | .ok _ => .ok items

/-- the constraint loop of `LooseUnpackMap.func_args` (std_fillers.py:213-216) -/
def unpackMapInfo (cons : Dict (Info W)) : List (W.Obj × W.Obj) → Except Exc Unit
  | [] => .ok ()
  | (k, a) :: l =>
    match (W.strOf k).bind (fun n => Dict.get? cons n) with
    | none => .error .typeError
    | some i => match i.check a with
      | .error e => .error e
      | .ok false => .error .typeError
      | .ok true => unpackMapInfo cons l

/-- `LooseUnpackMap.func_args` with such a constraint (std_fillers.py:211-217) -/
def looseMapInfo (cons : Dict (Info W)) (c : W.Cls) (args : List W.Obj) (kw : List (String × W.Obj)) (v : W.Obj) : M W W.Obj :=
  if !W.isMapping v then M.throw .attributeError
  else match unpackMapInfo cons (W.items v) with
    | .error e => M.throw e
    | .ok _ => looseUnpackMap.call c args kw v

end Records
