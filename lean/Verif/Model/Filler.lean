import Verif.Model.Coercers
/-
Model of records/fillers/filler.py, get_filler.py and builtin_fillers/{std_fillers,typing_fillers}.py: filler objects,
their construction from a type hint, application of tokens, binding and filling.
-/
namespace Records
variable {W : World}

/-- `TypeCheckStyle` (filler.py:44-58) -/
inductive Style
  | default
  | hollow
  | check
  | checkStrict
  deriving DecidableEq, Repr

/-- `TypePassKind` (filler.py:61-68) -/
inductive TPK
  | noCoerceStrict
  | noCoerce
  | coerce
  | hollow
  deriving DecidableEq, Repr

/-- the integer value of the `IntEnum` (filler.py:65-68) -/
def TPK.rank : TPK → Nat
  | .noCoerceStrict => 0
  | .noCoerce => 1
  | .coerce => 2
  | .hollow => 3

/-- What `type_check` returns: `TypeMatch.exact`, `TypeMatch.inexact`, `None`, or `False` (filler.py:143-154; the
fillers for None, Ellipsis, callables and literals return `False` instead of `None`). -/
inductive TC
  | exact
  | inexact
  | none
  | false
  deriving DecidableEq, Repr

/-- The concrete subclasses of `AnnotatedFiller` with their origin:
`SimpleFiller`/`BoolFiller` (std_fillers.py:239, 300), `NoneFiller` (331), `EllipsisFiller` (340), `CallableFiller`
(349), `LiteralFiller` (typing_fillers.py:89; `id` identifies the filler object, `vals` its literals). -/
inductive Kind (W : World)
  | simple (c : W.Cls) (isBool : Bool)
  | noneF (c : W.Cls)
  | ellipsisF (c : W.Cls)
  | callable
  | literal (id : Nat) (vals : List W.Obj)

/-- `self.origin`, as far as tokens look at it: a class or something else -/
def Kind.origin : Kind W → Option W.Cls
  | .simple c _ => some c
  | .noneF c => some c
  | .ellipsisF c => some c
  | .callable => none
  | .literal _ _ => none

/-- is it a `BoolFiller`? -/
def Kind.isBool : Kind W → Bool
  | .simple _ b => b
  | _ => false

/-- the keys of `LiteralFiller.possible_values` in the current state (typing_fillers.py:94-98, 111) -/
def litKeys (id : Nat) (vals : List W.Obj) (s : LState W) : List W.Cls := vals.map W.typeOf ++ s.lit id

/-- `type_check`: SimpleFiller (std_fillers.py:244-247), NoneFiller (336-337), EllipsisFiller (345-346),
CallableFiller (354-355), LiteralFiller (typing_fillers.py:100-103). Reads the state, does not change it. -/
def Kind.typeCheck (k : Kind W) (v : W.Obj) (s : LState W) : TC :=
  match k with
  | .simple c _ => if W.typeOf v = c then .exact else if W.isInstance v c then .inexact else .none
  | .noneF _ => if W.isNone v then .exact else .false
  | .ellipsisF _ => if W.isEllipsis v then .exact else .false
  | .callable => if W.isCallable v then .exact else .false
  | .literal id vals =>
    if W.typeOf v ∈ litKeys id vals s then .exact
    else if W.isInstanceAny v (litKeys id vals s) then .inexact else .false

/-- The objects that may be listed in `Annotated[T, ...]` or applied in `pre_bind`, as `AnnotatedFiller.apply` sees them
through `_as_instance` (filler.py:226-238, util.py:6-20).
* `coercion`: a coercion token, a coercion token class, or *any* object with a `__wrapped__` attribute (which is called,
  and whose result is used as coercion token).
* `validation`: a validation token (class).
* `raises`: instantiating the token raises.
* `other`: anything else, in particular tags; ignored by fillers. -/
inductive Tok (W : World)
  | style (s : Style)
  | coercion (t : CTok W)
  | validation (f : Option W.Cls → Except Exc (Coercer W))
  | raises (e : Exc)
  | tag (n : Nat)
  | other

/-- an `AnnotatedFiller` object (filler.py:162-175) -/
structure Ann (W : World) where
  kind : Kind W
  args : List (Tok W)
  style : Style := .default
  coercers : List (Coercer W) := []
  validators : List (Coercer W) := []
  bound : Bool := false

/-- `AnnotatedFiller.apply` (filler.py:226-238), with `Filler.apply` (125-131) -/
def Ann.apply (a : Ann W) (t : Tok W) : Except Exc (Ann W) :=
  if a.bound then .error .runtimeError
  else
    match t with
    | .style s => .ok { a with style := s }
    | .coercion ct => match getCoercer a.kind.isBool a.kind.origin ct with
      | .ok c => .ok { a with coercers := a.coercers ++ [c] }
      | .error e => .error e
    | .validation f => match f a.kind.origin with
      | .ok c => .ok { a with validators := a.validators ++ [c] }
      | .error e => .error e
    | .raises e => .error e
    | .tag _ => .ok a
    | .other => .ok a

/-- `for arg in args: self.apply(arg)` -/
def Ann.applyAll (a : Ann W) : List (Tok W) → Except Exc (Ann W)
  | [] => .ok a
  | t :: ts => match a.apply t with
    | .ok a' => a'.applyAll ts
    | .error e => .error e

/-- `LiteralFiller.bind.inner_validator` (typing_fillers.py:108-113): the defaultdict lookup inserts the type, then
membership in the set of literals of that type (unhashable values raise TypeError). -/
def literalValidator (id : Nat) (vals : List W.Obj) : Coercer W := fun v s =>
  let s' : LState W := if W.typeOf v ∈ litKeys id vals s then s
    else { s with lit := fun i => if i = id then s.lit id ++ [W.typeOf v] else s.lit i }
  if !W.hashable v then (.error .typeError, s')
  else if vals.any (fun p => decide (W.typeOf p = W.typeOf v) && (decide (p = v) || W.eq p v)) then (.ok v, s')
  else (.error .valueError, s')

/-- `AnnotatedFiller.bind` after the tokens were applied (filler.py:215-219): refuse a second bind, resolve the style
(`d` is `owner_cls.default_type_check_style()`), refuse coercers on a hollow filler -/
def Ann.bindBase (a : Ann W) (d : Style) : Except Exc (Ann W) :=
  if a.bound then .error .runtimeError
  else
    let st := if a.style = Style.default then d else a.style
    if st = Style.hollow ∧ !a.coercers.isEmpty then .error .valueError
    else .ok { a with bound := true, style := st }

/-- the rest of `SimpleFiller.bind` (std_fillers.py:249-253; also of its subclasses) and `LiteralFiller.bind`
(typing_fillers.py:105-113) -/
def Ann.bindKind (a : Ann W) : Except Exc (Ann W) :=
  match a.kind with
  | .simple c _ | .noneF c | .ellipsisF c =>
    if a.style = Style.checkStrict ∧ W.isAbstract c then .error .typeError else .ok a
  | .callable => .ok a
  | .literal id vals =>
    if a.style = Style.hollow then .ok a
    else .ok { a with validators := a.validators ++ [literalValidator id vals] }

/-- `bind` of the `AnnotatedFiller` classes: the `Annotated` arguments are applied first (filler.py:212-214) -/
def Ann.bind (a : Ann W) (d : Style) : Except Exc (Ann W) :=
  match a.applyAll a.args with
  | .error e => .error e
  | .ok a => match a.bindBase d with
    | .error e => .error e
    | .ok a => a.bindKind

/-- the post-coercion test (filler.py:196-197): only `None`, and `inexact` outside `check`, are failures -/
def TC.badAfterCoercion (tc : TC) (st : Style) : Bool :=
  match tc with
  | .none => true
  | .inexact => st ≠ .check
  | .exact => Bool.false
  | .false => Bool.false

/-- the coercion loop (filler.py:192-203); `arg` is overwritten by each coercer that returns -/
def coerceLoop (k : Kind W) (st : Style) : List (Coercer W) → W.Obj → M W W.Obj
  | [], v => M.pure v
  | c :: cs, v => fun s =>
    match c v s with
    | (.ok w, s') =>
      if (k.typeCheck w s').badAfterCoercion st then
        if cs.isEmpty then (.error .typeError, s') else coerceLoop k st cs w s'
      else (.ok w, s')
    | (.error e, s') =>
      if e.isException then
        if cs.isEmpty then (.error e, s') else coerceLoop k st cs v s'
      else (.error e, s')

/-- the validation loop (filler.py:207-210) -/
def validate (vs : List (Coercer W)) (v : W.Obj) (k : TPK) : M W (W.Obj × TPK) :=
  M.bind (M.foldM (fun f v => f v) vs v) fun w => M.pure (w, k)

/-- `AnnotatedFiller.fill` (filler.py:177-210); filling with style `default` raises a bare `Exception` -/
def Ann.fill (a : Ann W) (v : W.Obj) : M W (W.Obj × TPK) :=
  match a.style with
  | .default => M.throw ⟨.user 0, none⟩
  | .hollow => validate a.validators v .hollow
  | st => fun s =>
    let tc := a.kind.typeCheck v s
    if tc = .exact then validate a.validators v .noCoerceStrict s
    else if tc = .inexact ∧ st = .check then validate a.validators v .noCoerce s
    else if a.coercers.isEmpty then (.error .typeError, s)
    else M.bind (coerceLoop a.kind st a.coercers v) (fun w => validate a.validators w .coerce) s

/-- `AnnotatedFiller.__call__` (filler.py:221-224) -/
def Ann.call (a : Ann W) (v : W.Obj) : M W W.Obj :=
  if a.style = .hollow ∧ a.validators.isEmpty then M.pure v
  else M.bind (a.fill v) fun r => M.pure r.1

/-! ### Unions -/

/-- the loop of `UnionFiller.fill` (typing_fillers.py:51-65) and the decision after it (67-70) -/
def unionLoop (v : W.Obj) : List (W.Obj → M W (W.Obj × TPK)) → List W.Obj → Option TPK → M W (W.Obj × TPK)
  | [], best, key =>
    match best, key with
    | b :: bs, some k => if bs.any (fun r => decide (r ≠ b)) then M.throw .valueError else M.pure (b, k)
    | _, _ => M.throw .indexError
  | f :: fs, best, key => fun s =>
    match f v s with
    | (.ok (x, k), s') =>
      match key with
      | none => unionLoop v fs [x] (some k) s'
      | some bk =>
        if k.rank < bk.rank then unionLoop v fs [x] (some k) s'
        else if k.rank = bk.rank then unionLoop v fs (best ++ [x]) (some bk) s'
        else unionLoop v fs best (some bk) s'
    | (.error e, s') =>
      if !e.isException then (.error e, s')
      else if best.isEmpty && fs.isEmpty then (.error e, s')
      else unionLoop v fs best key s'

/-! ### Containers -/

/-- The element loop shared by the container validators (typing_fillers.py:183-196, 212-226, 278-292): every element is
filled until one changes; then the container is rebuilt from the unchanged prefix, the changed element and the lazily
filled rest, which is a generator. `drains` tells whether the class constructor consumes the iterator; if not, the rest is not filled and the
constructor sees only an iterator object (`Lazy` has constructors that stop in between). `fs` gives the filler of each position. -/
def elemLoop (drains : Bool) (rebuild : List W.Obj → M W W.Obj) (v : W.Obj) :
    List (W.Obj × (W.Obj → M W W.Obj)) → List W.Obj → M W W.Obj
  | [], _ => M.pure v
  | (e, f) :: es, pre => M.bind (f e) fun w =>
    if w = e then elemLoop drains rebuild v es (pre ++ [e])
    else if drains then M.bind (M.generator (M.mapM (fun p => p.2 p.1) es)) fun ws => rebuild (pre ++ w :: ws)
    else rebuild []

/-- `GenericIterableFiller` (typing_fillers.py:278-292) and variadic tuples (183-196); `rebuild` is
`type(v)(elements)` (typing_fillers.py:267), for a deque `type(v)(elements, v.maxlen)` (typing_fillers.py:306) -/
def iterValidator (deque : Bool) (f : W.Obj → M W W.Obj) : Coercer W := fun v =>
  elemLoop (W.drains (W.typeOf v))
    (fun l => M.lift (if deque then W.mkDeque (W.typeOf v) l (W.maxlen v) else W.mkIter (W.typeOf v) l)) v
    ((W.elems v).map fun e => (e, f)) []

/-- the length check of a fixed-length tuple (typing_fillers.py:198-203) -/
def tupleLenValidator (n : Nat) : Coercer W := fun v =>
  if (W.elems v).length ≠ n then M.throw .valueError else M.pure v

/-- the per-position check of a fixed-length tuple (typing_fillers.py:205-226) -/
def tupleValidator (fs : List (W.Obj → M W W.Obj)) : Coercer W := fun v =>
  elemLoop (W.drains (W.typeOf v)) (fun l => M.lift (W.mkIter (W.typeOf v) l)) v ((W.elems v).zip fs) []

/-- `GenericMappingFiller.bind.inner_validator` (typing_fillers.py:338-351); `dd`: `DefaultDictFiller`
(typing_fillers.py:366-367) -/
def mapValidator (dd : Bool) (fk fv : W.Obj → M W W.Obj) : Coercer W := fun v =>
  M.bind (M.mapM (fun (p : W.Obj × W.Obj) => M.bind (fk p.1) fun a => M.bind (fv p.2) fun b => M.pure (a, b)) (W.items v))
    fun l =>
      if ((W.items v).zip l).any (fun q => decide (q.1.1 ≠ q.2.1) || decide (q.1.2 ≠ q.2.2)) then
        M.lift (if dd then W.mkDefaultDict (W.typeOf v) (W.defaultFactory v) l else W.mkMap (W.typeOf v) l)
      else M.pure v

/-- `TypeFiller.bind.inner_validator` (typing_fillers.py:152-156); `issubclass` raises TypeError if one argument is no
class (`base = none`: the parameter of `Type[...]` is no class, e.g. a union) -/
def typeValidator (base : Option W.Cls) : Coercer W := fun v =>
  match W.asClass v, base with
  | some c, some b => if W.isSub c b then M.pure v else M.throw .valueError
  | _, _ => M.throw .typeError

/-- Subclasses of `WrapperFiller` (typing_fillers.py:116-388): `TypeFiller`, `TupleFiller` (fixed length / variadic),
`GenericIterableFiller`, `GenericDequeFiller`, `GenericMappingFiller`, `DefaultDictFiller`, `GenericFillerN`. -/
inductive WrapKind (W : World)
  | typeF (base : Option W.Cls)
  | tupleFix
  | tupleVar
  | iter
  | deque
  | mapping
  | defaultdict
  | generic

/-- Filler objects.
* `dumb`: `DumbFiller` (get_filler.py:7-28)
* `failing e`: not an object of the library; stands for a parameter of a `GenericFillerN` whose filler cannot be created:
  that happens when the `GenericFillerN` is bound (typing_fillers.py:382).
* `ann`: `AnnotatedFiller`
* `union args applied subs`: `UnionFiller` (typing_fillers.py:21-35)
* `wrap k inner subs`: `WrapperFiller` around a plain filler with sub-fillers
`bound` is `bool(self.owner)`. -/
inductive F (W : World)
  | dumb (bound : Bool)
  | failing (e : Exc)
  | ann (a : Ann W)
  | union (bound : Bool) (args applied : List (Tok W)) (subs : List (F W))
  | wrap (bound : Bool) (k : WrapKind W) (inner : Ann W) (subs : List (F W))

mutual
/-- `is_hollow` (filler.py:271-272; get_filler.py:27-28; typing_fillers.py:80-81, 132-133) -/
def F.isHollow : F W → Bool
  | .dumb _ => true
  | .failing _ => true
  | .ann a => a.style = .hollow
  | .union _ _ _ subs => F.allHollow subs
  | .wrap _ _ inner _ => inner.style = .hollow
/-- `all(sf.is_hollow() for sf in sub_fillers)` -/
def F.allHollow : List (F W) → Bool
  | [] => true
  | f :: fs => f.isHollow && F.allHollow fs
end

mutual
/-- `fill`: DumbFiller (get_filler.py:16-17), AnnotatedFiller (filler.py:177-210), UnionFiller
(typing_fillers.py:37-70), WrapperFiller (typing_fillers.py:125-126) -/
def F.fill : F W → W.Obj → M W (W.Obj × TPK)
  | .dumb _ => fun v => M.pure (v, .hollow)
  | .failing e => fun _ => M.throw e
  | .ann a => a.fill
  | .union _ _ _ subs => fun v =>
    if F.allHollow subs then M.pure (v, .hollow) else unionLoop v (F.fills subs) [] none
  | .wrap _ _ inner _ => inner.fill
/-- the `fill` methods of a list of fillers -/
def F.fills : List (F W) → List (W.Obj → M W (W.Obj × TPK))
  | [] => []
  | f :: fs => f.fill :: F.fills fs
end

/-- `__call__` (filler.py:133-140, 221-224) -/
def F.call (f : F W) (v : W.Obj) : M W W.Obj :=
  match f with
  | .ann a => a.call v
  | f => M.bind (f.fill v) fun r => M.pure r.1

/-- `apply`: DumbFiller (get_filler.py:24-25), AnnotatedFiller, UnionFiller (typing_fillers.py:33-35),
WrapperFiller (typing_fillers.py:135-136) -/
def F.apply (f : F W) (t : Tok W) : Except Exc (F W) :=
  match f with
  | .dumb _ => .error .typeError
  | .failing e => .ok (.failing e)
  | .ann a => (a.apply t).map .ann
  | .union bound args applied subs =>
    if bound then .error .runtimeError else .ok (.union bound args (applied ++ [t]) subs)
  | .wrap bound k inner subs => (inner.apply t).map fun i => .wrap bound k i subs

/-- `for t in tokens: f.apply(t)` -/
def F.applyAll (f : F W) : List (Tok W) → Except Exc (F W)
  | [] => .ok f
  | t :: ts => match f.apply t with
    | .ok f' => f'.applyAll ts
    | .error e => .error e

/-- `self.inner_filler.validators.append(f)` -/
def Ann.addValidator (a : Ann W) (f : Coercer W) : Ann W := { a with validators := a.validators ++ [f] }

/-- The part of the wrapper `bind` methods after the inner filler and the sub-fillers were bound: check for
non-hollow sub-fillers in a hollow filler, and append the structural validators.
TypeFiller (typing_fillers.py:148-156), TupleFiller (172-226), GenericIterableFiller (269-292), GenericMappingFiller
(329-351), GenericFillerN (379-386).
Simplification: if several sub-fillers of a `GenericFillerN` are illegal, which of their exceptions is raised may differ. -/
def wrapFinish (k : WrapKind W) (inner : Ann W) (subs : List (F W)) : Except Exc (Ann W) :=
  match k with
  | .typeF base => .ok (if inner.style = .hollow then inner else inner.addValidator (typeValidator base))
  | .tupleFix =>
    let inner1 := if inner.style = .hollow then inner else inner.addValidator (tupleLenValidator subs.length)
    if F.allHollow subs then .ok inner1
    else if inner.style = .hollow then .error .typeError
    else .ok (inner1.addValidator (tupleValidator (subs.map F.call)))
  | .tupleVar | .iter | .deque =>
    match subs with
    | [f] =>
      if f.isHollow then .ok inner
      else if inner.style = .hollow then .error .typeError
      else .ok (inner.addValidator (iterValidator (match k with | .deque => true | _ => false) f.call))
    | _ => .ok inner
  | .mapping | .defaultdict =>
    match subs with
    | [fk, fv] =>
      if fk.isHollow && fv.isHollow then .ok inner
      else if inner.style = .hollow then .error .typeError
      else .ok (inner.addValidator (mapValidator (match k with | .defaultdict => true | _ => false) fk.call fv.call))
    | _ => .ok inner
  | .generic => if F.allHollow subs then .ok inner else .error .typeError

mutual
/-- `bind`: DumbFiller (get_filler.py:19-22), AnnotatedFiller, UnionFiller (typing_fillers.py:72-78), WrapperFiller
(typing_fillers.py:128-130) and its subclasses; `Filler.bind` refuses a second bind (filler.py:107-115) -/
def F.bind (d : Style) : F W → Except Exc (F W)
  | .dumb bound =>
    if bound then .error .runtimeError else if d ≠ .hollow then .error .typeError else .ok (.dumb true)
  | .failing e => .error e
  | .ann a => (a.bind d).map .ann
  | .union bound args applied subs =>
    if bound then .error .runtimeError
    else match F.bindUnion d (args ++ applied) subs with
      | .ok subs' => .ok (.union true args applied subs')
      | .error e => .error e
  | .wrap bound k inner subs =>
    if bound then .error .runtimeError
    else match inner.bind d with
      | .error e => .error e
      | .ok inner' => match F.bindAll d subs with
        | .error e => .error e
        | .ok subs' => match wrapFinish k inner' subs' with
          | .error e => .error e
          | .ok inner'' => .ok (.wrap true k inner'' subs')
/-- bind a list of sub-fillers -/
def F.bindAll (d : Style) : List (F W) → Except Exc (List (F W))
  | [] => .ok []
  | f :: fs => match f.bind d with
    | .error e => .error e
    | .ok f' => match F.bindAll d fs with
      | .error e => .error e
      | .ok fs' => .ok (f' :: fs')
/-- for each union member: apply the tokens, then bind (typing_fillers.py:74-78). The tokens of the member are applied
by a function that keeps the member structurally smaller. -/
def F.bindUnion (d : Style) (toks : List (Tok W)) : List (F W) → Except Exc (List (F W))
  | [] => .ok []
  | f :: fs => match F.applyBind d toks f with
    | .error e => .error e
    | .ok f' => match F.bindUnion d toks fs with
      | .error e => .error e
      | .ok fs' => .ok (f' :: fs')
/-- `for t in toks: f.apply(t)` followed by `f.bind(owner)`; equals `F.applyAll` then `F.bind` (`applyBind_eq`), written
out per constructor so that the recursion is structural -/
def F.applyBind (d : Style) (toks : List (Tok W)) : F W → Except Exc (F W)
  | .dumb bound =>
    if toks ≠ [] then .error .typeError
    else if bound then .error .runtimeError else if d ≠ .hollow then .error .typeError else .ok (.dumb true)
  | .failing e => .error e
  | .ann a => match a.applyAll toks with
    | .error e => .error e
    | .ok a' => (a'.bind d).map .ann
  | .union bound args applied subs =>
    if bound then .error .runtimeError
    else match F.bindUnion d (args ++ (applied ++ toks)) subs with
      | .ok subs' => .ok (.union true args (applied ++ toks) subs')
      | .error e => .error e
  | .wrap bound k inner subs => match inner.applyAll toks with
    | .error e => .error e
    | .ok inner =>
      if bound then .error .runtimeError
      else match inner.bind d with
        | .error e => .error e
        | .ok inner' => match F.bindAll d subs with
          | .error e => .error e
          | .ok subs' => match wrapFinish k inner' subs' with
            | .error e => .error e
            | .ok inner'' => .ok (.wrap true k inner'' subs')
end

/-! ### From type hints to fillers -/

/-- Type hints as `get_filler` distinguishes them.
`cls`: a class; `none`: `None`; `any`: `Any`; `callable`: `callable`, `Callable`, `Callable[...]`; `newType`; `union`;
`literal id vals`; `typeBare`: `Type`; `typeOf`: `Type[B]`; `tupleFix`: `Tuple[A, B, ...]`; `tupleVar`: `Tuple[A, ...]`;
`iter c h`: `List[h]`, `Set[h]`, `Sequence[h]`, ... with origin class `c`; `deque`, `mapping`, `defaultdict`;
`generic c hs`: one of the non-specialised generics (`Iterable[h]`, ...); `bareGeneric c`: a generic without
(non-TypeVar) parameters; `annotated`; `opaque`: anything else. -/
inductive Hint (W : World)
  | cls (c : W.Cls)
  | none
  | any
  | callable
  | newType (h : Hint W)
  | union (hs : List (Hint W))
  | literal (id : Nat) (vals : List W.Obj)
  | typeBare
  | typeOf (base : Option W.Cls)
  | tupleFix (hs : List (Hint W))
  | tupleVar (h : Hint W)
  | iter (c : W.Cls) (h : Hint W)
  | deque (c : W.Cls) (h : Hint W)
  | mapping (c : W.Cls) (k v : Hint W)
  | defaultdict (c : W.Cls) (k v : Hint W)
  | generic (c : W.Cls) (hs : List (Hint W))
  | bareGeneric (c : W.Cls)
  | annotated (h : Hint W) (toks : List (Tok W))
  | opaque

/-- the filler class for a class origin (get_filler.py:50-67, std_fillers.py:358-363): direct entries of the map, else
the first entry that is a superclass, in the order bool, NoneType, object -/
def classKind (c : W.Cls) : Kind W :=
  if c = W.boolCls then .simple c true
  else if c = W.noneCls then .noneF c
  else if c = W.ellipsisCls then .ellipsisF c
  else if c = W.objectCls then .simple c false
  else if W.isSub c W.boolCls then .simple c true
  else if W.isSub c W.noneCls then .noneF c
  else .simple c false

/-- a fresh `AnnotatedFiller` for a class -/
def classAnn (c : W.Cls) (args : List (Tok W)) : Ann W := { kind := classKind c, args := args }

mutual
/-- `get_filler(h)` is `getF h none` (get_filler.py:31-38: split off the `Annotated` arguments, then go on);
`get_annotated_filler(h, args)` is `getF h (some args)` (get_filler.py:41-70, typing_fillers.py:414-444,
std_fillers.py:368-377).  An `Annotated` hint reaches `get_annotated_filler` only as the supertype of a `NewType`; it is
not interpreted there. -/
def getF : Hint W → Option (List (Tok W)) → Except Exc (F W)
  | .cls c, args => .ok (.ann (classAnn c (args.getD [])))
  | .none, args => .ok (.ann (classAnn W.noneCls (args.getD [])))
  | .any, args => .ok (.ann (classAnn W.objectCls (args.getD [])))
  | .callable, args => .ok (.ann { kind := .callable, args := args.getD [] })
  | .newType h, args => getF h (some (args.getD []))
  | .union hs, args => match getFs hs with
    | .ok fs => .ok (.union false (args.getD []) [] fs)
    | .error e => .error e
  | .literal id vals, args => .ok (.ann { kind := .literal id vals, args := args.getD [] })
  | .typeBare, args => .ok (.ann (classAnn W.typeCls (args.getD [])))
  | .typeOf base, args => .ok (.wrap false (.typeF base) (classAnn W.typeCls (args.getD [])) [])
  | .tupleFix hs, args => match getFs hs with
    | .ok fs => .ok (.wrap false .tupleFix (classAnn W.tupleCls (args.getD [])) fs)
    | .error e => .error e
  | .tupleVar h, args => match getF h none with
    | .ok f => .ok (.wrap false .tupleVar (classAnn W.tupleCls (args.getD [])) [f])
    | .error e => .error e
  | .iter c h, args => match getF h none with
    | .ok f => .ok (.wrap false .iter (classAnn c (args.getD [])) [f])
    | .error e => .error e
  | .deque c h, args => match getF h none with
    | .ok f => .ok (.wrap false .deque (classAnn c (args.getD [])) [f])
    | .error e => .error e
  | .mapping c k v, args => match getF k none with
    | .error e => .error e
    | .ok fk => match getF v none with
      | .ok fv => .ok (.wrap false .mapping (classAnn c (args.getD [])) [fk, fv])
      | .error e => .error e
  | .defaultdict c k v, args => match getF k none with
    | .error e => .error e
    | .ok fk => match getF v none with
      | .ok fv => .ok (.wrap false .defaultdict (classAnn c (args.getD [])) [fk, fv])
      | .error e => .error e
  | .generic c hs, args => .ok (.wrap false .generic (classAnn c (args.getD [])) (getFsLate hs))
  | .bareGeneric c, args => .ok (.ann (classAnn c (args.getD [])))
  | .annotated h toks, none => getF h (some toks)
  | .annotated _ _, some args => if args.isEmpty then .ok (.dumb false) else .error .typeError
  | .opaque, args => if (args.getD []).isEmpty then .ok (.dumb false) else .error .typeError
/-- `tuple(get_filler(a) for a in args)` -/
def getFs : List (Hint W) → Except Exc (List (F W))
  | [] => .ok []
  | h :: hs => match getF h none with
    | .error e => .error e
    | .ok f => match getFs hs with
      | .error e => .error e
      | .ok fs => .ok (f :: fs)
/-- `[get_filler(it) for it in self.inner_types]` in `GenericFillerN.bind` (typing_fillers.py:382), deferred -/
def getFsLate : List (Hint W) → List (F W)
  | [] => []
  | h :: hs => (match getF h none with | .ok f => f | .error e => .failing e) :: getFsLate hs
end

/-- `get_filler` (get_filler.py:31-38) -/
def getFiller (h : Hint W) : Except Exc (F W) := getF h none

/-! ### sub-fillers -/

/-- Python's `seq[i]` index: negative counts from the end; IndexError if out of range -/
def pyIndex (n : Nat) (i : Int) : Option Nat :=
  if 0 ≤ i ∧ i < n then some i.toNat
  else if i < 0 ∧ -i ≤ n then some (n - (-i).toNat)
  else none

/-- Replace sub-filler `key` by the result of `g` (`RecordField._apply_to_filler`, field.py:128-130, which mutates the
sub-filler found by `sub_filler`): Filler (filler.py:87-96), UnionFiller (typing_fillers.py:83-86), TupleFiller (228-231),
GenericIterableFiller (294-297), GenericMappingFiller (353-358). -/
def F.withSub (f : F W) (key : Option Int) (g : F W → Except Exc (F W)) : Except Exc (F W) :=
  match key with
  | none => g f
  | some i =>
    match f with
    | .union b args app subs => at_ subs (pyIndex subs.length i) (.union b args app)
    | .wrap b k inner subs =>
      match k with
      | .tupleFix | .tupleVar => at_ subs (pyIndex subs.length i) (.wrap b k inner)
      | .iter | .deque => if i = 0 then at_ subs (some 0) (.wrap b k inner) else .error .lookupError
      | .mapping | .defaultdict =>
        if i = 0 then at_ subs (some 0) (.wrap b k inner)
        else if i = 1 then at_ subs (some 1) (.wrap b k inner) else .error .lookupError
      | .typeF _ | .generic => .error .lookupError
    | _ => .error .lookupError
where
  /-- mutate the sub-filler at an index -/
  at_ (subs : List (F W)) (j : Option Nat) (re : List (F W) → F W) : Except Exc (F W) :=
    match j with
    | none => .error .indexError
    | some j => match subs[j]? with
      | none => .error .indexError
      | some s => match g s with
        | .ok s' => .ok (re (subs.set j s'))
        | .error e => .error e

/-- `RecordField._apply_to_filler` (field.py:128-130) -/
def F.applySub (f : F W) (key : Option Int) (t : Tok W) : Except Exc (F W) := f.withSub key fun g => g.apply t

/-! ### The filler of a field, from declaration to use -/

/-- A leaf filler of kind `k` with tokens `pre` applied in `pre_bind` and `args` listed in `Annotated`, bound to a class
with default style `d` (record.py:147-152; filler.py:212-219). -/
def Ann.make (d : Style) (k : Kind W) (pre args : List (Tok W)) : Except Exc (Ann W) :=
  match Ann.applyAll { kind := k, args := args } pre with
  | .error e => .error e
  | .ok a => a.bind d

/-- the tokens applied to a field (or to one of its sub-fillers) in `pre_bind` (field.py:128-130, 159, 189, 219) -/
def F.applyPre (f : F W) : List (Option Int × Tok W) → Except Exc (F W)
  | [] => .ok f
  | (key, t) :: ts => match f.applySub key t with
    | .ok f' => f'.applyPre ts
    | .error e => .error e

/-- The filler of a field declared with hint `h` in a class with default style `d`, with the tokens `pre` applied in
`pre_bind`: `get_filler` (field.py:122), `pre_bind`, then `bind` (record.py:147-152). -/
def makeFiller (d : Style) (pre : List (Option Int × Tok W)) (h : Hint W) : Except Exc (F W) :=
  match getFiller h with
  | .error e => .error e
  | .ok f => match f.applyPre pre with
    | .error e => .error e
    | .ok f => f.bind d

end Records
