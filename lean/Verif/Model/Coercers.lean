import Verif.Model.World
import Verif.Model.Floats
/-
Model of records/fillers/coercers.py and of the coercion tokens of records/fillers/builtin_fillers/std_fillers.py.
-/
namespace Records

/-- A coercion callback: user code. -/
abbrev Coercer (W : World) := W.Obj → M W W.Obj

/-- A coercion token.
* `coercer f`: any token that does not consult the filler (`CallCoercion`, `MapCoercion`, `ClassMethodCoercion`, `Eval`,
  `Loose`, ..., user tokens): called with the origin it gives a callback or raises
  (coercers.py:59-60, 84-85, 103-109; std_fillers.py:39-54, 62-74, 101-113).  The origin is `some c` for a class,
  `none` for anything else.
* `fromInteger`: `FromInteger` (std_fillers.py:293-297), understood only by the bool filler; not callable.
* `compose`: `ComposeCoercer` (coercers.py:112-126).
* `notToken`: what `_as_instance` makes of an object that is no coercion token, `None` (util.py:6-20). -/
inductive CTok (W : World) : Type
  | coercer (f : Option W.Cls → Except Exc (Coercer W))
  | fromInteger
  | compose (ts : List (CTok W))
  | notToken

variable {W : World}

/-- the callback of `ComposeCoercer` for given functors (coercers.py:128-137): reversed, then a loop -/
def composeRun (fs : List (Coercer W)) (v : W.Obj) : M W W.Obj := M.foldM (fun f v => f v) fs.reverse v

/-- `BoolFiller._bool_from_int` (std_fillers.py:305-311) -/
def boolFromInt (v : W.Obj) : M W W.Obj :=
  if W.eq v W.zero then M.pure (W.bool false)
  else if W.eq v W.one then M.pure (W.bool true)
  else M.throw .typeError

mutual
/-- `AnnotatedFiller.get_coercer` (filler.py:249-258) and, with `isBool`, `BoolFiller.get_coercer`
(std_fillers.py:313-316) -/
def getCoercer (isBool : Bool) (origin : Option W.Cls) : CTok W → Except Exc (Coercer W)
  | .coercer f => f origin
  | .fromInteger => if isBool then .ok boolFromInt else .error .typeError
  | .notToken => .error .typeError
  | .compose ts => match getCoercers isBool origin ts with
    | .ok fs => .ok (composeRun fs)
    | .error e => .error e
/-- `[filler.get_coercer(t) for t in self.inner_coercers]` (coercers.py:129) -/
def getCoercers (isBool : Bool) (origin : Option W.Cls) : List (CTok W) → Except Exc (List (Coercer W))
  | [] => .ok []
  | t :: ts => match getCoercer isBool origin t with
    | .error e => .error e
    | .ok f => match getCoercers isBool origin ts with
      | .error e => .error e
      | .ok fs => .ok (f :: fs)
end

/-- lookup in a Python dict: `v in d` / `d[v]`; unhashable `v` raises TypeError -/
def pyLookup {β : Type} (d : List (W.Obj × β)) (v : W.Obj) : Except Exc (Option β) :=
  if W.hashable v then .ok ((d.find? fun kv => decide (kv.1 = v) || W.eq kv.1 v).map Prod.snd)
  else .error .typeError

/-- `MapCoercion.inner` (coercers.py:77-82) -/
def mapCoercion (valueMap : List (W.Obj × W.Obj)) (factoryMap : List (W.Obj × M W W.Obj)) (v : W.Obj) : M W W.Obj :=
  match pyLookup valueMap v with
  | .error e => M.throw e
  | .ok (some r) => M.pure r
  | .ok none => match pyLookup factoryMap v with
    | .error e => M.throw e
    | .ok (some f) => f
    | .ok none => M.throw .typeError

/-- The mapping a `MapCoercion` keeps (`value_map or {}`, coercers.py:68-75): a reference to a mapping that has entries when the
token is made; without mapping, or for an empty one, an own empty dict.  `heap` gives the entries of the caller's mappings. -/
def mapKeep {β : Type} (heap : Nat → List (W.Obj × β)) : Option Nat → Option Nat
  | none => none
  | some m => if (heap m).isEmpty then none else some m

/-- the entries of the kept mapping at the time of a call -/
def mapNow {β : Type} (heap : Nat → List (W.Obj × β)) : Option Nat → List (W.Obj × β)
  | none => []
  | some m => heap m

/-- `MapCoercion(value_map, factory_map)` made when the mappings had the entries `values`, `factories` (coercers.py:68-75), called
(77-82) when they have the entries `values'`, `factories'` -/
def mapCoercionLater (values : Nat → List (W.Obj × W.Obj)) (factories : Nat → List (W.Obj × M W W.Obj)) (vm fm : Option Nat)
    (values' : Nat → List (W.Obj × W.Obj)) (factories' : Nat → List (W.Obj × M W W.Obj)) (v : W.Obj) : M W W.Obj :=
  mapCoercion (mapNow values' (mapKeep values vm)) (mapNow factories' (mapKeep factories fm)) v

/-- `Falsish.func_args` (std_fillers.py:325-328) -/
def falsish (c : W.Cls) (args : List W.Obj) (kwargs : List (String × W.Obj)) (v : W.Obj) : M W W.Obj :=
  if !W.truthy v then M.lift (W.construct c args kwargs) else M.throw .typeError

/-- `LooseMixin.__call__` (std_fillers.py:110-113): only concrete classes -/
def looseBind (origin : Option W.Cls) : Except Exc W.Cls :=
  match origin with
  | none => .error .typeError
  | some c => if W.isAbstract c then .error .typeError else .ok c

/-- a type constraint: a class or a tuple of classes -/
inductive TypeCon (W : World)
  | one (c : W.Cls)
  | many (cs : List W.Cls)

/-- `isinstance(v, constraint)` -/
def TypeCon.holds (t : TypeCon W) (v : W.Obj) : Bool :=
  match t with
  | .one c => W.isInstance v c
  | .many cs => W.isInstanceAny v cs

/-- `bool(constraint)`: classes are true, an empty tuple is false -/
def TypeCon.truth : TypeCon W → Bool
  | .one _ => true
  | .many cs => !cs.isEmpty

/-- `Loose.func_args` (std_fillers.py:126-129) -/
def loose (con : Option (TypeCon W)) (c : W.Cls) (args : List W.Obj) (kwargs : List (String × W.Obj)) (v : W.Obj) :
    M W W.Obj :=
  match con with
  | some t => if t.truth && !t.holds v then M.throw .typeError else M.lift (W.construct c (v :: args) kwargs)
  | none => M.lift (W.construct c (v :: args) kwargs)

/-- the constraints of a `LooseUnpack`: `(T, ...)` or one per element -/
inductive UnpackCon (W : World)
  | each (t : TypeCon W)
  | fixed (ts : List (TypeCon W))

/-- `LooseUnpack.func_args` (std_fillers.py:163-173) -/
def looseUnpack (con : Option (UnpackCon W)) (c : W.Cls) (args : List W.Obj) (kwargs : List (String × W.Obj))
    (v : W.Obj) : M W W.Obj :=
  if !W.isIterable v then M.throw .typeError
  else
    match con with
    | some (.each t) =>
      if (W.elems v).any (fun i => !t.holds i) then M.throw .typeError
      else M.lift (W.construct c (W.elems v ++ args) kwargs)
    | some (.fixed ts) =>
      if (W.elems v).length ≠ ts.length || ((W.elems v).zip ts).any (fun p => !p.2.holds p.1) then M.throw .typeError
      else M.lift (W.construct c (W.elems v ++ args) kwargs)
    | none => M.lift (W.construct c (W.elems v ++ args) kwargs)

/-- keyword arguments from `**v` : all keys must be strings -/
def kwOf : List (W.Obj × W.Obj) → Option (List (String × W.Obj))
  | [] => some []
  | (k, a) :: l => match W.strOf k, kwOf l with
    | some n, some r => some ((n, a) :: r)
    | _, _ => none

/-- the constraint loop of `LooseUnpackMap.func_args` (std_fillers.py:213-216); `true` if it does not raise -/
def unpackMapCheck (cons : List (String × TypeCon W)) : List (W.Obj × W.Obj) → Bool
  | [] => true
  | (k, a) :: l =>
    match (W.strOf k).bind (fun n => Dict.get? cons n) with
    | none => false
    | some tc => if !tc.holds a then false else unpackMapCheck cons l

/-- `LooseUnpackMap.func_args` (std_fillers.py:211-217); calling with `**v, **kwargs` raises TypeError if a key is no
string or occurs twice.  An input without `items` raises AttributeError in the constraint loop, TypeError in `**v`. -/
def looseUnpackMap (cons : Option (List (String × TypeCon W))) (c : W.Cls) (args : List W.Obj)
    (kwargs : List (String × W.Obj)) (v : W.Obj) : M W W.Obj :=
  match cons with
  | some cs =>
    if !W.isMapping v then M.throw .attributeError
    else if !unpackMapCheck cs (W.items v) then M.throw .typeError
    else call
  | none => if !W.isMapping v then M.throw .typeError else call
where
  call : M W W.Obj :=
    match kwOf (W.items v) with
    | none => M.throw .typeError
    | some kw =>
      if kw.any (fun p => kwargs.any fun q => p.1 == q.1) then M.throw .typeError
      else M.lift (W.construct c args (kw ++ kwargs))

/-! ### Numbers (a float is represented by the rational it denotes, see Model/Floats) -/

/-- What `Whole` sees of its input: a `numbers.Rational`, a `numbers.Real` that is no Rational (a float), a
`numbers.Complex` that is no Real, or anything else. -/
inductive Num
  | rational (num : Int) (den : Nat)
  | real (r : Rat)
  | complex (re : Num) (imZero : Bool)
  | other

/-- the argument `Whole` calls the target type with: an integer, or the real number itself -/
inductive WholeArg
  | int (i : Int)
  | real (r : Rat)
  deriving DecidableEq

/-- `Whole.func_args` (std_fillers.py:261-272), up to the call of `origin` -/
def whole : Num → Except Exc WholeArg
  | .rational n d => if d = 1 then .ok (.int n) else .error .typeError
  | .real r =>
    match floatMod r 1 with
    | .error e => .error e
    | .ok mod => if isclose mod 0 || isclose mod 1 then .ok (.real r) else .error .typeError
  | .complex re imZero => if imZero then whole re else .error .typeError
  | .other => .error .typeError

/-- `int(x)`: truncation towards zero -/
def WholeArg.toInt : WholeArg → Int
  | .int i => i
  | .real r => if 0 ≤ r then r.floor else r.ceil

/-! ### ToBytes -/

/-- `v.bit_length()` -/
def bitLength (v : Int) : Nat := if v = 0 then 0 else v.natAbs.log2 + 1

/-- the `n` low-order base-256 digits, most significant first -/
def digits : Nat → Nat → List Nat
  | 0, _ => []
  | n + 1, v => digits n (v / 256) ++ [v % 256]

/-- does `v` not fit into `length` bytes? -/
def bytesOverflow (length : Nat) (signed : Bool) (v : Int) : Bool :=
  match signed, length with
  | true, 0 => decide (v ≠ 0)
  | true, k + 1 => decide (v < -(2 : Int) ^ (8 * (k + 1) - 1) ∨ (2 : Int) ^ (8 * (k + 1) - 1) ≤ v)
  | false, l => decide (v < 0 ∨ (256 : Int) ^ l ≤ v)

/-- `v.to_bytes(length, byteorder, signed=signed)` (CPython): OverflowError if it does not fit; two's complement -/
def toBytes (length : Nat) (little signed : Bool) (v : Int) : Except Exc (List Nat) :=
  if bytesOverflow length signed v then .error .overflow
  else
    let ds := digits length (v % (256 : Int) ^ length).toNat
    .ok (if little then ds.reverse else ds)

/-- The length `ToBytes` chooses when none is given (std_fillers.py:285-287) -/
def autoLength (signed : Bool) (v : Int) : Nat := (bitLength v + 7 + (if signed then 1 else 0)) / 8

/-- `ToBytes.func_args` (std_fillers.py:280-290) up to the call of `origin`; `v` is `none` if the input is not Integral
(`raise type` is a TypeError because `type` is no exception). -/
def toBytesArg (length : Option Nat) (little signed : Bool) (v : Option Int) : Except Exc (List Nat) :=
  match v with
  | none => .error .typeError
  | some v => match length with
    | none => toBytes (autoLength signed v) little signed v
    | some l => toBytes l little signed v

/-! ### Eval, LiteralEval -/

/-- `Eval.__call__.ret` (std_fillers.py:44-52); `ev` is `eval` in the configured namespace -/
def evalCoercer (ev : String → M W W.Obj) (v : W.Obj) : M W W.Obj :=
  match W.strOf v with
  | none => M.throw .typeError
  | some t => M.tryExcept (ev t) Exc.isException fun _ => M.throw .typeError

/-- The loop of `LiteralEval` (std_fillers.py:66-72) as an evaluation relation; `lit` is `ast.literal_eval`.
`LitRun lit v r`: started with `v` the loop ends with `r`. -/
inductive LitRun (lit : String → Except Exc W.Obj) : W.Obj → Except Exc W.Obj → Prop
  | done (v) : W.strOf v = none → LitRun lit v (.ok v)
  | step (v t w r) : W.strOf v = some t → lit t = .ok w → LitRun lit w r → LitRun lit v r
  | valueError (v t e) : W.strOf v = some t → lit t = .error e → e.kind = .valueError → LitRun lit v (.error .typeError)
  | other (v t e) : W.strOf v = some t → lit t = .error e → e.kind ≠ .valueError → LitRun lit v (.error e)

end Records
