import Verif.Model.Instance
import Verif.Model.Exporter
import Verif.Model.Tokens
import Verif.Model.Foreign
/-
A concrete world for the upstream unit tests (tests/unittests/*.py).  The assertions of these tests are what
the authors of the library state of it (the tests were read, not run here); `Verif/Conformance/*.lean` states them about
the model.  They are evidence for the model, not part of the proofs of the properties.

Built-in operations are defined as far as the tests use them: floats are numbers of tenths, `int(...)`, `float(...)`,
`eval` and `json.loads` on strings are tables.
-/
namespace Records.Conf

inductive C
  | object | int | bool | str | bytes | bytearray | float | fraction | complex | none | ellipsis | function | list | tuple
  | dict | defaultdict | deque | set | range | slice | generator | pattern | type
  -- abstract base classes
  | numberABC | iterableABC | sequenceABC | mappingABC
  -- exceptions, and a class with its own metaclass
  | baseException | exception | typeError | metaM | excE
  -- an Enum, the namedtuple `t(a, b, c=0)`, `class T(tuple)`
  | enumE | ntuple | tupT
  -- classes of the tests; SimpleNamespace; PointMixin, MapMixin, mm of test_parse
  | user (n : Nat) | namespaceC | pointMixin | mapMixin | mm
  | record (n : Nat)
  deriving DecidableEq, Repr

/-- Objects. `nil`/`cons` only occur as the spine of contents. `inst c id attrs`: an object with attributes (for the
mapping classes of test_parse: with entries). -/
inductive O
  | int (i : Int)
  | bool (b : Bool)
  | str (s : String)
  | bytes (l : List Nat)
  | bytearray (l : List Nat)
  | float (tenths : Int)
  | frac (num : Int) (den : Nat)
  | complex (re im : Int)
  | none
  | ellipsis
  | fn (n : String)
  | cls (c : C)
  | seq (c : C) (l : O)
  | map (c : C) (factory : Nat) (l : O)
  | range (start stop step : Int)
  | slice (start stop step : Option Int)
  | pattern (s : String)
  | enum (n : Nat)
  | inst (c : C) (id : Nat) (attrs : O)
  | nil
  | cons (h t : O)
  deriving DecidableEq, Repr

def spine : List O → O
  | [] => .nil
  | a :: l => .cons a (spine l)

def unspine : O → List O
  | .cons a l => a :: unspine l
  | _ => []

def pairs : List O → List (O × O)
  | a :: b :: l => (a, b) :: pairs l
  | _ => []

def unpairs : List (O × O) → List O
  | [] => []
  | (a, b) :: l => a :: b :: unpairs l

def list (l : List O) : O := .seq .list (spine l)
def tuple (l : List O) : O := .seq .tuple (spine l)
def deque (l : List O) : O := .seq .deque (spine l)
def gen (l : List O) : O := .seq .generator (spine l)
def dict (l : List (O × O)) : O := .map .dict 0 (spine (unpairs l))
def ddict (l : List (O × O)) : O := .map .defaultdict 1 (spine (unpairs l))
/-- `t(a, b, c)` -/
def nt (a b c : O) : O := .seq .ntuple (spine [a, b, c])
/-- a dict with string keys -/
def sdict (l : List (String × O)) : O := dict (l.map fun p => (.str p.1, p.2))
/-- an object with attributes -/
def inst (c : C) (id : Nat) (l : List (String × O)) : O := .inst c id (spine (unpairs (l.map fun p => (.str p.1, p.2))))
def ns (l : List (String × O)) : O := inst .namespaceC 0 l

def typeOf : O → C
  | .int _ => .int
  | .bool _ => .bool
  | .str _ => .str
  | .bytes _ => .bytes
  | .bytearray _ => .bytearray
  | .float _ => .float
  | .frac _ _ => .fraction
  | .complex _ _ => .complex
  | .none => .none
  | .ellipsis => .ellipsis
  | .fn _ => .function
  | .cls .excE => .metaM
  | .cls _ => .type
  | .seq c _ => c
  | .map c _ _ => c
  | .range _ _ _ => .range
  | .slice _ _ _ => .slice
  | .pattern _ => .pattern
  | .enum _ => .enumE
  | .inst c _ _ => c
  | _ => .object

/-- proper superclasses other than `object` -/
def supers : C → List C
  | .int => [.numberABC]
  | .bool => [.int, .numberABC]
  | .float => [.numberABC]
  | .fraction => [.numberABC]
  | .complex => [.numberABC]
  | .str => [.sequenceABC, .iterableABC]
  | .bytes => [.sequenceABC, .iterableABC]
  | .bytearray => [.sequenceABC, .iterableABC]
  | .list => [.sequenceABC, .iterableABC]
  | .tuple => [.sequenceABC, .iterableABC]
  | .ntuple => [.tuple, .sequenceABC, .iterableABC]
  | .tupT => [.tuple, .sequenceABC, .iterableABC]
  | .range => [.sequenceABC, .iterableABC]
  | .deque => [.sequenceABC, .iterableABC]
  | .sequenceABC => [.iterableABC]
  | .generator => [.iterableABC]
  | .set => [.iterableABC]
  | .dict => [.mappingABC, .iterableABC]
  | .defaultdict => [.dict, .mappingABC, .iterableABC]
  | .mapMixin => [.dict, .mappingABC, .iterableABC]
  | .mm => [.pointMixin, .mapMixin, .dict, .mappingABC, .iterableABC]
  | .mappingABC => [.iterableABC]
  | .exception => [.baseException]
  | .typeError => [.exception, .baseException]
  | .excE => [.exception, .baseException]
  | .metaM => [.type]
  -- T0, T1(T0), T2(T1) of test_checking_strict
  | .user 1 => [.user 0]
  | .user 2 => [.user 1, .user 0]
  -- C(A, B) of test_coercers
  | .user 12 => [.user 10, .user 11]
  -- B(A), B(A0, A1) of test_inheritance
  | .record 2 => [.record 1]
  | .record 12 => [.record 10, .record 11]
  | _ => []

def isSub (c d : C) : Bool := decide (c = d) || decide (d = .object) || (supers c).elem d

def isAbstract : C → Bool
  | .numberABC | .iterableABC | .sequenceABC | .mappingABC => true
  | _ => false

/-- the value of a number in tenths -/
def num : O → Option Int
  | .int i => some (10 * i)
  | .bool b => some (if b then 10 else 0)
  | .float t => some t
  | _ => Option.none

/-- `==`: numbers by value, the class of test_func_map_fact by type, everything else structurally (records are compared by
`eqInst`) -/
def eq (a b : O) : Bool :=
  match num a, num b with
  | some i, some j => i = j
  | _, _ => match a, b with
    | .inst (.user 20) _ _, .inst (.user 20) _ _ => true
    | _, _ => a = b

def rangeList (start step : Int) : Nat → List O
  | 0 => []
  | n + 1 => .int start :: rangeList (start + step) step n

/-- the elements of a range with positive step -/
def rangeElems (start stop step : Int) : List O := rangeList start step ((stop - start + step - 1) / step).toNat

def elems : O → List O
  | .seq _ l => unspine l
  | .map _ _ l => (pairs (unspine l)).map Prod.fst
  | .str s => s.toList.map fun c => .str (String.singleton c)
  | .bytes l => l.map fun (n : Nat) => .int n
  | .bytearray l => l.map fun (n : Nat) => .int n
  | .range a b s => rangeElems a b s
  | _ => []

def truthy : O → Bool
  | .int i => i ≠ 0
  | .bool b => b
  | .str s => s ≠ ""
  | .bytes l => !l.isEmpty
  | .bytearray l => !l.isEmpty
  | .float t => t ≠ 0
  | .none => false
  | .seq _ l => !(unspine l).isEmpty
  | .map _ _ l => !(unspine l).isEmpty
  | .range a b s => !(rangeElems a b s).isEmpty
  | _ => true

def hashable : O → Bool
  | .seq .list _ | .seq .deque _ | .seq .set _ => false
  | .map _ _ _ => false
  | .bytearray _ => false
  | .slice _ _ _ => false
  | _ => true

/-- `int(v)` -/
def toInt : O → Except Exc O
  | .int i => .ok (.int i)
  | .bool b => .ok (.int (if b then 1 else 0))
  | .float t => .ok (.int (t.tdiv 10))
  | .str "12" => .ok (.int 12)
  | .str _ => .error .valueError
  | _ => .error .typeError

/-- `float(v)` -/
def toFloat : O → Except Exc O
  | .int i => .ok (.float (10 * i))
  | .bool b => .ok (.float (if b then 10 else 0))
  | .float t => .ok (.float t)
  | .str "2.0" => .ok (.float 20)
  | .str "3.6" => .ok (.float 36)
  | .str _ => .error .valueError
  | _ => .error .typeError

def intOf : O → Option Int
  | .int i => some i
  | .bool b => some (if b then 1 else 0)
  | _ => Option.none

/-- `str(bytes, encoding='ascii')`: UnicodeDecodeError is a ValueError -/
def decodeAscii (l : List Nat) : Except Exc O :=
  if l.all (· < 128) then .ok (.str (String.ofList (l.map Char.ofNat))) else .error .valueError

/-- `cls(*args, **kwargs)` -/
def construct (c : C) (args : List O) (kw : List (String × O)) : Except Exc O :=
  match c, args, kw with
  | .int, [v], [] => toInt v
  | .float, [v], [] => toFloat v
  | .bool, [v], [] => .ok (.bool (truthy v))
  | .none, [], [] => .ok .none
  | .ellipsis, [], [] => .ok .ellipsis
  | .str, [.bytes l], [("encoding", .str "ascii")] => decodeAscii l
  | .bytes, [.str s], [("encoding", .str "ascii")] => .ok (.bytes (s.toList.map Char.toNat))
  | .bytearray, [.bytes l], [] => .ok (.bytearray l)
  | .range, [a], [] => match intOf a with
    | some n => .ok (.range 0 n 1)
    | _ => .error .typeError
  | .range, [a, b], [] => match intOf a, intOf b with
    | some m, some n => .ok (.range m n 1)
    | _, _ => .error .typeError
  | .range, [a, b, c], [] => match intOf a, intOf b, intOf c with
    | some m, some n, some k => .ok (.range m n k)
    | _, _, _ => .error .typeError
  | .slice, [a, b], [] => match intOf a, intOf b with
    | some m, some n => .ok (.slice m n Option.none)
    | _, _ => .error .typeError
  | .ntuple, [], kw =>
    if kw.any (fun p => p.1 != "a" && p.1 != "b" && p.1 != "c") then .error .typeError
    else match Dict.get? kw "a", Dict.get? kw "b" with
      | some a, some b => .ok (nt a b ((Dict.get? kw "c").getD (.int 0)))
      | _, _ => .error .typeError
  | .tupT, args, [] => .ok (.seq .tupT (spine args))
  | .list, [], [] => .ok (list [])
  | .list, [v], [] => .ok (list (elems v))
  | .tuple, [v], [] => .ok (tuple (elems v))
  | _, _, _ => .error .typeError

/-- the user state: how often a function of a test was called -/
abbrev St := Nat

/-- the world of the tests -/
def W : World where
  Obj := O
  Cls := C
  St := St
  decObj := inferInstance
  decCls := inferInstance
  objectCls := .object
  boolCls := .bool
  noneCls := .none
  ellipsisCls := .ellipsis
  typeCls := .type
  tupleCls := .tuple
  typeOf := typeOf
  isSub := isSub
  isAbstract := isAbstract
  isNone v := v = .none
  isEllipsis v := v = .ellipsis
  isCallable v := match v with | .fn _ => true | .cls _ => true | _ => false
  eq := eq
  truthy := truthy
  hashable := hashable
  asClass v := match v with | .cls c => some c | _ => none
  strOf v := match v with | .str s => some s | _ => none
  isIterable v := match v with
    | .seq _ _ | .map _ _ _ | .str _ | .bytes _ | .bytearray _ | .range _ _ _ => true
    | _ => false
  isMapping v := match v with | .map _ _ _ => true | _ => false
  elems := elems
  items v := match v with | .map _ _ l => pairs (unspine l) | _ => []
  bool := .bool
  zero := .int 0
  one := .int 1
  mkIter c l s := (.ok (.seq c (spine l)), s)
  drains c := c ≠ .str
  maxlen _ := .none
  mkDeque c l _ s := (.ok (.seq c (spine l)), s)
  mkMap c l s := (.ok (.map c 0 (spine (unpairs l))), s)
  defaultFactory v := match v with | .map _ n _ => .int n | _ => .none
  mkDefaultDict c f l s := (.ok (.map c (match f with | .int n => n.toNat | _ => 0) (spine (unpairs l))), s)
  construct c a k s := (construct c a k, s)

/-- the initial state -/
def s0 : LState W := ⟨(0 : Nat), fun _ => []⟩

/-- the entries of a mapping whose keys are strings -/
def strEntries : List (O × O) → Option (Dict O)
  | [] => some []
  | (.str k, v) :: l => (strEntries l).map fun d => (k, v) :: d
  | _ => none

/-- what a `ChainMap`, `**v` and `dict(v)` see -/
def view (v : O) : M W (Dict O) :=
  match v with
  | .map _ _ l => match strEntries (pairs (unspine l)) with
    | some d => M.pure d
    | none => M.throw .typeError
  | .inst .mapMixin _ l => match strEntries (pairs (unspine l)) with
    | some d => M.pure d
    | none => M.throw .typeError
  | .inst .mm _ l => match strEntries (pairs (unspine l)) with
    | some d => M.pure d
    | none => M.throw .typeError
  | _ => M.throw .typeError

def getattr (v : O) (k : String) : M W O :=
  match v with
  | .inst .mapMixin _ _ => M.throw .attributeError
  | .inst _ _ l => match (strEntries (pairs (unspine l))).bind fun d => Dict.get? d k with
    | some w => M.pure w
    | none => M.throw .attributeError
  | _ => M.throw .attributeError

/-- `json.loads` on the texts of the tests -/
def loads (v : O) : M W O :=
  match v with
  | .str "{\"x\": 1, \"y\": 2}" => M.pure (sdict [("x", .int 1), ("y", .int 2)])
  | .str "{\"x\":1,\"y\":2,\"z\":3}" => M.pure (sdict [("x", .int 1), ("y", .int 2), ("z", .int 3)])
  | .str "{\"y\": 1, \"z\": 0}" => M.pure (sdict [("y", .int 1), ("z", .int 0)])
  | .str "{\"n\": null}" => M.pure (sdict [("n", .none)])
  | .str _ => M.throw .valueError
  | _ => M.throw .typeError

def E : Env W where
  getattr := getattr
  clsAttr _ _ := none
  chainView := view
  starView := view
  dictView := view
  jsonLoads v _ := loads v
  rewrap _ := .ok
  setOrder l := l
  setOrder_perm _ := List.Perm.refl _

/-- a record as an object -/
def box (i : Inst W) : O := .inst i.cid 0 (spine (unpairs (i.dict.map fun p => (O.str p.1, (p.2 : O)))))

/-! ### what the tests observe -/

/-- the outcome of an expression under test: a value, or the class of the exception (subclasses that `raises` would accept
are mapped to the class the tests name: ParseFailure is a TypeError) -/
inductive Out
  | val (o : O)
  | raised (k : ExcKind)
  deriving DecidableEq, Repr

def kindOf (e : Exc) : ExcKind := if e.isTypeError then .typeError else e.kind

def TypeError : Out := .raised .typeError
def ValueError : Out := .raised .valueError
def LookupError : Out := .raised .lookupError
def OverflowError : Out := .raised .overflow

instance : Coe O Out := ⟨.val⟩

/-- `cls(**kwargs)`/`cls(arg)` -/
def call (K : RecClass W) (arg : Option O) (kw : Dict O) : M W (Res W) := callN E K 6 arg kw

/-- `cls(arg).x` -/
def readX (k : String) (r : Except Exc (Res W)) : Out :=
  match r with
  | .error e => .raised (kindOf e)
  | .ok (.old v) => match (getattr v k s0).1 with
    | .ok w => .val w
    | .error e => .raised e.kind
  | .ok (.new i) => match i.dict.get? k with
    | some v => .val v
    | none => .raised .attributeError

/-- `A(v).x` for each `v`, one after the other -/
def runs (K : RecClass W) : List O → LState W → List Out
  | [], _ => []
  | v :: vs, s => readX "x" (call K (some v) [] s).1 :: runs K vs (call K (some v) [] s).2

/-- `class A(RecordBase): x: T` followed by `A(v).x` for each `v`; an exception of the class statement is the only outcome -/
def test (T : Hint W) (vs : List O) (style : Style := .hollow) (pre : List (String × Option Int × Tok W) := []) : List Out :=
  match mkClass (W := W) { cid := C.record 0, style := style, anns := [("x", .plain T)], pre := pre } with
  | .error e => [.raised (kindOf e)]
  | .ok K => runs K vs s0

/-- the hint `Annotated[T, check, *toks]` -/
def chk (T : Hint W) (toks : List (Tok W) := []) : Hint W := .annotated T (.style .check :: toks)
/-- the hint `Annotated[T, check_strict, *toks]` -/
def strict (T : Hint W) (toks : List (Tok W) := []) : Hint W := .annotated T (.style .checkStrict :: toks)
/-- a class as hint -/
def ty (c : C) : Hint W := .cls c

end Records.Conf
