import Verif.Model.World
/-
A small concrete world.  It is only used to exhibit cases that meet the hypotheses of the theorems, and for
counterexamples.
-/
namespace Records.Toy

inductive TCls
  | object | int | myInt | bool | str | float | none | ellipsis | function | list | tuple | set | dict | defaultdict
  | deque | type | sequenceABC | record (n : Nat)
  deriving DecidableEq, Repr

/-- Objects. `nil`/`cons` only occur as the spine of container contents. `myInt` is a user subclass of `int`. -/
inductive TObj
  | int (i : Int)
  | myInt (i : Int)
  | bool (b : Bool)
  | str (s : String)
  | none
  | ellipsis
  | fn (n : Nat)
  | cls (c : TCls)
  | seq (c : TCls) (l : TObj)
  | map (c : TCls) (l : TObj)
  | nil
  | cons (h t : TObj)
  deriving DecidableEq, Repr

def spine : List TObj → TObj
  | [] => .nil
  | a :: l => .cons a (spine l)

def unspine : TObj → List TObj
  | .cons a l => a :: unspine l
  | _ => []

def pairs : List TObj → List (TObj × TObj)
  | a :: b :: l => (a, b) :: pairs l
  | _ => []

def unpairs : List (TObj × TObj) → List TObj
  | [] => []
  | (a, b) :: l => a :: b :: unpairs l

def list (l : List TObj) : TObj := .seq .list (spine l)
def tuple (l : List TObj) : TObj := .seq .tuple (spine l)
def dict (l : List (TObj × TObj)) : TObj := .map .dict (spine (unpairs l))

def typeOf : TObj → TCls
  | .int _ => .int
  | .myInt _ => .myInt
  | .bool _ => .bool
  | .str _ => .str
  | .none => .none
  | .ellipsis => .ellipsis
  | .fn _ => .function
  | .cls _ => .type
  | .seq c _ => c
  | .map c _ => c
  | _ => .object

/-- the class `record 2` derives from `record 1`, and `record 10` from `record 8` and `record 9` -/
def isSub (c d : TCls) : Bool :=
  c = d || (d = .record 1 && c = .record 2) || ((d = .record 8 || d = .record 9) && c = .record 10) || d = .object || (d = .int && (c = .myInt || c = .bool)) || (d = .dict && c = .defaultdict) ||
  (d = .sequenceABC && (c = .list || c = .tuple || c = .str || c = .deque))

def num : TObj → Option Int
  | .int i => some i
  | .myInt i => some i
  | .bool b => some (if b then 1 else 0)
  | _ => Option.none

def eq (a b : TObj) : Bool :=
  match num a, num b with
  | some i, some j => i = j
  | _, _ => a = b

def truthy : TObj → Bool
  | .int i => i ≠ 0
  | .myInt i => i ≠ 0
  | .bool b => b
  | .str s => s ≠ ""
  | .none => false
  | .seq _ l => !(unspine l).isEmpty
  | .map _ l => !(unspine l).isEmpty
  | _ => true

/-- the concrete world; the user state is a log of numbers -/
def W : World where
  Obj := TObj
  Cls := TCls
  St := List Nat
  decObj := inferInstance
  decCls := inferInstance
  objectCls := .object
  boolCls := .bool
  noneCls := .none
  ellipsisCls := .ellipsis
  typeCls := .type
  tupleCls := .tuple
  typeOf := typeOf
  isSub := isSub
  isAbstract c := c = .sequenceABC
  isNone v := v = .none
  isEllipsis v := v = .ellipsis
  isCallable v := match v with | .fn _ => true | .cls _ => true | _ => false
  eq := eq
  truthy := truthy
  hashable v := match v with | .seq .tuple _ => true | .seq _ _ => false | .map _ _ => false | _ => true
  asClass v := match v with | .cls c => some c | _ => none
  strOf v := match v with | .str s => some s | .seq .str _ => some "" | .map .str _ => some "" | _ => none
  isIterable v := match v with | .seq _ _ => true | .map _ _ => true | .str _ => true | _ => false
  isMapping v := match v with | .map _ _ => true | _ => false
  elems v := match v with
    | .seq _ l => unspine l
    | .map _ l => (pairs (unspine l)).map Prod.fst
    | .str s => s.toList.map fun c => .str (String.ofList [c])
    | _ => []
  items v := match v with | .map _ l => pairs (unspine l) | _ => []
  bool := .bool
  zero := .int 0
  one := .int 1
  mkIter c l s := (.ok (if c = .str then .str "<itertools.chain object>" else .seq c (spine l)), s)
  drains c := c ≠ .str
  maxlen _ := .none
  mkDeque c l _ s := (.ok (.seq c (spine l)), s)
  mkMap c l s := (.ok (.map c (spine (unpairs l))), s)
  defaultFactory _ := .none
  mkDefaultDict c _ l s := (.ok (.map c (spine (unpairs l))), s)
  construct c a _ s := match c, a with
    | .int, [.str "5"] => (.ok (.int 5), s)
    | .int, [.bool b] => (.ok (.int (if b then 1 else 0)), s)
    | .int, [.int i] => (.ok (.int i), s)
    | .int, [.myInt i] => (.ok (.int i), s)
    | .int, [] => (.ok (.int 0), s)
    | .int, _ => (.error .valueError, s)
    | .tuple, [.seq _ l] => (.ok (.seq .tuple l), s)
    | .list, [.seq _ l] => (.ok (.seq .list l), s)
    | .list, [] => (.ok (.seq .list .nil), s)
    | .bool, [v] => (.ok (.bool (truthy v)), s)
    | _, _ => (.error .typeError, s)

/-- the initial state -/
def s0 : LState W := ⟨[], fun _ => []⟩

/-- an action that writes `n` to the log -/
def log (n : Nat) : M W Unit := fun s => (.ok (), { s with user := (show List Nat from s.user) ++ [n] })

end Records.Toy
