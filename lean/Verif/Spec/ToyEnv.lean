import Verif.Model.New
import Verif.Spec.ToyRec
/-
Foreign operations of the record layer in the concrete world.
-/
namespace Records.Toy

/-- the entries with string keys -/
def strEntries : List (TObj × TObj) → Dict TObj
  | (.str k, v) :: l => (k, v) :: strEntries l
  | _ :: l => strEntries l
  | [] => []

/-- the entries of a `dict`; other objects are no mappings -/
def asDict (v : TObj) : M W (Dict TObj) := match v with
  | .map .dict l => M.pure (strEntries (pairs (unspine l)))
  | _ => M.throw .typeError

/-- `{k: v}` -/
def dict1 (k : String) (v : TObj) : TObj := dict [(.str k, v)]

/-- an instance of the record class `n` with these attributes (as an object that existed before) -/
def inst (n : Nat) (attrs : List (String × TObj)) : TObj :=
  .map (.record n) (spine (unpairs (attrs.map fun kv => (.str kv.1, kv.2))))

/-- `getattr`: only instances of record classes have attributes -/
def getattr (v : TObj) (k : String) : M W TObj := match v with
  | .map (.record _) l => match Dict.get? (strEntries (pairs (unspine l))) k with
    | some w => M.pure w
    | none => M.throw .attributeError
  | _ => M.throw .attributeError

/-- two JSON texts -/
def loads (v : TObj) (_ : Dict TObj) : M W TObj := match v with
  | .str "{\"x\": 1}" => M.pure (dict1 "x" (.int 1))
  | .str "[]" => M.pure (list [])
  | .str _ => M.throw .valueError
  | _ => M.throw .typeError

/-- exceptions: class 0 accepts a message, class 1 does not, class 2 raises KeyError, class 3 a `BaseException` -/
def env : Env W where
  getattr := getattr
  clsAttr _ _ := none
  chainView := asDict
  starView := asDict
  dictView := asDict
  jsonLoads := loads
  rewrap n := match n with
    | 0 => .ok
    | 1 => .typeError
    | 2 => .raises .keyError
    | _ => .raises ⟨.base 0, none⟩
  setOrder := id
  setOrder_perm _ := .refl _

/-- the same with the other iteration order of sets -/
def env' : Env W := { env with setOrder := List.reverse, setOrder_perm := fun l => List.reverse_perm l }

/-- no `parse` -/
def noParse : TObj → M W (Res W) := fun _ => M.throw .parseFailure

end Records.Toy
