import Verif.Model.Program
import Verif.Model.New
/-
Model of the methods `__init__`, `__setattr__` and `__hash__` of record classes, whatever class bodies and bases define: what
`__init_subclass__` warns of and assigns (records/record.py:50, 92-94, 127-128, 139-144), which definition is found on a class, and
which initializer a call of the class runs (records/record.py:168, 265-267; `type.__call__`).

A class body may define any of these names, and `__eq__` (Python sets `__hash__` to None in a class that defines only `__eq__`).
Classes are those of a program (Model/Program.lean); `Bodies` gives what their bodies define.
-/
namespace Records
variable {W : World}

/-- What one of the names is: the method of `object` or `RecordBase`, `None`, or one defined in a class body. `run`: as an
initializer, what calling it on an object with the arguments of the call does, and the object afterwards. -/
inductive Meth (W : World)
  | object
  | library
  | absent
  | user (run : Res W → Option W.Obj → Dict W.Obj → M W (Res W))

/-- what is defined in the body of the class with the given identity, in order -/
abbrev Bodies (W : World) := W.Cls → List (String × Meth W)

/-- `FORBIDDEN_CLASS_ATTRS` (record.py:50) -/
def forbidden : List String := ["__init__", "__setattr__", "__hash__"]

/-- the class `__dict__` when `__init_subclass__` is called: `type.__new__` has set `__hash__` to None in a class that defines
`__eq__` but no `__hash__` -/
def bodyDict (body : List (String × Meth W)) : Dict (Meth W) :=
  let d := Dict.update [] body
  if d.has "__eq__" && !d.has "__hash__" then d.set "__hash__" .absent else d

/-- the class `__dict__` after the class statement: in record classes two names have been assigned (record.py:139-144). `RecordBase`
defines all four names (record.py:265, 411, 423 and `__eq__`), and so does `object`. -/
def special (E : PyEnv W) (B : Bodies W) (c : PyClass W) : Dict (Meth W) :=
  if c.cid = E.object then [("__init__", .object), ("__setattr__", .object), ("__hash__", .object), ("__eq__", .object)]
  else if c.cid = E.recordBase then
    [("__init__", .library), ("__setattr__", .library), ("__hash__", .library), ("__eq__", .library)]
  else
    let d := bodyDict (B c.cid)
    match c.rcd with
    | none => d
    | some C =>
      if C.frozen then (d.set "__setattr__" .library).set "__hash__" .library
      else (d.set "__setattr__" .object).set "__hash__" .absent

/-- attribute lookup on a class -/
def lookupSpecial (E : PyEnv W) (B : Bodies W) (tbl : List (PyClass W)) (n : String) (c : W.Cls) : Option (Meth W) :=
  match findClass tbl c with
  | none => none
  | some k => firstOf tbl (fun k => (special E B k).get? n) k.mro

/-- the warnings of `__init_subclass__` -/
inductive Warning
  /-- "must not override ..." (record.py:94) -/
  | overrides (name : String)
  /-- "has parents that implement `__init__`" (record.py:128) -/
  | parents
  deriving DecidableEq, Repr

/-- is it `RecordBase.__init__` or `object.__init__`? (record.py:127) -/
def Meth.known : Option (Meth W) → Bool
  | some .object => true
  | some .library => true
  | _ => false

/-- what the statement that made the record class warned of (record.py:92-94, 127-128) -/
def warnings (E : PyEnv W) (B : Bodies W) (tbl : List (PyClass W)) (c : PyClass W) : List Warning :=
  (forbidden.filter (bodyDict (B c.cid)).has).map .overrides ++
    (if c.bases.any (fun b => !Meth.known (lookupSpecial E B tbl "__init__" b)) then [.parents] else [])

/-- the class of an object -/
def Res.cls : Res W → W.Cls
  | .old v => W.typeOf v
  | .new i => i.cid

/-- running an initializer on an object with the arguments of the call: `RecordBase.__init__(self, arg=NO_ARG, **kwargs)` does nothing
but bind its parameters (record.py:265-267) -/
def Meth.init (m : Option (Meth W)) (r : Res W) (arg : Option W.Obj) (kw : Dict W.Obj) : M W (Res W) :=
  match m with
  | some .library => if kw.has "self" || (arg.isSome && kw.has "arg") then M.throw .typeError else M.pure r
  | some (.user run) => run r arg kw
  | some .object => M.pure r
  | _ => M.throw .typeError

/-- `type.__call__`: `__new__(cls, arg=NO_ARG, **kwargs)`, and if the result is an instance of the class, the `__init__` of the class
of the result (record.py:168) -/
def typeCall (E : PyEnv W) (B : Bodies W) (tbl : List (PyClass W)) (C : RecClass W) (new : Option W.Obj → Dict W.Obj → M W (Res W))
    (arg : Option W.Obj) (kw : Dict W.Obj) : M W (Res W) :=
  let made : M W (Res W) :=
    if kw.has "cls" then M.throw .typeError
    else match arg, kw.get? "arg" with
      | some _, some _ => M.throw .typeError
      | none, some a => new (some a) (kw.erase "arg")
      | a, none => new a kw
  M.bind made fun r =>
    if r.isInst C.cid then Meth.init (lookupSpecial E B tbl "__init__" r.cls) r arg kw else M.pure r

end Records
