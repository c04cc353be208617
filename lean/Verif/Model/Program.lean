import Verif.Model.Field
/-
Model of programs: sequences of class statements over a table of classes with Python's method resolution order.  It says
where the data of a `ClassSpec` (Model/Field.lean) come from: the inherited annotations, the attributes found by
`getattr_static`, the record classes among the bases, the effective `pre_bind`, and the registered parsers
(records/record.py:77-158).

Simplifications: class objects are never modified after their creation (no later `setattr` on a class, no change of
`__bases__`); a class statement that fails leaves nothing behind; metaclasses other than `type` are left out.
-/
namespace Records

/-! ### The method resolution order (C3, as in Python's `type.mro`) -/

section
variable {α : Type} [DecidableEq α]

/-- the first head that occurs in no tail -/
def c3Head (all : List (List α)) : List (List α) → Option α
  | [] => none
  | [] :: l => c3Head all l
  | (x :: _) :: l => if all.any (fun s => decide (x ∈ s.tail)) then c3Head all l else some x

/-- remove `x` where it is the head -/
def c3Drop (x : α) (ls : List (List α)) : List (List α) :=
  ls.map fun s => match s with
    | [] => []
    | y :: t => if y = x then t else y :: t

/-- merge; every step removes an element, so the number of elements bounds the steps -/
def c3Merge : Nat → List (List α) → Option (List α)
  | 0, ls => if ls.all (·.isEmpty) then some [] else none
  | n + 1, ls =>
    if ls.all (·.isEmpty) then some []
    else match c3Head ls ls with
      | none => none
      | some x => (c3Merge n (c3Drop x ls)).map (x :: ·)

/-- C3 merge of the resolution orders of the bases and the list of bases -/
def c3 (ls : List (List α)) : Option (List α) := c3Merge (ls.map List.length).sum ls

end

variable {W : World}

/-! ### Classes -/

/-- An attribute in a class `__dict__`: what it is as a default (a value or `Factory`), and, if it is marked by `@parser`
(record.py:30-39), the parser `getattr(cls, name)` (record.py:158) for the class `cls` it is accessed on. -/
structure Attr (W : World) where
  value : Deflt W
  parser : Option (W.Cls → Parser W) := none

/-- A class statement. `anns`, `attrs`: the annotations and assignments (with `def`s) of the body in order; `pre`,
`postNew`, `truthy`: the hooks `pre_bind`, `post_new`, `__bool__` if the body defines them. -/
structure PyStmt (W : World) where
  cid : W.Cls
  bases : List W.Cls
  frozen : Bool := false
  unary : Option Bool := none
  ordered : Bool := false
  style : Style := .hollow
  anns : List (String × FHint W) := []
  attrs : List (String × Attr W) := []
  pre : Option (List (String × Option Int × Tok W)) := none
  postNew : Option (Inst W → M W (Inst W × Option (Res W))) := none
  truthy : Option (Inst W → Bool) := none

/-- A class object; `rcd`: its record part (none for plain classes and `RecordBase`) -/
structure PyClass (W : World) where
  cid : W.Cls
  bases : List W.Cls
  mro : List W.Cls
  anns : List String
  dict : Dict (Attr W)
  pre : Option (List (String × Option Int × Tok W)) := none
  postNew : Option (Inst W → M W (Inst W × Option (Res W))) := none
  truthy : Option (Inst W → Bool) := none
  rcd : Option (RecClass W) := none

/-- What is there before the first class statement: `object` and `RecordBase` with their attributes, the annotations of
`RecordBase` (record.py:60-75), the attributes of the metaclass `type` (also found by `getattr_static`), the `RecordField`
objects, and the names by which the library itself looks up things on a record class (no field may have such a name). -/
structure PyEnv (W : World) where
  object : W.Cls
  recordBase : W.Cls
  ne : recordBase ≠ object
  objectDict : Dict (Attr W)
  recordDict : Dict (Attr W)
  recordAnns : List String
  typeAttr : String → Option (Deflt W)
  fieldObj : W.Cls → String → W.Obj
  internal : List String

/-- `object` -/
def PyEnv.objectClass (E : PyEnv W) : PyClass W :=
  { cid := E.object, bases := [], mro := [E.object], anns := [], dict := E.objectDict }

/-- `RecordBase` (record.py:54-75); its hooks do nothing (160-166, 254-263) -/
def PyEnv.recordClass (E : PyEnv W) : PyClass W :=
  { cid := E.recordBase, bases := [E.object], mro := [E.recordBase, E.object], anns := E.recordAnns, dict := E.recordDict }

/-- the class object -/
def findClass (tbl : List (PyClass W)) (c : W.Cls) : Option (PyClass W) := tbl.find? fun k => decide (k.cid = c)

/-- the first class in the order that has a certain thing -/
def firstOf {α : Type} (tbl : List (PyClass W)) (g : PyClass W → Option α) : List W.Cls → Option α
  | [] => none
  | c :: l => match (findClass tbl c).bind g with
    | some a => some a
    | none => firstOf tbl g l

/-- insert a name into a sorted list without it -/
def insertSorted (n : String) : List String → List String
  | [] => [n]
  | m :: l => if n < m then n :: m :: l else m :: insertSorted n l

/-- sort and remove duplicates -/
def sortNames (l : List String) : List String :=
  l.foldr (fun n acc => if n ∈ acc then acc else insertSorted n acc) []

/-- the names `typing.get_type_hints` collects from the other classes of the order (given without the class itself): from
the last class to the first, a name keeps its first position -/
def inheritedAnns (tbl : List (PyClass W)) (mro : List W.Cls) : List String :=
  Dict.keys (Dict.update ([] : Dict Unit)
    (mro.reverse.flatMap fun c => match findClass tbl c with | some k => k.anns.map fun n => (n, ()) | none => []))

/-- the names of the own fields: annotations other than `ClassVar` -/
def PyStmt.fieldNames (st : PyStmt W) : List String :=
  ((Dict.update [] st.anns).filter fun a => match a.2 with | .classVar => false | _ => true).map (·.1)

/-- the class `__dict__` after the fields were set as attributes (record.py:113) -/
def PyStmt.ownDict (E : PyEnv W) (st : PyStmt W) : Dict (Attr W) :=
  Dict.update (Dict.update [] st.attrs) (st.fieldNames.map fun n => (n, { value := .value (E.fieldObj st.cid n) }))

/-- the parsers of the class (record.py:154-158): for every name in `dir(cls)` (sorted), what the name resolves to
(`getattr_static`: own `__dict__` first, then the rest `l` of the order) if it is marked -/
def parsersOf (tbl : List (PyClass W)) (cid : W.Cls) (own : Dict (Attr W)) (l : List W.Cls) : List (Parser W) :=
  (sortNames (own.keys ++ l.flatMap fun c => match findClass tbl c with | some k => k.dict.keys | none => [])).filterMap fun n =>
    match own.get? n with
    | some a => a.parser.map (· cid)
    | none => match firstOf tbl (fun k => k.dict.get? n) l with
      | some a => a.parser.map (· cid)
      | none => none

/-- what `__init_subclass__` sees of a class statement (record.py:77-158); `l`: the rest of the resolution order -/
def PyStmt.spec (E : PyEnv W) (tbl : List (PyClass W)) (st : PyStmt W) (bases : List W.Cls) (l : List W.Cls) : ClassSpec W :=
  { cid := st.cid
    frozen := st.frozen
    unary := st.unary
    ordered := st.ordered
    style := st.style
    anns := Dict.update [] st.anns
    baseAnns := inheritedAnns tbl l
    attrs := (Dict.update [] st.attrs).map fun a => (a.1, a.2.value)
    mroAttrs := fun n => match firstOf tbl (fun k => k.dict.get? n) l with
      | some a => some a.value
      | none => E.typeAttr n
    -- record.py:116
    parents := bases.filterMap fun b => (findClass tbl b).bind (·.rcd)
    pre := match st.pre with
      | some p => p
      | none => (firstOf tbl (·.pre) l).getD []
    parsers := parsersOf tbl st.cid (st.ownDict E) l
    postNew := match st.postNew with
      | some p => p
      | none => (firstOf tbl (·.postNew) l).getD fun i => M.pure (i, none)
    truthy := match st.truthy with
      | some p => p
      | none => (firstOf tbl (·.truthy) l).getD fun _ => true }

/-- Executing a class statement: resolution order (TypeError if there is none), class body, and for subclasses of
`RecordBase` `__init_subclass__`. -/
def newClass (E : PyEnv W) (tbl : List (PyClass W)) (st : PyStmt W) : Except Exc (PyClass W) :=
  let bases := if st.bases.isEmpty then [E.object] else st.bases
  match c3 ((bases.map fun b => match findClass tbl b with | some k => k.mro | none => []) ++ [bases]) with
  | none => .error .typeError
  | some l =>
    if E.recordBase ∈ l then
      match mkClass (st.spec E tbl bases l) with
      | .error e => .error e
      | .ok C => .ok { cid := st.cid, bases := bases, mro := st.cid :: l, anns := Dict.keys (Dict.update [] st.anns),
                       dict := st.ownDict E, pre := st.pre, postNew := st.postNew, truthy := st.truthy, rcd := some C }
    else .ok { cid := st.cid, bases := bases, mro := st.cid :: l, anns := Dict.keys (Dict.update [] st.anns),
               dict := Dict.update [] st.attrs, pre := st.pre, postNew := st.postNew, truthy := st.truthy }

/-- The class tables of programs: class statements are executed one after the other, each making a new class object from
existing ones; fields are not called like something the library itself looks up on the class. -/
inductive Reach (E : PyEnv W) : List (PyClass W) → Prop
  | init : Reach E [E.objectClass, E.recordClass]
  | stmt (tbl : List (PyClass W)) (st : PyStmt W) (c : PyClass W) : Reach E tbl → (∀ k ∈ tbl, k.cid ≠ st.cid) →
      (∀ b ∈ st.bases, ∃ k ∈ tbl, k.cid = b) → (∀ n ∈ st.fieldNames, n ∉ E.internal) → newClass E tbl st = .ok c →
      Reach E (tbl ++ [c])

end Records
