import Verif.Model.Filler
/-
Model of records/field.py, records/tags.py and `RecordBase.__init_subclass__` (records/record.py:77-158): fields and
record classes.
-/
namespace Records
variable {W : World}

/-- The type hint of a declaration, as `RecordField.from_type_hint` distinguishes it (field.py:111-126).
`plain h`: everything else, including `Annotated[...]` around a type; `classVar`: `ClassVar[...]`, also inside `Annotated`;
`final h toks`: `Final[h]` (`toks = []`) or `Annotated[Final[h], *toks]` (allowed by `typing` from 3.9.11 on);
`rawFinal`: `Final` without parameter. -/
inductive FHint (W : World)
  | plain (h : Hint W)
  | classVar
  | final (h : Hint W) (toks : List (Tok W))
  | rawFinal

/-- A default: a plain value, or `Factory(func)` (field.py:21-27, 94-98) -/
inductive Deflt (W : World)
  | value (v : W.Obj)
  | factory (f : M W W.Obj)

/-- `RecordField` (field.py:30-63). `owner` is the class that declared it; tags (tags.py:4-20: equal iff their inner objects
are) are represented by numbers, `excludeTag` below is `exclude_from_ordering`. -/
structure Field (W : World) where
  name : String
  default : Option (Deflt W)
  owner : W.Cls
  tags : List Nat
  filler : F W

/-- `exclude_from_ordering = Tag(object())` (record.py:24) -/
def excludeTag : Nat := 0

/-- `RecordField.has_default` (field.py:77-82) -/
def Field.hasDefault (f : Field W) : Bool := f.default.isSome

/-- `RecordField.is_default` on a field that has a default (field.py:84-92) -/
def Deflt.isDefault (d : Deflt W) (v : W.Obj) : Bool :=
  match d with
  | .factory _ => false
  | .value d => W.eq d v

/-- `RecordField.make_default` (field.py:65-75) -/
def Deflt.make : Deflt W → M W W.Obj
  | .value v => M.pure v
  | .factory f => f

/-- the tags among the `Annotated` arguments (field.py:124-125, 222-224) -/
def tagsOf (toks : List (Tok W)) : List Nat := toks.filterMap fun t => match t with | .tag n => some n | _ => none

/-- `split_annotation` (typing_compatible.py:55-59), second component -/
def Hint.topToks : Hint W → List (Tok W)
  | .annotated _ toks => toks
  | _ => []

/-- `RecordField.from_type_hint` (field.py:100-126); `none`: `SKIP_FIELD` -/
def fieldFromHint (owner : W.Cls) (frozen : Bool) (name : String) (default : Option (Deflt W)) (h : FHint W) :
    Except Exc (Option (Field W)) :=
  match h with
  | .rawFinal => .error .typeError
  | .classVar => .ok none
  | .plain h => match getFiller h with
    | .error e => .error e
    | .ok f => .ok (some ⟨name, default, owner, tagsOf h.topToks, f⟩)
  | .final h toks =>
    if !frozen then .error .typeError
    else match getFiller h with
      | .error e => .error e
      | .ok f => .ok (some ⟨name, default, owner, tagsOf h.topToks ++ tagsOf toks, f⟩)

/-- `FieldDict.filter_by_tag` (field.py:232-239) -/
def filterByTag (fields : Dict (Field W)) (tag : Nat) : Dict (Field W) := fields.filter fun kf => decide (tag ∈ kf.2.tags)

/-! ### instances and classes -/

/-- A record instance: its class, `__dict__`, and the slot `_hash` (record.py:58): unset (`none`, non-frozen classes),
`None` (`some none`), or a cached hash. -/
structure Inst (W : World) where
  cid : W.Cls
  dict : Dict W.Obj
  hash : Option (Option Int)

/-- What construction and the factories return: an object that existed before or was made by user code (`old`), or the
instance created by this call (`new`). -/
inductive Res (W : World)
  | old (v : W.Obj)
  | new (i : Inst W)

/-- The parsers of a class (record.py:431-505, `@parser`): the three built-in ones and user-defined ones. -/
inductive Parser (W : World)
  | fromMapping
  | fromInstance
  | fromJson
  | user (f : W.Obj → M W (Res W))

/-- A record class after creation: the class attributes of record.py:60-75, the hook `post_new` (254-263), and the
truthiness of its instances (`__bool__`/`__len__`, `True` unless the class defines one).
`postNew i` returns the instance after the mutations made by `post_new`, and the returned object if it is not `None`. -/
structure RecClass (W : World) where
  cid : W.Cls
  fields : Dict (Field W)
  /-- is `_fields` a `FieldDict` (or a plain `dict`)? -/
  isFieldDict : Bool
  required : List String
  optional : List String
  style : Style
  frozen : Bool
  unary : Bool
  ordered : Bool
  parsers : List (Parser W)
  postNew : Inst W → M W (Inst W × Option (Res W))
  truthy : Inst W → Bool

/-- `C._fields.filter_by_tag(tag)` (field.py:232-239): only a `FieldDict` has the method -/
def RecClass.filterByTag (C : RecClass W) (tag : Nat) : Except Exc (Dict (Field W)) :=
  if C.isFieldDict then .ok (Records.filterByTag C.fields tag) else .error .attributeError

/-- A class statement `class C(*bases, frozen=..., ...)`, as `__init_subclass__` sees it.
* `anns`: the own annotations in order; `baseAnns`: the names annotated in other classes of the MRO, in the order of
  `typing.get_type_hints` (reversed MRO);
* `attrs`: the values assigned in the class body; `mroAttrs`: what `getattr_static` finds elsewhere in the MRO;
* `parents`: the record classes among `__bases__` other than `RecordBase`;
* `pre`: the tokens added in `pre_bind`, in order: field name, sub-key, token;
* `parsers`: the attributes of `dir(cls)` marked as parser, in that order.
Simplifications: `pre_bind` does nothing else; `super().__init_subclass__` and the warnings (record.py:90-94, 127-128; see `Special`)
are left out. -/
structure ClassSpec (W : World) where
  cid : W.Cls
  frozen : Bool := false
  unary : Option Bool := none
  ordered : Bool := false
  style : Style := .hollow
  anns : List (String × FHint W)
  baseAnns : List String := []
  attrs : Dict (Deflt W) := []
  mroAttrs : String → Option (Deflt W) := fun _ => none
  parents : List (RecClass W) := []
  pre : List (String × Option Int × Tok W) := []
  parsers : List (Parser W) := [.fromInstance, .fromJson, .fromMapping]
  postNew : Inst W → M W (Inst W × Option (Res W)) := fun i => M.pure (i, none)
  truthy : Inst W → Bool := fun _ => true

/-- the items of `get_type_hints(cls)` that are own annotations (record.py:101-105): a name that is also annotated in
another class of the MRO keeps the position it has there -/
def ClassSpec.hints (sp : ClassSpec W) : List (String × FHint W) :=
  (sp.baseAnns.filterMap fun n => (Dict.get? sp.anns n).map fun h => (n, h)) ++
    sp.anns.filter fun a => decide (a.1 ∉ sp.baseAnns)

/-- `getattr_static(cls, name, NO_DEFAULT)` (record.py:109) -/
def ClassSpec.defaultOf (sp : ClassSpec W) (n : String) : Option (Deflt W) :=
  match sp.attrs.get? n with
  | some d => some d
  | none => sp.mroAttrs n

/-- the loop over the own declarations (record.py:102-113) -/
def ownFields (sp : ClassSpec W) : List (String × FHint W) → Except Exc (Dict (Field W))
  | [] => .ok []
  | (n, h) :: l => match fieldFromHint sp.cid sp.frozen n (sp.defaultOf n) h with
    | .error e => .error e
    | .ok f => match ownFields sp l with
      | .error e => .error e
      | .ok fs => .ok (match f with | some f => (n, f) :: fs | none => fs)

/-- the inner loop over the fields of one parent (record.py:120-123) -/
def addInherited (own : Dict (Field W)) : Dict (Field W) → Dict (Field W) → Except Exc (Dict (Field W))
  | [], acc => .ok acc
  | (k, f) :: l, acc =>
    if own.has k || acc.has k then .error .valueError else addInherited own l (acc.set k f)

/-- the loop over the parents (record.py:116-123) -/
def inheritedFields (own : Dict (Field W)) : List (RecClass W) → Dict (Field W) → Except Exc (Dict (Field W))
  | [], acc => .ok acc
  | p :: ps, acc => match addInherited own p.fields acc with
    | .error e => .error e
    | .ok acc' => inheritedFields own ps acc'

/-- one token added in `pre_bind` (field.py:128-130): the field is the class attribute of that name -/
def preStep (fields : Dict (Field W)) (n : String) (key : Option Int) (t : Tok W) : Except Exc (Dict (Field W)) :=
  match fields.get? n with
  | none => .error .attributeError
  | some f => match f.filler.applySub key t with
    | .error e => .error e
    | .ok g => .ok (fields.set n { f with filler := g })

/-- `cls.pre_bind()` (record.py:147) -/
def preBind : List (String × Option Int × Tok W) → Dict (Field W) → Except Exc (Dict (Field W))
  | [], fields => .ok fields
  | (n, key, t) :: l, fields => match preStep fields n key t with
    | .error e => .error e
    | .ok fields' => preBind l fields'

/-- the loop that binds the own fields (record.py:149-152) -/
def bindFields (cid : W.Cls) (d : Style) : Dict (Field W) → Except Exc (Dict (Field W))
  | [] => .ok []
  | (n, f) :: l =>
    if f.owner = cid then
      match f.filler.bind d with
      | .error e => .error e
      | .ok g => match bindFields cid d l with
        | .error e => .error e
        | .ok l' => .ok ((n, { f with filler := g }) :: l')
    else match bindFields cid d l with
      | .error e => .error e
      | .ok l' => .ok ((n, f) :: l')

/-- `RecordBase.__init_subclass__` (record.py:77-158) -/
def mkClass (sp : ClassSpec W) : Except Exc (RecClass W) :=
  match ownFields sp sp.hints with
  | .error e => .error e
  | .ok own => match inheritedFields own sp.parents [] with
    | .error e => .error e
    | .ok inh =>
      -- record.py:124-125: `{**parent_fields, **cls._fields}`
      let all := if inh.isEmpty then own else inh.update own
      if all.isEmpty then .error .valueError
      else
        let required := Dict.keys (all.filter fun kf => !kf.2.hasDefault)
        let optional := (Dict.keys all).filter fun k => decide (k ∉ required)
        match preBind sp.pre all with
        | .error e => .error e
        | .ok all1 => match bindFields sp.cid sp.style all1 with
          | .error e => .error e
          | .ok all2 => .ok
            { cid := sp.cid
              fields := all2
              isFieldDict := inh.isEmpty
              required := required
              optional := optional
              style := sp.style
              frozen := sp.frozen
              unary := match sp.unary with | some b => b | none => decide (required.length ≠ 1)
              ordered := sp.ordered
              parsers := sp.parsers
              postNew := sp.postNew
              truthy := sp.truthy }

end Records
