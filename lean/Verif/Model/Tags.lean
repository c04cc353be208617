import Verif.Model.Instance
/-
Model of tags as Python objects in Python sets (records/tags.py:4-20, records/field.py:55-61, 124-126, 222-239,
records/record.py:329-330, 337-339). The rest of the model numbers the tags; `C101_numbering` relates the two.
-/
namespace Records
variable {W : World}

/-- A `Tag` (tags.py:4-10): the object itself (`addr`), its type, and the object it wraps -/
structure Tag (W : World) where
  addr : Nat
  cls : W.Cls
  inner : W.Obj

/-- `Tag.__eq__` (tags.py:15-17) -/
def Tag.eq (a b : Tag W) : Bool := decide (b.cls = a.cls) && W.eq a.inner b.inner

/-- `Tag.__hash__` (tags.py:12-13) -/
def Tag.hash (H : Hasher W) (t : Tag W) : Except Exc Int :=
  if W.hashable t.inner then .ok (H.obj t.inner) else .error .typeError

/-- the test a set makes for a stored element: equal hashes, and identical or equal -/
def Tag.matches (H : Hasher W) (stored t : Tag W) : Bool :=
  decide (H.obj stored.inner = H.obj t.inner) && (decide (stored.addr = t.addr) || stored.eq t)

/-- `t in tags` for a set -/
def tagIn (H : Hasher W) (t : Tag W) (tags : List (Tag W)) : Except Exc Bool :=
  match t.hash H with
  | .error e => .error e
  | .ok _ => .ok (tags.any fun x => x.matches H t)

/-- `tags.add(t)` (field.py:222-224) -/
def tagAdd (H : Hasher W) (tags : List (Tag W)) (t : Tag W) : Except Exc (List (Tag W)) :=
  match tagIn H t tags with
  | .error e => .error e
  | .ok true => .ok tags
  | .ok false => .ok (tags ++ [t])

/-- What is listed in `Annotated`: a tag, or a token for the filler (numbered tags do not occur here) -/
inductive TTok (W : World)
  | tag (t : Tag W)
  | other (t : Tok W)

/-- `for arg in args: ret._apply(arg)` (field.py:124-125, 222-224) -/
def applyTags (H : Hasher W) : List (Tag W) → List (TTok W) → Except Exc (List (Tag W))
  | tags, [] => .ok tags
  | tags, .other _ :: l => applyTags H tags l
  | tags, .tag t :: l => match tagAdd H tags t with
    | .error e => .error e
    | .ok tags' => applyTags H tags' l

/-- truth of `a & b` for two sets: CPython looks up the elements of the smaller one in the other (record.py:339) -/
def tagsMeet (H : Hasher W) (a b : List (Tag W)) : Bool :=
  if b.length > a.length then a.any fun x => b.any fun y => y.matches H x
  else b.any fun x => a.any fun y => y.matches H x

/-- `FieldDict.filter_by_tag` (field.py:232-239) on the names and tag sets of the fields -/
def filterTagged (H : Hasher W) (t : Tag W) : Dict (List (Tag W)) → Except Exc (List String)
  | [] => .ok []
  | (k, tags) :: l => match tagIn H t tags with
    | .error e => .error e
    | .ok b => match filterTagged H t l with
      | .error e => .error e
      | .ok r => .ok (if b then k :: r else r)

end Records
