import Verif.Model.Copying
/-
`repr` of objects that contain each other: `RecordBase.__repr__` (records/record.py:269-279) on records whose fields have records, lists,
tuples and dicts in them, with the `repr` of the standard containers.

Simplifications: dicts have string keys; `repr` of other objects and `==` with defaults return (see C109 for the case that they raise);
the recursion limit counts calls of `repr`.
-/
namespace Records
variable {W : World}

/-- `__qualname__` of classes, `repr` of objects without parts and of strings used as keys -/
structure Texts (W : World) where
  qual : W.Cls → String
  leaf : W.Obj → String
  key : String → String

/-- the text of a tuple, from those of its elements -/
def tupleText : List String → String
  | [t] => "(" ++ t ++ ",)"
  | ts => "(" ++ ", ".intercalate ts ++ ")"

/-- `repr(a)` with `n` calls left until the recursion limit, while the containers `busy` are being printed.  Lists, tuples and dicts that
are being printed are abbreviated (`Py_ReprEnter`); records do no such thing (record.py:269-279). -/
def reprN (E : Env W) (T : Texts W) (cls : W.Cls → RecClass W) (h : W.Obj → Node W) : Nat → List W.Obj → W.Obj → M W String
  | 0, _, _ => M.throw .recursionError
  | n + 1, busy, a => match h a with
    | .atom => M.pure (T.leaf a)
    | .list xs =>
      if a ∈ busy then M.pure "[...]"
      else M.bind (M.mapM (reprN E T cls h n (a :: busy)) xs) fun ts => M.pure ("[" ++ ", ".intercalate ts ++ "]")
    | .tuple xs =>
      if a ∈ busy then M.pure "(...)" else M.bind (M.mapM (reprN E T cls h n (a :: busy)) xs) fun ts => M.pure (tupleText ts)
    | .dict m =>
      if a ∈ busy then M.pure "{...}"
      else M.bind (M.mapM (fun kv => M.bind (reprN E T cls h n (a :: busy) kv.2) fun t => M.pure (T.key kv.1 ++ ": " ++ t)) m) fun ts =>
        M.pure ("{" ++ ", ".intercalate ts ++ "}")
    | .record i => M.bind (toDict (cls i.cid) (.ofInst E i) {} Sel.empty) fun d =>
      M.bind (M.mapM (fun kv => M.bind (reprN E T cls h n busy kv.2) fun t => M.pure (kv.1 ++ "=" ++ t)) d) fun ts =>
        M.pure (T.qual i.cid ++ "(" ++ ", ".intercalate ts ++ ")")

end Records
