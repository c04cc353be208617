import Verif.Model.Exporter
/-
Model of the functions that read and write JSON and pickles, as text or through a file (records/record.py:487-566, 607-642).
Simplification: an unpickled object is an object of the world (`W.Obj`), also if it is a record.
-/
namespace Records
variable {W : World}

/-- `dumps(x, *args, **kw)`, `dump(x, io, *args, **kw)`, `loads(t, *args, **kw)` and `load(io, *args, **kw)` of the modules `json`
and `pickle`; `X` is what is dumped -/
structure Codec (W : World) (X : Type) where
  dumps : X → List W.Obj → Dict W.Obj → M W W.Obj
  dump : X → W.Obj → List W.Obj → Dict W.Obj → M W Unit
  loads : W.Obj → List W.Obj → Dict W.Obj → M W W.Obj
  load : W.Obj → List W.Obj → Dict W.Obj → M W W.Obj

/-- the common body of `to_json` and `to_pickle` (record.py:623-625, 640-642); `none`: returns `None` -/
def Codec.write {X : Type} (J : Codec W X) (x : X) (args : List W.Obj) (kw : Dict W.Obj) : M W (Option W.Obj) :=
  match kw.get? "io" with
  | none => M.bind (J.dumps x args kw) fun t => M.pure (some t)
  | some io =>
    if W.isNone io then M.bind (J.dumps x args (kw.erase "io")) fun t => M.pure (some t)
    else M.bind (J.dump x io args (kw.erase "io")) fun _ => M.pure none

/-- the function wrapped by the exporter `to_json` (record.py:607-625): `v` is its first parameter -/
def toJsonFn (J : Codec W (Dict W.Obj)) : XFun W (Option W.Obj) :=
  .args fun d args kw => if kw.has "v" then M.throw .typeError else J.write d args kw

/-- `r.to_pickle(*args, **kw)` (record.py:627-642) -/
def toPickle (P : Codec W (Inst W)) (r : Inst W) (args : List W.Obj) (kw : Dict W.Obj) : M W (Option W.Obj) :=
  if kw.has "self" then M.throw .typeError else P.write r args kw

/-- `C.from_json_io.select(sel)(f, **kw)` (record.py:507-522) through `SelectableFactory.run` -/
def fromJsonIo (E : Env W) (J : Codec W (Dict W.Obj)) (call : Dict W.Obj → M W (Res W)) (sel : Sel W.Obj) (f : W.Obj)
    (kw : Dict W.Obj) : M W (Res W) :=
  if clash ["self", "cls", "v"] kw then M.throw .typeError
  else M.bind (J.load f [] kw) fun j =>
    M.bind (if sel.truth.1 then E.dictView j else E.starView j) fun m => buildFrom call sel m

/-- what `from_pickle` and `from_pickle_io` do with the unpickled object (record.py:542-544, 564-566) -/
def accept (E : Env W) (C : RecClass W) (n : Nat) (v : W.Obj) : M W (Res W) :=
  if !W.isInstance v C.cid then parseN E C n v else M.pure (.old v)

/-- `C.from_pickle(b, *args, **kw)` (record.py:524-544) -/
def fromPickle (E : Env W) (P : Codec W (Inst W)) (C : RecClass W) (n : Nat) (b : W.Obj) (args : List W.Obj) (kw : Dict W.Obj) :
    M W (Res W) :=
  if clash ["cls", "v"] kw then M.throw .typeError else M.bind (P.loads b args kw) (accept E C n)

/-- `C.from_pickle_io(f, *args, **kw)` (record.py:546-566) -/
def fromPickleIo (E : Env W) (P : Codec W (Inst W)) (C : RecClass W) (n : Nat) (f : W.Obj) (args : List W.Obj) (kw : Dict W.Obj) :
    M W (Res W) :=
  if clash ["cls", "v"] kw then M.throw .typeError else M.bind (P.load f args kw) (accept E C n)

end Records
