[
 {
  "id": "R01",
  "file": "Verif/Model/Instance.lean",
  "definition": "copyInst",
  "old": "else fromInstance C (fun m => callN E C n none m) Sel.empty (.ofInst E i) [] []",
  "new": "else M.pure (some (.new i))",
  "edit": "copy duplicates __dict__ without filling",
  "breaks": "C91: copies of records with badly typed attributes are refused",
  "nth": 0
 },
 {
  "id": "R02",
  "file": "Verif/Model/Instance.lean",
  "definition": "deepcopyInst",
  "old": "M.bind (deep d) fun d' => fromMapping (fun m => callN E C n none m) Sel.empty [d'] []",
  "new": "M.bind (deep d) fun d' => M.pure (.new (mkInst C d'))",
  "edit": "deepcopy builds the instance without filling and defaults",
  "breaks": "C91",
  "nth": 0
 },
 {
  "id": "R03",
  "file": "Verif/Model/New.lean",
  "definition": "newFields",
  "old": "finishNew C standby (mkInst C values)",
  "new": "finishNew C standby (mkInst C (values.update kw))",
  "edit": "the raw arguments overwrite the filled values",
  "breaks": "C91",
  "nth": 0
 },
 {
  "id": "R04",
  "file": "Verif/Model/New.lean",
  "definition": "fromPickleN",
  "old": "if W.isInstance v C.cid then M.pure (.old v) else parseN E C n v",
  "new": "M.pure (.old v)",
  "edit": "from_pickle returns whatever was unpickled",
  "breaks": "C63",
  "nth": 0
 },
 {
  "id": "R05",
  "file": "Verif/Model/Filler.lean",
  "definition": "Ann.fill",
  "old": "if tc = .exact then validate a.validators v .noCoerceStrict s",
  "new": "if tc = .exact \u2227 a.coercers.isEmpty then validate a.validators v .noCoerceStrict s",
  "edit": "coercers run although the type matches",
  "breaks": "C90",
  "nth": 0
 },
 {
  "id": "R06",
  "file": "Verif/Model/Filler.lean",
  "definition": "unionLoop",
  "old": "if k.rank < bk.rank then unionLoop v fs [x] (some k) s'",
  "new": "if k.rank < bk.rank \u2227 k \u2260 .noCoerce then unionLoop v fs [x] (some k) s'",
  "edit": "an inexact match does not beat a coerced one",
  "breaks": "C90, C30",
  "nth": 0
 },
 {
  "id": "R07",
  "file": "Verif/Model/Filler.lean",
  "definition": "elemLoop",
  "old": "if w = e then elemLoop drains rebuild v es (pre ++ [e])",
  "new": "if w = e \u2227 es \u2260 [] then elemLoop drains rebuild v es (pre ++ [e])",
  "edit": "the container is rebuilt although nothing changed",
  "breaks": "C90",
  "nth": 0
 },
 {
  "id": "R08",
  "file": "Verif/Model/New.lean",
  "definition": "finishNew",
  "old": "| some r => if r.truthy C then (.ok r, s') else (.error e, s')",
  "new": "| some r => if r.truthy C then (.ok (.new i), s') else (.error e, s')",
  "edit": "the half-made instance is returned instead of the parse result",
  "breaks": "C56",
  "nth": 0
 },
 {
  "id": "R09",
  "file": "Verif/Model/Instance.lean",
  "definition": "unpickleInst",
  "old": "dict := j.dict.update (mapValues codec p.state)",
  "new": "dict := (mapValues codec p.state).update j.dict",
  "edit": "the re-constructed values win over the pickled ones",
  "breaks": "C81, C91_unpickled",
  "nth": 0
 }
]