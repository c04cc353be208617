[
 {
  "id": "T01",
  "file": "Verif/Model/Instance.lean",
  "definition": "reprInst",
  "old": "M.pure (qual i.cid ++ \"(\"",
  "new": "M.pure (\"Record\" ++ \"(\"",
  "edit": "repr starts with a fixed name",
  "breaks": "C83",
  "nth": 0
 },
 {
  "id": "T02",
  "file": "Verif/Model/Instance.lean",
  "definition": "reprInst",
  "old": "M.bind (toDict C (.ofInst E i) o Sel.empty) fun d =>\n    M.pure (qual",
  "new": "M.bind (toDict C (.ofInst E i) {} Sel.empty) fun d =>\n    M.pure (qual",
  "edit": "repr ignores the options",
  "breaks": "C83",
  "nth": 0
 },
 {
  "id": "T03",
  "file": "Verif/Model/Instance.lean",
  "definition": "reprInst",
  "old": "kv.1 ++ \"=\" ++ rep kv.2",
  "new": "kv.1 ++ \":\" ++ rep kv.2",
  "edit": "repr uses a colon",
  "breaks": "C83",
  "nth": 0
 },
 {
  "id": "T04",
  "file": "Verif/Model/Instance.lean",
  "definition": "reprInst",
  "old": "(d.map fun kv",
  "new": "(d.reverse.map fun kv",
  "edit": "repr reverses the order",
  "breaks": "C83",
  "nth": 0
 },
 {
  "id": "T05",
  "file": "Verif/Model/Instance.lean",
  "definition": "toJson",
  "old": "M.bind (toDict C (.ofInst E i) o Sel.empty) dumps",
  "new": "M.bind (toDict C (.ofInst E i) { o with includeDefaults := true } Sel.empty) dumps",
  "edit": "to_json always includes defaults",
  "breaks": "none stated: a json export with defaults also round-trips, C78 is about any options",
  "nth": 0
 },
 {
  "id": "T06",
  "file": "Verif/Model/Instance.lean",
  "definition": "toJson",
  "old": "M.bind (toDict C (.ofInst E i) o Sel.empty) dumps",
  "new": "M.bind (toDict C (.ofInst E i) o Sel.empty) fun d => dumps (d.drop 1)",
  "edit": "to_json loses the first entry",
  "breaks": "C78",
  "nth": 0
 },
 {
  "id": "T07",
  "file": "Verif/Model/Instance.lean",
  "definition": "copyInst",
  "old": "if C.frozen then M.pure none",
  "new": "if !C.frozen then M.pure none",
  "edit": "non-frozen records copied by identity, frozen rebuilt",
  "breaks": "C79",
  "nth": 0
 },
 {
  "id": "T08",
  "file": "Verif/Model/Instance.lean",
  "definition": "copyInst",
  "old": "if C.frozen then M.pure none\n  else",
  "new": "if false then M.pure none\n  else",
  "edit": "frozen records are rebuilt by copy",
  "breaks": "C79",
  "nth": 0
 },
 {
  "id": "T09",
  "file": "Verif/Model/Instance.lean",
  "definition": "copyInst",
  "old": "Sel.empty (.ofInst E i) [] []",
  "new": "Sel.empty (.ofInst E { i with dict := i.dict.drop 1 }) [] []",
  "edit": "copy loses the first field",
  "breaks": "C79",
  "nth": 0
 },
 {
  "id": "T10",
  "file": "Verif/Model/Instance.lean",
  "definition": "deepcopyInst",
  "old": "M.bind (deep d) fun d' => fromMapping",
  "new": "M.bind (deep d) fun d' => M.bind (M.pure d) fun d' => fromMapping",
  "edit": "deepcopy uses the originals",
  "breaks": "C80",
  "nth": 0
 },
 {
  "id": "T11",
  "file": "Verif/Model/Instance.lean",
  "definition": "deepcopyInst",
  "old": "M.bind (toDict C (.ofInst E i) {} Sel.empty) fun d =>\n    M.bind (deep",
  "new": "M.bind (toDict C (.ofInst E i) { includeDefaults := true } Sel.empty) fun d =>\n    M.bind (deep",
  "edit": "deepcopy exports defaults too",
  "breaks": "none stated: result is equal; a deepcopied default is equal too",
  "nth": 0
 },
 {
  "id": "T12",
  "file": "Verif/Model/Instance.lean",
  "definition": "reduceInst",
  "old": "M.pure \u27e8d, i.dict, i.hash\u27e9",
  "new": "M.pure \u27e8d, [], i.hash\u27e9",
  "edit": "pickling drops __dict__",
  "breaks": "C81",
  "nth": 0
 },
 {
  "id": "T13",
  "file": "Verif/Model/Instance.lean",
  "definition": "reduceInst",
  "old": "M.pure \u27e8d, i.dict, i.hash\u27e9",
  "new": "M.pure \u27e8d, i.dict, none\u27e9",
  "edit": "pickling drops the cached hash",
  "breaks": "C82",
  "nth": 0
 },
 {
  "id": "T14",
  "file": "Verif/Model/Instance.lean",
  "definition": "reduceInst",
  "old": "M.pure \u27e8d, i.dict, i.hash\u27e9",
  "new": "M.pure \u27e8[], i.dict, i.hash\u27e9",
  "edit": "pickling gives no constructor arguments",
  "breaks": "C81",
  "nth": 0
 },
 {
  "id": "T15",
  "file": "Verif/Model/Instance.lean",
  "definition": "newKw",
  "old": "if kw.has \"cls\" then M.throw .typeError\n  else",
  "new": "if false then M.throw .typeError\n  else",
  "edit": "a field named cls can be passed",
  "breaks": "C81",
  "nth": 0
 },
 {
  "id": "T16",
  "file": "Verif/Model/Instance.lean",
  "definition": "newKw",
  "old": "some a => new (some a) (kw.erase \"arg\")",
  "new": "some a => new none kw",
  "edit": "arg is an ordinary keyword",
  "breaks": "C81",
  "nth": 0,
  "tightened": [
   "C81_fails",
   "C81_attributes"
  ]
 },
 {
  "id": "T17",
  "file": "Verif/Model/Instance.lean",
  "definition": "newKw",
  "old": "new (some a) (kw.erase \"arg\")",
  "new": "new (some a) kw",
  "edit": "arg is passed twice",
  "breaks": "C81",
  "nth": 0,
  "tightened": [
   "C81_fails",
   "C81_attributes"
  ]
 },
 {
  "id": "T18",
  "file": "Verif/Model/Instance.lean",
  "definition": "unpickleInst",
  "old": "dict := j.dict.update (mapValues codec p.state)",
  "new": "dict := j.dict",
  "edit": "unpickling ignores the stored __dict__",
  "breaks": "C81",
  "nth": 0
 },
 {
  "id": "T19",
  "file": "Verif/Model/Instance.lean",
  "definition": "unpickleInst",
  "old": "dict := j.dict.update (mapValues codec p.state)",
  "new": "dict := mapValues codec p.state",
  "edit": "unpickling replaces __dict__",
  "breaks": "C81",
  "nth": 0
 },
 {
  "id": "T20",
  "file": "Verif/Model/Instance.lean",
  "definition": "unpickleInst",
  "old": "match p.hash with | some h => some h | none => j.hash",
  "new": "j.hash",
  "edit": "unpickling resets the hash cache",
  "breaks": "C82",
  "nth": 0
 },
 {
  "id": "T21",
  "file": "Verif/Model/Instance.lean",
  "definition": "unpickleInst",
  "old": "dict := j.dict.update (mapValues codec p.state)",
  "new": "dict := j.dict.update p.state",
  "edit": "unpickled values are the originals",
  "breaks": "C81",
  "nth": 0
 },
 {
  "id": "T22",
  "file": "Verif/Model/Instance.lean",
  "definition": "unpickleInst",
  "old": "(mapValues codec p.kwargs)",
  "new": "p.kwargs",
  "edit": "constructor arguments are not decoded",
  "breaks": "C81",
  "nth": 0
 },
 {
  "id": "T23",
  "file": "Verif/Model/Instance.lean",
  "definition": "mapValues",
  "old": "d.map fun kv => (kv.1, f kv.2)",
  "new": "(d.map fun kv => (kv.1, f kv.2)).reverse",
  "edit": "decoded dict is reversed",
  "breaks": "C81 / C82 (attribute order)",
  "nth": 0
 },
 {
  "id": "T24",
  "file": "Verif/Model/Instance.lean",
  "definition": "unpickleInst",
  "old": "| .old v => M.pure (.old v)",
  "new": "| .old v => M.throw .typeError",
  "edit": "unpickling raises if post_new replaced the instance",
  "breaks": "C81",
  "nth": 0
 }
]