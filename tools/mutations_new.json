[
 {
  "id": "N01",
  "file": "Verif/Model/New.lean",
  "definition": "Res.notNone",
  "old": "if W.isNone v then none else some (.old v)",
  "new": "if W.truthy v then some (.old v) else none",
  "edit": "falsy parse results count as no result",
  "breaks": "C55",
  "nth": 0
 },
 {
  "id": "N02",
  "file": "Verif/Model/New.lean",
  "definition": "rewrapErr",
  "old": "| .typeError => ⟨.valueError, some k⟩",
  "new": "| .typeError => ⟨.typeError, some k⟩",
  "edit": "TypeError instead of ValueError for classes that cannot be called with one string",
  "breaks": "C60",
  "nth": 0
 },
 {
  "id": "N03",
  "file": "Verif/Model/New.lean",
  "definition": "rewrapErr",
  "old": "| kind => ⟨kind, some k⟩",
  "new": "| kind => ⟨kind, none⟩",
  "edit": "field not named",
  "breaks": "C60",
  "nth": 0
 },
 {
  "id": "N04",
  "file": "Verif/Model/New.lean",
  "definition": "rewrapErr",
  "old": "if e'.isTypeError then ⟨.valueError, some k⟩ else e'",
  "new": "⟨.valueError, some k⟩",
  "edit": "any error of building the error becomes ValueError",
  "breaks": "C60 (exactness)",
  "nth": 0
 },
 {
  "id": "N05",
  "file": "Verif/Model/New.lean",
  "definition": "fillLoop",
  "old": "fillLoop E fields standby kw (values.set k w) s'",
  "new": "fillLoop E fields standby kw (values.set k v) s'",
  "edit": "stores the unfilled value",
  "breaks": "C49",
  "nth": 0
 },
 {
  "id": "N06",
  "file": "Verif/Model/New.lean",
  "definition": "fillLoop",
  "old": "if !e.isException then (.error e, s')\n        else match standby",
  "new": "match standby",
  "edit": "a standing-by parse result replaces KeyboardInterrupt",
  "breaks": "C60, C28",
  "nth": 0
 },
 {
  "id": "N07",
  "file": "Verif/Model/New.lean",
  "definition": "fillLoop",
  "old": "| some r => (.ok (.inl r), s')\n          | none",
  "new": "| some r => (.error (rewrapErr E e k), s')\n          | none",
  "edit": "filling error raised although a parse result stands by",
  "breaks": "C56",
  "nth": 0
 },
 {
  "id": "N08",
  "file": "Verif/Model/New.lean",
  "definition": "defaultLoop",
  "old": "M.bind d.make fun v => defaultLoop fields ks (values.set k v)",
  "new": "M.bind d.make fun v => defaultLoop fields ks values",
  "edit": "factory results dropped",
  "breaks": "C49",
  "nth": 0
 },
 {
  "id": "N09",
  "file": "Verif/Model/New.lean",
  "definition": "defaultLoop",
  "old": "M.bind d.make fun v => defaultLoop fields ks (values.set k v)",
  "new": "M.bind d.make fun _ => M.bind d.make fun v => defaultLoop fields ks (values.set k v)",
  "edit": "factories called twice",
  "breaks": "C54",
  "nth": 0
 },
 {
  "id": "N10",
  "file": "Verif/Model/New.lean",
  "definition": "mkInst",
  "old": "if C.frozen then some none else none",
  "new": "none",
  "edit": "hash slot not initialised",
  "breaks": "C49",
  "nth": 0
 },
 {
  "id": "N11",
  "file": "Verif/Model/New.lean",
  "definition": "mkInst",
  "old": "cid := C.cid",
  "new": "cid := W.objectCls",
  "edit": "plain object created",
  "breaks": "C49",
  "nth": 0
 },
 {
  "id": "N12",
  "file": "Verif/Model/New.lean",
  "definition": "finishNew",
  "old": "if r.truthy C then r else Res.new i'",
  "new": "r",
  "edit": "any return value of post_new replaces the instance",
  "breaks": "C62",
  "nth": 0
 },
 {
  "id": "N13",
  "file": "Verif/Model/New.lean",
  "definition": "finishNew",
  "old": "| none => Res.new i'",
  "new": "| none => Res.new i",
  "edit": "mutations of post_new are lost",
  "breaks": "C62",
  "nth": 0
 },
 {
  "id": "N14",
  "file": "Verif/Model/New.lean",
  "definition": "finishNew",
  "old": "| some _ => (.error .typeError, s')",
  "new": "| some r => (.ok r, s')",
  "edit": "ambiguous argument yields the parse result",
  "breaks": "C55",
  "nth": 0
 },
 {
  "id": "N15",
  "file": "Verif/Model/New.lean",
  "definition": "finishNew",
  "old": "| some r => if r.truthy C then (.ok r, s') else (.error e, s')",
  "new": "| some r => (.ok r, s')",
  "edit": "parse result tested for None (the documented intention)",
  "breaks": "C56 (refutation)",
  "nth": 0
 },
 {
  "id": "N16",
  "file": "Verif/Model/New.lean",
  "definition": "finishNew",
  "old": "if !e.isException then (.error e, s')\n    else match standby",
  "new": "match standby",
  "edit": "KeyboardInterrupt in post_new replaced by the parse result",
  "breaks": "C28",
  "nth": 0
 },
 {
  "id": "N17",
  "file": "Verif/Model/New.lean",
  "definition": "newFields",
  "old": "if kw.keys.any fun k => !C.fields.has k then M.throw .typeError\n  else ",
  "new": "",
  "edit": "unknown keywords not rejected up front",
  "breaks": "C50",
  "nth": 0
 },
 {
  "id": "N18",
  "file": "Verif/Model/New.lean",
  "definition": "newFields",
  "old": "      if C.required.any fun k => !kw.has k then M.throw .typeError\n      else M.bind",
  "new": "      M.bind",
  "edit": "missing required fields accepted",
  "breaks": "C51",
  "nth": 0
 },
 {
  "id": "N19",
  "file": "Verif/Model/New.lean",
  "definition": "newFields",
  "old": "C.optional.filter fun k => !kw.has k",
  "new": "C.optional",
  "edit": "defaults overwrite supplied values",
  "breaks": "C49, C54",
  "nth": 0
 },
 {
  "id": "N20",
  "file": "Verif/Model/New.lean",
  "definition": "newFields",
  "old": "C.optional.filter fun k => !kw.has k",
  "new": "C.optional.filter fun k => kw.has k",
  "edit": "defaults made for supplied fields only",
  "breaks": "C49, C54",
  "nth": 0
 },
 {
  "id": "N21",
  "file": "Verif/Model/New.lean",
  "definition": "newFields",
  "old": "| .inl p => M.pure p",
  "new": "| .inl _ => M.throw .typeError",
  "edit": "parse result standing by is not returned",
  "breaks": "C56",
  "nth": 0
 },
 {
  "id": "N22",
  "file": "Verif/Model/New.lean",
  "definition": "tryParse",
  "old": "if kw.isEmpty && C.unary then",
  "new": "if C.unary then",
  "edit": "parses even with keywords",
  "breaks": "C50, C55",
  "nth": 0
 },
 {
  "id": "N23",
  "file": "Verif/Model/New.lean",
  "definition": "tryParse",
  "old": "if kw.isEmpty && C.unary then",
  "new": "if kw.isEmpty then",
  "edit": "parses although unary parsing is off",
  "breaks": "C55",
  "nth": 0
 },
 {
  "id": "N24",
  "file": "Verif/Model/New.lean",
  "definition": "tryParse",
  "old": "e.kind = .parseFailure ∧ C.required.length = 1",
  "new": "e.kind = .parseFailure",
  "edit": "ParseFailure always swallowed",
  "breaks": "C55",
  "nth": 0
 },
 {
  "id": "N25",
  "file": "Verif/Model/New.lean",
  "definition": "tryParse",
  "old": "e.kind = .parseFailure ∧ C.required.length = 1",
  "new": "e.isTypeError ∧ C.required.length = 1",
  "edit": "ambiguous parses swallowed",
  "breaks": "C55",
  "nth": 0
 },
 {
  "id": "N26",
  "file": "Verif/Model/New.lean",
  "definition": "construct",
  "old": "if kw.has key then M.throw .typeError else newFields E C standby (kw.set key a)",
  "new": "newFields E C standby (kw.set key a)",
  "edit": "positional argument overrides the keyword",
  "breaks": "C55",
  "nth": 0
 },
 {
  "id": "N27",
  "file": "Verif/Model/New.lean",
  "definition": "construct",
  "old": "| none => M.throw .typeError",
  "new": "| none => newFields E C none kw",
  "edit": "positional argument ignored if there is no unique required field",
  "breaks": "C55",
  "nth": 0
 },
 {
  "id": "N28",
  "file": "Verif/Model/New.lean",
  "definition": "callCls",
  "old": "if kw.has \"cls\" then M.throw .typeError\n  else match",
  "new": "match",
  "edit": "keyword cls accepted",
  "breaks": "C61",
  "nth": 0
 },
 {
  "id": "N29",
  "file": "Verif/Model/New.lean",
  "definition": "callCls",
  "old": "| some _, some _ => M.throw .typeError",
  "new": "| some a, some _ => M.bind (new (some a) (kw.erase \"arg\")) init",
  "edit": "keyword arg ignored beside a positional",
  "breaks": "C61",
  "nth": 0
 },
 {
  "id": "N30",
  "file": "Verif/Model/New.lean",
  "definition": "callCls",
  "old": "new (some a) (kw.erase \"arg\")",
  "new": "new none kw",
  "edit": "keyword arg is an ordinary field",
  "breaks": "C61",
  "nth": 0
 },
 {
  "id": "N31",
  "file": "Verif/Model/New.lean",
  "definition": "callCls.init",
  "old": "r.isInst C.cid && kw.has \"self\"",
  "new": "false",
  "edit": "keyword self accepted",
  "breaks": "C61",
  "nth": 0
 }
]