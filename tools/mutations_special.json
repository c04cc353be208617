[
 {
  "id": "CB01",
  "file": "Verif/Model/Special.lean",
  "definition": "bodyDict",
  "old": "if d.has \"__eq__\" && !d.has \"__hash__\" then",
  "new": "if d.has \"__hash__\" then",
  "edit": "defining __eq__ does not set __hash__, defining __hash__ unsets it",
  "breaks": "C113: warns of __hash__ also if the body defines __eq__"
 },
 {
  "id": "CB02",
  "file": "Verif/Model/Special.lean",
  "definition": "special",
  "old": "if C.frozen then (d.set \"__setattr__\" .library).set \"__hash__\" .library",
  "new": "if C.frozen then d.set \"__setattr__\" .library",
  "edit": "a frozen class keeps the __hash__ of its body",
  "breaks": "C113: a frozen class has the __hash__ of the library"
 },
 {
  "id": "CB03",
  "file": "Verif/Model/Special.lean",
  "definition": "special",
  "old": "else (d.set \"__setattr__\" .object).set \"__hash__\" .absent",
  "new": "else d.set \"__hash__\" .absent",
  "edit": "a non-frozen class keeps the __setattr__ of its body",
  "breaks": "C113: a non-frozen class has the __setattr__ of object"
 },
 {
  "id": "CB04",
  "file": "Verif/Model/Special.lean",
  "definition": "special",
  "old": "    match c.rcd with\n    | none => d\n    | some C =>\n",
  "new": "    match c.rcd with\n    | none => d\n    | some C =>\n      let d := d.set \"__init__\" .library\n",
  "edit": "__init__ is overridden as well",
  "breaks": "C113: the __init__ of the body counts"
 },
 {
  "id": "CB05",
  "file": "Verif/Model/Special.lean",
  "definition": "warnings",
  "old": "if c.bases.any (fun b =>",
  "new": "if c.bases.all (fun b =>",
  "edit": "warns only if every base has an initializer",
  "breaks": "C113: warns if a base has an __init__"
 },
 {
  "id": "CB06",
  "file": "Verif/Model/Special.lean",
  "definition": "warnings",
  "old": "if c.bases.any (fun b =>",
  "new": "if c.bases.tail.any (fun b =>",
  "edit": "the first base is not looked at",
  "breaks": "C113: warns if any base has an __init__"
 },
 {
  "id": "CB07",
  "file": "Verif/Model/Special.lean",
  "definition": "Meth.known",
  "old": "  | some .object => true\n",
  "new": "",
  "edit": "warns also for object.__init__",
  "breaks": "C113: warns only for an __init__ from neither object nor RecordBase"
 },
 {
  "id": "CB08",
  "file": "Verif/Model/Special.lean",
  "definition": "warnings",
  "old": "(forbidden.filter (bodyDict (B c.cid)).has)",
  "new": "((forbidden.drop 1).filter (bodyDict (B c.cid)).has)",
  "edit": "no warning for __init__ in the body",
  "breaks": "C113: a class whose statement does not warn has the initializer of RecordBase"
 },
 {
  "id": "CB09",
  "file": "Verif/Model/Special.lean",
  "definition": "typeCall",
  "old": "if r.isInst C.cid then Meth.init",
  "new": "if true then Meth.init",
  "edit": "the initializer runs on every result",
  "breaks": "C113: the initializer runs iff the result is an instance of the class called"
 },
 {
  "id": "CB10",
  "file": "Verif/Model/Special.lean",
  "definition": "typeCall",
  "old": "(lookupSpecial E B tbl \"__init__\" r.cls) r arg kw",
  "new": "(lookupSpecial E B tbl \"__init__\" C.cid) r arg kw",
  "edit": "the initializer of the class called runs, not that of the class of the result",
  "breaks": "C113: the __init__ of the class of the result runs"
 },
 {
  "id": "CB11",
  "file": "Verif/Model/Special.lean",
  "definition": "Meth.init",
  "old": "| some (.user run) => run r arg kw",
  "new": "| some (.user _) => M.pure r",
  "edit": "user initializers are not called",
  "breaks": "C113: calling the class runs the __init__ with the arguments of the call"
 },
 {
  "id": "CB12",
  "file": "Verif/Model/Special.lean",
  "definition": "Meth.init",
  "old": "if kw.has \"self\" || (arg.isSome && kw.has \"arg\") then",
  "new": "if kw.has \"cls\" then",
  "edit": "RecordBase.__init__ accepts a keyword self",
  "breaks": "C113: a silent class behaves as the rest of the model says (C61: self cannot be set by keyword)"
 },
 {
  "id": "CB13",
  "file": "Verif/Model/Special.lean",
  "definition": "lookupSpecial",
  "old": "(special E B k).get? n) k.mro",
  "new": "(special E B k).get? n) k.mro.reverse",
  "edit": "lookup starts at object",
  "breaks": "C113: the nearest class in the resolution order counts"
 }
]