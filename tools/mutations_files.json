[
 {
  "id": "G01",
  "file": "Verif/Model/Tags.lean",
  "definition": "Tag.eq",
  "old": "decide (b.cls = a.cls) && W.eq",
  "new": "W.eq",
  "edit": "tags of different classes are equal",
  "breaks": "C101",
  "nth": 0
 },
 {
  "id": "G02",
  "file": "Verif/Model/Tags.lean",
  "definition": "Tag.eq",
  "old": "W.eq a.inner b.inner",
  "new": "decide (a.inner = b.inner)",
  "edit": "inner objects compared by identity",
  "breaks": "C101",
  "nth": 0
 },
 {
  "id": "G03",
  "file": "Verif/Model/Tags.lean",
  "definition": "Tag.hash",
  "old": "if W.hashable t.inner then",
  "new": "if true then",
  "edit": "unhashable inner objects hash",
  "breaks": "C101",
  "nth": 0
 },
 {
  "id": "G04",
  "file": "Verif/Model/Tags.lean",
  "definition": "Tag.hash",
  "old": ".error .typeError",
  "new": ".error .valueError",
  "edit": "wrong exception",
  "breaks": "C101",
  "nth": 0
 },
 {
  "id": "G05",
  "file": "Verif/Model/Tags.lean",
  "definition": "Tag.matches",
  "old": "(decide (stored.addr = t.addr) || stored.eq t)",
  "new": "decide (stored.addr = t.addr)",
  "edit": "sets match by identity only",
  "breaks": "C101",
  "nth": 0
 },
 {
  "id": "G06",
  "file": "Verif/Model/Tags.lean",
  "definition": "Tag.matches",
  "old": "decide (H.obj stored.inner = H.obj t.inner) && ",
  "new": "",
  "edit": "hash is not compared",
  "breaks": "no claim: equal under the hash contract",
  "nth": 0
 },
 {
  "id": "G07",
  "file": "Verif/Model/Tags.lean",
  "definition": "tagIn",
  "old": "tags.any fun",
  "new": "tags.all fun",
  "edit": "in: all instead of any",
  "breaks": "C101",
  "nth": 0
 },
 {
  "id": "G08",
  "file": "Verif/Model/Tags.lean",
  "definition": "tagAdd",
  "old": "| .ok false => .ok (tags ++ [t])",
  "new": "| .ok false => .ok [t]",
  "edit": "adding a tag drops the others",
  "breaks": "C101",
  "nth": 0
 },
 {
  "id": "G09",
  "file": "Verif/Model/Tags.lean",
  "definition": "tagAdd",
  "old": "| .ok true => .ok tags",
  "new": "| .ok true => .ok (tags ++ [t])",
  "edit": "duplicates are stored",
  "breaks": "no claim: a set with duplicates answers the same questions",
  "nth": 0
 },
 {
  "id": "G10",
  "file": "Verif/Model/Tags.lean",
  "definition": "applyTags",
  "old": "| tags, .other _ :: l => applyTags H tags l",
  "new": "| tags, .other _ :: _ => .ok tags",
  "edit": "tags after another token are lost",
  "breaks": "C101",
  "nth": 0
 },
 {
  "id": "G11",
  "file": "Verif/Model/Tags.lean",
  "definition": "applyTags",
  "old": "applyTags H tags' l",
  "new": ".ok tags'",
  "edit": "only the first tag counts",
  "breaks": "C101",
  "nth": 0
 },
 {
  "id": "G12",
  "file": "Verif/Model/Tags.lean",
  "definition": "tagsMeet",
  "old": "if b.length > a.length then a.any",
  "new": "if b.length > a.length then a.all",
  "edit": "blacklist must cover all tags",
  "breaks": "C101",
  "nth": 0
 },
 {
  "id": "G13",
  "file": "Verif/Model/Tags.lean",
  "definition": "tagsMeet",
  "old": "else b.any fun",
  "new": "else b.all fun",
  "edit": "all blacklisted tags must be carried",
  "breaks": "C101",
  "nth": 0
 },
 {
  "id": "G14",
  "file": "Verif/Model/Tags.lean",
  "definition": "filterTagged",
  "old": "if b then k :: r else r",
  "new": "if b then r else k :: r",
  "edit": "filter inverted",
  "breaks": "C101",
  "nth": 0
 },
 {
  "id": "G15",
  "file": "Verif/Model/Tags.lean",
  "definition": "filterTagged",
  "old": "if b then k :: r else r",
  "new": "if b then [k] else r",
  "edit": "only the first field",
  "breaks": "C101",
  "nth": 0
 },
 {
  "id": "G16",
  "file": "Verif/Model/Files.lean",
  "definition": "Codec.write",
  "old": "if W.isNone io then",
  "new": "if true then",
  "edit": "io is ignored",
  "breaks": "C102",
  "nth": 0
 },
 {
  "id": "G17",
  "file": "Verif/Model/Files.lean",
  "definition": "Codec.write",
  "old": "M.bind (J.dump x io args (kw.erase \"io\"))",
  "new": "M.bind (J.dump x io args kw)",
  "edit": "io is passed on to dump",
  "breaks": "C102",
  "nth": 0
 },
 {
  "id": "G18",
  "file": "Verif/Model/Files.lean",
  "definition": "Codec.write",
  "old": "M.bind (J.dumps x args (kw.erase \"io\"))",
  "new": "M.bind (J.dumps x args kw)",
  "edit": "io=None is passed on to dumps",
  "breaks": "C102",
  "nth": 0
 },
 {
  "id": "G19",
  "file": "Verif/Model/Files.lean",
  "definition": "Codec.write",
  "old": "fun _ => M.pure none",
  "new": "fun _ => M.pure (some io)",
  "edit": "returns the file",
  "breaks": "C102",
  "nth": 0
 },
 {
  "id": "G20",
  "file": "Verif/Model/Files.lean",
  "definition": "Codec.write",
  "old": "M.bind (J.dump x io args (kw",
  "new": "M.bind (J.dump x io [] (kw",
  "edit": "positional arguments are dropped",
  "breaks": "C102",
  "nth": 0
 },
 {
  "id": "G21",
  "file": "Verif/Model/Files.lean",
  "definition": "toJsonFn",
  "old": "if kw.has \"v\" then",
  "new": "if kw.has \"io\" then",
  "edit": "io collides",
  "breaks": "C102",
  "nth": 0
 },
 {
  "id": "G22",
  "file": "Verif/Model/Files.lean",
  "definition": "toPickle",
  "old": "if kw.has \"self\" then",
  "new": "if kw.has \"cls\" then",
  "edit": "other name collides",
  "breaks": "C102",
  "nth": 0
 },
 {
  "id": "G23",
  "file": "Verif/Model/Files.lean",
  "definition": "fromJsonIo",
  "old": "M.bind (J.load f [] kw)",
  "new": "M.bind (J.loads f [] kw)",
  "edit": "decodes the file object",
  "breaks": "C102",
  "nth": 0
 },
 {
  "id": "G24",
  "file": "Verif/Model/Files.lean",
  "definition": "fromJsonIo",
  "old": "M.bind (J.load f [] kw)",
  "new": "M.bind (J.load f [] [])",
  "edit": "keyword arguments are dropped",
  "breaks": "C102",
  "nth": 0
 },
 {
  "id": "G25",
  "file": "Verif/Model/Files.lean",
  "definition": "fromJsonIo",
  "old": "buildFrom call sel m",
  "new": "buildFrom call Sel.empty m",
  "edit": "selection ignored",
  "breaks": "C102",
  "nth": 0
 },
 {
  "id": "G26",
  "file": "Verif/Model/Files.lean",
  "definition": "fromJsonIo",
  "old": "if sel.truth.1 then E.dictView j else E.starView j",
  "new": "E.starView j",
  "edit": "the mapping is unpacked without dict()",
  "breaks": "C102",
  "nth": 0
 },
 {
  "id": "G27",
  "file": "Verif/Model/Files.lean",
  "definition": "accept",
  "old": "if !W.isInstance v C.cid then",
  "new": "if W.isInstance v C.cid then",
  "edit": "instances are parsed",
  "breaks": "C102",
  "nth": 0
 },
 {
  "id": "G28",
  "file": "Verif/Model/Files.lean",
  "definition": "accept",
  "old": "W.isInstance v C.cid",
  "new": "decide (W.typeOf v = C.cid)",
  "edit": "subclass instances are parsed",
  "breaks": "C102",
  "nth": 0
 },
 {
  "id": "G29",
  "file": "Verif/Model/Files.lean",
  "definition": "accept",
  "old": "M.pure (.old v)",
  "new": "parseN E C n v",
  "edit": "always parses",
  "breaks": "C102",
  "nth": 0
 },
 {
  "id": "G30",
  "file": "Verif/Model/Files.lean",
  "definition": "fromPickle",
  "old": "(accept E C n)",
  "new": "fun v => M.pure (.old v)",
  "edit": "never parses",
  "breaks": "C102",
  "nth": 0
 },
 {
  "id": "G31",
  "file": "Verif/Model/Files.lean",
  "definition": "fromPickle",
  "old": "P.loads b args kw",
  "new": "P.loads b [] kw",
  "edit": "positional arguments dropped",
  "breaks": "C102",
  "nth": 0
 },
 {
  "id": "G32",
  "file": "Verif/Model/Files.lean",
  "definition": "fromPickleIo",
  "old": "P.load f args kw",
  "new": "P.loads f args kw",
  "edit": "decodes the file object",
  "breaks": "C102",
  "nth": 0
 },
 {
  "id": "G33",
  "file": "Verif/Model/Files.lean",
  "definition": "fromPickle",
  "old": "clash [\"cls\", \"v\"] kw",
  "new": "clash [\"cls\"] kw",
  "edit": "v may be given by keyword",
  "breaks": "C102",
  "nth": 0
 },
 {
  "id": "G34",
  "file": "Verif/Model/New.lean",
  "definition": "callN",
  "old": "callN E C n none m)",
  "new": "callN E C (n - 1) none m)",
  "edit": "recursion uses two levels",
  "breaks": "C100",
  "nth": 0
 },
 {
  "id": "G35",
  "file": "Verif/Model/New.lean",
  "definition": "callN",
  "old": "| n + 1 => callCls C",
  "new": "| _ + 2 => fun _ _ => M.throw .typeError\n  | n + 1 => callCls C",
  "edit": "deep construction is refused",
  "breaks": "C100",
  "nth": 0
 },
 {
  "id": "G36",
  "file": "Verif/Model/New.lean",
  "definition": "parseN",
  "old": "callN E C n none m) v",
  "new": "callN E C (n + 1) none m) v",
  "edit": "parse has a level more",
  "breaks": "no claim: levels are counted by the model",
  "nth": 0
 }
]