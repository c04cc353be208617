[
 {
  "id": "P01",
  "file": "Verif/Model/Program.lean",
  "definition": "c3Head",
  "old": "if all.any (fun s => decide (x ∈ s.tail)) then c3Head all l else some x",
  "new": "some x",
  "edit": "take the first head even if it occurs in a tail",
  "breaks": "C97/C98 rest on the resolution order respecting the orders of the bases"
 },
 {
  "id": "P02",
  "file": "Verif/Model/Program.lean",
  "definition": "c3Drop",
  "old": "if y = x then t else y :: t",
  "new": "if y = x then t else t",
  "edit": "drop every head in a merge step",
  "breaks": "C98: superclasses are lost from the order"
 },
 {
  "id": "P03",
  "file": "Verif/Model/Program.lean",
  "definition": "sortNames",
  "old": "if n ∈ acc then acc else insertSorted n acc",
  "new": "insertSorted n acc",
  "edit": "names defined in several classes are listed several times",
  "breaks": "C97: a parser redefined in a subclass is tried twice"
 },
 {
  "id": "P04",
  "file": "Verif/Model/Program.lean",
  "definition": "insertSorted",
  "old": "if n < m then n :: m :: l else m :: insertSorted n l",
  "new": "n :: m :: l",
  "edit": "dir() unsorted",
  "breaks": "C97: parsers are tried in alphabetical order"
 },
 {
  "id": "P05",
  "file": "Verif/Model/Program.lean",
  "definition": "PyStmt.ownDict",
  "old": "  Dict.update (Dict.update [] st.attrs) (st.fieldNames.map fun n => (n, { value := .value (E.fieldObj st.cid n) }))",
  "new": "  Dict.update [] st.attrs",
  "edit": "fields are not set as class attributes",
  "breaks": "C97: a field of the name of a parser removes it"
 },
 {
  "id": "P06",
  "file": "Verif/Model/Program.lean",
  "definition": "parsersOf",
  "old": "    | some a => a.parser.map (· cid)\n    | none => match firstOf tbl (fun k => k.dict.get? n) l with\n      | some a => a.parser.map (· cid)\n      | none => none",
  "new": "    | some a => a.parser.map (· cid)\n    | none => none",
  "edit": "only parsers of the class itself",
  "breaks": "C97: parsers are inherited"
 },
 {
  "id": "P07",
  "file": "Verif/Model/Program.lean",
  "definition": "parsersOf",
  "old": "    | some a => a.parser.map (· cid)\n    | none => match firstOf tbl (fun k => k.dict.get? n) l with\n      | some a => a.parser.map (· cid)\n      | none => none",
  "new": "    | some ⟨_, some g⟩ => some (g cid)\n    | _ => match firstOf tbl (fun k => k.dict.get? n) l with\n      | some a => a.parser.map (· cid)\n      | none => none",
  "edit": "an unmarked override keeps the inherited parser",
  "breaks": "C97: an unmarked attribute of the name removes the parser"
 },
 {
  "id": "P08",
  "file": "Verif/Model/Program.lean",
  "definition": "parsersOf",
  "old": "      | some a => a.parser.map (· cid)\n      | none => none",
  "new": "      | some a => a.parser.map fun g => g (l.headD cid)\n      | none => none",
  "edit": "inherited parsers are bound to the base class",
  "breaks": "C97: the parser is taken on the class itself (getattr(cls, name))"
 },
 {
  "id": "P09",
  "file": "Verif/Model/Program.lean",
  "definition": "parsersOf",
  "old": "match firstOf tbl (fun k => k.dict.get? n) l with\n      | some a => a.parser.map",
  "new": "match firstOf tbl (fun k => (k.dict.get? n).filter (·.parser.isSome)) l with\n      | some a => a.parser.map",
  "edit": "look for the nearest marked attribute instead of the nearest attribute",
  "breaks": "C97: an unmarked override in an intermediate class removes the parser"
 },
 {
  "id": "P10",
  "file": "Verif/Model/Program.lean",
  "definition": "PyStmt.spec",
  "old": "      | some a => some a.value\n      | none => E.typeAttr n",
  "new": "      | some a => some a.value\n      | none => none",
  "edit": "the metaclass is not searched for defaults",
  "breaks": "C88: attributes of the metaclass become defaults"
 },
 {
  "id": "P11",
  "file": "Verif/Model/Program.lean",
  "definition": "PyStmt.spec",
  "old": "      | some a => some a.value\n      | none => E.typeAttr n",
  "new": "      | some _ => none\n      | none => E.typeAttr n",
  "edit": "inherited attributes are no defaults",
  "breaks": "C88"
 },
 {
  "id": "P12",
  "file": "Verif/Model/Program.lean",
  "definition": "PyStmt.spec",
  "old": "parents := bases.filterMap",
  "new": "parents := l.filterMap",
  "edit": "all record superclasses are parents, not only the direct ones",
  "breaks": "C98: classes with grandparents could not be made; each field is inherited once"
 },
 {
  "id": "P13",
  "file": "Verif/Model/Program.lean",
  "definition": "PyStmt.spec",
  "old": "parents := bases.filterMap",
  "new": "parents := (bases.take 1).filterMap",
  "edit": "only the first base is a parent",
  "breaks": "C98: fields of all superclasses are inherited"
 },
 {
  "id": "P14",
  "file": "Verif/Model/Program.lean",
  "definition": "PyStmt.spec",
  "old": "    pre := match st.pre with\n      | some p => p\n      | none => (firstOf tbl (·.pre) l).getD []",
  "new": "    pre := match st.pre with\n      | some p => p\n      | none => []",
  "edit": "pre_bind is not inherited",
  "breaks": "C87: a class with a pre_bind cannot be subclassed without overriding it"
 },
 {
  "id": "P15",
  "file": "Verif/Model/Program.lean",
  "definition": "PyStmt.spec",
  "old": "    postNew := match st.postNew with\n      | some p => p\n      | none => (firstOf tbl (·.postNew) l).getD fun i => M.pure (i, none)",
  "new": "    postNew := match st.postNew with\n      | some p => p\n      | none => fun i => M.pure (i, none)",
  "edit": "post_new is not inherited",
  "breaks": "C97: the nearest post_new counts"
 },
 {
  "id": "P16",
  "file": "Verif/Model/Program.lean",
  "definition": "PyStmt.spec",
  "old": "    truthy := match st.truthy with\n      | some p => p\n      | none => (firstOf tbl (·.truthy) l).getD fun _ => true",
  "new": "    truthy := match firstOf tbl (·.truthy) l with\n      | some p => p\n      | none => st.truthy.getD fun _ => true",
  "edit": "an inherited __bool__ overrides the own one",
  "breaks": "C97: the nearest __bool__ counts"
 },
 {
  "id": "P17",
  "file": "Verif/Model/Program.lean",
  "definition": "newClass",
  "old": "++ [bases]) with",
  "new": ") with",
  "edit": "the order of the bases does not count in the merge",
  "breaks": "local precedence: C97 (which attribute is nearest); not stated by a property"
 },
 {
  "id": "P18",
  "file": "Verif/Model/Program.lean",
  "definition": "newClass",
  "old": "    if E.recordBase ∈ l then\n      match",
  "new": "    if E.recordBase ∈ bases then\n      match",
  "edit": "only direct subclasses of RecordBase are record classes",
  "breaks": "C98: subclasses of records are records with the inherited fields"
 },
 {
  "id": "P19",
  "file": "Verif/Model/Program.lean",
  "definition": "PyStmt.spec",
  "old": "    attrs := (Dict.update [] st.attrs).map",
  "new": "    attrs := ([] : List (String × Attr W)).map",
  "edit": "values of the class body are ignored",
  "breaks": "C88"
 },
 {
  "id": "P20",
  "file": "Verif/Model/Program.lean",
  "definition": "firstOf",
  "old": "    | some a => some a\n    | none => firstOf tbl g l",
  "new": "    | some a => (firstOf tbl g l).or (some a)\n    | none => firstOf tbl g l",
  "edit": "the farthest definition wins",
  "breaks": "C97, C88: the nearest definition counts"
 },
 {
  "id": "P21",
  "file": "Verif/Model/Program.lean",
  "definition": "inheritedAnns",
  "old": "mro.reverse.flatMap",
  "new": "mro.flatMap",
  "edit": "annotations are collected from the nearest class first",
  "breaks": "C43: names also annotated in a base class come in the order of the base annotations (typing.get_type_hints)",
  "tightened": "C43_program added"
 },
 {
  "id": "P22",
  "file": "Verif/Model/Program.lean",
  "definition": "PyStmt.fieldNames",
  "old": "| .classVar => false",
  "new": "| .classVar => true",
  "edit": "ClassVar annotations count as field names",
  "breaks": "C97_field_shadows, C88_program: a ClassVar is no field"
 },
 {
  "id": "P23",
  "file": "Verif/Model/Program.lean",
  "definition": "PyStmt.spec",
  "old": "baseAnns := inheritedAnns tbl l",
  "new": "baseAnns := []",
  "edit": "annotations of base classes do not affect the order of fields",
  "breaks": "C43 in programs"
 },
 {
  "id": "P24",
  "file": "Verif/Model/Program.lean",
  "definition": "newClass",
  "old": "mro := st.cid :: l, anns := Dict.keys (Dict.update [] st.anns),\n                       dict",
  "new": "mro := l ++ [st.cid], anns := Dict.keys (Dict.update [] st.anns),\n                       dict",
  "edit": "a class comes last in its own order",
  "breaks": "C97: own attributes are nearest"
 }
]