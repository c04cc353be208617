[
 {
  "id": "K01",
  "file": "Verif/Model/Field.lean",
  "definition": "fieldFromHint",
  "old": "    if !frozen then .error .typeError\n    else match",
  "new": "    match",
  "edit": "Final allowed in non-frozen classes",
  "breaks": "C48",
  "nth": 0
 },
 {
  "id": "K02",
  "file": "Verif/Model/Field.lean",
  "definition": "fieldFromHint",
  "old": "tagsOf h.topToks ++ tagsOf toks, f",
  "new": "tagsOf h.topToks, f",
  "edit": "tags of Annotated[Final[T], ...] dropped",
  "breaks": "C48",
  "nth": 0
 },
 {
  "id": "K03",
  "file": "Verif/Model/Field.lean",
  "definition": "fieldFromHint",
  "old": "| .classVar => .ok none",
  "new": "| .classVar => .error .typeError",
  "edit": "ClassVar declarations rejected",
  "breaks": "C44",
  "nth": 0
 },
 {
  "id": "K04",
  "file": "Verif/Model/Field.lean",
  "definition": "fieldFromHint",
  "old": "| .rawFinal => .error .typeError",
  "new": "| .rawFinal => .ok none",
  "edit": "raw Final is skipped",
  "breaks": "C44",
  "nth": 0
 },
 {
  "id": "K05",
  "file": "Verif/Model/Field.lean",
  "definition": "fieldFromHint",
  "old": "| .rawFinal => .error .typeError",
  "new": "| .rawFinal => .error .valueError",
  "edit": "raw Final raises ValueError",
  "breaks": "C48",
  "nth": 0,
  "tightened": [
   "C48_final_needs_frozen"
  ]
 },
 {
  "id": "K06",
  "file": "Verif/Model/Field.lean",
  "definition": "ClassSpec.hints",
  "old": "sp.anns.filter fun a => decide (a.1 ∉ sp.baseAnns)",
  "new": "sp.anns",
  "edit": "names annotated in a base are processed twice",
  "breaks": "C43",
  "nth": 0
 },
 {
  "id": "K07",
  "file": "Verif/Model/Field.lean",
  "definition": "ClassSpec.hints",
  "old": "(sp.baseAnns.filterMap fun n => (Dict.get? sp.anns n).map fun h => (n, h)) ++\n    sp.anns.filter fun a => decide (a.1 ∉ sp.baseAnns)",
  "new": "(sp.anns.filter fun a => decide (a.1 ∉ sp.baseAnns)) ++\n    sp.baseAnns.filterMap fun n => (Dict.get? sp.anns n).map fun h => (n, h)",
  "edit": "names annotated in a base come last",
  "breaks": "C43 (order for names annotated in a base)",
  "nth": 0,
  "tightened": [
   "C43_field_order"
  ]
 },
 {
  "id": "K08",
  "file": "Verif/Model/Field.lean",
  "definition": "ClassSpec.defaultOf",
  "old": "  | none => sp.mroAttrs n",
  "new": "  | none => none",
  "edit": "attributes of base classes are not defaults",
  "breaks": "C88",
  "nth": 0
 },
 {
  "id": "K09",
  "file": "Verif/Model/Field.lean",
  "definition": "ClassSpec.defaultOf",
  "old": "  match sp.attrs.get? n with\n  | some d => some d\n  | none => sp.mroAttrs n",
  "new": "  match sp.mroAttrs n with\n  | some d => some d\n  | none => sp.attrs.get? n",
  "edit": "base class attributes take precedence over the class body",
  "breaks": "C88",
  "nth": 0
 },
 {
  "id": "K10",
  "file": "Verif/Model/Field.lean",
  "definition": "addInherited",
  "old": "own.has k || acc.has k",
  "new": "own.has k",
  "edit": "two parents may share a field name",
  "breaks": "C44",
  "nth": 0
 },
 {
  "id": "K11",
  "file": "Verif/Model/Field.lean",
  "definition": "addInherited",
  "old": "own.has k || acc.has k",
  "new": "acc.has k",
  "edit": "inherited fields may be redeclared",
  "breaks": "C44",
  "nth": 0
 },
 {
  "id": "K12",
  "file": "Verif/Model/Field.lean",
  "definition": "addInherited",
  "old": ".error .valueError else addInherited",
  "new": ".error .typeError else addInherited",
  "edit": "collision raises TypeError",
  "breaks": "C44",
  "nth": 0
 },
 {
  "id": "K13",
  "file": "Verif/Model/Field.lean",
  "definition": "inheritedFields",
  "old": "| .ok acc' => inheritedFields own ps acc'",
  "new": "| .ok acc' => .ok acc'",
  "edit": "only the first parent is inherited",
  "breaks": "C43, C45",
  "nth": 0
 },
 {
  "id": "K14",
  "file": "Verif/Model/Field.lean",
  "definition": "preStep",
  "old": "| none => .error .attributeError",
  "new": "| none => .ok fields",
  "edit": "pre_bind on an unknown name is ignored",
  "breaks": "C44",
  "nth": 0
 },
 {
  "id": "K15",
  "file": "Verif/Model/Field.lean",
  "definition": "bindFields",
  "old": "if f.owner = cid then",
  "new": "if f.owner ≠ cid then",
  "edit": "binds the inherited fields instead of the own ones",
  "breaks": "C45",
  "nth": 0
 },
 {
  "id": "K16",
  "file": "Verif/Model/Field.lean",
  "definition": "bindFields",
  "old": ".ok ((n, { f with filler := g }) :: l')",
  "new": ".ok ((n, f) :: l')",
  "edit": "own fields are not bound",
  "breaks": "C45",
  "nth": 0
 },
 {
  "id": "K17",
  "file": "Verif/Model/Field.lean",
  "definition": "mkClass",
  "old": "inh.update own",
  "new": "own.update inh",
  "edit": "own fields come first",
  "breaks": "C43",
  "nth": 0
 },
 {
  "id": "K18",
  "file": "Verif/Model/Field.lean",
  "definition": "mkClass",
  "old": "if all.isEmpty then .error .valueError\n      else\n",
  "new": "",
  "edit": "a class without fields can be created",
  "breaks": "C43, C44",
  "nth": 0
 },
 {
  "id": "K19",
  "file": "Verif/Model/Field.lean",
  "definition": "mkClass",
  "old": "fun kf => !kf.2.hasDefault",
  "new": "fun kf => kf.2.hasDefault",
  "edit": "required and optional exchanged",
  "breaks": "C43",
  "nth": 0
 },
 {
  "id": "K20",
  "file": "Verif/Model/Field.lean",
  "definition": "mkClass",
  "old": "| none => decide (required.length ≠ 1)",
  "new": "| none => decide (required.length = 1)",
  "edit": "unary parsing on by default iff one required field",
  "breaks": "C46",
  "nth": 0
 },
 {
  "id": "K21",
  "file": "Verif/Model/Field.lean",
  "definition": "mkClass",
  "old": "| none => decide (required.length ≠ 1)",
  "new": "| none => decide ((Dict.keys (own.filter fun kf => !kf.2.hasDefault)).length ≠ 1)",
  "edit": "only own required fields count for unary parsing",
  "breaks": "C46",
  "nth": 0
 },
 {
  "id": "K22",
  "file": "Verif/Model/Field.lean",
  "definition": "mkClass",
  "old": "isFieldDict := inh.isEmpty",
  "new": "isFieldDict := true",
  "edit": "field mapping is always a FieldDict",
  "breaks": "C47",
  "nth": 0
 },
 {
  "id": "K23",
  "file": "Verif/Model/Field.lean",
  "definition": "mkClass",
  "old": "frozen := sp.frozen",
  "new": "frozen := sp.frozen || sp.parents.any (·.frozen)",
  "edit": "frozen is inherited",
  "breaks": "C45",
  "nth": 0
 },
 {
  "id": "K24",
  "file": "Verif/Model/Field.lean",
  "definition": "mkClass",
  "old": "style := sp.style\n",
  "new": "style := match sp.parents with | p :: _ => p.style | [] => sp.style\n",
  "edit": "default type checking inherited from the first parent",
  "breaks": "C45",
  "nth": 0
 },
 {
  "id": "K25",
  "file": "Verif/Model/Field.lean",
  "definition": "mkClass",
  "old": "bindFields sp.cid sp.style all1",
  "new": "bindFields sp.cid .hollow all1",
  "edit": "own fields bound with the hollow style",
  "breaks": "C45",
  "nth": 0
 },
 {
  "id": "K26",
  "file": "Verif/Model/Field.lean",
  "definition": "filterByTag",
  "old": "decide (tag ∈ kf.2.tags)",
  "new": "decide (tag ∉ kf.2.tags)",
  "edit": "returns the fields without the tag",
  "breaks": "C47",
  "nth": 0
 },
 {
  "id": "K27",
  "file": "Verif/Model/Field.lean",
  "definition": "RecClass.filterByTag",
  "old": "else .error .attributeError",
  "new": "else .ok (Records.filterByTag C.fields tag)",
  "edit": "filter_by_tag works in subclasses",
  "breaks": "C47",
  "nth": 0
 },
 {
  "id": "K28",
  "file": "Verif/Model/Field.lean",
  "definition": "Field.hasDefault",
  "old": "f.default.isSome",
  "new": "f.default.isNone",
  "edit": "has_default negated",
  "breaks": "C43",
  "nth": 0
 },
 {
  "id": "K29",
  "file": "Verif/Model/Field.lean",
  "definition": "mkClass",
  "old": "preBind sp.pre all with",
  "new": "preBind (sp.pre.filter fun q => inh.has q.1 = false) all with",
  "edit": "pre_bind tokens for inherited fields are ignored",
  "breaks": "C87",
  "nth": 0
 },
 {
  "id": "K30",
  "file": "Verif/Model/Field.lean",
  "definition": "mkClass",
  "old": "ordered := sp.ordered",
  "new": "ordered := false",
  "edit": "ordered option ignored",
  "breaks": "C45",
  "nth": 0
 }
]