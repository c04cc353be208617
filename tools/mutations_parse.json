[
 {
  "id": "Y01",
  "file": "Verif/Model/Select.lean",
  "definition": "chainItems",
  "old": "maps.reverse.foldl",
  "new": "maps.foldl",
  "edit": "later mappings win",
  "breaks": "C63",
  "nth": 0
 },
 {
  "id": "Y02",
  "file": "Verif/Model/New.lean",
  "definition": "fromMapping",
  "old": "chainItems (maps ++ [kw])",
  "new": "chainItems (kw :: maps)",
  "edit": "keyword arguments win over the mappings",
  "breaks": "C63",
  "nth": 0
 },
 {
  "id": "Y03",
  "file": "Verif/Model/New.lean",
  "definition": "fromMapping",
  "old": "clash [\"self\", \"cls\"] kw",
  "new": "clash [\"cls\"] kw",
  "edit": "a keyword self is accepted",
  "breaks": "C63_clash",
  "nth": 0
 },
 {
  "id": "Y04",
  "file": "Verif/Model/New.lean",
  "definition": "fromMapping",
  "old": "buildFrom call sel (chainItems",
  "new": "buildFrom call Sel.empty (chainItems",
  "edit": "the select is ignored",
  "breaks": "C63_select",
  "nth": 0
 },
 {
  "id": "Y05",
  "file": "Verif/Model/New.lean",
  "definition": "buildFrom",
  "old": "| .error e => M.throw e",
  "new": "| .error _ => call m",
  "edit": "a failing select is ignored",
  "breaks": "C63_select",
  "nth": 0
 },
 {
  "id": "Y06",
  "file": "Verif/Model/New.lean",
  "definition": "fromInstance",
  "old": "((d.update m).update kw)",
  "new": "((d.update kw).update m)",
  "edit": "the mapping overrides the keywords",
  "breaks": "C64",
  "nth": 0
 },
 {
  "id": "Y07",
  "file": "Verif/Model/New.lean",
  "definition": "fromInstance",
  "old": "(d.update kw)",
  "new": "(kw.update d)",
  "edit": "the attributes override the keywords",
  "breaks": "C64",
  "nth": 0
 },
 {
  "id": "Y08",
  "file": "Verif/Model/New.lean",
  "definition": "fromInstance",
  "old": "| _ => M.throw .typeError",
  "new": "| m :: _ => M.bind (buildFrom call sel ((d.update m).update kw)) fun r => M.pure (some r)",
  "edit": "further mappings are ignored",
  "breaks": "C64_two_mappings",
  "nth": 0
 },
 {
  "id": "Y09",
  "file": "Verif/Model/New.lean",
  "definition": "fromInstance",
  "old": "toDict C v {} sel",
  "new": "toDict C v { includeDefaults := true } sel",
  "edit": "defaults are exported",
  "breaks": "C64 (attributes equal to the default)",
  "nth": 0
 },
 {
  "id": "Y10",
  "file": "Verif/Model/New.lean",
  "definition": "fromInstance",
  "old": "&& C.frozen && maps.isEmpty",
  "new": "&& maps.isEmpty",
  "edit": "non-frozen instances are returned as they are",
  "breaks": "C65",
  "nth": 0
 },
 {
  "id": "Y11",
  "file": "Verif/Model/New.lean",
  "definition": "fromInstance",
  "old": "maps.isEmpty && kw.isEmpty && v.isInst",
  "new": "maps.isEmpty && v.isInst",
  "edit": "keywords are ignored for frozen instances",
  "breaks": "C65",
  "nth": 0
 },
 {
  "id": "Y12",
  "file": "Verif/Model/New.lean",
  "definition": "fromInstance",
  "old": "kw.isEmpty && v.isInst C.cid then",
  "new": "kw.isEmpty then",
  "edit": "any object is returned as it is",
  "breaks": "C65",
  "nth": 0
 },
 {
  "id": "Y13",
  "file": "Verif/Model/New.lean",
  "definition": "fromInstance",
  "old": "if !sel.truth.1 && C.frozen",
  "new": "if C.frozen",
  "edit": "the select is ignored for frozen instances",
  "breaks": "C65",
  "nth": 0
 },
 {
  "id": "Y14",
  "file": "Verif/Model/Export.lean",
  "definition": "extraction",
  "old": "if C.fields.has k then x else x.set",
  "new": "if C.fields.has k then x.set k (mockField k) else x.set",
  "edit": "removed fields are extracted even if equal to the default",
  "breaks": "C66 (counterexample)",
  "nth": 0
 },
 {
  "id": "Y15",
  "file": "Verif/Model/Export.lean",
  "definition": "extraction",
  "old": "let x2 := sel.rename.remaining.foldl (fun x od => x.set od.1 (mockField od.1)) x1",
  "new": "let x2 := x1",
  "edit": "rename sources are not extracted",
  "breaks": "C66",
  "nth": 0
 },
 {
  "id": "Y16",
  "file": "Verif/Model/Export.lean",
  "definition": "extraction",
  "old": "let x3 := sel.maybeRename.remaining.foldl (fun x od => x.set od.1 (mockField od.1)) x2",
  "new": "let x3 := x2",
  "edit": "maybe-rename sources are not extracted",
  "breaks": "C66",
  "nth": 0
 },
 {
  "id": "Y17",
  "file": "Verif/Model/Export.lean",
  "definition": "extraction",
  "old": "let x4 := sel.add.remaining.foldl (fun x kv => x.erase kv.1) x3",
  "new": "let x4 := x3",
  "edit": "added keys are extracted",
  "breaks": "C66",
  "nth": 0
 },
 {
  "id": "Y18",
  "file": "Verif/Model/Export.lean",
  "definition": "extraction",
  "old": "(C.optional ++ sel.rename.remaining.map (\u00b7.2) ++",
  "new": "(C.optional ++",
  "edit": "the target of a rename must exist as attribute",
  "breaks": "C66",
  "nth": 0
 },
 {
  "id": "Y19",
  "file": "Verif/Model/Export.lean",
  "definition": "extraction",
  "old": "      ++ sel.maybeRename.remaining.map (\u00b7.1), x4)",
  "new": "      , x4)",
  "edit": "the source of a maybe-rename must exist",
  "breaks": "C66",
  "nth": 0
 },
 {
  "id": "Y20",
  "file": "Verif/Model/Export.lean",
  "definition": "extraction",
  "old": "++ sel.maybeRename.remaining.map (\u00b7.1), x4)",
  "new": "++ sel.maybeRename.remaining.map (\u00b7.1) ++ sel.maybeAdd.remaining.map (\u00b7.1), x4)",
  "edit": "maybe-added fields may be missing",
  "breaks": "C66 (counterexample)",
  "nth": 0
 },
 {
  "id": "Y21",
  "file": "Verif/Model/New.lean",
  "definition": "Parser.run",
  "old": "Records.fromMapping call Sel.empty [m] []",
  "new": "Records.fromMapping call Sel.empty [] m",
  "edit": "the mapping is passed as keywords",
  "breaks": "C57-C59 use the parser as such; C63",
  "nth": 0,
  "tightened": [
   "C57_mapping_parser"
  ]
 },
 {
  "id": "Y22",
  "file": "Verif/Model/New.lean",
  "definition": "parseLoop",
  "old": "(succ ++ [r]) s'",
  "new": "[r] s'",
  "edit": "only the last success is remembered",
  "breaks": "C57",
  "nth": 0
 },
 {
  "id": "Y23",
  "file": "Verif/Model/New.lean",
  "definition": "parseLoop",
  "old": "if e.isException then parseLoop E C call v ps succ s' else (.error e, s')",
  "new": "parseLoop E C call v ps succ s'",
  "edit": "KeyboardInterrupt is swallowed",
  "breaks": "C57",
  "nth": 0
 },
 {
  "id": "Y24",
  "file": "Verif/Model/New.lean",
  "definition": "parseLoop",
  "old": "parseLoop E C call v ps (succ ++ [r]) s'",
  "new": "(.ok (succ ++ [r]), s')",
  "edit": "the remaining parsers are not tried",
  "breaks": "C57",
  "nth": 0
 },
 {
  "id": "Y25",
  "file": "Verif/Model/New.lean",
  "definition": "parseWith",
  "old": "| [] => M.throw .parseFailure",
  "new": "| [] => M.throw .typeError",
  "edit": "no success raises TypeError",
  "breaks": "C57",
  "nth": 0
 },
 {
  "id": "Y26",
  "file": "Verif/Model/New.lean",
  "definition": "parseWith",
  "old": "| _ => M.throw .typeError",
  "new": "| r :: _ => M.pure r",
  "edit": "the first success wins",
  "breaks": "C57",
  "nth": 1
 },
 {
  "id": "Y27",
  "file": "Verif/Model/New.lean",
  "definition": "parseWith",
  "old": "C.parsers []",
  "new": "C.parsers.reverse []",
  "edit": "the parsers run in reverse order",
  "breaks": "none: C57 fixes the order of calls",
  "nth": 0
 },
 {
  "id": "Y28",
  "file": "Verif/Model/Export.lean",
  "definition": "exportTuples",
  "old": "else if f.name \u2209 missingOk then (.error e, s')",
  "new": "else if false then (.error e, s')",
  "edit": "missing required attributes are skipped",
  "breaks": "C64_missing, C59_required",
  "nth": 0
 },
 {
  "id": "Y29",
  "file": "Verif/Model/Export.lean",
  "definition": "exportTuples",
  "old": "if e.kind \u2260 .attributeError then (.error e, s')",
  "new": "if false then (.error e, s')",
  "edit": "any error of an optional attribute is swallowed",
  "breaks": "C75 (errors other than AttributeError propagate)",
  "nth": 0,
  "tightened": [
   "C75_attribute_error"
  ]
 },
 {
  "id": "Y30",
  "file": "Verif/Model/Export.lean",
  "definition": "Carrier.ofObj",
  "old": "\u27e8E.getattr v, W.isInstance v\u27e9",
  "new": "\u27e8E.getattr v, fun c => decide (W.typeOf v = c)\u27e9",
  "edit": "only exact instances are returned as they are",
  "breaks": "C65 (subclass example)",
  "nth": 0
 }
]