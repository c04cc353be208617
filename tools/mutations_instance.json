[
 {
  "id": "I01",
  "file": "Verif/Model/Instance.lean",
  "definition": "hashTuple",
  "old": "if vs.all W.hashable then",
  "new": "if vs.any W.hashable then",
  "edit": "a tuple is hashable if one element is",
  "breaks": "C71",
  "nth": 0
 },
 {
  "id": "I02",
  "file": "Verif/Model/Instance.lean",
  "definition": "hashInst",
  "old": "if !C.frozen then (.error .typeError, i, s)",
  "new": "if false then (.error .typeError, i, s)",
  "edit": "non-frozen records hashable",
  "breaks": "C71",
  "nth": 0
 },
 {
  "id": "I03",
  "file": "Verif/Model/Instance.lean",
  "definition": "hashInst",
  "old": "| none => (.error .attributeError, i, s)",
  "new": "| none => (.ok 0, i, s)",
  "edit": "unset slot hashes to 0",
  "breaks": "none stated: constructed frozen records have the slot set",
  "nth": 0
 },
 {
  "id": "I04",
  "file": "Verif/Model/Instance.lean",
  "definition": "hashInst",
  "old": "| some (some n) => (.ok n, i, s)",
  "new": "| some (some n) => (.ok (n+1), i, s)",
  "edit": "cached hash is returned incremented",
  "breaks": "C69",
  "nth": 0
 },
 {
  "id": "I05",
  "file": "Verif/Model/Instance.lean",
  "definition": "hashInst",
  "old": "| .ok n => (.ok n, { i with hash := some (some n) }, s')",
  "new": "| .ok n => (.ok n, { i with hash := some (some (n+1)) }, s')",
  "edit": "a wrong hash is cached",
  "breaks": "C69",
  "nth": 0
 },
 {
  "id": "I06",
  "file": "Verif/Model/Instance.lean",
  "definition": "hashInst",
  "old": "toDict C (.ofInst E i) {} Sel.empty s with\n      | (.error e, s') => (.error e, i, s')",
  "new": "toDict C (.ofInst E i) {includeDefaults := true} Sel.empty s with\n      | (.error e, s') => (.error e, i, s')",
  "edit": "hash of all fields, defaults included",
  "breaks": "C68_hash",
  "nth": 0
 },
 {
  "id": "I07",
  "file": "Verif/Model/Instance.lean",
  "definition": "hashInst",
  "old": "match hashTuple H d.values with",
  "new": "match hashTuple H d.values.reverse with",
  "edit": "values hashed in reverse order",
  "breaks": "C68_hash",
  "nth": 0
 },
 {
  "id": "I08",
  "file": "Verif/Model/Instance.lean",
  "definition": "eqFields",
  "old": "if W.eq v w then eqFields E a b ks else .ok false",
  "new": "if W.eq v w then .ok true else .ok false",
  "edit": "only the first field is compared",
  "breaks": "C67_eq_iff",
  "nth": 0
 },
 {
  "id": "I09",
  "file": "Verif/Model/Instance.lean",
  "definition": "eqFields",
  "old": "| [] => .ok true",
  "new": "| [] => .ok false",
  "edit": "records never equal",
  "breaks": "C67",
  "nth": 0
 },
 {
  "id": "I10",
  "file": "Verif/Model/Instance.lean",
  "definition": "eqInst",
  "old": "if a.cid \u2260 b.cid then (.ok false, a, b, s)",
  "new": "if false then (.ok false, a, b, s)",
  "edit": "class not compared",
  "breaks": "C67_other_class",
  "nth": 0
 },
 {
  "id": "I11",
  "file": "Verif/Model/Instance.lean",
  "definition": "eqInst",
  "old": "if m \u2260 n then .ok false else eqFields",
  "new": "if m = n then .ok true else eqFields",
  "edit": "equal hashes mean equal records",
  "breaks": "C67_eq_iff",
  "nth": 0
 },
 {
  "id": "I12",
  "file": "Verif/Model/Instance.lean",
  "definition": "eqInst",
  "old": "else if C.frozen then\n    match hashInst E H C a s with",
  "new": "else if !C.frozen then\n    match hashInst E H C a s with",
  "edit": "non-frozen records hashed for comparison",
  "breaks": "C71_not_frozen",
  "nth": 0
 },
 {
  "id": "I13",
  "file": "Verif/Model/Instance.lean",
  "definition": "setInst",
  "old": "if C.frozen then (.error .typeError, i)",
  "new": "if C.frozen && i.dict.has k then (.error .typeError, i)",
  "edit": "new attributes of a frozen record can be set",
  "breaks": "C70_assignment",
  "nth": 0
 },
 {
  "id": "I14",
  "file": "Verif/Model/Instance.lean",
  "definition": "setInst",
  "old": "(.error .typeError, i) else",
  "new": "(.error .typeError, { i with dict := i.dict.set k v }) else",
  "edit": "assignment takes effect although it raises",
  "breaks": "C70_assignment",
  "nth": 0
 },
 {
  "id": "I15",
  "file": "Verif/Model/Instance.lean",
  "definition": "setInst",
  "old": "else (.ok (), { i with dict := i.dict.set k v })",
  "new": "else (.ok (), { i with dict := i.dict.update [(k, v), (k ++ \"_\", v)] })",
  "edit": "assignment sets another attribute too",
  "breaks": "C70_not_frozen",
  "nth": 0
 },
 {
  "id": "I16",
  "file": "Verif/Model/Instance.lean",
  "definition": "delInst",
  "old": "dict := i.dict.erase k",
  "new": "dict := i.dict",
  "edit": "deletion does nothing",
  "breaks": "C70_deletion",
  "nth": 0
 },
 {
  "id": "I17",
  "file": "Verif/Model/Instance.lean",
  "definition": "delInst",
  "old": "if i.dict.has k then (.ok ()",
  "new": "if !i.dict.has k then (.ok ()",
  "edit": "deletion raises for existing attributes",
  "breaks": "C70_deletion",
  "nth": 0
 },
 {
  "id": "I18",
  "file": "Verif/Model/Instance.lean",
  "definition": "Op.run",
  "old": "(r.map fun _ => (), i', s')",
  "new": "(r.map fun _ => (), i, s')",
  "edit": "a caught hash drops the cache",
  "breaks": "none: caching is not observable",
  "nth": 0
 },
 {
  "id": "I19",
  "file": "Verif/Model/Instance.lean",
  "definition": "CmpOp.nat",
  "old": "| .lt, a, b => decide (a < b)",
  "new": "| .lt, a, b => decide (a \u2264 b)",
  "edit": "equal lists are <",
  "breaks": "C72, C73_equal_not_less",
  "nth": 0
 },
 {
  "id": "I20",
  "file": "Verif/Model/Instance.lean",
  "definition": "CmpOp.nat",
  "old": "| .ge, a, b => decide (b \u2264 a)",
  "new": "| .ge, a, b => decide (b < a)",
  "edit": "equal lists are not >=",
  "breaks": "C72",
  "nth": 0
 },
 {
  "id": "I21",
  "file": "Verif/Model/Instance.lean",
  "definition": "listCmp",
  "old": "if a = b \u2228 W.eq a b = true then listCmp O op as bs else O op a b",
  "new": "if a = b then listCmp O op as bs else O op a b",
  "edit": "only identical elements are skipped",
  "breaks": "C72_lexicographic",
  "nth": 0
 },
 {
  "id": "I22",
  "file": "Verif/Model/Instance.lean",
  "definition": "listCmp",
  "old": "if a = b \u2228 W.eq a b = true then listCmp O op as bs else O op a b",
  "new": "O op a b",
  "edit": "only the first pair counts",
  "breaks": "C72_lexicographic",
  "nth": 0
 },
 {
  "id": "I23",
  "file": "Verif/Model/Instance.lean",
  "definition": "orderingKey",
  "old": "decide (excludeTag \u2209 kf.2.tags)",
  "new": "true",
  "edit": "excluded fields count",
  "breaks": "C72, C73",
  "nth": 0
 },
 {
  "id": "I24",
  "file": "Verif/Model/Instance.lean",
  "definition": "orderingKey",
  "old": "decide (excludeTag \u2209 kf.2.tags)",
  "new": "decide (excludeTag \u2208 kf.2.tags)",
  "edit": "only excluded fields count",
  "breaks": "C72, C73",
  "nth": 0
 },
 {
  "id": "I25",
  "file": "Verif/Model/Instance.lean",
  "definition": "cmpMethod",
  "old": "if !Ca.ordered then .error .typeError",
  "new": "if false then .error .typeError",
  "edit": "unordered classes comparable",
  "breaks": "C74_unordered",
  "nth": 0
 },
 {
  "id": "I26",
  "file": "Verif/Model/Instance.lean",
  "definition": "cmpMethod",
  "old": "else if !W.isSub b.cid a.cid then .ok none",
  "new": "else if !W.isSub a.cid b.cid then .ok none",
  "edit": "isinstance check turned round",
  "breaks": "C74_subclass",
  "nth": 0
 },
 {
  "id": "I27",
  "file": "Verif/Model/Instance.lean",
  "definition": "cmpMethod",
  "old": "else if !W.isSub b.cid a.cid then .ok none",
  "new": "else if false then .ok none",
  "edit": "no class check",
  "breaks": "C74_unrelated",
  "nth": 0
 },
 {
  "id": "I28",
  "file": "Verif/Model/Instance.lean",
  "definition": "cmpMethod",
  "old": "| .ok kb => (listCmp O op ka kb).map some",
  "new": "| .ok kb => (listCmp O op kb ka).map some",
  "edit": "operands swapped",
  "breaks": "C72",
  "nth": 0
 },
 {
  "id": "I29",
  "file": "Verif/Model/Instance.lean",
  "definition": "cmpMethod",
  "old": "match orderingKey E Cb b with",
  "new": "match orderingKey E Ca b with",
  "edit": "the right operand's key made with the left class",
  "breaks": "C74_subclass",
  "nth": 0
 },
 {
  "id": "I30",
  "file": "Verif/Model/Instance.lean",
  "definition": "compare",
  "old": "let bwd := cmpMethod E O op.swap Cb b Ca a",
  "new": "let bwd := cmpMethod E O op Cb b Ca a",
  "edit": "reflected operator not swapped",
  "breaks": "C74_reflected, C74_subclass",
  "nth": 0
 },
 {
  "id": "I31",
  "file": "Verif/Model/Instance.lean",
  "definition": "compare",
  "old": "then orElse bwd fwd else orElse fwd bwd",
  "new": "then orElse fwd bwd else orElse fwd bwd",
  "edit": "no priority for subclasses",
  "breaks": "C74 (unordered subclass)",
  "nth": 0
 },
 {
  "id": "I32",
  "file": "Verif/Model/Instance.lean",
  "definition": "compare",
  "old": "| .ok none => .error .typeError",
  "new": "| .ok none => .ok false",
  "edit": "unrelated records compare as False",
  "breaks": "C74_unrelated",
  "nth": 0
 },
 {
  "id": "I33",
  "file": "Verif/Model/Instance.lean",
  "definition": "CmpOp.swap",
  "old": "| .le => .ge\n",
  "new": "| .le => .gt\n",
  "edit": "reflection of <= is >",
  "breaks": "C74",
  "nth": 0
 }
]