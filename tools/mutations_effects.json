[
 {
  "id": "M01",
  "file": "Verif/Model/Effects.lean",
  "definition": "isDefaultE",
  "old": "  | .value d => V.eq d v",
  "new": "  | .value d => V.eq v d",
  "edit": "the value is the left operand of the comparison with the default",
  "breaks": "C109"
 },
 {
  "id": "M02",
  "file": "Verif/Model/Effects.lean",
  "definition": "isDefaultE",
  "old": "  | .factory _ => M.pure false\n",
  "new": "  | .factory f => M.bind f fun d => V.eq d v\n",
  "edit": "factory defaults are made and compared",
  "breaks": "C109"
 },
 {
  "id": "M03",
  "file": "Verif/Model/Effects.lean",
  "definition": "exportValueE",
  "old": "  else if o.includeDefaults then M.pure true\n",
  "new": "",
  "edit": "defaults are compared although they are included",
  "breaks": "C109"
 },
 {
  "id": "M04",
  "file": "Verif/Model/Effects.lean",
  "definition": "exportValueE",
  "old": "if f.name ∈ o.whitelist then M.pure true\n  else if o.includeDefaults",
  "new": "if o.includeDefaults",
  "edit": "whitelisted fields are compared and left out",
  "breaks": "C109"
 },
 {
  "id": "M05",
  "file": "Verif/Model/Effects.lean",
  "definition": "exportValueE",
  "old": "M.bind (d.isDefaultE V v) fun b => M.pure (!b)",
  "new": "fun s => match d.isDefaultE V v s with | (.ok b, s1) => (.ok (!b), s1) | (.error _, s1) => (.ok true, s1)",
  "edit": "exceptions of the comparison with the default are swallowed",
  "breaks": "C109"
 },
 {
  "id": "M06",
  "file": "Verif/Model/Effects.lean",
  "definition": "exportValueE",
  "old": "M.bind (d.isDefaultE V v) fun b => M.pure (!b)",
  "new": "M.bind (d.isDefaultE V v) fun _ => M.bind (d.isDefaultE V v) fun b => M.pure (!b)",
  "edit": "the default is compared twice",
  "breaks": "C109"
 },
 {
  "id": "M07",
  "file": "Verif/Model/Effects.lean",
  "definition": "exportTuplesE",
  "old": "          if b then M.bind (exportTuplesE V obj o missingOk fs) (fun l => M.pure ((f.name, v) :: l))\n          else exportTuplesE V obj o missingOk fs) s'",
  "new": "          if b then M.bind (exportTuplesE V obj o missingOk fs) (fun l => M.pure (l ++ [(f.name, v)]))\n          else exportTuplesE V obj o missingOk fs) s'",
  "edit": "the entries are in reverse field order",
  "breaks": "C109"
 },
 {
  "id": "M08",
  "file": "Verif/Model/Effects.lean",
  "definition": "reprInstE",
  "old": "M.bind (V.repr kv.2) fun r => M.pure (kv.1 ++ \"=\" ++ r)",
  "new": "M.bind (V.repr kv.2) fun _ => M.bind (V.repr kv.2) fun r => M.pure (kv.1 ++ \"=\" ++ r)",
  "edit": "repr is called twice for each value",
  "breaks": "C109"
 },
 {
  "id": "M09",
  "file": "Verif/Model/Effects.lean",
  "definition": "hashInstE",
  "old": "        | (.error e, s'') => (.error e, i, s'')",
  "new": "        | (.error e, s'') => (.error e, { i with hash := some (some 0) }, s'')",
  "edit": "a failed hash is cached as 0",
  "breaks": "C109"
 },
 {
  "id": "M10",
  "file": "Verif/Model/Effects.lean",
  "definition": "hashInstE",
  "old": "    | some (some n) => (.ok n, i, s)",
  "new": "    | some (some n) => match toDictE V C (.ofInst E i) {} Sel.empty s with | (.error e, s') => (.error e, i, s') | (.ok _, s') => (.ok n, i, s')",
  "edit": "a cached hash still exports the record",
  "breaks": "C109"
 },
 {
  "id": "M11",
  "file": "Verif/Model/Effects.lean",
  "definition": "hashInstE",
  "old": "(.ok (tup ns), { i with hash := some (some (tup ns)) }, s'')",
  "new": "(.ok (tup ns), i, s'')",
  "edit": "the hash is not cached",
  "breaks": "C109"
 },
 {
  "id": "M12",
  "file": "Verif/Model/Effects.lean",
  "definition": "hashInstE",
  "old": "match M.mapM V.hash d.values s' with",
  "new": "match M.mapM V.hash d.values.reverse s' with",
  "edit": "the values are hashed from last to first",
  "breaks": "C109"
 },
 {
  "id": "M13",
  "file": "Verif/Model/Effects.lean",
  "definition": "eqFieldsE",
  "old": "      M.bind (V.ne v w) fun r => if r then M.pure false else eqFieldsE V E a b ks",
  "new": "      M.bind (V.eq v w) fun r => if r then eqFieldsE V E a b ks else M.pure false",
  "edit": "equality uses == of the values",
  "breaks": "C109"
 },
 {
  "id": "M14",
  "file": "Verif/Model/Effects.lean",
  "definition": "eqFieldsE",
  "old": "      M.bind (V.ne v w) fun r => if r then M.pure false else eqFieldsE V E a b ks",
  "new": "      if v = w then eqFieldsE V E a b ks else M.bind (V.ne v w) fun r => if r then M.pure false else eqFieldsE V E a b ks",
  "edit": "identical values are not compared",
  "breaks": "C109"
 },
 {
  "id": "M15",
  "file": "Verif/Model/Effects.lean",
  "definition": "eqFieldsE",
  "old": "      M.bind (V.ne v w) fun r => if r then M.pure false else eqFieldsE V E a b ks",
  "new": "      M.bind (V.ne v w) fun r => M.bind (eqFieldsE V E a b ks) fun q => M.pure (!r && q)",
  "edit": "equality compares all fields",
  "breaks": "C109"
 },
 {
  "id": "M16",
  "file": "Verif/Model/Effects.lean",
  "definition": "eqInstE",
  "old": "        if m ≠ n then (.ok false, a', b', s2)\n        else match",
  "new": "        match",
  "edit": "frozen records with different hashes are compared field by field",
  "breaks": "C109"
 },
 {
  "id": "M17",
  "file": "Verif/Model/Effects.lean",
  "definition": "eqInstE",
  "old": "  else if C.frozen then\n    match hashInstE V tup E C a s with\n    | (.error e, a', s1) => (.error e, a', b, s1)",
  "new": "  else if C.frozen then\n    match hashInstE V tup E C a s with\n    | (.error _, a', s1) => (.ok false, a', b, s1)",
  "edit": "frozen records that cannot be hashed are unequal",
  "breaks": "C109"
 },
 {
  "id": "M18",
  "file": "Verif/Model/Effects.lean",
  "definition": "listCmpE",
  "old": "    if a = b then listCmpE V O op as bs\n    else M.bind",
  "new": "    M.bind",
  "edit": "identical values are compared by the ordering",
  "breaks": "C109"
 },
 {
  "id": "M19",
  "file": "Verif/Model/Effects.lean",
  "definition": "listCmpE",
  "old": "if r then listCmpE V O op as bs else O op a b",
  "new": "if r then O op a b else listCmpE V O op as bs",
  "edit": "the first equal pair decides the ordering",
  "breaks": "C109"
 },
 {
  "id": "M20",
  "file": "Verif/Model/Effects.lean",
  "definition": "compareE",
  "old": "  if !C.ordered then M.throw .typeError\n  else ",
  "new": "  ",
  "edit": "records of an unordered class can be compared",
  "breaks": "C109"
 },
 {
  "id": "M21",
  "file": "Verif/Model/Effects.lean",
  "definition": "ValueOps.plain",
  "old": "  ne a b := M.pure (!W.eq a b)",
  "new": "  ne a b := M.pure (W.eq a b)",
  "edit": "!= of plain values is ==",
  "breaks": "C109"
 }
]