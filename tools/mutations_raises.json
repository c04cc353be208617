[
 {
  "id": "U01",
  "file": "Verif/Model/Filler.lean",
  "definition": "Ann.fill",
  "old": "else if a.coercers.isEmpty then (.error .typeError, s)",
  "new": "else if a.coercers.isEmpty then (.error .attributeError, s)",
  "edit": "a failed type check raises AttributeError",
  "breaks": "C104"
 },
 {
  "id": "U02",
  "file": "Verif/Model/Filler.lean",
  "definition": "coerceLoop",
  "old": "if cs.isEmpty then (.error .typeError, s') else coerceLoop k st cs w s'",
  "new": "if cs.isEmpty then (.error .runtimeError, s') else coerceLoop k st cs w s'",
  "edit": "a badly typed coercion result raises RuntimeError",
  "breaks": "C104"
 },
 {
  "id": "U03",
  "file": "Verif/Model/Filler.lean",
  "definition": "unionLoop",
  "old": "if bs.any (fun r => decide (r ≠ b)) then M.throw .valueError",
  "new": "if bs.any (fun r => decide (r ≠ b)) then M.throw .lookupError",
  "edit": "an ambiguous union raises LookupError",
  "breaks": "C104"
 },
 {
  "id": "U04",
  "file": "Verif/Model/Filler.lean",
  "definition": "unionLoop",
  "old": "else if best.isEmpty && fs.isEmpty then (.error e, s')",
  "new": "else if best.isEmpty && fs.isEmpty then (.error .indexError, s')",
  "edit": "when all members fail IndexError is raised",
  "breaks": "C104"
 },
 {
  "id": "U05",
  "file": "Verif/Model/Filler.lean",
  "definition": "unionLoop",
  "old": "      else if best.isEmpty && fs.isEmpty then (.error e, s')\n",
  "new": "",
  "edit": "the failure of the last member is not re-raised, best[0] raises IndexError",
  "breaks": "C104"
 },
 {
  "id": "U06",
  "file": "Verif/Model/Filler.lean",
  "definition": "tupleLenValidator",
  "old": "M.throw .valueError else M.pure v",
  "new": "M.throw .indexError else M.pure v",
  "edit": "a tuple of wrong length raises IndexError",
  "breaks": "C104"
 },
 {
  "id": "U07",
  "file": "Verif/Model/Filler.lean",
  "definition": "typeValidator",
  "old": "| _, _ => M.throw .typeError",
  "new": "| _, _ => M.throw .attributeError",
  "edit": "no class for Type[...] raises AttributeError",
  "breaks": "C104"
 },
 {
  "id": "U08",
  "file": "Verif/Model/Filler.lean",
  "definition": "literalValidator",
  "old": "if !W.hashable v then (.error .typeError, s')",
  "new": "if !W.hashable v then (.error .keyError, s')",
  "edit": "unhashable value for a Literal raises KeyError",
  "breaks": "C104"
 },
 {
  "id": "U09",
  "file": "Verif/Model/New.lean",
  "definition": "rewrapErr",
  "old": "| .typeError => ⟨.valueError, some k⟩",
  "new": "| .typeError => ⟨.runtimeError, some k⟩",
  "edit": "exceptions that take no message become RuntimeError",
  "breaks": "C104"
 },
 {
  "id": "U10",
  "file": "Verif/Model/New.lean",
  "definition": "newFields",
  "old": "if kw.keys.any fun k => !C.fields.has k then M.throw .typeError\n  else ",
  "new": "",
  "edit": "unknown keywords are not checked up front: KeyError in the loop",
  "breaks": "C104"
 },
 {
  "id": "U11",
  "file": "Verif/Model/New.lean",
  "definition": "newFields",
  "old": "(E.setOrder (C.optional.filter fun k => !kw.has k))",
  "new": "(E.setOrder ((C.optional ++ C.required).filter fun k => !kw.has k))",
  "edit": "defaults are also made for required fields",
  "breaks": "C104, C51"
 },
 {
  "id": "U12",
  "file": "Verif/Model/New.lean",
  "definition": "parseLoop",
  "old": "if e.isException then parseLoop E C call v ps succ s' else (.error e, s')",
  "new": "if e.isTypeError || e.kind = .valueError then parseLoop E C call v ps succ s' else (.error e, s')",
  "edit": "parse only catches TypeError and ValueError",
  "breaks": "C104, C57"
 },
 {
  "id": "U13",
  "file": "Verif/Model/New.lean",
  "definition": "parseWith",
  "old": "| [] => M.throw .parseFailure",
  "new": "| [] => M.throw .lookupError",
  "edit": "no successful parser raises LookupError",
  "breaks": "C104"
 },
 {
  "id": "U14",
  "file": "Verif/Model/New.lean",
  "definition": "callCls",
  "old": "if kw.has \"cls\" then M.throw .typeError",
  "new": "if kw.has \"cls\" then M.throw .keyError",
  "edit": "keyword cls raises KeyError",
  "breaks": "C104"
 },
 {
  "id": "U15",
  "file": "Verif/Model/New.lean",
  "definition": "finishNew",
  "old": "| some _ => (.error .typeError, s')",
  "new": "| some _ => (.error .runtimeError, s')",
  "edit": "ambiguous parse raises RuntimeError",
  "breaks": "C104, C56"
 },
 {
  "id": "U16",
  "file": "Verif/Model/Select.lean",
  "definition": "editAdd",
  "old": "if m.has sv.1 then .error .valueError",
  "new": "if m.has sv.1 then .error .typeError",
  "edit": "adding an existing key raises TypeError",
  "breaks": "C104, C02"
 },
 {
  "id": "U17",
  "file": "Verif/Model/Coercers.lean",
  "definition": "evalCoercer",
  "old": "Exc.isException fun _",
  "new": "Exc.isTypeError fun _",
  "edit": "Eval passes on other errors",
  "breaks": "C104, C86"
 },
 {
  "id": "U18",
  "file": "Verif/Model/Coercers.lean",
  "definition": "looseUnpackMap",
  "old": "| none => if !W.isMapping v then M.throw .typeError else call",
  "new": "| none => if !W.isMapping v then M.throw .attributeError else call",
  "edit": "unconstrained LooseUnpackMap raises AttributeError for non-mappings",
  "breaks": "C104"
 },
 {
  "id": "U19",
  "file": "Verif/Model/New.lean",
  "definition": "tryParse",
  "old": "if e.kind = .parseFailure ∧ C.required.length = 1 then (.ok none, s') else (.error e, s')",
  "new": "if e.kind = .parseFailure ∧ C.required.length = 1 then (.ok none, s') else (.error .runtimeError, s')",
  "edit": "a failed parse raises RuntimeError",
  "breaks": "C104, C55"
 },
 {
  "id": "U20",
  "file": "Verif/Model/Filler.lean",
  "definition": "Ann.bindBase",
  "old": "let st := if a.style = Style.default then d else a.style",
  "new": "let st := a.style",
  "edit": "default style is not resolved at bind",
  "breaks": "C104, C19, C45"
 },
 {
  "id": "U21",
  "file": "Verif/Model/New.lean",
  "definition": "fromMapping",
  "old": "if clash [\"self\", \"cls\"] kw then M.throw .typeError",
  "new": "if clash [\"self\", \"cls\"] kw then M.throw .keyError",
  "edit": "clashing keyword raises KeyError",
  "breaks": "C104"
 },
 {
  "id": "U22",
  "file": "Verif/Model/New.lean",
  "definition": "defaultLoop",
  "old": "| none => M.throw .keyError",
  "new": "| none => defaultLoop fields ks values",
  "edit": "a missing default is skipped (unreachable)",
  "breaks": "nothing"
 }
]