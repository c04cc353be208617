[
 {
  "id": "W01",
  "file": "Verif/Model/New.lean",
  "definition": "fromInstance",
  "old": "&& C.frozen && maps.isEmpty",
  "new": "&& maps.isEmpty",
  "edit": "the instance itself is returned also if the class is not frozen",
  "breaks": "C105: for a class that is not frozen the result is a fresh record"
 },
 {
  "id": "W02",
  "file": "Verif/Model/New.lean",
  "definition": "fromInstance",
  "old": "&& v.isInst C.cid then M.pure none",
  "new": "&& !v.isInst C.cid then M.pure none",
  "edit": "the object itself is returned if it is not an instance",
  "breaks": "C105: a frozen class returns its own instance"
 },
 {
  "id": "W03",
  "file": "Verif/Model/New.lean",
  "definition": "tryParse",
  "old": "if kw.isEmpty && C.unary then fun s",
  "new": "if kw.isEmpty && (C.unary || C.frozen) then fun s",
  "edit": "frozen classes always parse the positional argument",
  "breaks": "C105: with parsing off the argument becomes the value of the field"
 },
 {
  "id": "W04",
  "file": "Verif/Model/New.lean",
  "definition": "construct",
  "old": "    | _ => match standby with\n      | some r => M.pure r",
  "new": "    | _ => match standby with\n      | some r => if r.isInst C.cid then M.throw .typeError else M.pure r",
  "edit": "a parsed result that is an instance is refused",
  "breaks": "C105: calling a frozen class on its instance returns it"
 },
 {
  "id": "W05",
  "file": "Verif/Model/New.lean",
  "definition": "construct",
  "old": "else newFields E C standby (kw.set key a)",
  "new": "else (match standby with | some r => M.pure r | none => newFields E C none (kw.set key a))",
  "edit": "a parsed result wins over storing the argument in the only field",
  "breaks": "C105: the call is ambiguous if the field accepts the instance"
 },
 {
  "id": "W06",
  "file": "Verif/Model/New.lean",
  "definition": "parseLoop",
  "old": "| (.ok r, s') => parseLoop E C call v ps (succ ++ [r]) s'",
  "new": "| (.ok r, s') => parseLoop E C call v ps [r] s'",
  "edit": "only the last success counts",
  "breaks": "C82/C83 ambiguity of parse"
 },
 {
  "id": "W07",
  "file": "Verif/Model/New.lean",
  "definition": "Parser.run",
  "old": "fun r => M.pure (r.getD (.old v))",
  "new": "fun r => match r with | some r => M.pure r | none => M.throw .parseFailure",
  "edit": "from_instance used as a parser refuses the shortcut",
  "breaks": "C105: calling a frozen class on its instance returns it"
 },
 {
  "id": "W08",
  "file": "Verif/Model/New.lean",
  "definition": "tryParse",
  "old": "(.ok r, s') => (.ok r.notNone, s')",
  "new": "(.ok r, s') => (.ok (if r.isInst C.cid then none else r.notNone), s')",
  "edit": "a parsed result that is an instance of the class is dropped",
  "breaks": "C105"
 },
 {
  "id": "W09",
  "file": "Verif/Model/New.lean",
  "definition": "fromInstance",
  "old": "M.bind (buildFrom call sel (d.update kw)) fun r => M.pure (some r)",
  "new": "M.bind (buildFrom call sel (kw.update d)) fun r => M.pure (some r)",
  "edit": "attributes of the object win over keywords",
  "breaks": "from_instance precedence"
 },
 {
  "id": "W10",
  "file": "Verif/Model/New.lean",
  "definition": "callCls",
  "old": "init (r : Res W) : M W (Res W) := if r.isInst C.cid && kw.has \"self\" then",
  "new": "init (r : Res W) : M W (Res W) := if r.isInst C.cid then",
  "edit": "the constructor raises for every instance it made",
  "breaks": "C105 and all construction claims"
 },
 {
  "id": "W11",
  "file": "Verif/Model/New.lean",
  "definition": "parseLoop",
  "old": "if e.isException then parseLoop E C call v ps succ s' else (.error e, s')",
  "new": "if e.isException then (if succ.isEmpty then parseLoop E C call v ps succ s' else M.pure succ s') else (.error e, s')",
  "edit": "after a success, the first failing parser ends the loop",
  "breaks": "parse: every parser is tried"
 },
 {
  "id": "W12",
  "file": "Verif/Model/New.lean",
  "definition": "construct",
  "old": "if kw.has key then M.throw .typeError else newFields",
  "new": "if kw.has key then newFields E C standby kw else newFields",
  "edit": "a keyword wins over the positional argument",
  "breaks": "positional argument twice"
 }
]