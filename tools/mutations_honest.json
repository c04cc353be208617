[
 {
  "id": "H01",
  "file": "Verif/Model/Filler.lean",
  "definition": "coerceLoop",
  "old": "      if e.isException then\n        if cs.isEmpty",
  "new": "      if true then\n        if cs.isEmpty",
  "edit": "bare except around coercers",
  "breaks": "C28: a KeyboardInterrupt is never swallowed"
 },
 {
  "id": "H02",
  "file": "Verif/Model/Filler.lean",
  "definition": "unionLoop",
  "old": "      if !e.isException then (.error e, s')\n      else if best",
  "new": "      if false then (.error e, s')\n      else if best",
  "edit": "bare except around union members",
  "breaks": "C28: a KeyboardInterrupt is never swallowed"
 },
 {
  "id": "H03",
  "file": "Verif/Model/New.lean",
  "definition": "fillLoop",
  "old": "        if !e.isException then (.error e, s')\n        else match standby with\n          | some r => (.ok (.inl r), s')",
  "new": "        if !e.isException && standby.isNone then (.error e, s')\n        else match standby with\n          | some r => (.ok (.inl r), s')",
  "edit": "the standing-by parse result replaces any exception",
  "breaks": "C28: a KeyboardInterrupt is never swallowed"
 },
 {
  "id": "H04",
  "file": "Verif/Model/New.lean",
  "definition": "fillLoop",
  "old": "        if !e.isException then (.error e, s')\n        else match standby with",
  "new": "        if !e.isException && standby.isSome then (.error e, s')\n        else match standby with",
  "edit": "bare except: the interrupt is wrapped in a new one that names the field",
  "breaks": "C28: a KeyboardInterrupt is never swallowed"
 },
 {
  "id": "H05",
  "file": "Verif/Model/New.lean",
  "definition": "finishNew",
  "old": "    if !e.isException then (.error e, s')\n    else match standby with",
  "new": "    if !e.isException && standby.isNone then (.error e, s')\n    else match standby with",
  "edit": "the standing-by result replaces an interrupt from post_new",
  "breaks": "C28: a KeyboardInterrupt is never swallowed"
 },
 {
  "id": "H06",
  "file": "Verif/Model/New.lean",
  "definition": "parseLoop",
  "old": "if e.isException then parseLoop E C call v ps succ s' else (.error e, s')",
  "new": "parseLoop E C call v ps succ s'",
  "edit": "bare except around parsers",
  "breaks": "C28: a KeyboardInterrupt is never swallowed"
 },
 {
  "id": "H07",
  "file": "Verif/Model/New.lean",
  "definition": "tryParse",
  "old": "if e.kind = .parseFailure \u2227 C.required.length = 1 then",
  "new": "if C.required.length = 1 then",
  "edit": "any exception of parse falls back to the single required field",
  "breaks": "C28: a KeyboardInterrupt is never swallowed"
 },
 {
  "id": "H08",
  "file": "Verif/Model/Coercers.lean",
  "definition": "evalCoercer",
  "old": "M.tryExcept (ev t) Exc.isException fun _",
  "new": "M.tryExcept (ev t) (fun _ => true) fun _",
  "edit": "Eval turns every exception into TypeError",
  "breaks": "C28: a KeyboardInterrupt is never swallowed"
 },
 {
  "id": "H09",
  "file": "Verif/Model/Export.lean",
  "definition": "exportTuples",
  "old": "        if e.kind \u2260 .attributeError then (.error e, s')\n        else if",
  "new": "        if false then (.error e, s')\n        else if",
  "edit": "bare except around attribute access",
  "breaks": "C28: a KeyboardInterrupt is never swallowed"
 },
 {
  "id": "H10",
  "file": "Verif/Model/New.lean",
  "definition": "defaultLoop",
  "old": "M.bind d.make fun v",
  "new": "M.bind (M.tryExcept d.make (fun _ => true) fun _ => M.throw .valueError) fun v",
  "edit": "errors of default factories become ValueError",
  "breaks": "C28: a KeyboardInterrupt is never swallowed"
 },
 {
  "id": "H11",
  "file": "Verif/Model/New.lean",
  "definition": "fromJson",
  "old": "M.bind (E.jsonLoads v kw) fun j",
  "new": "M.bind (M.tryExcept (E.jsonLoads v kw) (fun _ => true) fun _ => M.throw .valueError) fun j",
  "edit": "errors of json.loads become ValueError",
  "breaks": "C28: a KeyboardInterrupt is never swallowed"
 },
 {
  "id": "H12",
  "file": "Verif/Model/Filler.lean",
  "definition": "elemLoop",
  "old": "| (e, f) :: es, pre => M.bind (f e) fun w",
  "new": "| (e, f) :: es, pre => M.bind (M.tryExcept (f e) (fun x => !x.isException) fun _ => M.pure e) fun w",
  "edit": "an interrupted element check keeps the element",
  "breaks": "C28: a KeyboardInterrupt is never swallowed"
 },
 {
  "id": "H13",
  "file": "Verif/Model/Filler.lean",
  "definition": "validate",
  "old": "M.bind (M.foldM (fun f v => f v) vs v) fun w",
  "new": "M.bind (M.foldM (fun f v => M.tryExcept (f v) (fun x => !x.isException) fun _ => M.pure v) vs v) fun w",
  "edit": "an interrupted validator counts as passed",
  "breaks": "C28: a KeyboardInterrupt is never swallowed"
 },
 {
  "id": "H14",
  "file": "Verif/Model/New.lean",
  "definition": "Parser.run",
  "old": "  | .user f => f v",
  "new": "  | .user f => M.tryExcept (f v) (fun x => !x.isException) fun _ => M.throw .typeError",
  "edit": "an interrupted user parser counts as failed",
  "breaks": "C28: a KeyboardInterrupt is never swallowed"
 },
 {
  "id": "H15",
  "file": "Verif/Model/Filler.lean",
  "definition": "mapValidator",
  "old": "M.bind (fv p.2) fun b",
  "new": "M.bind (M.tryExcept (fv p.2) (fun x => !x.isException) fun _ => M.pure p.2) fun b",
  "edit": "an interrupted mapping value check keeps the value",
  "breaks": "C28: a KeyboardInterrupt is never swallowed"
 }
]