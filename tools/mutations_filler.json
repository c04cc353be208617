[
 {
  "id": "F01",
  "file": "Verif/Model/Filler.lean",
  "definition": "Kind.typeCheck",
  "old": "if W.typeOf v = c then .exact else if W.isInstance v c then .inexact else .none",
  "new": "if W.isInstance v c then .exact else .none",
  "edit": "subclass instances count as exact matches",
  "breaks": "C21, C27",
  "nth": 0
 },
 {
  "id": "F02",
  "file": "Verif/Model/Filler.lean",
  "definition": "Kind.typeCheck",
  "old": "if W.isNone v then .exact else .false",
  "new": "if W.isNone v then .exact else .none",
  "edit": "None check returns None instead of False",
  "breaks": "C22 (exact behaviour)",
  "nth": 0
 },
 {
  "id": "F03",
  "file": "Verif/Model/Filler.lean",
  "definition": "Ann.apply",
  "old": "coercers := a.coercers ++ [c]",
  "new": "coercers := c :: a.coercers",
  "edit": "coercers in reverse order",
  "breaks": "C23",
  "nth": 0
 },
 {
  "id": "F04",
  "file": "Verif/Model/Filler.lean",
  "definition": "Ann.apply",
  "old": "validators := a.validators ++ [c]",
  "new": "validators := c :: a.validators",
  "edit": "validators in reverse order",
  "breaks": "C25",
  "nth": 0
 },
 {
  "id": "F05",
  "file": "Verif/Model/Filler.lean",
  "definition": "Ann.apply",
  "old": "if a.bound then .error .runtimeError\n  else\n    match t with",
  "new": "if false then .error .runtimeError\n  else\n    match t with",
  "edit": "tokens accepted after bind",
  "breaks": "C26",
  "nth": 0
 },
 {
  "id": "F06",
  "file": "Verif/Model/Filler.lean",
  "definition": "literalValidator",
  "old": "if !W.hashable v then",
  "new": "if false then",
  "edit": "unhashable values looked up",
  "breaks": "C29",
  "nth": 0
 },
 {
  "id": "F07",
  "file": "Verif/Model/Filler.lean",
  "definition": "literalValidator",
  "old": "decide (W.typeOf p = W.typeOf v) && ",
  "new": "",
  "edit": "type of literals ignored",
  "breaks": "C29",
  "nth": 0
 },
 {
  "id": "F08",
  "file": "Verif/Model/Filler.lean",
  "definition": "Ann.bindBase",
  "old": "let st := if a.style = Style.default then d else a.style",
  "new": "let st := if d = Style.hollow then a.style else d",
  "edit": "class default overrides the style token",
  "breaks": "C19-C27",
  "nth": 0
 },
 {
  "id": "F09",
  "file": "Verif/Model/Filler.lean",
  "definition": "Ann.bindBase",
  "old": "if st = Style.hollow \u2227 !a.coercers.isEmpty then .error .valueError\n    else",
  "new": "",
  "edit": "hollow fields with coercers accepted",
  "breaks": "C26",
  "nth": 0
 },
 {
  "id": "F10",
  "file": "Verif/Model/Filler.lean",
  "definition": "Ann.bindKind",
  "old": "if a.style = Style.checkStrict \u2227 W.isAbstract c then",
  "new": "if a.style = Style.check \u2227 W.isAbstract c then",
  "edit": "abstract check on the wrong style",
  "breaks": "C26",
  "nth": 0
 },
 {
  "id": "F11",
  "file": "Verif/Model/Filler.lean",
  "definition": "Ann.bind",
  "old": "match a.applyAll a.args with",
  "new": "match a.applyAll a.args.reverse with",
  "edit": "Annotated tokens applied in reverse",
  "breaks": "C25, C23",
  "nth": 0
 },
 {
  "id": "F12",
  "file": "Verif/Model/Filler.lean",
  "definition": "TC.badAfterCoercion",
  "old": "| .none => true",
  "new": "| .none => Bool.false",
  "edit": "wrongly typed coerced values accepted",
  "breaks": "C21, C38",
  "nth": 0
 },
 {
  "id": "F13",
  "file": "Verif/Model/Filler.lean",
  "definition": "TC.badAfterCoercion",
  "old": "| .inexact => st \u2260 .check",
  "new": "| .inexact => Bool.false",
  "edit": "subclass results accepted under check_strict after coercion",
  "breaks": "C21",
  "nth": 0
 },
 {
  "id": "F14",
  "file": "Verif/Model/Filler.lean",
  "definition": "coerceLoop",
  "old": "if cs.isEmpty then (.error .typeError, s') else coerceLoop k st cs w s'",
  "new": "if cs.isEmpty then (.error .typeError, s') else coerceLoop k st cs v s'",
  "edit": "next coercer gets the original argument",
  "breaks": "C24 (exact behaviour)",
  "nth": 0
 },
 {
  "id": "F15",
  "file": "Verif/Model/Filler.lean",
  "definition": "coerceLoop",
  "old": "if e.isException then\n        if cs.isEmpty",
  "new": "if true then\n        if cs.isEmpty",
  "edit": "KeyboardInterrupt of a coercer swallowed",
  "breaks": "C28, C23",
  "nth": 0
 },
 {
  "id": "F16",
  "file": "Verif/Model/Filler.lean",
  "definition": "Ann.fill",
  "old": "if tc = .exact then validate a.validators v .noCoerceStrict s\n    else if tc = .inexact \u2227 st = .check",
  "new": "if tc = .exact then validate a.validators v .noCoerceStrict s\n    else if tc = .inexact",
  "edit": "subclass instances accepted under check_strict",
  "breaks": "C21, C27",
  "nth": 0
 },
 {
  "id": "F17",
  "file": "Verif/Model/Filler.lean",
  "definition": "Ann.fill",
  "old": "| .hollow => validate a.validators v .hollow",
  "new": "| .hollow => M.pure (v, .hollow)",
  "edit": "validators of hollow fields skipped",
  "breaks": "C25",
  "nth": 0
 },
 {
  "id": "F18",
  "file": "Verif/Model/Filler.lean",
  "definition": "Ann.fill",
  "old": "if tc = .exact then validate a.validators v .noCoerceStrict s",
  "new": "if tc = .exact then (.ok (v, .noCoerceStrict), s)",
  "edit": "validators skipped on exact match",
  "breaks": "C25",
  "nth": 0
 },
 {
  "id": "F19",
  "file": "Verif/Model/Filler.lean",
  "definition": "Ann.fill",
  "old": "(fun w => validate a.validators w .coerce) s",
  "new": "(fun w => validate a.validators w .noCoerce) s",
  "edit": "coerced values reported as uncoerced",
  "breaks": "C30 (kinds)",
  "nth": 0
 },
 {
  "id": "F20",
  "file": "Verif/Model/Filler.lean",
  "definition": "Ann.call",
  "old": "if a.style = .hollow \u2227 a.validators.isEmpty then M.pure v",
  "new": "if a.style = .hollow then M.pure v",
  "edit": "call of hollow filler skips validators",
  "breaks": "C25",
  "nth": 0
 },
 {
  "id": "F21",
  "file": "Verif/Model/Filler.lean",
  "definition": "unionLoop",
  "old": "if k.rank < bk.rank then unionLoop v fs [x] (some k) s'",
  "new": "if bk.rank < k.rank then unionLoop v fs [x] (some k) s'",
  "edit": "worst match wins",
  "breaks": "C30",
  "nth": 0
 },
 {
  "id": "F22",
  "file": "Verif/Model/Filler.lean",
  "definition": "unionLoop",
  "old": "unionLoop v fs (best ++ [x]) (some bk) s'",
  "new": "unionLoop v fs best (some bk) s'",
  "edit": "first of equal matches wins",
  "breaks": "C31, C32",
  "nth": 0
 },
 {
  "id": "F23",
  "file": "Verif/Model/Filler.lean",
  "definition": "unionLoop",
  "old": "if bs.any (fun r => decide (r \u2260 b)) then M.throw .valueError else M.pure (b, k)",
  "new": "if bs.any (fun r => W.eq r b = false) then M.throw .valueError else M.pure (b, k)",
  "edit": "equal instead of identical results are not ambiguous",
  "breaks": "C32",
  "nth": 0
 },
 {
  "id": "F24",
  "file": "Verif/Model/Filler.lean",
  "definition": "unionLoop",
  "old": "if !e.isException then (.error e, s')\n      else if",
  "new": "if",
  "edit": "KeyboardInterrupt of a union member swallowed",
  "breaks": "C28",
  "nth": 0
 },
 {
  "id": "F25",
  "file": "Verif/Model/Filler.lean",
  "definition": "elemLoop",
  "old": "if w = e then elemLoop drains rebuild v es (pre ++ [e])",
  "new": "if w = e then elemLoop drains rebuild v es pre",
  "edit": "unchanged prefix lost on rebuild",
  "breaks": "C34",
  "nth": 0
 },
 {
  "id": "F26",
  "file": "Verif/Model/Filler.lean",
  "definition": "elemLoop",
  "old": "rebuild (pre ++ w :: ws)",
  "new": "rebuild (pre ++ ws)",
  "edit": "first changed element lost",
  "breaks": "C34",
  "nth": 0
 },
 {
  "id": "F27",
  "file": "Verif/Model/Filler.lean",
  "definition": "elemLoop",
  "old": "fun ws => rebuild (pre ++ w :: ws)",
  "new": "fun _ => rebuild (pre ++ w :: es.map Prod.fst)",
  "edit": "elements after the first change not filled",
  "breaks": "C34, C38",
  "nth": 0
 },
 {
  "id": "F28",
  "file": "Verif/Model/Filler.lean",
  "definition": "iterValidator",
  "old": "W.mkDeque (W.typeOf v) l (W.maxlen v)",
  "new": "W.mkDeque (W.typeOf v) l W.zero",
  "edit": "deque maxlen lost",
  "breaks": "C37",
  "nth": 0
 },
 {
  "id": "F29",
  "file": "Verif/Model/Filler.lean",
  "definition": "tupleLenValidator",
  "old": "if (W.elems v).length \u2260 n then",
  "new": "if (W.elems v).length < n then",
  "edit": "longer tuples accepted",
  "breaks": "C35, C38",
  "nth": 0
 },
 {
  "id": "F30",
  "file": "Verif/Model/Filler.lean",
  "definition": "mapValidator",
  "old": "M.bind (fk p.1) fun a => M.bind (fv p.2) fun b => M.pure (a, b)",
  "new": "M.bind (fk p.1) fun a => M.bind (fk p.2) fun b => M.pure (a, b)",
  "edit": "values filled with the key filler",
  "breaks": "C36",
  "nth": 0
 },
 {
  "id": "F31",
  "file": "Verif/Model/Filler.lean",
  "definition": "mapValidator",
  "old": "decide (q.1.1 \u2260 q.2.1) || decide (q.1.2 \u2260 q.2.2)",
  "new": "decide (q.1.2 \u2260 q.2.2)",
  "edit": "changed keys ignored",
  "breaks": "C36",
  "nth": 0
 },
 {
  "id": "F32",
  "file": "Verif/Model/Filler.lean",
  "definition": "mapValidator",
  "old": "W.mkDefaultDict (W.typeOf v) (W.defaultFactory v) l",
  "new": "W.mkMap (W.typeOf v) l",
  "edit": "default_factory lost",
  "breaks": "C37",
  "nth": 0
 },
 {
  "id": "F33",
  "file": "Verif/Model/Filler.lean",
  "definition": "typeValidator",
  "old": "if W.isSub c b then",
  "new": "if W.isSub b c then",
  "edit": "Type[B] accepts superclasses",
  "breaks": "C38, C39",
  "nth": 0
 },
 {
  "id": "F34",
  "file": "Verif/Model/Filler.lean",
  "definition": "F.fill",
  "old": "if F.allHollow subs then M.pure (v, .hollow) else unionLoop v (F.fills subs) [] none",
  "new": "unionLoop v (F.fills subs) [] none",
  "edit": "hollow unions run their members",
  "breaks": "C19, C33",
  "nth": 0
 },
 {
  "id": "F35",
  "file": "Verif/Model/Filler.lean",
  "definition": "wrapFinish",
  "old": "let inner1 := if inner.style = .hollow then inner else inner.addValidator (tupleLenValidator subs.length)",
  "new": "let inner1 := inner",
  "edit": "tuple length only checked with checked members... (never)",
  "breaks": "C35",
  "nth": 0
 },
 {
  "id": "F36",
  "file": "Verif/Model/Filler.lean",
  "definition": "wrapFinish",
  "old": "| .generic => if F.allHollow subs then .ok inner else .error .typeError",
  "new": "| .generic => .ok inner",
  "edit": "non-specialised generics with checked parameters accepted",
  "breaks": "C26",
  "nth": 0
 },
 {
  "id": "F37",
  "file": "Verif/Model/Filler.lean",
  "definition": "wrapFinish",
  "old": "if f.isHollow then .ok inner\n      else if inner.style = .hollow then .error .typeError\n      else",
  "new": "if f.isHollow then .ok inner\n      else",
  "edit": "hollow container with checked elements accepted",
  "breaks": "C26",
  "nth": 0
 },
 {
  "id": "F38",
  "file": "Verif/Model/Filler.lean",
  "definition": "F.bind",
  "old": "| .dumb bound =>\n    if bound then .error .runtimeError else if d \u2260 .hollow then .error .typeError else .ok (.dumb true)",
  "new": "| .dumb bound =>\n    if bound then .error .runtimeError else .ok (.dumb true)",
  "edit": "uninterpretable hints accepted in checking classes",
  "breaks": "C26",
  "nth": 0
 },
 {
  "id": "F39",
  "file": "Verif/Model/Filler.lean",
  "definition": "F.bind",
  "old": "match F.bindUnion d (args ++ applied) subs with",
  "new": "match F.bindUnion d (applied ++ args) subs with",
  "edit": "union tokens: pre_bind before Annotated",
  "breaks": "C25",
  "nth": 0
 },
 {
  "id": "F40",
  "file": "Verif/Model/Filler.lean",
  "definition": "classKind",
  "old": "else if W.isSub c W.boolCls then .simple c true\n",
  "new": "",
  "edit": "subclasses of bool get the plain filler",
  "breaks": "(bool has no subclasses: equivalent in CPython)",
  "nth": 0
 },
 {
  "id": "F41",
  "file": "Verif/Model/Filler.lean",
  "definition": "getF",
  "old": "| .any, args => .ok (.ann (classAnn W.objectCls (args.getD [])))",
  "new": "| .any, args => .ok (.dumb false)",
  "edit": "Any is uninterpretable",
  "breaks": "C42",
  "nth": 0
 },
 {
  "id": "F42",
  "file": "Verif/Model/Filler.lean",
  "definition": "getF",
  "old": "| .newType h, args => getF h (some (args.getD []))",
  "new": "| .newType h, _ => getF h none",
  "edit": "tokens on a NewType dropped",
  "breaks": "C42",
  "nth": 0
 },
 {
  "id": "F43",
  "file": "Verif/Model/Filler.lean",
  "definition": "pyIndex",
  "old": "else if i < 0 \u2227 -i \u2264 n then some (n - (-i).toNat)",
  "new": "else if i < 0 \u2227 -i \u2264 n then some ((-i).toNat - 1)",
  "edit": "negative tuple keys count from the front",
  "breaks": "C35 (pre_bind keys)",
  "nth": 0
 }
]