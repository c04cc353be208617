[
 {
  "id": "Q01",
  "file": "Verif/Model/Tokens.lean",
  "definition": "PyArg.asInstance",
  "old": "  else if sub then o.call\n",
  "new": "  else if sub then .ok (some o.self)\n",
  "edit": "token classes are used uninstantiated",
  "breaks": "C92: a token class stands for its instance"
 },
 {
  "id": "Q02",
  "file": "Verif/Model/Tokens.lean",
  "definition": "PyArg.asInstance",
  "old": "if w then o.call else .ok none",
  "new": "if w then .ok (some o.self) else .ok none",
  "edit": "wrapped factories are not called",
  "breaks": "C92: an object with __wrapped__ is called"
 },
 {
  "id": "Q03",
  "file": "Verif/Model/Tokens.lean",
  "definition": "PyArg.asInstance",
  "old": "    | .error e => .error e\n    | .ok w",
  "new": "    | .error _ => .ok none\n    | .ok w",
  "edit": "errors of the __wrapped__ access are ignored",
  "breaks": "C92: an exception while inspecting makes the declaration fail"
 },
 {
  "id": "Q04",
  "file": "Verif/Model/Tokens.lean",
  "definition": "PyArg.asInstance",
  "old": "if w then o.call else .ok none",
  "new": "if w then o.call else .ok (some o.self)",
  "edit": "unrelated objects are used as tokens",
  "breaks": "C92: other objects are ignored"
 },
 {
  "id": "Q05",
  "file": "Verif/Model/Tokens.lean",
  "definition": "Ann.applyObj",
  "old": "        | .ok c => .ok { a with validators := a.validators ++ [c] }",
  "new": "        | .ok c => .ok { a with validators := c :: a.validators }",
  "edit": "validators are prepended",
  "breaks": "C92/C93: order of validators"
 },
 {
  "id": "Q06",
  "file": "Verif/Model/Tokens.lean",
  "definition": "Ann.applyObj",
  "old": "  if a.bound then .error .runtimeError\n  else match o.style",
  "new": "  if false then .error .runtimeError\n  else match o.style",
  "edit": "bound check dropped",
  "breaks": "C92: objects act like their tokens (bound filler refuses)"
 },
 {
  "id": "Q07",
  "file": "Verif/Model/Tokens.lean",
  "definition": "callValidation",
  "old": ".ok fun v => g (v :: args) kw",
  "new": ".ok fun v => g (args ++ [v]) kw",
  "edit": "CallValidation passes the value after the positional arguments",
  "breaks": "C93: CallValidation(foo, a, b, c=d) is the same as CallValidation(lambda v: foo(v, a, b, c=d))",
  "nth": 1
 },
 {
  "id": "Q08",
  "file": "Verif/Model/Tokens.lean",
  "definition": "callCoercion",
  "old": ".ok fun v => g (v :: args) kw",
  "new": ".ok fun v => g (v :: args) []",
  "edit": "keywords dropped by CallCoercion",
  "breaks": "C93: keywords are passed to each call",
  "nth": 0
 },
 {
  "id": "Q09",
  "file": "Verif/Model/Tokens.lean",
  "definition": "assertCallTok",
  "old": "assertCall fun v => g [v] []",
  "new": "assertCall fun v => g [] []",
  "edit": "assertion called without the value",
  "breaks": "C93: the assertion validator"
 },
 {
  "id": "Q10",
  "file": "Verif/Model/Tokens.lean",
  "definition": "Adder.core",
  "old": "if kw.rest.any (fun p => p.1 != \"err\" && p.1 != \"warn\") then .error .typeError",
  "new": "if kw.rest.any (fun p => p.1 != \"err\") then .error .typeError",
  "edit": "warn keyword refused",
  "breaks": "C93: err and warn are taken"
 },
 {
  "id": "Q11",
  "file": "Verif/Model/Tokens.lean",
  "definition": "Adder.core",
  "old": "f.applySub kw.subKey (.coercion",
  "new": "f.applySub none (.coercion",
  "edit": "add_coercer ignores sub_key",
  "breaks": "C93: applied to the addressed part"
 },
 {
  "id": "Q12",
  "file": "Verif/Model/Tokens.lean",
  "definition": "Adder.call",
  "old": "| none => .decorator fun g f' => (a.core opts g kw f', g)",
  "new": "| none => .decorator fun g _ => (a.core opts g kw f, g)",
  "edit": "the decorator uses the field as it was when the adder was called",
  "breaks": "C93: the field as it then is"
 },
 {
  "id": "Q13",
  "file": "Verif/Model/Tokens.lean",
  "definition": "Adder.call",
  "old": "| none => .decorator fun g f' => (a.core opts g kw f', g)",
  "new": "| none => .decorator fun g f' => (a.core opts g {} f', g)",
  "edit": "the decorator drops keywords",
  "breaks": "C93: decorator does the same"
 },
 {
  "id": "Q14",
  "file": "Verif/Model/Tokens.lean",
  "definition": "wholeCall",
  "old": "if d = 1 then M.lift (W.construct c (o :: args) kw)",
  "new": "if d ≤ 2 then M.lift (W.construct c (o :: args) kw)",
  "edit": "halves accepted by Whole",
  "breaks": "C15"
 },
 {
  "id": "Q15",
  "file": "Verif/Model/Tokens.lean",
  "definition": "wholeCall",
  "old": "if z then wholeCall c args kw re else",
  "new": "if true then wholeCall c args kw re else",
  "edit": "imaginary part ignored",
  "breaks": "C15"
 },
 {
  "id": "Q16",
  "file": "Verif/Model/Tokens.lean",
  "definition": "toBytesCall",
  "old": "M.lift (W.construct c [ofBytes b] [])",
  "new": "M.lift (W.construct c [ofBytes b, ofBytes b] [])",
  "edit": "bytes passed twice",
  "breaks": "C14: the target type is called with these bytes"
 },
 {
  "id": "Q17",
  "file": "Verif/Model/Tokens.lean",
  "definition": "literalEvalTok",
  "old": "if L.mem c then .ok run else .error .typeError",
  "new": ".ok run",
  "edit": "LiteralEval accepts every class",
  "breaks": "C95"
 },
 {
  "id": "Q18",
  "file": "Verif/Model/Tokens.lean",
  "definition": "literalEvalTok",
  "old": "if L.mem c then .ok run else .error .typeError",
  "new": "if L.mem c then .ok run else .error .valueError",
  "edit": "other exception",
  "breaks": "C95: TypeError (the token's own exception)"
 },
 {
  "id": "Q19",
  "file": "Verif/Model/Tokens.lean",
  "definition": "evalUpdate",
  "old": "evalUpdate (ns.set n o) l",
  "new": "evalUpdate (if ns.has n then ns else ns.set n o) l",
  "edit": "the first of equal names wins",
  "breaks": "C96: the last of equal names, before keywords"
 },
 {
  "id": "Q20",
  "file": "Verif/Model/Tokens.lean",
  "definition": "evalUpdate",
  "old": "| .named none _ :: _ => .error .attributeError",
  "new": "| .named none _ :: l => evalUpdate ns l",
  "edit": "unnamed objects skipped",
  "breaks": "C96: unnamed objects are refused"
 },
 {
  "id": "Q21",
  "file": "Verif/Model/Tokens.lean",
  "definition": "evalMake",
  "old": "| .dots :: l => (evalUpdate kw l).map fun ns => ⟨true, ns⟩",
  "new": "| .dots :: l => (evalUpdate kw l).map fun ns => ⟨false, ns⟩",
  "edit": "... ignored",
  "breaks": "C96: the target type by its name"
 },
 {
  "id": "Q22",
  "file": "Verif/Model/Tokens.lean",
  "definition": "EvalTok.namespace",
  "old": "if t.bound then evalUpdate t.ns [origin] else .ok t.ns",
  "new": "if t.bound then evalUpdate [] [origin] else .ok t.ns",
  "edit": "only the target visible with ...",
  "breaks": "C96 names"
 },
 {
  "id": "Q23",
  "file": "Verif/Model/Tokens.lean",
  "definition": "evalBind",
  "old": "(st.next, ⟨fun i => if i = st.next then (st.cells cell).set name origin else st.cells i, st.next + 1⟩)",
  "new": "(cell, ⟨fun i => if i = cell then (st.cells cell).set name origin else st.cells i, st.next⟩)",
  "edit": "... adds the target to the token's own dict (ns.update instead of a new dict)",
  "breaks": "C96: fields with ... have a namespace of their own"
 },
 {
  "id": "Q24",
  "file": "Verif/Model/Tokens.lean",
  "definition": "evalBind",
  "old": "else (cell, st)",
  "new": "else (st.next, ⟨fun i => if i = st.next then st.cells cell else st.cells i, st.next + 1⟩)",
  "edit": "namespace copied without ...",
  "breaks": "C96: without ... all fields share the namespace"
 },
 {
  "id": "Q25",
  "file": "Verif/Model/Tokens.lean",
  "definition": "evalIn",
  "old": "fun i => if i = cell then ns else st.cells i }",
  "new": "fun _ => ns }",
  "edit": "all namespaces are one",
  "breaks": "C96: isolation"
 },
 {
  "id": "Q26",
  "file": "Verif/Model/Tokens.lean",
  "definition": "evalIn",
  "old": "fun i => if i = cell then ns else st.cells i }",
  "new": "fun i => if i = cell then st.cells cell else st.cells i }",
  "edit": "eval gets a copy (the intended behaviour)",
  "breaks": "C96: refutation (changes persist)"
 },
 {
  "id": "Q27",
  "file": "Verif/Model/Tokens.lean",
  "definition": "Info.check",
  "old": "  | .tuple l => Info.checkAny v l",
  "new": "  | .tuple _ => .ok true",
  "edit": "tuples accept everything",
  "breaks": "C94"
 },
 {
  "id": "Q28",
  "file": "Verif/Model/Tokens.lean",
  "definition": "Info.checkAny",
  "old": "    | .ok true => .ok true",
  "new": "    | .ok true => Info.checkAny v l",
  "edit": "all instead of any",
  "breaks": "C94: instance of one of the classes"
 },
 {
  "id": "Q29",
  "file": "Verif/Model/Tokens.lean",
  "definition": "looseConstrain",
  "old": "  | .error e => .error e\n  | .ok _ => .ok item",
  "new": "  | .error _ => .ok item\n  | .ok _ => .ok item",
  "edit": "constraints not checked at declaration",
  "breaks": "C94: refused when declared"
 },
 {
  "id": "Q30",
  "file": "Verif/Model/Tokens.lean",
  "definition": "looseInfo",
  "old": "if b then M.lift (W.construct c (v :: args) kw) else",
  "new": "if b then M.lift (W.construct c [v] kw) else",
  "edit": "own arguments dropped",
  "breaks": "C94: target type called with the input and its arguments"
 },
 {
  "id": "Q31",
  "file": "Verif/Model/Tokens.lean",
  "definition": "unpackCheck",
  "old": "  | .dots :: _ => .error .typeError",
  "new": "  | .dots :: l => unpackCheck none l",
  "edit": "... anywhere ignored",
  "breaks": "C94: ... elsewhere is refused"
 },
 {
  "id": "Q32",
  "file": "Verif/Model/Tokens.lean",
  "definition": "looseUnpackConstrain",
  "old": ".ok (.each i)",
  "new": ".ok (.fixed [i])",
  "edit": "(T, ...) means one T",
  "breaks": "C94: any number of T"
 },
 {
  "id": "Q33",
  "file": "Verif/Model/Tokens.lean",
  "definition": "anyNot",
  "old": "    | .ok false => .ok true\n    | .ok true => anyNot l",
  "new": "    | .ok false => anyNot l\n    | .ok true => .ok false",
  "edit": "one fitting element suffices",
  "breaks": "C94 position by position"
 },
 {
  "id": "Q34",
  "file": "Verif/Model/Tokens.lean",
  "definition": "looseUnpackInfo",
  "old": "if (W.elems v).length ≠ l.length then .ok true else",
  "new": "if (W.elems v).length < l.length then .ok true else",
  "edit": "extra elements unchecked",
  "breaks": "C94: exactly the listed ones"
 },
 {
  "id": "Q35",
  "file": "Verif/Model/Tokens.lean",
  "definition": "looseUnpackInfo",
  "old": "  if !W.isIterable v then M.throw .typeError\n",
  "new": "  if !W.isIterable v then M.throw .attributeError\n",
  "edit": "AttributeError for a non-iterable",
  "breaks": "C94/C17: TypeError for input that cannot be unpacked",
  "tightened": [
   "C94_degenerate"
  ]
 },
 {
  "id": "Q36",
  "file": "Verif/Model/Tokens.lean",
  "definition": "Info.truth",
  "old": "  | .tuple l => !l.isEmpty",
  "new": "  | .tuple _ => true",
  "edit": "empty tuple rejects everything",
  "breaks": "C17: a Loose constrained by the empty tuple is unconstrained",
  "tightened": [
   "C94_degenerate"
  ]
 },
 {
  "id": "Q37",
  "file": "Verif/Model/Tokens.lean",
  "definition": "classMethodCoercion",
  "old": ".ok fun v => g (v :: args) kw",
  "new": ".ok fun v => g [v] kw",
  "nth": 2,
  "edit": "ClassMethodCoercion drops positional arguments",
  "breaks": "C93: documented equivalence"
 }
]