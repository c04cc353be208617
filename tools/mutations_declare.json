[
 {
  "id": "L01",
  "file": "Verif/Model/Field.lean",
  "definition": "fieldFromHint",
  "old": "  | .rawFinal => .error .typeError",
  "new": "  | .rawFinal => .error .runtimeError",
  "edit": "a bare Final raises RuntimeError",
  "breaks": "C108"
 },
 {
  "id": "L02",
  "file": "Verif/Model/Field.lean",
  "definition": "fieldFromHint",
  "old": "if !frozen then .error .typeError",
  "new": "if !frozen then .error .valueError",
  "edit": "Final in a mutable class raises ValueError",
  "breaks": "C108: ValueError only for collisions, no field, coercers"
 },
 {
  "id": "L03",
  "file": "Verif/Model/Field.lean",
  "definition": "preStep",
  "old": "| none => .error .attributeError",
  "new": "| none => .error .runtimeError",
  "edit": "pre_bind of an unknown name raises RuntimeError",
  "breaks": "C108: RuntimeError only for inherited fields"
 },
 {
  "id": "L04",
  "file": "Verif/Model/Field.lean",
  "definition": "addInherited",
  "old": "if own.has k || acc.has k then .error .valueError",
  "new": "if own.has k || acc.has k then .error .runtimeError",
  "edit": "a collision raises RuntimeError",
  "breaks": "C44, C108"
 },
 {
  "id": "L05",
  "file": "Verif/Model/Field.lean",
  "definition": "mkClass",
  "old": "if all.isEmpty then .error .valueError",
  "new": "if all.isEmpty then .error .attributeError",
  "edit": "a class without fields raises AttributeError",
  "breaks": "C44, C108"
 },
 {
  "id": "L06",
  "file": "Verif/Model/Field.lean",
  "definition": "bindFields",
  "old": "if f.owner = cid then",
  "new": "if true then",
  "edit": "inherited fields are bound again",
  "breaks": "C108: RuntimeError only if pre_bind addresses an inherited field; C43"
 },
 {
  "id": "L07",
  "file": "Verif/Model/Filler.lean",
  "definition": "F.apply",
  "old": "  | .dumb _ => .error .typeError",
  "new": "  | .dumb _ => .error .runtimeError",
  "edit": "a token on an uninterpretable hint raises RuntimeError",
  "breaks": "C26, C108"
 },
 {
  "id": "L08",
  "file": "Verif/Model/Filler.lean",
  "definition": "F.bind",
  "old": "else if d ≠ .hollow then .error .typeError else .ok (.dumb true)",
  "new": "else if d ≠ .hollow then .error .valueError else .ok (.dumb true)",
  "edit": "an uninterpretable union member in a checking class raises ValueError",
  "breaks": "C26, C108",
  "nth": 1
 },
 {
  "id": "L09",
  "file": "Verif/Model/Filler.lean",
  "definition": "wrapFinish",
  "old": "  | .generic => if F.allHollow subs then .ok inner else .error .typeError",
  "new": "  | .generic => if F.allHollow subs then .ok inner else .error .lookupError",
  "edit": "checked parameters of a generic raise LookupError",
  "breaks": "C26, C108"
 },
 {
  "id": "L10",
  "file": "Verif/Model/Filler.lean",
  "definition": "Ann.bindKind",
  "old": ".error .typeError else .ok a",
  "new": ".error .valueError else .ok a",
  "edit": "check_strict on an abstract class raises ValueError",
  "breaks": "C26, C108"
 },
 {
  "id": "L11",
  "file": "Verif/Model/Filler.lean",
  "definition": "Ann.bindBase",
  "old": "then .error .valueError",
  "new": "then .error .runtimeError",
  "edit": "coercers on a hollow filler raise RuntimeError",
  "breaks": "C26, C108"
 },
 {
  "id": "L12",
  "file": "Verif/Model/Filler.lean",
  "definition": "F.withSub",
  "old": "if i = 0 then at_ subs (some 0) (.wrap b k inner) else .error .lookupError",
  "new": "if i = 0 then at_ subs (some 0) (.wrap b k inner) else .error .valueError",
  "edit": "a wrong sub-key of an iterable raises ValueError",
  "breaks": "C95, C108",
  "nth": 0
 },
 {
  "id": "L13",
  "file": "Verif/Model/Coercers.lean",
  "definition": "getCoercer",
  "old": "  | .notToken => .error .typeError",
  "new": "  | .notToken => .error .attributeError",
  "edit": "something that is no token raises AttributeError",
  "breaks": "C108"
 },
 {
  "id": "L14",
  "file": "Verif/Model/Filler.lean",
  "definition": "getF",
  "old": "| .opaque, args => if (args.getD []).isEmpty then .ok (.dumb false) else .error .typeError",
  "new": "| .opaque, args => if (args.getD []).isEmpty then .ok (.dumb false) else .error .valueError",
  "edit": "tokens on an uninterpretable hint raise ValueError",
  "breaks": "C26, C108"
 },
 {
  "id": "L15",
  "file": "Verif/Model/Filler.lean",
  "definition": "getF",
  "old": ".ok (.union false (args.getD []) [] fs)",
  "new": ".ok (.union true (args.getD []) [] fs)",
  "edit": "a union filler is bound when it is made",
  "breaks": "C26, C108: RuntimeError"
 },
 {
  "id": "L16",
  "file": "Verif/Model/Program.lean",
  "definition": "newClass",
  "old": "  | none => .error .typeError",
  "new": "  | none => .error .runtimeError",
  "edit": "bases without resolution order raise RuntimeError",
  "breaks": "C97, C108"
 },
 {
  "id": "L17",
  "file": "Verif/Model/Program.lean",
  "definition": "PyStmt.spec",
  "old": "    | none => (firstOf tbl (·.pre) l).getD []",
  "new": "    | none => [(\"\", none, .other)]",
  "edit": "a class without pre_bind touches a field of the empty name",
  "breaks": "C108: AttributeError without any pre_bind"
 }
]