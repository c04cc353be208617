[
 {
  "id": "D01",
  "file": "Verif/Model/Floats.lean",
  "definition": "rint",
  "old": "x.floor % 2 = 0",
  "new": "x.floor % 2 = 1",
  "edit": "ties to odd",
  "breaks": "C103 counterexamples, threshold of C85",
  "nth": 0
 },
 {
  "id": "D02",
  "file": "Verif/Model/Floats.lean",
  "definition": "rint",
  "old": "else if x.floor % 2 = 0 then x.floor else x.floor + 1",
  "new": "else x.floor + 1",
  "edit": "ties upwards",
  "breaks": "C85 threshold",
  "nth": 0
 },
 {
  "id": "D03",
  "file": "Verif/Model/Floats.lean",
  "definition": "rint",
  "old": "if x - x.floor < 1 / 2 then x.floor",
  "new": "if x - x.floor < 1 / 4 then x.floor",
  "edit": "rounds up too early",
  "breaks": "C103 rounding",
  "nth": 0
 },
 {
  "id": "D04",
  "file": "Verif/Model/Floats.lean",
  "definition": "ulpExp",
  "old": "if leadExp x - 52 < -1074 then -1074 else leadExp x - 52",
  "new": "if leadExp x - 23 < -149 then -149 else leadExp x - 23",
  "edit": "single precision",
  "breaks": "C103 rounding",
  "nth": 0
 },
 {
  "id": "D05",
  "file": "Verif/Model/Floats.lean",
  "definition": "ulpExp",
  "old": "if leadExp x - 52 < -1074 then -1074 else leadExp x - 52",
  "new": "leadExp x - 52",
  "edit": "no underflow",
  "breaks": "C103 rounding",
  "nth": 0
 },
 {
  "id": "D06",
  "file": "Verif/Model/Floats.lean",
  "definition": "leadExp",
  "old": "else e - 1",
  "new": "else e",
  "edit": "one bit of precision lost for some numbers",
  "breaks": "C103 rounding",
  "nth": 0
 },
 {
  "id": "D07",
  "file": "Verif/Model/Floats.lean",
  "definition": "truncRat",
  "old": "if 0 ≤ x then x.floor else x.ceil",
  "new": "x.floor",
  "edit": "fmod with floor",
  "breaks": "C103 counterexample: -2^-60",
  "nth": 0
 },
 {
  "id": "D08",
  "file": "Verif/Model/Floats.lean",
  "definition": "floatMod",
  "old": ".ok (f64 (m + y)) else",
  "new": ".ok (m + y) else",
  "edit": "no rounding of the negative remainder",
  "breaks": "C103 result is a float, -2^-60 maps to 360",
  "nth": 0
 },
 {
  "id": "D09",
  "file": "Verif/Model/Floats.lean",
  "definition": "floatMod",
  "old": "decide (y < 0) != decide (m < 0)",
  "new": "decide (y < 0) == decide (m < 0)",
  "edit": "correction in the wrong case",
  "breaks": "C103 range",
  "nth": 0
 },
 {
  "id": "D10",
  "file": "Verif/Model/Floats.lean",
  "definition": "floatMod",
  "old": "if y = 0 then .error .zeroDivision",
  "new": "if y = 0 then .ok 0",
  "edit": "no ZeroDivisionError",
  "breaks": "C103 equal bounds",
  "nth": 0
 },
 {
  "id": "D11",
  "file": "Verif/Model/Floats.lean",
  "definition": "floatMod",
  "old": "if m = 0 then .ok 0\n",
  "new": "if m = 0 then .ok y\n",
  "edit": "zero remainder becomes the divisor",
  "breaks": "C103 range",
  "nth": 0
 },
 {
  "id": "D12",
  "file": "Verif/Model/Floats.lean",
  "definition": "isclose",
  "old": "f64 (1 / 1000000000)",
  "new": "f64 (1 / 100000000)",
  "edit": "tolerance 1e-8",
  "breaks": "C85 threshold",
  "nth": 0
 },
 {
  "id": "D13",
  "file": "Verif/Model/Floats.lean",
  "definition": "isclose",
  "old": "decide (a = b) || decide (diff ≤ ratAbs (f64 (relTol * b))) || decide (diff ≤ ratAbs (f64 (relTol * a))) ||\n    decide (diff ≤ 0)",
  "new": "decide (a = b)",
  "edit": "exact comparison",
  "breaks": "C85: 2.9999999999 is accepted",
  "nth": 0
 },
 {
  "id": "D14",
  "file": "Verif/Model/Floats.lean",
  "definition": "isclose",
  "old": "decide (diff ≤ ratAbs (f64 (relTol * b)))",
  "new": "decide (diff ≤ relTol)",
  "edit": "absolute tolerance",
  "breaks": "C85: 1e-10 is refused",
  "nth": 0
 },
 {
  "id": "D15",
  "file": "Verif/Model/Floats.lean",
  "definition": "cyclicFloat",
  "old": "v < maximum then",
  "new": "v ≤ maximum then",
  "edit": "maximum is kept",
  "breaks": "C103: 360.0 maps to 0.0",
  "nth": 0
 },
 {
  "id": "D16",
  "file": "Verif/Model/Floats.lean",
  "definition": "cyclicFloat",
  "old": ".ok (f64 (minimum + d))",
  "new": ".ok (minimum + d)",
  "edit": "final sum not rounded",
  "breaks": "C103 result is a float",
  "nth": 0
 },
 {
  "id": "D17",
  "file": "Verif/Model/Floats.lean",
  "definition": "cyclicFloat",
  "old": "floatMod (f64 (v - minimum))",
  "new": "floatMod (v - minimum)",
  "edit": "difference not rounded",
  "breaks": "C103 (only through rounding of the difference)",
  "nth": 0
 },
 {
  "id": "D18",
  "file": "Verif/Model/Floats.lean",
  "definition": "cyclicFloat",
  "old": "(f64 (maximum - minimum)) with",
  "new": "(maximum - minimum) with",
  "edit": "width not rounded",
  "breaks": "C103: -2^53 maps to 5.0",
  "nth": 0
 },
 {
  "id": "D19",
  "file": "Verif/Model/Floats.lean",
  "definition": "cyclicFloat",
  "old": "floatMod (f64 (v - minimum))",
  "new": "floatMod (f64 v)",
  "edit": "minimum not subtracted",
  "breaks": "C103 exactness",
  "nth": 0
 },
 {
  "id": "D20",
  "file": "Verif/Model/Floats.lean",
  "definition": "cyclicFloat",
  "old": ".ok (f64 (minimum + d))",
  "new": ".ok (f64 d)",
  "edit": "minimum not added",
  "breaks": "C103 range",
  "nth": 0
 },
 {
  "id": "D21",
  "file": "Verif/Model/Coercers.lean",
  "definition": "whole",
  "old": "if isclose mod 0 || isclose mod 1 then .ok (.real r)",
  "new": "if isclose mod 0 then .ok (.real r)",
  "edit": "only whole floats",
  "breaks": "C85",
  "nth": 0
 },
 {
  "id": "D22",
  "file": "Verif/Model/Coercers.lean",
  "definition": "whole",
  "old": "match floatMod r 1 with",
  "new": "match floatMod r 2 with",
  "edit": "modulo 2",
  "breaks": "C85",
  "nth": 0
 },
 {
  "id": "D23",
  "file": "Verif/Model/Tokens.lean",
  "definition": "wholeCall",
  "old": "if isclose mod 0 || isclose mod 1 then",
  "new": "if isclose mod 1 then",
  "edit": "whole floats refused",
  "breaks": "C85",
  "nth": 0
 },
 {
  "id": "D24",
  "file": "Verif/Model/Coercers.lean",
  "definition": "mapKeep",
  "old": "if (heap m).isEmpty then none else some m",
  "new": "some m",
  "edit": "empty mappings are kept",
  "breaks": "C13 later changes of an empty mapping",
  "nth": 0
 },
 {
  "id": "D25",
  "file": "Verif/Model/Coercers.lean",
  "definition": "mapKeep",
  "old": "if (heap m).isEmpty then none else some m",
  "new": "none",
  "edit": "mappings ignored",
  "breaks": "C13",
  "nth": 0
 },
 {
  "id": "D26",
  "file": "Verif/Model/Coercers.lean",
  "definition": "mapCoercionLater",
  "old": "mapNow values' (mapKeep values vm)",
  "new": "mapNow values (mapKeep values vm)",
  "edit": "mapping copied when the token is made",
  "breaks": "C13 later changes count",
  "nth": 0
 },
 {
  "id": "D27",
  "file": "Verif/Model/Tokens.lean",
  "definition": "mapConCheck",
  "old": "| .error e => .error e\n    | .ok _ => mapConCheck none l",
  "new": "| .error _ => mapConCheck none l\n    | .ok _ => mapConCheck none l",
  "edit": "ill-formed constraints accepted",
  "breaks": "C94",
  "nth": 0
 },
 {
  "id": "D28",
  "file": "Verif/Model/Tokens.lean",
  "definition": "mapConCheck",
  "old": "| .ok _ => mapConCheck none l",
  "new": "| .ok _ => .ok ()",
  "edit": "only the first constraint checked",
  "breaks": "C94",
  "nth": 0
 },
 {
  "id": "D29",
  "file": "Verif/Model/Tokens.lean",
  "definition": "looseMapConstrain",
  "old": "if items.any (fun p => p.1 == \"cls\") then .error .typeError\n  else match",
  "new": "match",
  "edit": "keyword cls accepted",
  "breaks": "C94",
  "nth": 0
 },
 {
  "id": "D30",
  "file": "Verif/Model/Tokens.lean",
  "definition": "unpackMapInfo",
  "old": "| none => .error .typeError\n    | some i => match i.check a with",
  "new": "| none => unpackMapInfo cons l\n    | some i => match i.check a with",
  "edit": "entries without constraint accepted",
  "breaks": "C94",
  "nth": 0
 },
 {
  "id": "D31",
  "file": "Verif/Model/Tokens.lean",
  "definition": "unpackMapInfo",
  "old": "| .ok false => .error .typeError\n      | .ok true => unpackMapInfo cons l",
  "new": "| .ok false => .error .typeError\n      | .ok true => .ok ()",
  "edit": "only the first entry checked",
  "breaks": "C94",
  "nth": 0
 },
 {
  "id": "D32",
  "file": "Verif/Model/Tokens.lean",
  "definition": "looseMapInfo",
  "old": "| .error e => M.throw e\n    | .ok _ => looseUnpackMap.call c args kw v",
  "new": "| .error _ => looseUnpackMap.call c args kw v\n    | .ok _ => looseUnpackMap.call c args kw v",
  "edit": "constraint ignored",
  "breaks": "C94",
  "nth": 0
 }
]