[
{
"id": "V01",
"file": "Verif/Model/Validators.lean",
"definition": "Clamp.inner",
"old": "(v.max C c.ge).min C c.le",
"new": "(v.max C c.le).min C c.ge",
"edit": "bounds swapped",
"breaks": "C08"
},
{
"id": "V02",
"file": "Verif/Model/Validators.lean",
"definition": "Clamp.init",
"old": "if ge.gt C le then",
"new": "if ge.gt C le || ge.eq C le then",
"edit": "rejects equal bounds",
"breaks": "C08"
},
{
"id": "V03",
"file": "Verif/Model/Validators.lean",
"definition": "Bound.max",
"old": "if gt C b a then b else a",
"new": "if gt C b a then a else b",
"edit": "max returns the smaller",
"breaks": "C08"
},
{
"id": "V04",
"file": "Verif/Model/Validators.lean",
"definition": "Bound.gt",
"old": "| .val _, .greatest => false\n  | .val a, .val b => C.gt a b",
"new": "| .val _, .greatest => true\n  | .val a, .val b => C.gt a b",
"edit": "value > greatest is True",
"breaks": "C08: missing upper bound accepts everything"
},
{
"id": "V05",
"file": "Verif/Model/Validators.lean",
"definition": "cyclicInner",
"old": ".ok (minimum + d.fmod (maximum - minimum))",
"new": ".ok (minimum + d.tmod (maximum - minimum))",
"edit": "truncating modulo instead of floor modulo",
"breaks": "C09"
},
{
"id": "V06",
"file": "Verif/Model/Validators.lean",
"definition": "cyclicInner",
"old": "let d := v - minimum",
"new": "let d := v",
"edit": "offset by minimum forgotten",
"breaks": "C09"
},
{
"id": "V07",
"file": "Verif/Model/Validators.lean",
"definition": "cyclicInner",
"old": "if minimum \u2264 v \u2227 v < maximum then .ok v",
"new": "if minimum \u2264 v \u2227 v \u2264 maximum then .ok v",
"edit": "maximum itself kept",
"breaks": "C09"
},
{
"id": "V08",
"file": "Verif/Model/Validators.lean",
"definition": "cyclicInner",
"old": "if maximum - minimum = 0 then .error .zeroDivision",
"new": "if maximum - minimum \u2264 0 then .error .zeroDivision",
"edit": "reversed bounds raise",
"breaks": "C09 degenerate bounds"
},
{
"id": "V09",
"file": "Verif/Model/Validators.lean",
"definition": "Within.init",
"old": "((!gEq || !lEq) && ge.eq C lt)",
"new": "((!gEq && !lEq) && ge.eq C lt)",
"edit": "empty half-open interval accepted",
"breaks": "C10 constructor"
},
{
"id": "V10",
"file": "Verif/Model/Validators.lean",
"definition": "Within.assert",
"old": "(if !(w.lt.ge C v) then false else true)",
"new": "(if !(w.lt.gt C v) then false else true)",
"edit": "upper bound exclusive although l_eq",
"breaks": "C10"
},
{
"id": "V11",
"file": "Verif/Model/Validators.lean",
"definition": "Within.assert",
"old": "if !(w.ge.lt C v) then false",
"new": "if !(w.ge.le C v) then false",
"edit": "g_eq=False still inclusive",
"breaks": "C10"
},
{
"id": "V12",
"file": "Verif/Model/Validators.lean",
"definition": "AssertCfg.inner",
"old": "if !b then M.bind",
"new": "if b then M.bind",
"edit": "fails when the condition holds",
"breaks": "C11"
},
{
"id": "V13",
"file": "Verif/Model/Validators.lean",
"definition": "AssertCfg.raise",
"old": "  | .logger => emit true",
"new": "  | .logger => M.bind (emit true) fun _ => emit false",
"edit": "logger and warnings both used",
"breaks": "C11 exactly one warning"
},
{
"id": "V14",
"file": "Verif/Model/Validators.lean",
"definition": "AssertCfg.raise",
"old": "    | some e => M.throw e\n",
"new": "    | some _ => M.throw .valueError\n",
"edit": "given exception instance ignored",
"breaks": "C11"
},
{
"id": "V15",
"file": "Verif/Model/Coercers.lean",
"definition": "composeRun",
"old": "fs.reverse v",
"new": "fs v",
"edit": "left-to-right composition",
"breaks": "C12"
},
{
"id": "V16",
"file": "Verif/Model/Coercers.lean",
"definition": "mapCoercion",
"old": "| .ok (some f) => f",
"new": "| .ok (some f) => M.bind f fun _ => f",
"edit": "factory called twice",
"breaks": "C13"
},
{
"id": "V17",
"file": "Verif/Model/Coercers.lean",
"definition": "mapCoercion",
"old": "match pyLookup valueMap v with\n  | .error e => M.throw e\n  | .ok (some r) => M.pure r\n  | .ok none => match pyLookup factoryMap v with",
"new": "match pyLookup factoryMap v with\n  | .error e => M.throw e\n  | .ok (some r) => r\n  | .ok none => match (pyLookup valueMap v).map (Option.map M.pure) with",
"edit": "factories looked up before values",
"breaks": "C13"
},
{
"id": "V18",
"file": "Verif/Model/Coercers.lean",
"definition": "autoLength",
"old": "(bitLength v + 7 + (if signed then 1 else 0)) / 8",
"new": "(bitLength v + 7) / 8",
"edit": "sign bit forgotten",
"breaks": "C14"
},
{
"id": "V19",
"file": "Verif/Model/Coercers.lean",
"definition": "autoLength",
"old": "(bitLength v + 7 + (if signed then 1 else 0)) / 8",
"new": "bitLength v / 8 + 1",
"edit": "one byte too many at byte boundaries",
"breaks": "C14 minimal length"
},
{
"id": "V20",
"file": "Verif/Model/Coercers.lean",
"definition": "whole",
"old": "if d = 1 then",
"new": "if d \u2265 1 then",
"edit": "all fractions accepted",
"breaks": "C15"
},
{
"id": "V21",
"file": "Verif/Model/Coercers.lean",
"definition": "whole",
"old": "if imZero then whole re",
"new": "if !imZero then whole re",
"edit": "imaginary test inverted",
"breaks": "C15"
},
{
"id": "V22",
"file": "Verif/Model/Coercers.lean",
"definition": "whole",
"old": "isclose mod 0 || isclose mod 1",
"new": "isclose mod 0",
"edit": "only exactly whole floats accepted",
"breaks": "C85"
},
{
"id": "V23",
"file": "Verif/Model/Coercers.lean",
"definition": "boolFromInt",
"old": "else if W.eq v W.one then M.pure (W.bool true)\n  else M.throw .typeError",
"new": "else M.pure (W.bool true)",
"edit": "any non-zero value becomes True",
"breaks": "C16"
},
{
"id": "V24",
"file": "Verif/Model/Coercers.lean",
"definition": "getCoercer",
"old": "if isBool then .ok boolFromInt else .error .typeError",
"new": ".ok boolFromInt",
"edit": "FromInteger understood by every filler",
"breaks": "C16"
},
{
"id": "V25",
"file": "Verif/Model/Coercers.lean",
"definition": "falsish",
"old": "if !W.truthy v then",
"new": "if W.isNone v then",
"edit": "only None accepted",
"breaks": "C16"
},
{
"id": "V26",
"file": "Verif/Model/Coercers.lean",
"definition": "loose",
"old": "if t.truth && !t.holds v",
"new": "if !t.holds v",
"edit": "empty tuple constraint rejects everything",
"breaks": "C17 (exact behaviour)"
},
{
"id": "V27",
"file": "Verif/Model/Coercers.lean",
"definition": "looseUnpack",
"old": "(W.elems v).length \u2260 ts.length || ",
"new": "",
"edit": "length not compared",
"breaks": "C17"
},
{
"id": "V28",
"file": "Verif/Model/Coercers.lean",
"definition": "unpackMapCheck",
"old": "| none => false",
"new": "| none => unpackMapCheck cons l",
"edit": "unknown keys allowed",
"breaks": "C17"
},
{
"id": "V29",
"file": "Verif/Model/Coercers.lean",
"definition": "looseBind",
"old": "if W.isAbstract c then .error .typeError else .ok c",
"new": ".ok c",
"edit": "abstract classes allowed",
"breaks": "C17"
},
{
"id": "V30",
"file": "Verif/Model/Coercers.lean",
"definition": "LitRun",
"old": "| done (v) : W.strOf v = none \u2192 LitRun lit v (.ok v)",
"new": "| done (v) : LitRun lit v (.ok v)",
"edit": "loop may stop at a string",
"breaks": "C18"
},
{
"id": "V31",
"file": "Verif/Model/Coercers.lean",
"definition": "evalCoercer",
"old": "M.tryExcept (ev t) Exc.isException",
"new": "M.tryExcept (ev t) (fun _ => true)",
"edit": "KeyboardInterrupt swallowed",
"breaks": "C86"
}
]