[
 {
  "id": "J01",
  "file": "Verif/Model/Validators.lean",
  "definition": "Bound.max",
  "old": "if gt C b a then b else a",
  "new": "if gt C a b then a else b",
  "edit": "max prefers its second argument",
  "breaks": "C106: incomparable values are returned as they are"
 },
 {
  "id": "J02",
  "file": "Verif/Model/Validators.lean",
  "definition": "Bound.min",
  "old": "if lt C b a then b else a",
  "new": "if le C a b then a else b",
  "edit": "min prefers its second argument unless the first is <=",
  "breaks": "C106: incomparable values are returned as they are"
 },
 {
  "id": "J03",
  "file": "Verif/Model/Validators.lean",
  "definition": "Clamp.inner",
  "old": "(v.max C c.ge).min C c.le",
  "new": "(v.min C c.ge).max C c.le",
  "edit": "min and max exchanged",
  "breaks": "C08, C106"
 },
 {
  "id": "J04",
  "file": "Verif/Model/Validators.lean",
  "definition": "Clamp.init",
  "old": "if ge.gt C le then",
  "new": "if !(ge.le C le) then",
  "edit": "incomparable bounds are refused",
  "breaks": "C106: bounds are refused only if in the wrong order"
 },
 {
  "id": "J05",
  "file": "Verif/Model/Validators.lean",
  "definition": "Within.init",
  "old": "if ge.gt C lt || ((!gEq || !lEq) && ge.eq C lt)",
  "new": "if !(ge.le C lt) || ((!gEq || !lEq) && ge.eq C lt)",
  "edit": "incomparable bounds are refused",
  "breaks": "C106"
 },
 {
  "id": "J06",
  "file": "Verif/Model/Validators.lean",
  "definition": "Within.assert",
  "old": "  if w.gEq then\n    if !(w.ge.le C v) then false",
  "new": "  if w.gEq then\n    if w.ge.gt C v then false",
  "edit": "lower bound tested as not (bound > v)",
  "breaks": "C106: Within refuses values that cannot be compared"
 },
 {
  "id": "J07",
  "file": "Verif/Model/Validators.lean",
  "definition": "Within.assert",
  "old": "    else (if !(w.lt.gt C v) then false else true)\n  else",
  "new": "    else (if w.lt.le C v then false else true)\n  else",
  "edit": "upper bound tested as not (bound <= v)",
  "breaks": "C106: Within refuses values that cannot be compared"
 },
 {
  "id": "J08",
  "file": "Verif/Model/Validators.lean",
  "definition": "Clamp.inner",
  "old": "(v.max C c.ge).min C c.le",
  "new": "(v.min C c.le).max C c.ge",
  "edit": "first the upper, then the lower bound",
  "breaks": "nothing for accepted bounds (equivalent)"
 },
 {
  "id": "J09",
  "file": "Verif/Model/Foreign.lean",
  "definition": "recEq",
  "old": "M.pure (some false)",
  "new": "M.pure none",
  "edit": "__eq__ returns NotImplemented for other types",
  "breaks": "C107: record == x is False whatever x"
 },
 {
  "id": "J10",
  "file": "Verif/Model/Foreign.lean",
  "definition": "recCmp",
  "old": "if !C.ordered then M.throw .typeError else M.pure none",
  "new": "if !C.ordered then M.pure none else M.pure none",
  "edit": "unordered classes return NotImplemented",
  "breaks": "C107: an unordered record on the left raises without asking"
 },
 {
  "id": "J11",
  "file": "Verif/Model/Foreign.lean",
  "definition": "recCmp",
  "old": "if !C.ordered then M.throw .typeError else M.pure none",
  "new": "if !C.ordered then M.throw .typeError else M.pure (some false)",
  "edit": "comparison with another type is False",
  "breaks": "C107: the other object decides"
 },
 {
  "id": "J12",
  "file": "Verif/Model/Foreign.lean",
  "definition": "opLeft",
  "old": "x.cmp op.swap i",
  "new": "x.cmp op i",
  "edit": "the reflected call uses the operator itself",
  "breaks": "C107: the reflected method decides"
 },
 {
  "id": "J13",
  "file": "Verif/Model/Foreign.lean",
  "definition": "opRight",
  "old": "if W.isSub i.cid x.cid then richCompare (recCmp C)",
  "new": "if !W.isSub i.cid x.cid then richCompare (recCmp C)",
  "edit": "the record is asked first unless it is of a subclass",
  "breaks": "C107: x > record is decided by x"
 },
 {
  "id": "J14",
  "file": "Verif/Model/Foreign.lean",
  "definition": "recNe",
  "old": "r.map (!\u00b7)",
  "new": "r",
  "edit": "__ne__ is __eq__",
  "breaks": "C107: record != x is True"
 },
 {
  "id": "J15",
  "file": "Verif/Model/Foreign.lean",
  "definition": "opLeft",
  "old": "(M.throw .typeError)",
  "new": "(M.pure false)",
  "edit": "two declining operands give False",
  "breaks": "C107: TypeError if x declines"
 }
]