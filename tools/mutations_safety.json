[
 {
  "id": "O01",
  "file": "Verif/Model/Instance.lean",
  "definition": "delInst",
  "old": "if i.dict.has k then (.ok (), { i with dict := i.dict.erase k }) else (.error .attributeError, i)",
  "new": "if i.dict.has k then (.ok (), { i with dict := i.dict.erase k }) else (.error .keyError, i)",
  "edit": "deleting an absent attribute raises KeyError",
  "breaks": "C111: deletion raises AttributeError only"
 },
 {
  "id": "O02",
  "file": "Verif/Model/Instance.lean",
  "definition": "hashInst",
  "old": "      | (.ok d, s') => match hashTuple H d.values with\n        | .error e => (.error e, i, s')",
  "new": "      | (.ok d, s') => match hashTuple H d.values with\n        | .error e => (.error e, { i with hash := none }, s')",
  "edit": "a failed hash unsets the slot",
  "breaks": "C111: a record stays hashable or raises TypeError: the next hash raises AttributeError"
 },
 {
  "id": "O03",
  "file": "Verif/Model/Instance.lean",
  "definition": "delInst",
  "old": "{ i with dict := i.dict.erase k }",
  "new": "{ i with dict := i.dict.erase k, hash := none }",
  "edit": "deleting an attribute also unsets the slot",
  "breaks": "C111: hash raises only TypeError"
 },
 {
  "id": "O04",
  "file": "Verif/Model/Instance.lean",
  "definition": "Op.run",
  "old": "  | .set k v => ((setInst C i k v).1, (setInst C i k v).2, s)",
  "new": "  | .set k v => ((setInst C i k v).1, { i with dict := i.dict.set k v }, s)",
  "edit": "the assignment takes effect although it raises",
  "breaks": "C111: an operation that raises leaves the attributes as they were"
 },
 {
  "id": "O05",
  "file": "Verif/Model/Export.lean",
  "definition": "Inst.attr",
  "old": "  | none => match E.clsAttr i.cid k with\n    | some v => .ok v\n    | none => .error .attributeError",
  "new": "  | none => match E.clsAttr i.cid k with\n    | some _ => .error .attributeError\n    | none => .error .attributeError",
  "edit": "reading does not fall back to the class",
  "breaks": "C111: reading a field never raises"
 },
 {
  "id": "O06",
  "file": "Verif/Model/Instance.lean",
  "definition": "eqInst",
  "old": "else (eqFields E a b C.fields.keys, a, b, s)",
  "new": "else match hashInst E H C a s with | (.error e, a', s1) => (.error e, a', b, s1) | (.ok _, a', s1) => (eqFields E a b C.fields.keys, a', b, s1)",
  "edit": "comparing non-frozen records hashes too",
  "breaks": "C111: == raises in a frozen class only"
 },
 {
  "id": "O07",
  "file": "Verif/Model/Instance.lean",
  "definition": "setInst",
  "old": "if C.frozen then (.error .typeError, i)",
  "new": "if C.frozen then (.error .attributeError, i)",
  "edit": "assigning to a frozen record raises AttributeError",
  "breaks": "C111: assignment raises TypeError"
 },
 {
  "id": "O08",
  "file": "Verif/Model/Instance.lean",
  "definition": "cmpMethod",
  "old": "  if !Ca.ordered then .error .typeError",
  "new": "  if !Ca.ordered then .error .attributeError",
  "edit": "comparing records that are not ordered raises AttributeError",
  "breaks": "C111: ordering raises TypeError or what comparing values raises"
 },
 {
  "id": "O09",
  "file": "Verif/Model/Instance.lean",
  "definition": "Op.run",
  "old": "  | .del k => ((delInst i k).1, (delInst i k).2, s)",
  "new": "  | .del k => ((delInst i k).1, { (delInst i k).2 with dict := [] }, s)",
  "edit": "deleting (also an absent attribute) empties the record",
  "breaks": "C111: an operation that raises leaves the attributes as they were"
 },
 {
  "id": "O10",
  "file": "Verif/Model/Instance.lean",
  "definition": "hashInst",
  "old": "    | none => (.error .attributeError, i, s)",
  "new": "    | none => (.error .attributeError, { i with dict := [] }, s)",
  "edit": "hashing a record without slot empties it",
  "breaks": "C111: nothing that can happen to a record of the library: its slot is always set"
 }
]