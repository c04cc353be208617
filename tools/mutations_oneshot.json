[
 {
  "id": "CA01",
  "file": "Verif/Model/OneShot.lean",
  "definition": "extractionS",
  "old": "{ sel with remove := sel.remove.leave [], rename",
  "new": "{ sel with rename",
  "edit": "the loop of _to_dict over the keys to remove does not use them up",
  "breaks": "C112: from_instance applies only re-iterable keys to remove"
 },
 {
  "id": "CA02",
  "file": "Verif/Model/OneShot.lean",
  "definition": "extractionS",
  "old": "maybeRename := sel.maybeRename.leave [],\n",
  "new": "maybeRename := sel.maybeRename,\n",
  "edit": "keys to maybe rename are not used up by reading",
  "breaks": "C112: from_instance applies only re-iterable keys to maybe rename"
 },
 {
  "id": "CA03",
  "file": "Verif/Model/OneShot.lean",
  "definition": "extractionS",
  "old": "                 add := sel.add.leave [] })",
  "new": "                 add := sel.add.leave [], maybeAdd := sel.maybeAdd.leave [] })",
  "edit": "reading also uses up the keys to maybe add",
  "breaks": "C112: the remaining keys to maybe add are applied by from_instance"
 },
 {
  "id": "CA04",
  "file": "Verif/Model/OneShot.lean",
  "definition": "Sel.applyS",
  "old": "(match r.err with | some e => .error e | none => .ok r.dict, r.sel)",
  "new": "(match r.err with | some e => .error e | none => .ok r.dict, t.2)",
  "edit": "applying leaves the iterators as they were",
  "breaks": "C112: after a use only re-iterable arguments have an effect"
 },
 {
  "id": "CA05",
  "file": "Verif/Model/OneShot.lean",
  "definition": "Sel.applyS",
  "old": "  let t := sel.truth\n  if !t.1 then (.ok m, t.2)\n  else\n    let r := t.2.edit m",
  "new": "  let t := sel.truth\n  if !t.1 then (.ok m, t.2)\n  else\n    let r := sel.edit m",
  "edit": "the truth test does not consume an entry",
  "breaks": "C112: the first use loses the entry taken by the truth test"
 },
 {
  "id": "CA06",
  "file": "Verif/Model/OneShot.lean",
  "definition": "fromInstanceS",
  "old": "if !t.1 && C.frozen && maps",
  "new": "if (t.2.add.remaining.isEmpty && t.2.maybeAdd.remaining.isEmpty && t.2.remove.remaining.isEmpty && t.2.maybeRemove.remaining.isEmpty && t.2.rename.remaining.isEmpty && t.2.maybeRename.remaining.isEmpty) && C.frozen && maps",
  "edit": "the shortcut is taken when no entry is left",
  "breaks": "C112: from_instance never returns the object itself, even if no entry is left"
 },
 {
  "id": "CA07",
  "file": "Verif/Model/OneShot.lean",
  "definition": "fromJsonS",
  "old": "(if t.1 then E.dictView j",
  "new": "(if !(t.2.add.remaining.isEmpty && t.2.maybeAdd.remaining.isEmpty && t.2.remove.remaining.isEmpty && t.2.maybeRemove.remaining.isEmpty && t.2.rename.remaining.isEmpty && t.2.maybeRename.remaining.isEmpty) then E.dictView j",
  "edit": "from_json unpacks JSON directly when no entry is left",
  "breaks": "C112: from_json never unpacks directly for a Select with entries"
 },
 {
  "id": "CA08",
  "file": "Verif/Model/OneShot.lean",
  "definition": "fromInstanceS",
  "old": "else match toDictS C v {} t.2 s with\n      | ((.error e, s'), sel) => ((.error e, s'), sel)\n      | ((.ok d, s'), sel) =>",
  "new": "else match toDictS C v {} t.2 s with\n      | ((.error e, s'), sel) => ((.error e, s'), sel)\n      | ((.ok d, s'), _) =>\n        let sel := t.2",
  "edit": "from_instance applies the entries that were read",
  "breaks": "C112: reading the attributes uses up one-shot arguments"
 },
 {
  "id": "CA09",
  "file": "Verif/Model/OneShot.lean",
  "definition": "fromMappingS",
  "old": "else buildFromS call sel (chainItems (maps ++ [kw])) s",
  "new": "else buildFromS call sel.truth.2.drained (chainItems (maps ++ [kw])) s",
  "edit": "from_mapping uses up the iterators before applying",
  "breaks": "C112: the first use applies all entries but one"
 },
 {
  "id": "CA10",
  "file": "Verif/Model/Select.lean",
  "definition": "Sel.merge1",
  "old": "   self.drained, other.drained)",
  "new": "   self, other)",
  "edit": "merging does not use up the operands",
  "breaks": "C112: merging uses up the one-shot arguments of the operands"
 },
 {
  "id": "CA11",
  "file": "Verif/Model/Select.lean",
  "definition": "Sel.merge1",
  "old": "if !b then (self, self, other) else",
  "new": "if !b then (self.drained, self, other) else",
  "edit": "merging with an empty Select gives a used up one",
  "breaks": "C112: merging with an empty Select gives the other one"
 }
]