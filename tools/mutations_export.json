[
 {
  "id": "X01",
  "file": "Verif/Model/Export.lean",
  "definition": "exportField",
  "old": "if f.name ∈ o.whitelist then .ok true",
  "new": "if false then .ok true",
  "edit": "a whitelisted field with a blacklisted tag is dropped",
  "breaks": "C75",
  "nth": 0
 },
 {
  "id": "X02",
  "file": "Verif/Model/Export.lean",
  "definition": "exportField",
  "old": ".ok (!f.tags.any fun",
  "new": ".ok (f.tags.any fun",
  "edit": "blacklist acts as a whitelist of tags",
  "breaks": "C75",
  "nth": 0
 },
 {
  "id": "X03",
  "file": "Verif/Model/Export.lean",
  "definition": "exportField",
  "old": "!f.tags.any",
  "new": "!f.tags.all",
  "edit": "a field is dropped only if all its tags are blacklisted",
  "breaks": "C75",
  "nth": 0
 },
 {
  "id": "X04",
  "file": "Verif/Model/Export.lean",
  "definition": "exportField",
  "old": "| .otherContainer => .error .typeError",
  "new": "| .otherContainer => .ok true",
  "edit": "a blacklist list is ignored",
  "breaks": "C75 (TypeError for a list)",
  "nth": 0
 },
 {
  "id": "X05",
  "file": "Verif/Model/Export.lean",
  "definition": "exportValue",
  "old": "decide (f.name ∈ o.whitelist) || o.includeDefaults",
  "new": "o.includeDefaults",
  "edit": "whitelisted fields equal to the default are dropped",
  "breaks": "C75",
  "nth": 0
 },
 {
  "id": "X06",
  "file": "Verif/Model/Export.lean",
  "definition": "exportValue",
  "old": "o.includeDefaults ||\n",
  "new": "false ||\n",
  "edit": "include_defaults has no effect",
  "breaks": "C75",
  "nth": 0
 },
 {
  "id": "X07",
  "file": "Verif/Model/Export.lean",
  "definition": "exportValue",
  "old": "!(match f.default with | none => false | some d => d.isDefault v)",
  "new": "true",
  "edit": "defaults are always exported",
  "breaks": "C75",
  "nth": 0
 },
 {
  "id": "X08",
  "file": "Verif/Model/Export.lean",
  "definition": "exportTuples",
  "old": "((f.name, v) :: l)) s'",
  "new": "((f.name, v) :: (f.name, v) :: l)) s'",
  "edit": "entries are exported twice",
  "breaks": "C75 (keys)",
  "nth": 0
 },
 {
  "id": "X09",
  "file": "Verif/Model/Export.lean",
  "definition": "exportTuples",
  "old": "((f.name, v) :: l)) s'",
  "new": "(l ++ [(f.name, v)])) s'",
  "edit": "entries are exported in reverse field order",
  "breaks": "C75 (field order)",
  "nth": 0
 },
 {
  "id": "X10",
  "file": "Verif/Model/Export.lean",
  "definition": "sortEntries",
  "old": "| .no => l",
  "new": "| .no => l.reverse",
  "edit": "unsorted exports are reversed",
  "breaks": "C75 (field order)",
  "nth": 0
 },
 {
  "id": "X11",
  "file": "Verif/Model/Export.lean",
  "definition": "sortEntries",
  "old": "| .desc => l.mergeSort fun a b => decide (b.1 ≤ a.1)",
  "new": "| .desc => l.mergeSort fun a b => decide (a.1 ≤ b.1)",
  "edit": "sort=-1 sorts ascending",
  "breaks": "C76",
  "nth": 0
 },
 {
  "id": "X12",
  "file": "Verif/Model/Export.lean",
  "definition": "sortEntries",
  "old": "| .asc => l.mergeSort fun a b => decide (a.1 ≤ b.1)",
  "new": "| .asc => l",
  "edit": "sort=True does not sort",
  "breaks": "C76",
  "nth": 0
 },
 {
  "id": "X13",
  "file": "Verif/Model/Export.lean",
  "definition": "sortEntries",
  "old": "| .key le => l.mergeSort fun a b => le a.1 b.1",
  "new": "| .key le => l.reverse.mergeSort fun a b => le a.1 b.1",
  "edit": "the key sort is not stable",
  "breaks": "C76",
  "nth": 0
 },
 {
  "id": "X14",
  "file": "Verif/Model/Export.lean",
  "definition": "sortEntries",
  "old": "| .desc => l.mergeSort fun a b => decide (b.1 ≤ a.1)",
  "new": "| .desc => (l.mergeSort fun a b => decide (b.1 ≤ a.1)).drop 1",
  "edit": "sort=-1 loses an entry",
  "breaks": "C76",
  "nth": 0
 },
 {
  "id": "X15",
  "file": "Verif/Model/Export.lean",
  "definition": "toDict",
  "old": "M.pure (Dict.update [] (sortEntries o.sort l))",
  "new": "M.pure (Dict.update [] l)",
  "edit": "the sorted list is not used",
  "breaks": "C76",
  "nth": 0
 },
 {
  "id": "X16",
  "file": "Verif/Model/Field.lean",
  "definition": "Deflt.isDefault",
  "old": "| .factory _ => false",
  "new": "| .factory _ => true",
  "edit": "fields with a factory default are never exported",
  "breaks": "C75",
  "nth": 0
 },
 {
  "id": "X17",
  "file": "Verif/Model/Field.lean",
  "definition": "Deflt.isDefault",
  "old": "| .value d => W.eq d v",
  "new": "| .value d => decide (d = v)",
  "edit": "defaults are recognised by identity",
  "breaks": "C75",
  "nth": 0
 }
]