[
{"id":"S01","file":"Verif/Model/Select.lean","definition":"editRemove","old":"if m.has k then .ok (m.erase k) else .error .keyError","new":"if m.has k then .ok (m.erase k) else .ok m","edit":"remove of a missing key silently skipped","breaks":"C01: remove of a missing key raises KeyError"},
{"id":"S02","file":"Verif/Model/Select.lean","definition":"editAdd","old":"if m.has sv.1 then .error .valueError else .ok (m.set sv.1 sv.2)","new":".ok (m.set sv.1 sv.2)","edit":"add overwrites an existing key","breaks":"C01/C02: add never overwrites"},
{"id":"S03","file":"Verif/Model/Select.lean","definition":"Sel.edit","old":"let r3 := editLoop editRename s.rename.remaining r2.dict","new":"let r3 := editLoop editRename s.rename.remaining r1.dict","edit":"renames work on the dict before the maybe-removes","breaks":"C01: order of edits"},
{"id":"S04","file":"Verif/Model/Select.lean","definition":"editRename","old":".ok ((m.erase sd.1).set sd.2 v)","new":".ok (m.set sd.2 v)","edit":"rename forgets to pop the source","breaks":"C01/C02: renames do not duplicate"},
{"id":"S05","file":"Verif/Model/Select.lean","definition":"editMaybeRename","old":"| some v => if m.has sd.2 then .error .valueError else","new":"| some v => if m.has sd.2 then .ok m else","edit":"maybe-rename skips if the new name exists (as documented)","breaks":"C06: ValueError iff both present"},
{"id":"S06","file":"Verif/Model/Select.lean","definition":"editMaybeAdd","old":"if m.has sv.1 then .ok m else .ok (m.set sv.1 sv.2)","new":".ok (m.set sv.1 sv.2)","edit":"maybe-add overwrites","breaks":"C01/C02"},
{"id":"S07","file":"Verif/Model/Select.lean","definition":"Sel.merge1","old":"rename := .many (self.rename.remaining ++ other.rename.remaining)","new":"rename := .many (other.rename.remaining ++ self.rename.remaining)","edit":"merge concatenates renames in the wrong order","breaks":"C03"},
{"id":"S08","file":"Verif/Model/Select.lean","definition":"Sel.merge1","old":"maybeAdd := .many (self.maybeAdd.remaining ++ other.maybeAdd.remaining)","new":"maybeAdd := .many (self.maybeAdd.remaining)","edit":"merge drops the other's maybe-adds","breaks":"C03"},
{"id":"S09","file":"Verif/Model/Select.lean","definition":"Sel.merge1","old":"if !b then (self, self, other) else","new":"if !b then (other, self, other) else","edit":"merge with an empty right operand returns the empty one","breaks":"C03: identity"},
{"id":"S10","file":"Verif/Model/Select.lean","definition":"Sel.truth","old":"(false, { s with cache := some false })","new":"(false, { s with cache := some true })","edit":"wrong cached truth value","breaks":"C04: second use differs (truth test)"},
{"id":"S11","file":"Verif/Model/Select.lean","definition":"Sel.call","old":"| .chain as => (h.length, h ++ [chainItems (as.map h.at)])","new":"| .chain as => (as.headD 0, h)","edit":"a ChainMap is edited in its first map instead of a copy","breaks":"C05"},
{"id":"S12","file":"Verif/Model/Select.lean","definition":"Sel.merge","old":"| [], none => .error .typeError","new":"| [], none => .ok self","edit":"merge without arguments returns self","breaks":"C03: TypeError"},
{"id":"S13","file":"Verif/Model/Select.lean","definition":"KeyArg.store","old":"| .str k => .many [k]","new":"| .str k => .many (k.toList.map (fun c => String.ofList [c]))","edit":"a single string is treated as iterable of characters","breaks":"C01: single key"},
{"id":"S14","file":"Verif/Model/Select.lean","definition":"Sel.call","old":"if !b then ⟨.ok m, h, s⟩ else","new":"","edit":"no shortcut for empty Select (copies a ChainMap)","breaks":"C01: an empty Select returns the mapping unchanged (same object)"},
{"id":"S15","file":"Verif/Model/Select.lean","definition":"BoundFactory.select","old":"(b.sel.merge others kw).map BoundFactory.mk","new":"(Sel.empty.merge others kw).map BoundFactory.mk","edit":"select() replaces instead of merging into the existing select","breaks":"C03: chaining"},
{"id":"S16","file":"Verif/Model/Select.lean","definition":"Sel.truth","old":"let (b6, maybeRename) := s.maybeRename.peek\n    if b6 then (true, { s with maybeRename := maybeRename, cache := some true }) else","new":"","edit":"truth test forgets maybe-renames","breaks":"C01: a Select with only maybe-renames has no effect"}
]
