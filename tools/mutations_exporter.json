[
 {
  "id": "E01",
  "file": "Verif/Model/Exporter.lean",
  "definition": "bindOpts",
  "old": "if args.length > optNames.length then .error .typeError\n  else",
  "new": "if false then .error .typeError\n  else",
  "edit": "surplus positional options are ignored",
  "breaks": "C84 (too many)",
  "nth": 0
 },
 {
  "id": "E02",
  "file": "Verif/Model/Exporter.lean",
  "definition": "bindOpts",
  "old": "else if kw.keys.any fun k => !optNames.contains k then .error .typeError",
  "new": "else if false then .error .typeError",
  "edit": "unknown options are ignored",
  "breaks": "C84 (unknown)",
  "nth": 0
 },
 {
  "id": "E03",
  "file": "Verif/Model/Exporter.lean",
  "definition": "bindOpts",
  "old": "else if kw.keys.any fun k => (optNames.take args.length).contains k then .error .typeError",
  "new": "else if false then .error .typeError",
  "edit": "twice-bound options: position wins",
  "breaks": "C84 (twice bound)",
  "nth": 0
 },
 {
  "id": "E04",
  "file": "Verif/Model/Exporter.lean",
  "definition": "bindOpts",
  "old": "optNames.zip args ++ kw",
  "new": "kw",
  "edit": "positional options are dropped",
  "breaks": "C84",
  "nth": 0
 },
 {
  "id": "E05",
  "file": "Verif/Model/Exporter.lean",
  "definition": "optNames",
  "old": "\"sort\", \"blacklist_tags\"",
  "new": "\"blacklist_tags\", \"sort\"",
  "edit": "parameter order swapped",
  "breaks": "C84 (positional)",
  "nth": 0
 },
 {
  "id": "E06",
  "file": "Verif/Model/Exporter.lean",
  "definition": "bindOpts",
  "old": ".elim (.tags []) V.blacklist",
  "new": ".elim .otherContainer V.blacklist",
  "edit": "default of blacklist_tags wrong",
  "breaks": "C84/C89",
  "nth": 0
 },
 {
  "id": "E07",
  "file": "Verif/Model/Exporter.lean",
  "definition": "exportRun",
  "old": "let r := sel.call [d] (.dict 0)",
  "new": "let r := Sel.empty.call [d] (.dict 0)",
  "edit": "select is not applied",
  "breaks": "C84/C89",
  "nth": 0
 },
 {
  "id": "E08",
  "file": "Verif/Model/Exporter.lean",
  "definition": "exportRun",
  "old": "| .ok m => (k (m.items r.heap) s', r.sel)",
  "new": "| .ok m => (k d s', r.sel)",
  "edit": "function gets the unselected mapping",
  "breaks": "C84",
  "nth": 0
 },
 {
  "id": "E09",
  "file": "Verif/Model/Exporter.lean",
  "definition": "exportRun",
  "old": "| .ok m => (k (m.items r.heap) s', r.sel)",
  "new": "| .ok m => (k (m.items r.heap) s', Sel.empty)",
  "edit": "select is reset by a call",
  "breaks": "C84 (immutable)",
  "nth": 0
 },
 {
  "id": "E10",
  "file": "Verif/Model/Exporter.lean",
  "definition": "XFun.run",
  "old": "(eargs ++ args)",
  "new": "(args ++ eargs)",
  "edit": "call arguments come first",
  "breaks": "C84",
  "nth": 0
 },
 {
  "id": "E11",
  "file": "Verif/Model/Exporter.lean",
  "definition": "XFun.run",
  "old": "(ekw.update kw) sel f s",
  "new": "(kw.update ekw) sel f s",
  "edit": "export_with options override call options",
  "breaks": "C84 (last wins)",
  "nth": 0
 },
 {
  "id": "E12",
  "file": "Verif/Model/Exporter.lean",
  "definition": "XFun.run",
  "old": "| .args f => exportRun V C obj eargs ekw sel",
  "new": "| .args f => exportRun V C obj (eargs ++ args) ekw sel",
  "edit": "to_json arguments are also options",
  "breaks": "C84 (to_json)",
  "nth": 0
 },
 {
  "id": "E13",
  "file": "Verif/Model/Exporter.lean",
  "definition": "XFun.run",
  "old": "(fun m => f m args kw) s",
  "new": "(fun m => f m [] kw) s",
  "edit": "to_json drops positional arguments",
  "breaks": "C84 (to_json)",
  "nth": 0
 },
 {
  "id": "E14",
  "file": "Verif/Model/Exporter.lean",
  "definition": "mergeAt",
  "old": "if !ta.1 then (b, S)",
  "new": "if !ta.1 then (a, S)",
  "edit": "merging into an empty select returns the empty one",
  "breaks": "C84",
  "nth": 0
 },
 {
  "id": "E15",
  "file": "Verif/Model/Exporter.lean",
  "definition": "mergeAt",
  "old": "if !tb.1 then (a, S)",
  "new": "if !tb.1 then (b, S)",
  "edit": "merging an empty select returns the empty one",
  "breaks": "C84",
  "nth": 0
 },
 {
  "id": "E16",
  "file": "Verif/Model/Exporter.lean",
  "definition": "mergeAt",
  "old": "(x.remove.remaining ++ y.remove.remaining)",
  "new": "(y.remove.remaining ++ x.remove.remaining)",
  "edit": "removes in the wrong order",
  "breaks": "C84",
  "nth": 0
 },
 {
  "id": "E17",
  "file": "Verif/Model/Exporter.lean",
  "definition": "mergeAt",
  "old": "(S.length, S ++ [",
  "new": "(S.length, S.set a y ++ [",
  "edit": "merge overwrites the left operand with the right one",
  "breaks": "C84 (immutable)",
  "nth": 0
 },
 {
  "id": "E18",
  "file": "Verif/Model/Exporter.lean",
  "definition": "mergeAll",
  "old": "| [], none => (.error .typeError, S)",
  "new": "| [], none => (.ok a, S)",
  "edit": "select without arguments makes a copy",
  "breaks": "C84: select without arguments makes no new object",
  "nth": 0
 },
 {
  "id": "E19",
  "file": "Verif/Model/Exporter.lean",
  "definition": "XOp.step exportWith",
  "old": "eargs := b.eargs ++ args",
  "new": "eargs := args",
  "edit": "export_with replaces positional options",
  "breaks": "C84",
  "nth": 0
 },
 {
  "id": "E20",
  "file": "Verif/Model/Exporter.lean",
  "definition": "XOp.step exportWith",
  "old": "ekw := b.ekw.update kw",
  "new": "ekw := kw",
  "edit": "export_with replaces keyword options",
  "breaks": "C84",
  "nth": 0
 },
 {
  "id": "E21",
  "file": "Verif/Model/Exporter.lean",
  "definition": "XOp.step exportWith",
  "old": "ekw := b.ekw.update kw",
  "new": "ekw := kw.update b.ekw",
  "edit": "earlier keyword options win",
  "breaks": "C84",
  "nth": 0
 },
 {
  "id": "E22",
  "file": "Verif/Model/Exporter.lean",
  "definition": "XOp.step select",
  "old": "exporters := st.exporters ++ [{ b with sel := a }]",
  "new": "exporters := (st.exporters ++ [{ b with sel := a }]).set x { b with sel := a }",
  "edit": "select changes the object it is called on",
  "breaks": "C84 (immutable)",
  "nth": 0
 },
 {
  "id": "E23",
  "file": "Verif/Model/Exporter.lean",
  "definition": "XOp.step exportWith",
  "old": "({ st with exporters := st.exporters ++ [{ b with eargs",
  "new": "({ st with exporters := (st.exporters.set x { b with ekw := b.ekw.update kw }) ++ [{ b with eargs",
  "edit": "export_with updates the shared keyword dict in place",
  "breaks": "C84 (immutable)",
  "nth": 0
 },
 {
  "id": "E24",
  "file": "Verif/Model/Exporter.lean",
  "definition": "callX",
  "old": "[\"self\", \"instance\"] else [\"self\"]",
  "new": "[\"self\"] else [\"self\"]",
  "edit": "class-bound exporters accept a keyword named instance",
  "breaks": "C84_call_args",
  "nth": 0
 },
 {
  "id": "E25",
  "file": "Verif/Model/Exporter.lean",
  "definition": "XStore.callF",
  "old": "let r := (selAt st.sels b.sel).call h m",
  "new": "let r := Sel.empty.call h m",
  "edit": "factory ignores its select",
  "breaks": "C84 (factory)",
  "nth": 0
 },
 {
  "id": "E26",
  "file": "Verif/Model/Exporter.lean",
  "definition": "XOp.step fselect",
  "old": "factories := st.factories ++ [⟨a⟩]",
  "new": "factories := st.factories.map (fun _ => ⟨a⟩) ++ [⟨a⟩]",
  "edit": "factory select changes all factories",
  "breaks": "C84 (factory immutable)",
  "nth": 0
 },
 {
  "id": "E27",
  "file": "Verif/Model/Exporter.lean",
  "definition": "XOp.step exporter",
  "old": "⟨b, [], [], 0⟩",
  "new": "⟨b, [], [], st.sels.length - 1⟩",
  "edit": "a new exporter starts with the latest select",
  "breaks": "C84",
  "nth": 0
 },
 {
  "id": "E28",
  "file": "Verif/Model/Exporter.lean",
  "definition": "mergeAll",
  "old": "let S := r.2 ++ [k.mk']\n    (.ok (mergeAt S r.1 r.2.length).1, (mergeAt S r.1 r.2.length).2)",
  "new": "let S := r.2 ++ [k.mk']\n    (.ok (mergeAt S r.2.length r.1).1, (mergeAt S r.2.length r.1).2)",
  "edit": "keyword edits are merged first",
  "breaks": "C84",
  "nth": 0
 }
]