[
{"id":"CE01","file":"Verif/Model/World.lean","definition":"M.generator","old":"(.error e.leaving, s')","new":"(.error e, s')","edit":"StopIteration leaves generators unchanged","breaks":"C34, C75, C109"},
{"id":"CE02","file":"Verif/Model/Filler.lean","definition":"elemLoop","old":"M.bind (M.generator (M.mapM (fun p => p.2 p.1) es)) fun ws","new":"M.bind (M.mapM (fun p => p.2 p.1) es) fun ws","edit":"the rest of a container is filled outside a generator","breaks":"C34: RuntimeError after a change"},
{"id":"CE03","file":"Verif/Model/Filler.lean","definition":"elemLoop","old":"M.bind (f e) fun w =>","new":"M.bind (M.generator (f e)) fun w =>","edit":"all elements are filled in a generator","breaks":"C34: StopIteration before a change"},
{"id":"CE04","file":"Verif/Model/Export.lean","definition":"toDict","old":"M.bind (M.generator (exportTuples obj o missingOk x.values))","new":"M.bind (exportTuples obj o missingOk x.values)","edit":"exports are not generated lazily","breaks":"C75: StopIteration of attributes"},
{"id":"CE05","file":"Verif/Model/Effects.lean","definition":"toDictE","old":"M.bind (M.generator (exportTuplesE V obj o missingOk x.values))","new":"M.bind (exportTuplesE V obj o missingOk x.values)","edit":"exports are not generated lazily","breaks":"C109: StopIteration of comparisons"},
{"id":"CE06","file":"Verif/Model/Base.lean","definition":"Exc.leaving","old":"if e.kind = .stopIteration then .runtimeError else e","new":"if e.isException then .runtimeError else e","edit":"every exception in a generator becomes RuntimeError","breaks":"C34, C75, C104"},
{"id":"CE07","file":"Verif/Model/OneShot.lean","definition":"toDictS","old":"M.bind (M.generator (exportTuples obj o x.1.1 x.1.2.values))","new":"M.bind (exportTuples obj o x.1.1 x.1.2.values)","edit":"one-shot exports are not generated lazily","breaks":"C112"}
]
