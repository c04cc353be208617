[
{"id":"CD01","file":"Verif/Model/Sort.lean","definition":"askRecs","old":"compare E O .lt C a C b","new":"compare E O .le C a C b","edit":"sorting asks a <= b instead of a < b","breaks":"C115: stability of sorting"},
{"id":"CD02","file":"Verif/Model/Sort.lean","definition":"askRecs","old":"compare E O .lt C a C b","new":"compare E O .gt C a C b","edit":"sorting asks a > b","breaks":"C115: ascending order"},
{"id":"CD03","file":"Verif/Model/Sort.lean","definition":"askRecs","old":"compare E O .lt C a C b","new":"compare E O .lt C b C a","edit":"operands swapped","breaks":"C115: ascending order"},
{"id":"CD04","file":"Verif/Model/Sort.lean","definition":"Sorter.run","old":"| .ok true => yes.run lt\n    | .ok false => no.run lt","new":"| .ok true => no.run lt\n    | .ok false => yes.run lt","edit":"answers of comparisons are swapped","breaks":"C115: order"},
{"id":"CD05","file":"Verif/Model/Sort.lean","definition":"Sorter.run","old":"| .error e => .error e\n","new":"| .error _ => no.run lt\n","edit":"exceptions of comparisons count as False","breaks":"C115: unordered records raise TypeError"},
{"id":"CD06","file":"Verif/Model/Sort.lean","definition":"sortRecs","old":"order.filterMap fun i => recs[i]?","new":"order.reverse.filterMap fun i => recs[i]?","edit":"result reversed","breaks":"C115: ascending order"},
{"id":"CD07","file":"Verif/Model/Sort.lean","definition":"sortRecs","old":"order.filterMap fun i => recs[i]?","new":"(order.drop 1).filterMap fun i => recs[i]?","edit":"the smallest record is lost","breaks":"C115: the result contains all records"},
{"id":"CD08","file":"Verif/Model/Instance.lean","definition":"cmpMethod","old":"listCmp O op","new":"listCmp O .lt","edit":"all ordering methods answer <","breaks":"C72"},
{"id":"CD09","file":"Verif/Spec/Sort.lean","definition":"StableSort","old":"StableOrder n lt order","new":"order.Perm (List.range n)","edit":"a sort need only permute","breaks":"C115: order"}
]
