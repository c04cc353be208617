[
{"id":"B01","file":"Verif/Model/Filler.lean","definition":"F.withSub","old":"else if i = 1 then at_ subs (some 1) (.wrap b k inner)","new":"else if i = 1 then at_ subs (some 0) (.wrap b k inner)","edit":"sub_key=1 of a mapping reaches the keys","breaks":"C99: a token for the values is added to the values"},
{"id":"B02","file":"Verif/Model/Filler.lean","definition":"F.withSub","old":"| .iter | .deque => if i = 0 then at_ subs (some 0) (.wrap b k inner) else .error .lookupError","new":"| .iter | .deque => at_ subs (some 0) (.wrap b k inner)","edit":"any key reaches the element of a collection","breaks":"C99: only key 0 is legal"},
{"id":"B03","file":"Verif/Model/Filler.lean","definition":"pyIndex","old":"else if i < 0 ∧ -i ≤ n then some (n - (-i).toNat)","new":"else if i < 0 ∧ -i ≤ n then some ((-i).toNat - 1)","edit":"negative keys count from the start","breaks":"C99: tuples and unions are indexed like sequences"},
{"id":"B04","file":"Verif/Model/Filler.lean","definition":"F.withSub","old":"| .typeF _ | .generic => .error .lookupError","new":"| .typeF _ | .generic => .error .indexError","edit":"a bad key of Type[...] raises IndexError","breaks":"C99: LookupError for every type but tuples and unions"},
{"id":"B05","file":"Verif/Model/Filler.lean","definition":"F.withSub.at_","old":"| some s => match g s with\n        | .ok s' => .ok (re (subs.set j s'))","new":"| some s => match g s with\n        | .ok _ => .ok (re (subs.set j s))","edit":"the token of a part is dropped","breaks":"C99: same as writing it into the type"},
{"id":"B06","file":"Verif/Model/Filler.lean","definition":"F.withSub","old":"| .union b args app subs => at_ subs (pyIndex subs.length i) (.union b args app)","new":"| .union b args app subs => if i < 0 then .error .lookupError else at_ subs (pyIndex subs.length i) (.union b args app)","edit":"unions reject negative keys","breaks":"C99: unions are indexed like sequences"},
{"id":"B07","file":"Verif/Model/Filler.lean","definition":"F.applyPre","old":"| (key, t) :: ts => match f.applySub key t with\n    | .ok f' => f'.applyPre ts","new":"| (key, t) :: ts => match f.applyPre ts with\n    | .ok f' => f'.applySub key t","edit":"the tokens of pre_bind are applied in reverse","breaks":"C99: in the order of the calls"}
]
