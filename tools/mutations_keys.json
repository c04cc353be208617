[
{"id":"CC01","file":"Verif/Model/Keys.lean","definition":"findKey","old":"if e.hash ≠ h then findKey","new":"if e.hash = h then findKey","edit":"entries with the hash of the key are passed over","breaks":"a record is found under an equal record"},
{"id":"CC02","file":"Verif/Model/Keys.lean","definition":"findKey","old":"      | (.ok true, m', s') => (.ok (some (pre, e, es)), m', s')","new":"      | (.ok true, m', s') => findKey E H cls r h (pre ++ [e]) es m' s'","edit":"keys are compared by identity only","breaks":"a record is found under an equal record"},
{"id":"CC03","file":"Verif/Model/Keys.lean","definition":"findKey","old":"      | (.ok false, m', s') => findKey E H cls r h (pre ++ [e]) es m' s'","new":"      | (.ok false, m', s') => (.ok (some (pre, e, es)), m', s')","edit":"equal hashes count as equal keys","breaks":"records with colliding hashes are different keys"},
{"id":"CC04","file":"Verif/Model/Keys.lean","definition":"putFound","old":"  | some (pre, e, post) => (pre ++ { e with val := v } :: post, .none)","new":"  | some _ => (d ++ [⟨h, r, v⟩], .none)","edit":"assignment always appends an entry","breaks":"a lookup finds what was stored last; len"},
{"id":"CC05","file":"Verif/Model/Keys.lean","definition":"putFound","old":"  | some (pre, e, post) => (pre ++ { e with val := v } :: post, .none)","new":"  | some (pre, e, post) => (pre ++ e :: post, .none)","edit":"assignment keeps the old value","breaks":"a lookup finds what was stored last"},
{"id":"CC06","file":"Verif/Model/Keys.lean","definition":"popFound","old":"(pre ++ post, .found (some e.val))","new":"(pre, .found (some e.val))","edit":"removal cuts off the later entries","breaks":"other records stay in the dict"},
{"id":"CC07","file":"Verif/Model/Keys.lean","definition":"memEq","old":"| (x, i, j, s') => (x, (m.put a i).put b j, s')","new":"| (x, i, j, s') => (x, (m.put a j).put b i, s')","edit":"comparing swaps the two records","breaks":"comparisons do not change records"},
{"id":"CC08","file":"Verif/Model/Instance.lean","definition":"hashInst","old":"  if !C.frozen then (.error .typeError, i, s)\n  else match i.hash with","new":"  match i.hash with","edit":"non-frozen records can be hashed","breaks":"a non-frozen record is no key"},
{"id":"CC09","file":"Verif/Model/Instance.lean","definition":"setInst","old":"  if C.frozen then (.error .typeError, i) else","new":"  if false then (.error .typeError, i) else","edit":"frozen records can be assigned to","breaks":"records in a dict are found after attempts to assign"},
{"id":"CC10","file":"Verif/Model/Instance.lean","definition":"hashInst","old":"| .ok n => (.ok n, { i with hash := some (some n) }, s')","new":"| .ok n => (.ok n, { i with hash := some (some (n + 1)) }, s')","edit":"another hash is cached than returned","breaks":"a record is found whether its hash is cached or not"},
{"id":"CC11","file":"Verif/Model/Keys.lean","definition":"Act.run","old":"  | .len => (.ok (.size q.dict.length), q)","new":"  | .len => (.ok (.size (q.dict.length + 1)), q)","edit":"len counts one too many","breaks":"len counts the different records"},
{"id":"CC12","file":"Verif/Model/Keys.lean","definition":"Act.run","old":"  | .get r => withKey E H cls r q (getFound q.dict)","new":"  | .get r => withKey E H cls r q (popFound q.dict)","edit":"a lookup removes the entry","breaks":"a lookup finds what was stored last if it was not removed"}
]
