[
 {
  "id": "Z01",
  "file": "Verif/Model/Extras.lean",
  "definition": "FullMatch.make",
  "old": "M.bind (x.re pattern) fun p => M.pure ⟨cfg, p⟩",
  "new": "M.pure ⟨cfg, fun v => M.bind (x.re pattern) fun p => p v⟩",
  "edit": "the pattern is compiled at each use",
  "breaks": "C110"
 },
 {
  "id": "Z02",
  "file": "Verif/Model/Extras.lean",
  "definition": "FullMatch.inner",
  "old": "m.cfg.inner emit m.pattern v",
  "new": "m.cfg.inner emit (fun v => M.tryExcept (m.pattern v) (fun _ => true) fun _ => M.pure false) v",
  "edit": "an exception of the matching counts as no match",
  "breaks": "C110"
 },
 {
  "id": "Z03",
  "file": "Verif/Model/Extras.lean",
  "definition": "Extras.env",
  "old": "{ E with jsonLoads := fun v kw => x.json.loads v [] kw }",
  "new": "E",
  "edit": "from_json uses the module imported at definition",
  "breaks": "C110"
 },
 {
  "id": "Z04",
  "file": "Verif/Model/Extras.lean",
  "definition": "Step.run",
  "old": "({ ss with extras := { ss.extras with re := R } }, s)",
  "new": "({ ss with extras := { ss.extras with re := R }, matchers := [] }, s)",
  "edit": "replacing re forgets the validators",
  "breaks": "C110"
 },
 {
  "id": "Z05",
  "file": "Verif/Model/Extras.lean",
  "definition": "Step.run",
  "old": "({ ss with extras := { ss.extras with json := J } }, s)",
  "new": "(ss, s)",
  "edit": "assigning json has no effect",
  "breaks": "C110"
 },
 {
  "id": "Z06",
  "file": "Verif/Model/Extras.lean",
  "definition": "Step.run",
  "old": "| (.error _, s') => (ss, s')",
  "new": "| (.error _, s') => ({ ss with matchers := ss.matchers ++ [⟨cfg, fun _ => M.pure false⟩] }, s')",
  "edit": "a bad pattern gives a validator that matches nothing",
  "breaks": "C110"
 },
 {
  "id": "Z07",
  "file": "Verif/Model/Extras.lean",
  "definition": "Extras.fromPickle",
  "old": "Records.fromPickle (x.env E) x.pickle",
  "new": "Records.fromPickle E x.pickle",
  "edit": "from_pickle parses with the original json module",
  "breaks": "C110"
 },
 {
  "id": "Z08",
  "file": "Verif/Model/Extras.lean",
  "definition": "Extras.toJson",
  "old": "(toJsonFn x.json).run V C obj eargs",
  "new": "(toJsonFn { x.json with dumps := fun _ _ _ => M.throw .typeError }).run V C obj eargs",
  "edit": "to_json cannot return text",
  "breaks": "C110"
 },
 {
  "id": "Z09",
  "file": "Verif/Model/Extras.lean",
  "definition": "Step.run",
  "old": "({ ss with extras := { ss.extras with pickle := P } }, s)",
  "new": "({ ss with extras := { ss.extras with pickle := { P with loads := ss.extras.pickle.loads } } }, s)",
  "edit": "from_pickle keeps the first pickle module",
  "breaks": "C110"
 }
]