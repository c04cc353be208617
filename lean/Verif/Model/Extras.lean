import Verif.Model.Files
import Verif.Model.Validators
/-
Model of `records.extras`, the modules `json`, `pickle` and `re` the library uses and user programs may replace
(records/extras.py:1-17), and of `FullMatch` (records/fillers/builtin_validators.py:136-153).
Simplification: the modules are replaced between calls of the library, not by user code running inside one.
-/
namespace Records
variable {W : World}

/-- a module with the interface of `re`: `compile(p)` gives a pattern or raises; of a pattern only the truth value of
`pattern.fullmatch(v)` is used (builtin_validators.py:150, 153) -/
abbrev ReModule (W : World) := W.Obj → M W (W.Obj → M W Bool)

/-- the attributes of `records.extras` (extras.py:13-15) -/
structure Extras (W : World) where
  json : Codec W (Dict W.Obj)
  pickle : Codec W (Inst W)
  re : ReModule W

/-- a `FullMatch` object (builtin_validators.py:141-150): its `err` and `warn`, and its compiled pattern -/
structure FullMatch (W : World) where
  cfg : AssertCfg
  pattern : W.Obj → M W Bool

/-- `FullMatch(pattern, **kwargs)` (builtin_validators.py:141-150) -/
def FullMatch.make (x : Extras W) (cfg : AssertCfg) (pattern : W.Obj) : M W (FullMatch W) :=
  M.bind (x.re pattern) fun p => M.pure ⟨cfg, p⟩

/-- `FullMatch.inner` (validators.py:77-83) with `assert_` (builtin_validators.py:152-153) -/
def FullMatch.inner (m : FullMatch W) (emit : Bool → M W Unit) (v : W.Obj) : M W W.Obj := m.cfg.inner emit m.pattern v

/-- foreign operations with the current `json` module: `from_json` reads `extras.json` when it is called (record.py:505), also as a
registered parser -/
def Extras.env (x : Extras W) (E : Env W) : Env W := { E with jsonLoads := fun v kw => x.json.loads v [] kw }

/-- A step of a program: replace a module, make a `FullMatch`, or do something else that does not concern `extras` (for instance, call
the library). -/
inductive Step (W : World)
  | setJson (J : Codec W (Dict W.Obj))
  | setPickle (P : Codec W (Inst W))
  | setRe (R : ReModule W)
  | fullMatch (cfg : AssertCfg) (pattern : W.Obj)
  | other (x : M W Unit)

/-- the state of a program: `records.extras`, and the `FullMatch` objects made so far -/
structure Session (W : World) where
  extras : Extras W
  matchers : List (FullMatch W)

/-- one step; exceptions are caught by the program -/
def Step.run (ss : Session W) (s : LState W) : Step W → Session W × LState W
  | .setJson J => ({ ss with extras := { ss.extras with json := J } }, s)
  | .setPickle P => ({ ss with extras := { ss.extras with pickle := P } }, s)
  | .setRe R => ({ ss with extras := { ss.extras with re := R } }, s)
  | .fullMatch cfg p => match FullMatch.make ss.extras cfg p s with
    | (.ok m, s') => ({ ss with matchers := ss.matchers ++ [m] }, s')
    | (.error _, s') => (ss, s')
  | .other x => (ss, (x s).2)

/-- a program -/
def Session.run (ss : Session W) (s : LState W) : List (Step W) → Session W × LState W
  | [] => (ss, s)
  | st :: sts => (st.run ss s).1.run (st.run ss s).2 sts

/-! The functions that use `extras` (record.py:505, 522, 541, 563, 625-626, 641-642). -/

/-- `C.from_json.select(sel)(t, **kw)` (record.py:487-505) -/
def Extras.fromJson (x : Extras W) (E : Env W) (C : RecClass W) (n : Nat) (sel : Sel W.Obj) (t : W.Obj) (kw : Dict W.Obj) :
    M W (Res W) := Records.fromJson (x.env E) (fun m => callN (x.env E) C n none m) sel t kw

/-- `C.parse(v)` (record.py:568-594) -/
def Extras.parse (x : Extras W) (E : Env W) (C : RecClass W) (n : Nat) (v : W.Obj) : M W (Res W) := parseN (x.env E) C n v

/-- `r.to_json.select(sel).export_with(*eargs, **ekw)(*args, **kw)` (record.py:607-626) -/
def Extras.toJson (x : Extras W) (V : OptView W) (C : RecClass W) (obj : Carrier W) (eargs : List W.Obj) (ekw : Dict W.Obj)
    (sel : Sel W.Obj) (args : List W.Obj) (kw : Dict W.Obj) (s : LState W) : Except Exc (Option W.Obj) × LState W :=
  ((toJsonFn x.json).run V C obj eargs ekw sel args kw s).1

/-- `C.from_pickle(b, *args, **kw)` (record.py:524-544) -/
def Extras.fromPickle (x : Extras W) (E : Env W) (C : RecClass W) (n : Nat) (b : W.Obj) (args : List W.Obj) (kw : Dict W.Obj) :
    M W (Res W) := Records.fromPickle (x.env E) x.pickle C n b args kw

/-- `r.to_pickle(*args, **kw)` (record.py:628-642) -/
def Extras.toPickle (x : Extras W) (r : Inst W) (args : List W.Obj) (kw : Dict W.Obj) : M W (Option W.Obj) :=
  Records.toPickle x.pickle r args kw

end Records
