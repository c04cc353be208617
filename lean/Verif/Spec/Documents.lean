import Verif.Model.Copying
import Verif.Model.New
import Verif.Spec.Class
import Verif.Spec.Factory
import Verif.Spec.Roundtrip
import Verif.Spec.Sort
import Verif.Spec.Union
/-
Specification of records built from nested mappings.
-/
namespace Records
variable {W : World}

/-- what a field expects: data that satisfy `D`, a record of the class `c` with such things in its fields, a list (or set, ...)
of such things, or one of two kinds of things -/
inductive Schema (W : World) where
  | leaf (D : W.Obj → Prop)
  | list (c : W.Cls) (elem : Schema W)
  | either (S T : Schema W)
  | record (c : W.Cls) (fields : String → Schema W)

/-- the token `Loose` (std_fillers.py:105-129) -/
def looseToken : Tok W := .coercion (.coercer fun o => match looseBind (W := W) o with
  | .ok c => .ok (loose none c [] [])
  | .error e => .error e)

/-- The filler `g` is made for the schema: it keeps the data that satisfy `D` and refuses all others (for instance a checked type without
coercers and validators); or it is that of a field declared as `Annotated[c, Loose]` (or as `List[h]` or `Union[h, h']`, where `h` and `h'` are
declared in this way) in a class that checks types. -/
def Schema.Fills (g : F W) : Schema W → Prop
  | .leaf D => ∀ v s, (D v → g.call v s = (.ok v, s)) ∧ (¬ D v → ∃ e : Exc, e.isException = true ∧ g.call v s = (.error e, s))
  | .list c S => classKind c = .simple c false ∧ ∃ h e, makeFiller .check [] (.annotated (.iter c h) []) = .ok g ∧
      memberFiller .check [] h = .ok e ∧ e.isHollow = false ∧ S.Fills e
  | .either S T => ∃ h h' e e', makeFiller .check [] (.annotated (.union [h, h']) []) = .ok g ∧ memberFiller .check [] h = .ok e ∧
      memberFiller .check [] h' = .ok e' ∧ e.isHollow = false ∧ S.Fills e ∧ T.Fills e'
  | .record c _ => ∃ b, Ann.make .check (.simple c false) [] [looseToken] = .ok b ∧ g = .ann b

/-- a class with at least two required fields, the built-in parsers, and no `post_new` -/
structure Readable (C : RecClass W) : Prop where
  creatable : Creatable C
  post : PlainPost C
  free : FreeNames C
  unary : C.unary = true
  two : 2 ≤ C.required.length
  parsers : C.parsers = [.fromInstance, .fromJson, .fromMapping]

/-- `v` is a document of the schema: data as expected, a list of documents, a record of the class, or a mapping that has the
required fields of the class as keys, no keys other than its fields, and documents of their schemas as values -/
def Schema.Doc (E : Env W) (cls : W.Cls → RecClass W) : Schema W → W.Obj → Prop
  | .leaf D => D
  | .list c S => fun v => W.isInstance v c = true ∧ ∀ w ∈ W.elems v, S.Doc E cls w
  | .either S T => fun v => S.Doc E cls v ∨ T.Doc E cls v
  | .record c ks => fun v => W.isInstance v c = true ∨ ∃ m : Dict W.Obj, (∀ s, E.chainView v s = (.ok m, s)) ∧
      (∀ k ∈ m.map (·.1), k ∈ (cls c).fields.map (·.1)) ∧ (∀ k ∈ (cls c).required, k ∈ m.map (·.1)) ∧
      ∀ k w, (k, w) ∈ m → (ks k).Doc E cls w

/-- The classes of the schema read documents, their fields are declared for the schema, defaults are plain values; an object in `U` that is
no record of the class lacks one of its required attributes. The elements of a list in `U` are in `U`, and its class makes lists of what it
gets. No object in `U` is a document of both kinds of a union. -/
def Schema.OK (E : Env W) (cls : W.Cls → RecClass W) (U : W.Obj → Prop) : Schema W → Prop
  | .leaf _ => True
  | .list c S => W.isSub c c = true ∧ S.OK E cls U ∧ ∀ v, U v → W.isInstance v c = true → (∀ w ∈ W.elems v, U w) ∧ W.drains (W.typeOf v) = true ∧
      ∀ ws u, ∃ o, W.mkIter (W.typeOf v) ws u = (.ok o, u) ∧ W.elems o = ws ∧ W.typeOf o = W.typeOf v
  | .either S T => S.OK E cls U ∧ T.OK E cls U ∧ ∀ v, U v → ¬ (S.Doc E cls v ∧ T.Doc E cls v)
  | .record c ks => Readable (cls c) ∧ (cls c).cid = c ∧ W.isSub c c = true ∧
      (∀ k f, (k, f) ∈ (cls c).fields → (ks k).Fills f.filler ∧ (∀ g, f.default ≠ some (.factory g)) ∧ (ks k).OK E cls U) ∧
      ∀ v, U v → W.isInstance v c = false → ∃ val, Reads (Carrier.ofObj E v) val ∧ ∃ k ∈ (cls c).required, val k = none

/-- Objects `U` that are mappings with string keys (other than `arg`, `cls` and `self`) and values in `U`, or no mappings at all; they are
no JSON texts. -/
structure Documents (E : Env W) (U : W.Obj → Prop) : Prop where
  json : ∀ v, U v → ∃ e : Exc, e.isException = true ∧ ∀ s, E.jsonLoads v [] s = (.error e, s)
  view : ∀ v, U v → (∃ m : Dict W.Obj, m.WF ∧ (∀ s, E.chainView v s = (.ok m, s)) ∧ (∀ kv ∈ m, U kv.2) ∧
      ∀ k ∈ m.map (·.1), k ∉ ["self", "cls", "arg"]) ∨
    ∃ e : Exc, e.isException = true ∧ ∀ s, E.chainView v s = (.error e, s)
  rewrap : ∀ n e, E.rewrap n = .raises e → e.isException = true

/-- calling a record class as any other class (`W.construct`) does what the library does: `h` says which record an object is, and `n` is the
recursion depth of the constructor -/
def Constructs (E : Env W) (cls : W.Cls → RecClass W) (h : W.Obj → Node W) (U : W.Obj → Prop) (n : Nat) : Prop :=
  ∀ c v s, (cls c).cid = c → U v → W.isInstance v c = false → match callN E (cls c) n (some v) [] s with
    | (.ok (.new i), s') => ∃ o, W.construct c [v] [] s.user = (.ok o, s'.user) ∧ h o = .record i ∧ W.typeOf o = c
    | (.ok (.old o), s') => W.construct c [v] [] s.user = (.ok o, s'.user)
    | (.error e, s') => W.construct c [v] [] s.user = (.error e, s'.user)

/-- `o` is what the document `v` means: the object itself if it is data, a record of the class or a list of objects that mean themselves; else
a list of the same class with what the elements mean, or a record of the class with what the entries of the mapping mean, and defaults in the
other fields -/
def Schema.Read (E : Env W) (cls : W.Cls → RecClass W) (h : W.Obj → Node W) : Schema W → W.Obj → W.Obj → Prop
  | .leaf _ => fun v o => o = v
  | .list _ S => fun v o => ∃ ws, Along (S.Read E cls h) (W.elems v) ws ∧
      ((ws = W.elems v ∧ o = v) ∨ (ws ≠ W.elems v ∧ W.elems o = ws ∧ W.typeOf o = W.typeOf v))
  | .either S T => fun v o => (S.Doc E cls v ∧ S.Read E cls h v o) ∨ (T.Doc E cls v ∧ T.Read E cls h v o)
  | .record c ks => fun v o => (W.isInstance v c = true ∧ o = v) ∨ (W.isInstance v c = false ∧ ∃ (m : Dict W.Obj) (i : Inst W),
      (∀ s, E.chainView v s = (.ok m, s)) ∧ h o = .record i ∧ i.cid = c ∧ (i.dict.map (·.1)).Perm ((cls c).fields.map (·.1)) ∧
      (∀ k w, (k, w) ∈ m → ∃ x, i.dict.get? k = some x ∧ (ks k).Read E cls h w x) ∧
      ∀ k f, (k, f) ∈ (cls c).fields → k ∉ m.map (·.1) → ∃ d, f.default = some (.value d) ∧ i.dict.get? k = some d)

end Records
