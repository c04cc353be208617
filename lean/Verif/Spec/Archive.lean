import Verif.Spec.Documents
import Verif.Spec.Nested
/-
Specification of nested records exported as nested mappings.
-/
namespace Records
variable {W : World}

/-- `v` is `x` with its records replaced, at every level, by mappings with the entries that `to_dict` returns for them, their values replaced
in the same way; `to_dict` may be called with any options that drop nothing but defaults, not necessarily the same for all records. Data, and
records left in place, may be replaced by equal ones (by way of JSON, say). -/
def Schema.Flat (E : Env W) (cls : W.Cls → RecClass W) (h : W.Obj → Node W) : Schema W → W.Obj → W.Obj → Prop
  | .leaf D => fun x v => D v ∧ SameTree cls h x v
  | .list c S => fun x v => W.isInstance v c = true ∧ W.typeOf v = W.typeOf x ∧
      Along (S.Flat E cls h) (W.elems x) (W.elems v)
  | .either S T => fun x v => S.Flat E cls h x v ∨ T.Flat E cls h x v
  | .record c ks => fun x v => (W.isInstance v c = true ∧ SameTree cls h x v) ∨
      (W.isInstance v c = false ∧ ∃ (i : Inst W) (o : ExportOpts) (black : List Nat) (d m : Dict W.Obj) (s s' : LState W),
        h x = .record i ∧ i.cid = c ∧ Full (cls c) i ∧ o.blacklist = .tags black ∧ DropsOnlyDefaults (cls c) i black o.whitelist ∧
        toDict (cls c) (.ofInst E i) o Sel.empty s = (.ok d, s') ∧ (∀ s, E.chainView v s = (.ok m, s)) ∧
        (∀ k, k ∈ m.map (·.1) ↔ k ∈ d.map (·.1)) ∧ ∀ k w y, (k, w) ∈ m → (k, y) ∈ d → (ks k).Flat E cls h y w)

/-- the default of a field is equal to objects that are trees of its shape only (see C122) -/
def Schema.TreeDefaults (cls : W.Cls → RecClass W) (h : W.Obj → Node W) : Schema W → Prop
  | .leaf _ => True
  | .list _ S => S.TreeDefaults cls h
  | .either S T => S.TreeDefaults cls h ∧ T.TreeDefaults cls h
  | .record c ks => ∀ k f, (k, f) ∈ (cls c).fields →
      (∀ d y, f.default = some (.value d) → W.eq d y = true → SameTree cls h y d) ∧ (ks k).TreeDefaults cls h

/-- the objects of the classes declared as lists are lists of their elements -/
def Schema.ListKinds (cls : W.Cls → RecClass W) (h : W.Obj → Node W) : Schema W → Prop
  | .leaf _ => True
  | .list c S => (∀ o, W.isInstance o c = true → h o = .list (W.elems o)) ∧ S.ListKinds cls h
  | .either S T => S.ListKinds cls h ∧ T.ListKinds cls h
  | .record c ks => ∀ k ∈ (cls c).fields.map (·.1), (ks k).ListKinds cls h

end Records
