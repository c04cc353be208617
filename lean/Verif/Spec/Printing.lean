import Verif.Model.Printing
import Verif.Spec.Pickling
import Verif.Spec.Repr
/-
Specification for printing objects that contain each other.
-/
namespace Records
variable {W : World}

/-- what is shown of an object: elements, values of dicts, values of fields other than defaults -/
def Node.printed (cls : W.Cls → RecClass W) : Node W → List W.Obj
  | .atom => []
  | .list xs => xs
  | .tuple xs => xs
  | .dict m => m.values
  | .record i => (shown (cls i.cid) i).values

/-- `b` is shown in `a`, at some depth -/
inductive Shows (cls : W.Cls → RecClass W) (h : W.Obj → Node W) : W.Obj → W.Obj → Prop
  | refl (a) : Shows cls h a a
  | step {a c b} : c ∈ (h a).printed cls → Shows cls h c b → Shows cls h a b

def HoldsRecord (h : W.Obj → Node W) (a : W.Obj) : Prop := ∃ i, h a = .record i

/-- the record `b` is shown in a field of a record that is shown in a field of … the record `a`, without lists, tuples or dicts between -/
inductive FieldChain (cls : W.Cls → RecClass W) (h : W.Obj → Node W) : W.Obj → W.Obj → Prop
  | one {a b} : HoldsRecord h a → HoldsRecord h b → b ∈ (h a).printed cls → FieldChain cls h a b
  | more {a b c} : FieldChain cls h a b → HoldsRecord h c → c ∈ (h b).printed cls → FieldChain cls h a c

/-- the records shown in `a` have all their fields -/
def Printable (cls : W.Cls → RecClass W) (h : W.Obj → Node W) (a : W.Obj) : Prop :=
  ∀ r i, Shows cls h a r → h r = .record i → Creatable (cls i.cid) ∧ Full (cls i.cid) i

/-- `t` is the text of `a` inside the containers `busy`: the texts of what is shown of it, in order, each inside `a` too if that is a
container; `[...]` and the like for a container inside itself -/
inductive TextOf (T : Texts W) (cls : W.Cls → RecClass W) (h : W.Obj → Node W) : List W.Obj → W.Obj → String → Prop
  | leaf {busy a} : h a = .atom → TextOf T cls h busy a (T.leaf a)
  | list {busy a xs ts} : h a = .list xs → a ∉ busy → ts.length = xs.length →
      (∀ (n : Nat) x t, xs[n]? = some x → ts[n]? = some t → TextOf T cls h (a :: busy) x t) →
      TextOf T cls h busy a ("[" ++ ", ".intercalate ts ++ "]")
  | listCut {busy a xs} : h a = .list xs → a ∈ busy → TextOf T cls h busy a "[...]"
  | single {busy a x t} : h a = .tuple [x] → a ∉ busy → TextOf T cls h (a :: busy) x t → TextOf T cls h busy a ("(" ++ t ++ ",)")
  | tuple {busy a xs ts} : h a = .tuple xs → xs.length ≠ 1 → a ∉ busy → ts.length = xs.length →
      (∀ (n : Nat) x t, xs[n]? = some x → ts[n]? = some t → TextOf T cls h (a :: busy) x t) →
      TextOf T cls h busy a ("(" ++ ", ".intercalate ts ++ ")")
  | tupleCut {busy a xs} : h a = .tuple xs → a ∈ busy → TextOf T cls h busy a "(...)"
  | dict {busy a m ts} : h a = .dict m → a ∉ busy → ts.length = m.length →
      (∀ (n : Nat) k x t, m[n]? = some (k, x) → ts[n]? = some t → TextOf T cls h (a :: busy) x t) →
      TextOf T cls h busy a ("{" ++ ", ".intercalate (List.zipWith (fun kv t => T.key kv.1 ++ ": " ++ t) m ts) ++ "}")
  | dictCut {busy a m} : h a = .dict m → a ∈ busy → TextOf T cls h busy a "{...}"
  | record {busy a i ts} : h a = .record i → ts.length = (shown (cls i.cid) i).length →
      (∀ (n : Nat) k x t, (shown (cls i.cid) i)[n]? = some (k, x) → ts[n]? = some t → TextOf T cls h busy x t) →
      TextOf T cls h busy a
        (T.qual i.cid ++ "(" ++ ", ".intercalate (List.zipWith (fun kv t => kv.1 ++ "=" ++ t) (shown (cls i.cid) i) ts) ++ ")")

/-- the texts of leaves and keys shown in `a` are single arguments; classes and fields have plain names (C116) -/
structure LegibleIn (T : Texts W) (cls : W.Cls → RecClass W) (h : W.Obj → Node W) (a : W.Obj) : Prop where
  leaves : ∀ r, Shows cls h a r → h r = .atom → OneArg (T.leaf r)
  keys : ∀ r m, Shows cls h a r → h r = .dict m → ∀ k ∈ m.keys, OneArg (T.key k)
  names : ∀ r i, Shows cls h a r → h r = .record i → PlainName (T.qual i.cid) ∧ ∀ k ∈ (cls i.cid).fields.map (·.1), PlainName k

/-- the second object shows the counterparts of what the first one shows, in the same places -/
inductive LooksLike (cls : W.Cls → RecClass W) (φ : W.Obj → W.Obj → Prop) : Node W → Node W → Prop
  | list {xs ys} : Along φ xs ys → LooksLike cls φ (.list xs) (.list ys)
  | tuple {xs ys} : Along φ xs ys → LooksLike cls φ (.tuple xs) (.tuple ys)
  | dict {m m' : Dict W.Obj} : m'.keys = m.keys → Along φ m.values m'.values → LooksLike cls φ (.dict m) (.dict m')
  | record {i j} : j.cid = i.cid → (shown (cls i.cid) j).keys = (shown (cls i.cid) i).keys →
      Along φ (shown (cls i.cid) i).values (shown (cls i.cid) j).values → LooksLike cls φ (.record i) (.record j)

/-- `φ` takes objects of the heap `h` one-to-one to objects of the heap `h'` that look alike; objects without parts have the same `repr` -/
structure LookAlike (T : Texts W) (cls : W.Cls → RecClass W) (h h' : W.Obj → Node W) (φ : W.Obj → W.Obj → Prop) : Prop where
  same : ∀ a b b', φ a b → φ a b' → b = b'
  distinct : ∀ a a' b, φ a b → φ a' b → a = a'
  looks : ∀ a b, φ a b → h a = .atom ∧ h' b = .atom ∧ T.leaf a = T.leaf b ∨ LooksLike cls φ (h a) (h' b)

/-- the defaults of the classes are equal to themselves, and do not tell objects from their counterparts -/
structure DefaultsAgree (cls : W.Cls → RecClass W) (φ : W.Obj → W.Obj → Prop) : Prop where
  refl : ∀ c k f d, (k, f) ∈ (cls c).fields → f.default = some (.value d) → W.eq d d = true
  same : ∀ c k f d v w, (k, f) ∈ (cls c).fields → f.default = some (.value d) → φ v w → W.eq d v = W.eq d w

end Records
