import Verif.Spec.Class
import Verif.Spec.New
import Verif.Model.Instance
/-
All the ways to get a new instance of a record class, and what user code (defaults, `post_new`, user-defined parsers) has to do so
that every instance has a given property in a field.
-/
namespace Records
variable {W : World}

/-- the field `k` of the instance is set, to a value with the property -/
def Inst.Holds (k : String) (P : W.Obj → Prop) (i : Inst W) : Prop := ∃ w, i.dict.get? k = some w ∧ P w

/-- The new instances of `C` that the library can return: by calling the class with a positional argument, keywords or both, by
`parse`, by `from_mapping`, `from_instance`, `from_json` with or without a `Select`, by `from_pickle` (of an object that is parsed), by
`copy` and `deepcopy`. -/
inductive Obtained (E : Env W) (C : RecClass W) : Inst W → Prop
  | call {n arg kw s i s'} : callN E C n arg kw s = (.ok (.new i), s') → Obtained E C i
  | parse {n v s i s'} : parseN E C n v s = (.ok (.new i), s') → Obtained E C i
  | fromMapping {n sel maps kw s i s'} :
      fromMapping (fun m => callN E C n none m) sel maps kw s = (.ok (.new i), s') → Obtained E C i
  | fromInstance {n sel v maps kw s i s'} :
      fromInstance C (fun m => callN E C n none m) sel v maps kw s = (.ok (some (.new i)), s') → Obtained E C i
  | fromJson {n sel v kw s i s'} : fromJson E (fun m => callN E C n none m) sel v kw s = (.ok (.new i), s') → Obtained E C i
  | fromPickle {n loads s i s'} : fromPickleN E C n loads s = (.ok (.new i), s') → Obtained E C i
  | copy {n j s i s'} : copyInst E C n j s = (.ok (some (.new i)), s') → Obtained E C i
  | deepcopy {n deep j s i s'} : deepcopyInst E C n deep j s = (.ok (.new i), s') → Obtained E C i

/-- The user code of the class respects the property `P` of the field `k`: the default has it, `post_new` keeps it, and so do
instances made by `post_new` or by user-defined parsers. -/
structure Respects (C : RecClass W) (k : String) (P : W.Obj → Prop) : Prop where
  default : ∀ f d, C.fields.get? k = some f → f.default = some d → ∀ s w s', Makes d s (.ok w) s' → P w
  post : ∀ i s i' r s', C.postNew i s = (.ok (i', r), s') → i.Holds k P → i'.Holds k P ∧ ∀ j, r = some (.new j) → j.Holds k P
  parsers : ∀ g, Parser.user g ∈ C.parsers → ∀ v s j s', g v s = (.ok (.new j), s') → j.Holds k P

/-- The field `k` of `C` was declared, in `C` or in a class it derives from, with the type `t`, by a class statement with type checking
style `d` and a `pre_bind` that adds the tokens `toks` to the field. -/
inductive Declared (C : RecClass W) (k : String) (d : Style) (t : Hint W) (toks : List (Tok W)) : Prop
  | intro (sp : ClassSpec W) (R : RecClass W) (hh : FHint W) : sp.OK → (∀ p ∈ sp.parents, Creatable p) → mkClass sp = .ok R →
      Desc R C → (k, hh) ∈ sp.anns → hh.type? = some t → sp.style = d → sp.tokensFor k = toks.map (fun t => (none, t)) →
      Declared C k d t toks

/-- the operation does not assign or delete the attribute `k` -/
def Op.spares (k : String) : Op W → Prop
  | .set k' _ => k' ≠ k
  | .del k' => k' ≠ k
  | _ => True

end Records
