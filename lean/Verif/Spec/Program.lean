import Verif.Model.Program
/-
Specification vocabulary for programs: attribute lookup stated over the method resolution order, without the functions of
the model.
-/
namespace Records
variable {W : World}

/-- `b` is what the nearest class of the order has: some class of the order has `b`, and no class before it has anything -/
def Nearest {β : Type} (tbl : List (PyClass W)) (g : PyClass W → Option β) (mro : List W.Cls) (b : β) : Prop :=
  ∃ pre d post, mro = pre ++ d :: post ∧ (∃ k ∈ tbl, k.cid = d ∧ g k = some b) ∧
    ∀ e ∈ pre, ∀ k ∈ tbl, k.cid = e → g k = none

/-- `n` resolves to `a` on the class with order `mro` -/
def Resolves (tbl : List (PyClass W)) (mro : List W.Cls) (n : String) (a : Attr W) : Prop :=
  Nearest tbl (fun k => k.dict.get? n) mro a

/-- no class of the order has an attribute `n` -/
def LacksAttr (tbl : List (PyClass W)) (mro : List W.Cls) (n : String) : Prop :=
  ∀ d ∈ mro, ∀ k ∈ tbl, k.cid = d → k.dict.get? n = none

/-- `k` is a superclass of `c` (or `c` itself) -/
def Super (k c : PyClass W) : Prop := k.cid ∈ c.mro

/-- `C` is the record part of the class `c` of the program -/
def IsRecord (tbl : List (PyClass W)) (c : PyClass W) (C : RecClass W) : Prop := c ∈ tbl ∧ c.rcd = some C

/-- the elements of a list in order of their first occurrence -/
def firstOccurrences : List String → List String
  | [] => []
  | a :: l => a :: (firstOccurrences l).filter fun b => decide (b ≠ a)

/-- the names annotated in the classes of the order, from the last class to the first -/
def annotated (tbl : List (PyClass W)) (mro : List W.Cls) : List String :=
  mro.reverse.flatMap fun d => tbl.flatMap fun k => if k.cid = d then k.anns else []

/-- the names annotated in the body that are no `ClassVar`, in order (the last annotation of a name counts) -/
def PyStmt.ownFieldNames (st : PyStmt W) : List String :=
  (firstOccurrences (st.anns.map (·.1))).filter fun n =>
    match (st.anns.reverse.find? fun a => decide (a.1 = n)) with
    | some (_, .classVar) => false
    | some _ => true
    | none => false

end Records
