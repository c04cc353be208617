import Verif.Model.Sort
import Verif.Spec.Instance
/-
Specification of sorting.
-/
namespace Records
variable {W : World}

/-- `lt` on the positions below `n` is a strict weak order -/
structure StrictWeak (n : Nat) (lt : Nat → Nat → Bool) : Prop where
  irrefl : ∀ i, i < n → lt i i = false
  trans : ∀ i j k, i < n → j < n → k < n → lt i j = true → lt j k = true → lt i k = true
  incomp : ∀ i j k, i < n → j < n → k < n → lt i k = true → lt i j = true ∨ lt j k = true

/-- the positions in sorted order, equivalent ones in the order of the input -/
structure StableOrder (n : Nat) (lt : Nat → Nat → Bool) (order : List Nat) : Prop where
  perm : order.Perm (List.range n)
  sorted : order.Pairwise fun i j => lt i j = true ∨ lt j i = false ∧ i < j

/-- The algorithm asks only about positions of the input, and sorts stably by any strict weak order (Python's contract). -/
structure StableSort (n : Nat) (t : Sorter) : Prop where
  works : ∀ lt, StrictWeak n lt → ∃ order, t.run (fun i j => if i < n ∧ j < n then .ok (lt i j) else .error .indexError) = .ok order ∧
    StableOrder n lt order

/-- `b` does not come before `a` in the lexicographic order of the fields that count -/
def LexLe (le : String → W.Obj → W.Obj → Prop) (names : List String) (a b : Inst W) : Prop := LexLt le names a b ∨ LexEq names a b

/-- records of the class whose (non-excluded) field values are totally ordered -/
structure Sortable (C : RecClass W) (D : String → W.Obj → Prop) (recs : List (Inst W)) : Prop where
  cls : ∀ a ∈ recs, a.cid = C.cid
  dom : ∀ a ∈ recs, InDomain C D a

/-- the lists agree position by position -/
def Along {α β : Type} (r : α → β → Prop) : List α → List β → Prop
  | [], [] => True
  | a :: as, b :: bs => r a b ∧ Along r as bs
  | _, _ => False

end Records
