import Verif.Model.Filler
/-
Specification vocabulary for Union fields: what "running all members" means.
-/
namespace Records
variable {W : World}

/-- The filler of a part (union member or container element) declared by hint `h`, in a class with default style `d`,
after the tokens `toks` (those of the union; those applied to the part in `pre_bind`) were applied to it. -/
def memberFiller (d : Style) (toks : List (Tok W)) (h : Hint W) : Except Exc (F W) :=
  match getFiller h with
  | .error e => .error e
  | .ok f => match f.applyAll toks with
    | .ok f => f.bind d
    | .error e => .error e

/-- Every member is tried once, in order, from the state the previous one left; the outcomes are returned values with
their match kind, or ordinary exceptions. -/
inductive AllTried (v : W.Obj) : List (F W) → LState W → List (Except Exc (W.Obj × TPK)) → LState W → Prop
  | nil (s) : AllTried v [] s [] s
  | cons {f fs s r s1 rs s2} : f.fill v s = (r, s1) → (∀ e, r = .error e → e.isException = true) →
      AllTried v fs s1 rs s2 → AllTried v (f :: fs) s (r :: rs) s2

/-- `(w, k)` is the outcome of a member with the best match kind, and all members with that kind gave the same object -/
def Best (rs : List (Except Exc (W.Obj × TPK))) (w : W.Obj) (k : TPK) : Prop :=
  .ok (w, k) ∈ rs ∧ ∀ x j, .ok (x, j) ∈ rs → k.rank ≤ j.rank ∧ (j = k → x = w)

/-- two members matched with the best kind but gave different objects -/
def Ambiguous (rs : List (Except Exc (W.Obj × TPK))) : Prop :=
  ∃ w x k, .ok (w, k) ∈ rs ∧ .ok (x, k) ∈ rs ∧ w ≠ x ∧ ∀ y j, .ok (y, j) ∈ rs → k.rank ≤ j.rank

end Records
