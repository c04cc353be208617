import Verif.Model.Tags
import Verif.Spec.Instance
/-
Tags by value.
-/
namespace Records
variable {W : World}

/-- two tags of the same type around equal objects -/
def SameTag (a b : Tag W) : Prop := a.cls = b.cls ∧ W.eq a.inner b.inner = true

/-- objects with one address are one object -/
def OneObject (l : List (Tag W)) : Prop := ∀ a ∈ l, ∀ b ∈ l, a.addr = b.addr → a = b

/-- the tags in a list of `Annotated` arguments -/
def listed : List (TTok W) → List (Tag W)
  | [] => []
  | .tag t :: l => t :: listed l
  | .other _ :: l => listed l

/-- `code` gives two of the tags the same number iff they are the same by value -/
def Numbers (code : Tag W → Nat) (l : List (Tag W)) : Prop := ∀ a ∈ l, ∀ b ∈ l, (code a = code b ↔ SameTag a b)

/-- the tokens with numbered tags, as in the other parts of the model -/
def numbered (code : Tag W → Nat) : TTok W → Tok W
  | .tag t => .tag (code t)
  | .other t => t

end Records
