import Verif.Model.Select
import Verif.Spec.Select
/- Reading the arguments of `Select(...)` as edit lists. -/
namespace Records.Spec
variable {V : Type}

/-- the entries a pair argument stands for -/
def pairEntries {β : Type} : PairArg β → List (String × β)
  | .mapping d => d
  | .iterable (.many l) => l
  | .iterable (.once l) => l

/-- the entries a key argument stands for: a single string is a single key -/
def keyEntries : KeyArg → List String
  | .str k => [k]
  | .iterable (.many l) => l
  | .iterable (.once l) => l

/-- not a one-shot iterator -/
def pairReiterable {β : Type} : PairArg β → Prop
  | .iterable (.once _) => False
  | _ => True

/-- not a one-shot iterator -/
def keyReiterable : KeyArg → Prop
  | .iterable (.once _) => False
  | _ => True

/-- the edit lists the arguments stand for -/
def argEdits (a : SelectArgs V) : Edits V where
  remove := keyEntries a.remove
  maybeRemove := keyEntries a.maybeRemove
  rename := pairEntries a.rename
  maybeRename := pairEntries a.maybeRename
  add := pairEntries a.add
  maybeAdd := pairEntries a.maybeAdd

/-- no argument is a one-shot iterator -/
def Reiterable (a : SelectArgs V) : Prop :=
  pairReiterable a.add ∧ pairReiterable a.maybeAdd ∧ keyReiterable a.remove ∧ keyReiterable a.maybeRemove ∧
    pairReiterable a.rename ∧ pairReiterable a.maybeRename

end Records.Spec
