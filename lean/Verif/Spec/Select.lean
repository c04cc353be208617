import Verif.Model.Base
/-
Independent specification of selection: mappings are functions `String → Option V`, and a Select is a script
of single edits, executed in order until one fails.  Nothing here refers to the model of `Select`.
-/
namespace Records.Spec

/-- a mapping, seen as a partial function -/
abbrev AMap (V : Type) := String → Option V

/-- `m` with `k` mapped to `o` (`none`: not present) -/
def AMap.upd {V : Type} (m : AMap V) (k : String) (o : Option V) : AMap V :=
  fun k' => if k' = k then o else m k'

/-- the documented single edits -/
inductive Edit (V : Type)
  | remove (k : String)
  | maybeRemove (k : String)
  | rename (s d : String)
  | maybeRename (s d : String)
  | add (k : String) (v : V)
  | maybeAdd (k : String) (v : V)

/-- meaning of one edit -/
def Edit.apply {V : Type} : Edit V → AMap V → Except ExcKind (AMap V)
  | .remove k, m => match m k with
    | none => .error .keyError
    | some _ => .ok (m.upd k none)
  | .maybeRemove k, m => .ok (m.upd k none)
  | .rename s d, m => match m d, m s with
    | some _, _ => .error .valueError
    | none, none => .error .keyError
    | none, some v => .ok ((m.upd s none).upd d (some v))
  | .maybeRename s d, m => match m s, m d with
    | none, _ => .ok m
    | some _, some _ => .error .valueError
    | some v, none => .ok ((m.upd s none).upd d (some v))
  | .add k v, m => match m k with
    | some _ => .error .valueError
    | none => .ok (m.upd k (some v))
  | .maybeAdd k v, m => match m k with
    | some _ => .ok m
    | none => .ok (m.upd k (some v))

/-- run a script of edits; the first failing edit decides the exception -/
def runScript {V : Type} : List (Edit V) → AMap V → Except ExcKind (AMap V)
  | [], m => .ok m
  | e :: es, m => match e.apply m with
    | .error k => .error k
    | .ok m' => runScript es m'

/-- the six argument lists of a `Select` -/
structure Edits (V : Type) where
  remove : List String := []
  maybeRemove : List String := []
  rename : List (String × String) := []
  maybeRename : List (String × String) := []
  add : List (String × V) := []
  maybeAdd : List (String × V) := []

/-- the documented execution order -/
def Edits.script {V : Type} (e : Edits V) : List (Edit V) :=
  e.remove.map .remove ++ e.maybeRemove.map .maybeRemove ++ e.rename.map (fun p => .rename p.1 p.2)
    ++ e.maybeRename.map (fun p => .maybeRename p.1 p.2) ++ e.add.map (fun p => .add p.1 p.2)
    ++ e.maybeAdd.map (fun p => .maybeAdd p.1 p.2)

/-- list-wise concatenation -/
def Edits.append {V : Type} (a b : Edits V) : Edits V where
  remove := a.remove ++ b.remove
  maybeRemove := a.maybeRemove ++ b.maybeRemove
  rename := a.rename ++ b.rename
  maybeRename := a.maybeRename ++ b.maybeRename
  add := a.add ++ b.add
  maybeAdd := a.maybeAdd ++ b.maybeAdd

/-- all keys a Select mentions -/
def Edits.mentioned {V : Type} (e : Edits V) : List String :=
  e.remove ++ e.maybeRemove ++ e.rename.map (·.1) ++ e.rename.map (·.2) ++ e.maybeRename.map (·.1)
    ++ e.maybeRename.map (·.2) ++ e.add.map (·.1) ++ e.maybeAdd.map (·.1)

/-- keep the pairs whose key is not in `seen` and did not occur before -/
def firstNew {V : Type} : List String → List (String × V) → List (String × V)
  | _, [] => []
  | seen, kv :: l => if kv.1 ∈ seen then firstNew seen l else kv :: firstNew (kv.1 :: seen) l

/-- position of an edit kind in the documented execution order -/
def Edit.phase {V : Type} : Edit V → Nat
  | .remove _ => 0
  | .maybeRemove _ => 1
  | .rename _ _ => 2
  | .maybeRename _ _ => 3
  | .add _ _ => 4
  | .maybeAdd _ _ => 5

/-- no edit of `b` is of a kind executed before the kind of some edit of `a` -/
def Edits.before {V : Type} (a b : Edits V) : Prop :=
  ∀ x ∈ a.script, ∀ y ∈ b.script, x.phase ≤ y.phase

end Records.Spec
