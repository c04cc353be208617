import Verif.Spec.SelectArgs
import Verif.Model.OneShot
/-
Specification of a `Select` made from iterables some of which are one-shot iterators: which entries take part in which use.
-/
namespace Records.Spec
variable {V : Type}

/-- is the argument a one-shot iterator? -/
def pairOnce {β : Type} : PairArg β → Bool
  | .iterable (.once _) => true
  | _ => false

/-- is the argument a one-shot iterator? -/
def keyOnce : KeyArg → Bool
  | .iterable (.once _) => true
  | _ => false

/-- without the first entry, if the iterable is one-shot -/
def dropFirst {α : Type} (once : Bool) (l : List α) : List α := if once then l.tail else l

/-- without any entry, if the iterable is one-shot -/
def dropAll {α : Type} (once : Bool) (l : List α) : List α := if once then [] else l

/-- The entries at the first use: the truth test has taken the first entry of the first argument with entries (in the order add, maybe
add, remove, maybe remove, rename, maybe rename), which is lost if that argument is a one-shot iterator. -/
def firstUse (a : SelectArgs V) : Edits V :=
  let e := argEdits a
  match e.add, e.maybeAdd, e.remove, e.maybeRemove, e.rename with
  | _ :: _, _, _, _, _ => { e with add := dropFirst (pairOnce a.add) e.add }
  | [], _ :: _, _, _, _ => { e with maybeAdd := dropFirst (pairOnce a.maybeAdd) e.maybeAdd }
  | [], [], _ :: _, _, _ => { e with remove := dropFirst (keyOnce a.remove) e.remove }
  | [], [], [], _ :: _, _ => { e with maybeRemove := dropFirst (keyOnce a.maybeRemove) e.maybeRemove }
  | [], [], [], [], _ :: _ => { e with rename := dropFirst (pairOnce a.rename) e.rename }
  | [], [], [], [], [] => { e with maybeRename := dropFirst (pairOnce a.maybeRename) e.maybeRename }

/-- the entries at later uses: those of the re-iterable arguments -/
def laterUse (a : SelectArgs V) : Edits V where
  remove := dropAll (keyOnce a.remove) (argEdits a).remove
  maybeRemove := dropAll (keyOnce a.maybeRemove) (argEdits a).maybeRemove
  rename := dropAll (pairOnce a.rename) (argEdits a).rename
  maybeRename := dropAll (pairOnce a.maybeRename) (argEdits a).maybeRename
  add := dropAll (pairOnce a.add) (argEdits a).add
  maybeAdd := dropAll (pairOnce a.maybeAdd) (argEdits a).maybeAdd

/-- the entries `from_instance` applies at the first use: reading the attributes has used up the one-shot iterators of keys to remove,
rename, maybe rename and add -/
def instanceUse (a : SelectArgs V) : Edits V :=
  { laterUse a with maybeRemove := (firstUse a).maybeRemove, maybeAdd := (firstUse a).maybeAdd }

/-- the arguments as tuples -/
def tuples (e : Edits V) : SelectArgs V where
  add := .iterable (.many e.add)
  maybeAdd := .iterable (.many e.maybeAdd)
  remove := .iterable (.many e.remove)
  maybeRemove := .iterable (.many e.maybeRemove)
  rename := .iterable (.many e.rename)
  maybeRename := .iterable (.many e.maybeRename)

/-- `from_instance` that reads the attributes for a Select from tuples with the entries `e`, applies one with the entries `e'`, and never
returns the object itself -/
def freshInstance {W : World} (C : RecClass W) (call : Dict W.Obj → M W (Res W)) (e e' : Edits W.Obj) (v : Carrier W)
    (maps : List (Dict W.Obj)) (kw : Dict W.Obj) : M W (Option (Res W)) :=
  if clash ["self", "cls", "v", "_select"] kw then M.throw .typeError
  else M.bind (toDict C v {} (tuples e).mk') fun d =>
    match maps with
    | [] => M.bind (buildFrom call (tuples e').mk' (d.update kw)) fun r => M.pure (some r)
    | [m] => M.bind (buildFrom call (tuples e').mk' ((d.update m).update kw)) fun r => M.pure (some r)
    | _ => M.throw .typeError

/-- the use returns something -/
def Succeeds {W : World} (sel : Sel W.Obj) (s : LState W) : SUse W → Prop
  | .mapping call maps kw => ∃ r, (fromMappingS call sel maps kw s).1.1 = .ok r
  | .instance C call v maps kw => ∃ r, (fromInstanceS C call sel v maps kw s).1.1 = .ok r
  | .json E call v kw => ∃ r, (fromJsonS E call sel v kw s).1.1 = .ok r

end Records.Spec
