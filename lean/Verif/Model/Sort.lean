import Verif.Model.Instance
/-
Sorting records: `sorted(records)` and `list.sort` ask records only for `a < b` (record.py:672-676).

The algorithm is left open: a sorting algorithm for a list of given length is a decision tree of such questions.
-/
namespace Records
variable {W : World}

/-- A comparison sort: ask whether item `i` is smaller than item `j` and go on accordingly, or give the result, as positions in the
input. -/
inductive Sorter
  | done (order : List Nat)
  | ask (i j : Nat) (yes no : Sorter)

/-- the algorithm at work: `lt i j` is the answer to `items[i] < items[j]`, an exception ends it -/
def Sorter.run (lt : Nat → Nat → Except Exc Bool) : Sorter → Except Exc (List Nat)
  | .done order => .ok order
  | .ask i j yes no => match lt i j with
    | .error e => .error e
    | .ok true => yes.run lt
    | .ok false => no.run lt

/-- `records[i] < records[j]` for records of one class (record.py:672-676) -/
def askRecs (E : Env W) (O : ObjCmp W) (C : RecClass W) (recs : List (Inst W)) (i j : Nat) : Except Exc Bool :=
  match recs[i]?, recs[j]? with
  | some a, some b => compare E O .lt C a C b
  | _, _ => .error .indexError

/-- `sorted(records)` -/
def sortRecs (E : Env W) (O : ObjCmp W) (C : RecClass W) (t : Sorter) (recs : List (Inst W)) : Except Exc (List (Inst W)) :=
  (t.run (askRecs E O C recs)).map fun order => order.filterMap fun i => recs[i]?

/-- `records[i] < records[j]` for records of several classes; `cls` gives the class of a class object (record.py:672-676) -/
def askKin (E : Env W) (O : ObjCmp W) (cls : W.Cls → RecClass W) (recs : List (Inst W)) (i j : Nat) : Except Exc Bool :=
  match recs[i]?, recs[j]? with
  | some a, some b => compare E O .lt (cls a.cid) a (cls b.cid) b
  | _, _ => .error .indexError

/-- `sorted(records)` of records of several classes -/
def sortKin (E : Env W) (O : ObjCmp W) (cls : W.Cls → RecClass W) (t : Sorter) (recs : List (Inst W)) : Except Exc (List (Inst W)) :=
  (t.run (askKin E O cls recs)).map fun order => order.filterMap fun i => recs[i]?

end Records
