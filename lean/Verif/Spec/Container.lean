import Verif.Model.Filler
import Verif.Spec.Filler
import Verif.Spec.Union
/-
Specification vocabulary for container fields.
-/
namespace Records
variable {W : World}

/-- Every object is filled once, with its filler, in order, from the state the previous one left; all succeed. -/
inductive FillSeq : List (W.Obj × (W.Obj → M W W.Obj)) → LState W → List W.Obj → LState W → Prop
  | nil (s) : FillSeq [] s [] s
  | cons {e f es s w s1 ws s2} : Returns (f e) s w s1 → FillSeq es s1 ws s2 → FillSeq ((e, f) :: es) s (w :: ws) s2

/-- The objects are filled in order until one fails; the results before it. -/
inductive FillSeqFails : List (W.Obj × (W.Obj → M W W.Obj)) → LState W → List W.Obj → Exc → LState W → Prop
  | here {e f es s x s1} : Raises (f e) s x s1 → FillSeqFails ((e, f) :: es) s [] x s1
  | later {e f es s w s1 ws x s2} : Returns (f e) s w s1 → FillSeqFails es s1 ws x s2 → FillSeqFails ((e, f) :: es) s (w :: ws) x s2

/-- keys and values alternately: the objects of a mapping in the order they are filled -/
def interleave (fk fv : W.Obj → M W W.Obj) : List (W.Obj × W.Obj) → List (W.Obj × (W.Obj → M W W.Obj))
  | [] => []
  | (k, v) :: l => (k, fk) :: (v, fv) :: interleave fk fv l

/-- the pairs of an alternating list of keys and values -/
def pairUp : List W.Obj → List (W.Obj × W.Obj)
  | k :: v :: l => (k, v) :: pairUp l
  | _ => []

/-- the tokens applied in `pre_bind` to the field itself -/
def ownTokens (pre : List (Option Int × Tok W)) : List (Tok W) :=
  pre.filterMap fun p => match p.1 with | none => some p.2 | some _ => none

/-- the tokens applied in `pre_bind` to part `j` (of `n`): key `j`, or (`neg`) the negative key `j - n` -/
def partTokens (neg : Bool) (n j : Nat) (pre : List (Option Int × Tok W)) : List (Tok W) :=
  pre.filterMap fun p => if p.1 = some (j : Int) ∨ (neg = true ∧ p.1 = some ((j : Int) - n)) then some p.2 else none

/-- Hints filled element by element: the class, the hint of the elements, is it a deque?, is it a tuple?
(`List[h]`, `Set[h]`, `Sequence[h]`, ...; `Tuple[h, ...]`; `Deque[h]`) -/
inductive ElementWise : Hint W → W.Cls → Hint W → (deque tuple : Bool) → Prop
  | iter (c h) : ElementWise (.iter c h) c h false false
  | tuple (h) : ElementWise (.tupleVar h) W.tupleCls h false true
  | deque (c h) : ElementWise (.deque c h) c h true false

/-- Hints filled pair by pair: class, hints of keys and values, is it a defaultdict? -/
inductive PairWise : Hint W → W.Cls → Hint W → Hint W → (dd : Bool) → Prop
  | mapping (c k v) : PairWise (.mapping c k v) c k v false
  | defaultdict (c k v) : PairWise (.defaultdict c k v) c k v true

end Records
