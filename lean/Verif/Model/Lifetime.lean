import Verif.Model.Nested
/-
What a program can do to objects that exist already: lists and dicts get other contents, records are assigned to, hashed, compared and
exported (record.py:281-289, 411-429); and new objects are made.

The state is that of `deepcopy` (its memo is not used).
Simplifications: atoms and tuples cannot be changed; changing a list or dict is replacing its contents in one step; what `hash` of the
field values answers at the time of an operation is part of the operation.
-/
namespace Records
variable {W : World}

/-- an operation on objects -/
inductive LifeOp (W : World)
  /-- `a.append(...)`, `a.sort()`, `a[:] = ...`: the list `a` then contains `xs` -/
  | items (a : W.Obj) (xs : List W.Obj)
  /-- `a[k] = v`, `a.clear()`, ...: the dict `a` then contains `m` -/
  | entries (a : W.Obj) (m : Dict W.Obj)
  /-- one of the operations on the record `a` -/
  | use (a : W.Obj) (H : Hasher W) (op : Op W)
  /-- `a == b` of two records -/
  | compare (a b : W.Obj) (H : Hasher W)
  /-- a new object -/
  | make (nd : Node W)

/-- what it does; operations on objects of another kind raise and change nothing (record.py:281-289, 411-429) -/
def LifeOp.run (X : CopyEnv W) (σ : CState W) : LifeOp W → CState W
  | .items a xs => match σ.heap a with
    | .list _ => σ.put a (.list xs)
    | _ => σ
  | .entries a m => match σ.heap a with
    | .dict _ => σ.put a (.dict m)
    | _ => σ
  | .use a H op => match σ.heap a with
    | .record i =>
      let r := op.run X.env H (X.cls i.cid) i σ.st
      { σ.put a (.record r.2.1) with st := r.2.2 }
    | _ => σ
  | .compare a b H => match σ.heap a, σ.heap b with
    | .record i, .record j =>
      let r := eqInst X.env H (X.cls i.cid) i j σ.st
      { (σ.put a (.record r.2.1)).put b (.record r.2.2.1) with st := r.2.2.2 }
    | _, _ => σ
  | .make nd => σ.alloc X nd

/-- a program; exceptions are caught -/
def lifetime (X : CopyEnv W) : List (LifeOp W) → CState W → CState W
  | [], σ => σ
  | op :: ops, σ => lifetime X ops (op.run X σ)

end Records
