import Verif.Model.New
/-
Specification of field construction (`C(**kwargs)` once the positional argument is dealt with): a relational account of what
can happen.  It uses the data of the class and the fillers of the fields, but none of the functions of Model/New.lean except
`rewrapErr` (the error of a failed filling, specified by C60).
-/
namespace Records
variable {W : World}

/-- the arguments are filled one after the other -/
inductive FillArgs (fields : Dict (Field W)) : Dict W.Obj → LState W → Dict W.Obj → LState W → Prop
  | nil (s) : FillArgs fields [] s [] s
  | cons {k v kw s f w s1 out s2} : fields.get? k = some f → f.filler.call v s = (.ok w, s1) → FillArgs fields kw s1 out s2 →
      FillArgs fields ((k, v) :: kw) s ((k, w) :: out) s2

/-- the arguments are filled one after the other until the filler of `k` raises `e` -/
inductive FillArgsFail (fields : Dict (Field W)) : Dict W.Obj → LState W → String → Exc → LState W → Prop
  | here {k v kw s f e s1} : fields.get? k = some f → f.filler.call v s = (.error e, s1) →
      FillArgsFail fields ((k, v) :: kw) s k e s1
  | there {k v kw s f w s1 k' e s2} : fields.get? k = some f → f.filler.call v s = (.ok w, s1) →
      FillArgsFail fields kw s1 k' e s2 → FillArgsFail fields ((k, v) :: kw) s k' e s2

/-- a default: the plain value itself, or what the factory returns -/
inductive Makes : Deflt W → LState W → Except Exc W.Obj → LState W → Prop
  | value (v s) : Makes (.value v) s (.ok v) s
  | factory {f s r s'} : f s = (r, s') → Makes (.factory f) s r s'

/-- the defaults of these names are made one after the other -/
inductive DefaultSeq (fields : Dict (Field W)) : List String → LState W → Dict W.Obj → LState W → Prop
  | nil (s) : DefaultSeq fields [] s [] s
  | cons {k f d ks s w s1 out s2} : fields.get? k = some f → f.default = some d → Makes d s (.ok w) s1 →
      DefaultSeq fields ks s1 out s2 → DefaultSeq fields (k :: ks) s ((k, w) :: out) s2

/-- the defaults are made one after the other until a factory raises `e` -/
inductive DefaultFail (fields : Dict (Field W)) : List String → LState W → Exc → LState W → Prop
  | here {k f d ks s e s1} : fields.get? k = some f → f.default = some d → Makes d s (.error e) s1 →
      DefaultFail fields (k :: ks) s e s1
  | there {k f d ks s w s1 e s2} : fields.get? k = some f → f.default = some d → Makes d s (.ok w) s1 →
      DefaultFail fields ks s1 e s2 → DefaultFail fields (k :: ks) s e s2

/-- what field construction comes to -/
inductive Outcome (W : World)
  | unknownKey
  | fillError (k : String) (e : Exc)
  | missing
  | factoryError (e : Exc)
  | postError (e : Exc)
  | made (r : Res W)

/-- the fresh instance with these attributes -/
def RecClass.fresh (C : RecClass W) (values : Dict W.Obj) : Inst W :=
  ⟨C.cid, values, if C.frozen then some none else none⟩

/-- the truth value of an object returned by `post_new` or `parse` -/
def Res.true (C : RecClass W) : Res W → Prop
  | .old v => W.truthy v = Bool.true
  | .new i => C.truthy i = Bool.true

/-- the object `None` -/
def Res.isNone : Res W → Prop
  | .old v => W.isNone v = Bool.true
  | .new _ => False

/-- what becomes of the instance: it is replaced by a truthy return value of `post_new` -/
inductive Replaced (C : RecClass W) (i : Inst W) : Option (Res W) → Res W → Prop
  | none : Replaced C i none (.new i)
  | falsy {r} : ¬ Res.true C r → Replaced C i (some r) (.new i)
  | truthy {r} : Res.true C r → Replaced C i (some r) r

/-- field construction from keyword arguments `kw`; `order` lists the optional fields that are not supplied -/
inductive Build (C : RecClass W) (kw : Dict W.Obj) (order : List String) : LState W → Outcome W → LState W → Prop
  | unknownKey {s k} : k ∈ kw.map (·.1) → k ∉ C.fields.map (·.1) → Build C kw order s .unknownKey s
  | fillError {s k e s'} : (∀ k ∈ kw.map (·.1), k ∈ C.fields.map (·.1)) → FillArgsFail C.fields kw s k e s' →
      Build C kw order s (.fillError k e) s'
  | missing {s out s' k} : FillArgs C.fields kw s out s' → k ∈ C.required → k ∉ kw.map (·.1) →
      Build C kw order s .missing s'
  | factoryError {s out s1 e s'} : FillArgs C.fields kw s out s1 → (∀ k ∈ C.required, k ∈ kw.map (·.1)) →
      DefaultFail C.fields order s1 e s' → Build C kw order s (.factoryError e) s'
  | postError {s out s1 defs s2 e s'} : FillArgs C.fields kw s out s1 → (∀ k ∈ C.required, k ∈ kw.map (·.1)) →
      DefaultSeq C.fields order s1 defs s2 → C.postNew (C.fresh (out ++ defs)) s2 = (.error e, s') →
      Build C kw order s (.postError e) s'
  | made {s out s1 defs s2 i r res s'} : FillArgs C.fields kw s out s1 → (∀ k ∈ C.required, k ∈ kw.map (·.1)) →
      DefaultSeq C.fields order s1 defs s2 → C.postNew (C.fresh (out ++ defs)) s2 = (.ok (i, r), s') →
      Replaced C i r res → Build C kw order s (.made res) s'

/-- the optional fields that are not supplied, in the order in which the set is iterated -/
def RecClass.unsupplied (E : Env W) (C : RecClass W) (kw : Dict W.Obj) : List String :=
  E.setOrder (C.optional.filter fun k => !kw.has k)

open Classical in
/-- the result of the constructor for an outcome of field construction, when the parse result `standby` (if any) stands by -/
noncomputable def Outcome.resolve (E : Env W) (C : RecClass W) : Option (Res W) → Outcome W → Except Exc (Res W)
  | _, .unknownKey => .error .typeError
  | _, .missing => .error .typeError
  | _, .factoryError e => .error e
  | none, .fillError k e => if e.isException then .error (rewrapErr E e k) else .error e
  | some p, .fillError _ e => if e.isException then .ok p else .error e
  | none, .postError e => .error e
  | some p, .postError e => if e.isException ∧ Res.true C p then .ok p else .error e
  | none, .made r => .ok r
  | some _, .made _ => .error .typeError

/-! ### order of the arguments -/

/-- a computation without visible effect: a fixed result, the user state unchanged (the caches of `Literal` fillers may change) -/
def Quiet {α : Type} (x : M W α) : Prop := ∃ r, ∀ s, (x s).1 = r ∧ (x s).2.user = s.user

/-- the same instance up to the order of `__dict__` -/
def SameInst (i j : Inst W) : Prop := i.cid = j.cid ∧ i.dict.Perm j.dict ∧ i.hash = j.hash

/-- the same object, or the same instance up to the order of `__dict__` -/
inductive SameRes : Res W → Res W → Prop
  | old (v) : SameRes (.old v) (.old v)
  | new {i j} : SameInst i j → SameRes (.new i) (.new j)

/-- fillers and factories have no visible effects -/
structure QuietFields (C : RecClass W) : Prop where
  fillers : ∀ kf ∈ C.fields, ∀ v, Quiet (kf.2.filler.call v)
  factories : ∀ kf ∈ C.fields, ∀ g, kf.2.default = some (.factory g) → Quiet g

/-- `post_new` and `__bool__` do not look at the order of `__dict__` (nor at the caches) -/
structure OrderBlind (C : RecClass W) : Prop where
  truthy : ∀ i j, SameInst i j → C.truthy i = C.truthy j
  post : ∀ i j s t, SameInst i j → s.user = t.user → ∀ i' x s', C.postNew i s = (.ok (i', x), s') →
    ∃ j' y t', C.postNew j t = (.ok (j', y), t') ∧ SameInst i' j' ∧
      ((x = none ∧ y = none) ∨ ∃ x' y', x = some x' ∧ y = some y' ∧ SameRes x' y')

/-! ### counting calls -/

/-- `cnt` counts the calls of the factory of field `k`: nothing else changes it -/
structure CountsFactory (C : RecClass W) (k : String) (cnt : LState W → Nat) : Prop where
  fillers : ∀ kf ∈ C.fields, ∀ v s, cnt (kf.2.filler.call v s).2 = cnt s
  others : ∀ kf ∈ C.fields, kf.1 ≠ k → ∀ g, kf.2.default = some (.factory g) → ∀ s, cnt (g s).2 = cnt s
  own : ∃ f g, (k, f) ∈ C.fields ∧ f.default = some (.factory g) ∧ ∀ s, cnt (g s).2 = cnt s + 1
  post : ∀ i s, cnt (C.postNew i s).2 = cnt s

/-- `cnt` counts the calls of `post_new` -/
structure CountsPost (C : RecClass W) (cnt : LState W → Nat) : Prop where
  fillers : ∀ kf ∈ C.fields, ∀ v s, cnt (kf.2.filler.call v s).2 = cnt s
  factories : ∀ kf ∈ C.fields, ∀ g, kf.2.default = some (.factory g) → ∀ s, cnt (g s).2 = cnt s
  post : ∀ i s, cnt (C.postNew i s).2 = cnt s + 1

end Records
