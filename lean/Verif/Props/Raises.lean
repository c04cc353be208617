import Verif.Proofs.Raises
import Verif.Spec.ToyEnv
/-
C104: which exceptions making a record can raise.
-/
namespace Records
variable {W : World} {Q : ExcKind → Prop}

/-- C104, a single field: if the coercers and validators of all tokens, and the constructors of rebuilt containers, raise only
exceptions of the classes in `Q`, and `Q` contains TypeError, ParseFailure and ValueError, then filling raises only
exceptions of the classes in `Q`. -/
theorem C104_fill [OwnErrors Q] (hW : W.Only Q) {d : Style} (hd : d ≠ .default) {pre : List (Option Int × Tok W)}
    {t : Hint W} {f : F W} (ht : t.Only Q) (hp : ∀ q ∈ pre, q.2.Only Q) (hf : makeFiller d pre t = .ok f) (v : W.Obj) :
    Only Q (f.call v) :=
  (makeFiller_src hW hd ht hp hf).call (makeFiller_bound hf) v

/-- C104, construction: for all arguments, for every class all of whose callbacks raise only `Q` (parsers may in addition
raise any `Exception`). -/
theorem C104_construct [OwnErrors Q] (hW : W.Only Q) {E : Env W} (hE : E.Only Q) {C : RecClass W} (hC : RaisesOnly Q C)
    (n : Nat) (arg : Option W.Obj) (kw : Dict W.Obj) : Only Q (callN E C (n + 1) arg kw) :=
  .callN hW hE hC n arg kw

/-- C104, `parse`, without any condition: ParseFailure, TypeError, or an exception that is no `Exception`. -/
theorem C104_parse (E : Env W) (C : RecClass W) (n : Nat) (v : W.Obj) (s : LState W) (e : Exc) (s' : LState W)
    (h : parseN E C n v s = (.error e, s')) : e = .parseFailure ∨ e = .typeError ∨ e.isException = false := by
  have hp : ∀ q ∈ C.parsers, Only (orException fun _ => True) (q.run E C (fun m => callN E C n none m) v) :=
    fun _ _ _ _ _ _ => .inr trivial
  have : OwnErrors fun _ : ExcKind => True := ⟨trivial, trivial, trivial, fun _ => trivial⟩
  exact (parseWith_raises hp h).imp id (Or.imp id And.left)

/-- C104, `from_mapping`: in addition, the errors of applying the Select. -/
theorem C104_from_mapping [OwnErrors Q] (hW : W.Only Q) {E : Env W} (hE : E.Only Q) {C : RecClass W} (hC : RaisesOnly Q C)
    (n : Nat) (sel : Sel W.Obj) (hs : ∀ m e, sel.applyTo m = .error e → Q e.kind) (maps : List (Dict W.Obj)) (kw : Dict W.Obj) :
    Only Q (fromMapping (fun m => callN E C (n + 1) none m) sel maps kw) :=
  .fromMapping (fun m => .callN hW hE hC n none m) hs maps kw

/-- C104, `from_instance`: in addition, the errors of applying the Select and of reading attributes. -/
theorem C104_from_instance [OwnErrors Q] (hW : W.Only Q) {E : Env W} (hE : E.Only Q) {C : RecClass W} (hC : RaisesOnly Q C)
    (n : Nat) (sel : Sel W.Obj) (hs : ∀ m e, sel.applyTo m = .error e → Q e.kind) (v : Carrier W)
    (hv : ∀ k, Only Q (v.attr k)) (maps : List (Dict W.Obj)) (kw : Dict W.Obj) :
    Only Q (fromInstance C (fun m => callN E C (n + 1) none m) sel v maps kw) :=
  .fromInstance (hC.src hW) (fun m => .callN hW hE hC n none m) hs hv maps kw

/-- C104, `from_json`: in addition, the errors of applying the Select, of `json.loads` and of reading the result as mapping. -/
theorem C104_from_json [OwnErrors Q] (hW : W.Only Q) {E : Env W} (hE : E.Only Q) {C : RecClass W} (hC : RaisesOnly Q C)
    (n : Nat) (sel : Sel W.Obj) (hs : ∀ m e, sel.applyTo m = .error e → Q e.kind) (v : W.Obj) (kw : Dict W.Obj)
    (hj : Only Q (E.jsonLoads v kw)) (hd : ∀ j, Only Q (E.dictView j)) (hst : ∀ j, Only Q (E.starView j)) :
    Only Q (fromJson E (fun m => callN E C (n + 1) none m) sel v kw) :=
  .fromJson (fun m => .callN hW hE hC n none m) hs hj (fun _ => hd) fun _ => hst

theorem editLoop_err {X V : Type} {f : Dict V → X → Except Exc (Dict V)} {P : ExcKind → Prop}
    (hf : ∀ m x e, f m x = .error e → P e.kind) {l : List X} {m : Dict V} {e : Exc} (h : (editLoop f l m).err = some e) :
    P e.kind := by
  induction l generalizing m with
  | nil => cases h
  | cons x l ih =>
    rw [editLoop] at h
    cases h1 : f m x with
    | ok m' => rw [h1] at h; exact ih h
    | error e1 => rw [h1] at h; cases h; exact hf m x _ h1

/-- C104, the errors of applying a Select: KeyError and ValueError. -/
theorem C104_select (sel : Sel W.Obj) (m : Dict W.Obj) (e : Exc) (h : sel.applyTo m = .error e) :
    e.kind = .keyError ∨ e.kind = .valueError := by
  have hr : ∀ (m : Dict W.Obj) x e, editRemove m x = .error e → e.kind = .keyError ∨ e.kind = .valueError := by
    intro m x e h
    unfold editRemove at h
    split at h <;> cases h
    exact .inl rfl
  have hmr : ∀ (m : Dict W.Obj) x e, editMaybeRemove m x = .error e → e.kind = .keyError ∨ e.kind = .valueError := by
    intro m x e h; cases h
  have hn : ∀ (m : Dict W.Obj) x e, editRename m x = .error e → e.kind = .keyError ∨ e.kind = .valueError := by
    intro m x e h
    unfold editRename at h
    split at h
    · cases h; exact .inr rfl
    · split at h <;> cases h
      exact .inl rfl
  have hmn : ∀ (m : Dict W.Obj) x e, editMaybeRename m x = .error e → e.kind = .keyError ∨ e.kind = .valueError := by
    intro m x e h
    unfold editMaybeRename at h
    split at h
    · cases h
    · split at h <;> cases h
      exact .inr rfl
  have ha : ∀ (m : Dict W.Obj) x e, editAdd m x = .error e → e.kind = .keyError ∨ e.kind = .valueError := by
    intro m x e h
    unfold editAdd at h
    split at h <;> cases h
    exact .inr rfl
  have hma : ∀ (m : Dict W.Obj) x e, editMaybeAdd m x = .error e → e.kind = .keyError ∨ e.kind = .valueError := by
    intro m x e h
    unfold editMaybeAdd at h
    split at h <;> cases h
  have go {X : Type} {f : Dict W.Obj → X → Except Exc (Dict W.Obj)} {l : List X} {m : Dict W.Obj} {e : Exc}
      (hf : ∀ m x e, f m x = .error e → e.kind = .keyError ∨ e.kind = .valueError)
      (h : (editLoop f l m).err = some e) : e.kind = .keyError ∨ e.kind = .valueError :=
    editLoop_err (P := fun k => k = .keyError ∨ k = .valueError) hf h
  unfold Sel.applyTo at h
  split at h
  · cases h
  · split at h
    · rename_i e' he
      cases h
      unfold Sel.edit at he
      simp only at he
      split at he
      · rename_i h1; cases he; exact go hr h1
      split at he
      · rename_i h1; cases he; exact go hmr h1
      split at he
      · rename_i h1; cases he; exact go hn h1
      split at he
      · rename_i h1; cases he; exact go hmn h1
      split at he
      · rename_i h1; cases he; exact go ha h1
      exact go hma he
    · cases h

/-- C104, the coercion tokens of the library: they raise only `Q` if the functions and classes they are given do
(`LooseUnpackMap` with constraints also AttributeError, for values without `items`); `Eval` turns every `Exception` into TypeError. -/
theorem C104_builtin_tokens [hQ : OwnErrors Q] :
    (∀ ev : String → M W W.Obj, (∀ t, OnlyBase Q (ev t)) → ∀ v, Only Q (evalCoercer ev v)) ∧
    (∀ (vm : List (W.Obj × W.Obj)) (fm : List (W.Obj × M W W.Obj)), (∀ q ∈ fm, Only Q q.2) →
      ∀ v, Only Q (mapCoercion vm fm v)) ∧
    (∀ c a kw, (∀ a kw, Only Q (M.lift (W.construct c a kw))) → ∀ v, Only Q (falsish c a kw v)) ∧
    (∀ con c a kw, (∀ a kw, Only Q (M.lift (W.construct c a kw))) → ∀ v, Only Q (loose con c a kw v)) ∧
    (∀ con c a kw, (∀ a kw, Only Q (M.lift (W.construct c a kw))) → ∀ v, Only Q (looseUnpack con c a kw v)) ∧
    (∀ con c a kw, (con.isSome = true → Q .attributeError) → (∀ a kw, Only Q (M.lift (W.construct c a kw))) → ∀ v, Only Q (looseUnpackMap con c a kw v)) := by
  refine ⟨?_, ?_, ?_, ?_, ?_, ?_⟩
  · intro ev hev v
    unfold evalCoercer
    split
    · exact .tE
    · intro s e s' h
      unfold M.tryExcept at h
      rename_i t _
      rcases h1 : ev t s with ⟨r, s1⟩
      simp only [h1] at h
      cases r with
      | ok a => cases h
      | error e1 =>
        simp only at h
        split at h
        · cases h; exact hQ.typeError
        · rename_i hb
          cases h
          rcases hev t s _ _ h1 with h2 | h2
          · exact absurd h2 hb
          · exact h2
  · intro vm fm hfm v
    have look : ∀ {β : Type} (d : List (W.Obj × β)) e, pyLookup d v = .error e → Q e.kind := by
      intro β d e h
      unfold pyLookup at h
      split at h <;> cases h
      exact hQ.typeError
    unfold mapCoercion
    split
    · rename_i e h; exact .throw (look _ _ h)
    · exact .pure _
    · split
      · rename_i e h; exact .throw (look _ _ h)
      · rename_i f h
        unfold pyLookup at h
        split at h
        · injection h with h
          cases h1 : fm.find? fun kv => decide (kv.1 = v) || W.eq kv.1 v with
          | none => rw [h1] at h; cases h
          | some q => rw [h1] at h; cases h; exact hfm q (List.mem_of_find?_eq_some h1)
        · cases h
      · exact .tE
  · intro c a kw hc v
    unfold falsish
    exact .ite (fun _ => hc _ _) fun _ => .tE
  · intro con c a kw hc v
    unfold loose
    split
    · exact .ite (fun _ => .tE) fun _ => hc _ _
    · exact hc _ _
  · intro con c a kw hc v
    unfold looseUnpack
    refine .ite (fun _ => .tE) fun _ => ?_
    split
    · exact .ite (fun _ => .tE) fun _ => hc _ _
    · exact .ite (fun _ => .tE) fun _ => hc _ _
    · exact hc _ _
  · intro con c a kw ha hc v
    have hc : Only Q (looseUnpackMap.call c a kw v) := by
      unfold looseUnpackMap.call
      split
      · exact .tE
      · exact .ite (fun _ => .tE) fun _ => hc _ _
    unfold looseUnpackMap
    split
    · exact .ite (fun _ => .throw (ha rfl)) fun _ => .ite (fun _ => .tE) fun _ => hc
    · exact .ite (fun _ => .tE) fun _ => hc

end Records

/-! ### Examples -/
namespace Records.Toy.Ra

/-- TypeError, ParseFailure, ValueError -/
def lib (k : ExcKind) : Prop := k = .typeError ∨ k = .parseFailure ∨ k = .valueError

instance : OwnErrors lib := ⟨.inl rfl, .inr (.inl rfl), .inr (.inr rfl), by rintro (h | h | h) <;> cases h⟩

/-- and KeyError -/
def libKey (k : ExcKind) : Prop := k = .keyError ∨ lib k

instance : OwnErrors libKey := ⟨.inr (.inl rfl), .inr (.inr (.inl rfl)), .inr (.inr (.inr rfl)), by rintro (h | h | h | h) <;> cases h⟩

theorem W_only (Q : ExcKind → Prop) : Toy.W.Only Q := by
  have q : ∀ (r : TObj) (s : LState Toy.W) (e : Exc) (s' : LState Toy.W) (st : Toy.W.St → Toy.W.St),
      ((Except.ok r : Except Exc TObj), { s with user := st s.user }) = (.error e, s') → Q e.kind := by
    intro r s e s' st h; cases h
  exact ⟨fun _ _ s e s' h => q _ s e s' id h, fun _ _ _ s e s' h => q _ s e s' id h, fun _ _ s e s' h => q _ s e s' id h,
    fun _ _ _ s e s' h => q _ s e s' id h⟩

/-- an environment where every exception class accepts a message -/
def env : Env Toy.W := { Toy.env with rewrap := fun _ => .ok }

theorem base_pure {Q : ExcKind → Prop} {α : Type} (a : α) : OnlyBase (W := Toy.W) Q (M.pure a) := by
  intro s e s' h; cases h

theorem base_throw {Q : ExcKind → Prop} {α : Type} {e : Exc} (h : e.isException = true) :
    OnlyBase (W := Toy.W) Q (M.throw e : M Toy.W α) := by
  intro s e' s' hx; cases hx; exact .inl h

theorem env_only (Q : ExcKind → Prop) : env.Only Q := by
  have hd : ∀ v, OnlyBase (W := Toy.W) Q (asDict v) := by
    intro v
    unfold asDict
    split
    · exact base_pure _
    · exact base_throw (by rfl)
  have hg : ∀ (v : TObj) n, OnlyBase (W := Toy.W) Q (getattr v n) := by
    intro v n
    unfold getattr
    split
    · split
      · exact base_pure _
      · exact base_throw (by rfl)
    · exact base_throw (by rfl)
  have hl : ∀ (v : TObj) kw, OnlyBase (W := Toy.W) Q (loads v kw) := by
    intro v kw
    unfold loads
    split
    · exact base_pure _
    · exact base_pure _
    · exact base_throw (by rfl)
    · exact base_throw (by rfl)
  exact ⟨hg, hd, hd, hl, nofun⟩

/-- `x: Union[int, List[int]]; y: Literal[1, 2] = 1`, checked, with a parser that raises KeyError -/
def sp : ClassSpec W :=
  { cid := .record 0, style := .check, unary := some true
    anns := [("x", .plain (.union [.cls .int, .iter .list (.cls .int)])), ("y", .plain (.literal 0 [.int 1, .int 2]))]
    attrs := [("y", .value (.int 1))]
    parsers := [.user fun _ => M.throw .keyError, .fromMapping] }

def C : RecClass W := clsOf sp noClass

theorem C_only : RaisesOnly lib C := by
  refine .intro sp C ⟨by decide, by decide, nofun⟩ ⟨by decide, ?_, ?_, nofun, nofun, ?_, ?_⟩ nofun rfl
  · intro a ha
    cases ha with
    | head => exact ⟨nofun, trivial, trivial, trivial⟩
    | tail _ ha => cases ha with
      | head => trivial
      | tail _ h => cases h
  · intro a ha
    cases ha with
    | head => trivial
    | tail _ h => cases h
  · intro p hp
    cases hp with
    | head => intro v s e s' h; cases h; exact .inl rfl
    | tail _ hp => cases hp with
      | head => trivial
      | tail _ h => cases h
  · intro i s e s' h; cases h

/-- the class raises only TypeError and ValueError ... -/
example (n : Nat) (arg : Option TObj) (kw : Dict TObj) : Only lib (callN env C (n + 1) arg kw) :=
  C104_construct (W_only lib) (env_only lib) C_only n arg kw

/-- ... and both occur -/
example : (callN env C 9 none [("x", .str "a")] s0).1.toOption.isNone = true ∧
    (match (callN env C 9 none [("x", .str "a")] s0).1 with | .error e => some e | _ => none) = some ⟨.typeError, some "x"⟩ ∧
    (match (callN env C 9 none [("x", .int 1), ("y", .int 3)] s0).1 with | .error e => some e | _ => none) =
      some ⟨.valueError, some "y"⟩ := by decide

/-- the parser's KeyError is not seen -/
example : (match (callN env C 9 (some (.str "a")) [] s0).1 with | .error e => some e | _ => none) =
    some ⟨.typeError, some "x"⟩ := by decide

/-- `x: Annotated[int, c]` where `c` raises KeyError -/
def spK : ClassSpec W :=
  { cid := .record 0, style := .check, anns := [("x", .plain (.annotated (.cls .int) [ctok (err 1 .keyError)]))] }

def K : RecClass W := clsOf spK noClass

theorem err_only (v : TObj) : Only (W := W) libKey (err 1 .keyError v) := by
  intro s e s' h; cases h; exact .inl rfl

theorem K_only : RaisesOnly libKey K := by
  refine .intro spK K ⟨by decide, by decide, nofun⟩ ⟨by decide, ?_, nofun, nofun, nofun, ?_, ?_⟩ nofun rfl
  · intro a ha
    cases ha with
    | head =>
      refine ⟨trivial, ?_⟩
      intro t ht
      cases ht with
      | head => intro o c hc v; cases hc; exact err_only v
      | tail _ h => cases h
    | tail _ h => cases h
  · intro p hp
    cases hp with
    | head => trivial
    | tail _ hp => cases hp with
      | head => trivial
      | tail _ hp => cases hp with
        | head => trivial
        | tail _ h => cases h
  · intro i s e s' h; cases h

/-- then KeyError can be raised, and nothing else is added -/
example : (∀ n arg kw, Only libKey (callN env K (n + 1) arg kw)) ∧
    (match (callN env K 9 none [("x", .str "a")] s0).1 with | .error e => some e | _ => none) = some ⟨.keyError, some "x"⟩ :=
  ⟨C104_construct (W_only _) (env_only _) K_only, by decide⟩

/-- with `default_type_check=TypeCheckStyle.default`, a field raises a bare `Exception` -/
example : (match (callN env (clsOf { spK with style := .default } noClass) 9 none [("x", .int 1)] s0).1 with
    | .error e => some e | _ => none) = some ⟨.user 0, some "x"⟩ := by decide

/-- `parse`: a KeyError and a TypeError of the parsers become ParseFailure -/
example : (match (parseN env C 9 (.str "a") s0).1 with | .error e => some e | _ => none) = some .parseFailure := by decide

/-- a Select: removing what is not there, adding what is there -/
example : (match fromMapping (fun m => callN env C 9 none m) { Sel.empty with remove := .many ["q"] } [[("x", .int 1)]] [] s0 with
      | (.error e, _) => some e | _ => none) = some .keyError ∧
    (match fromMapping (fun m => callN env C 9 none m) { Sel.empty with add := .many [("x", .int 2)] } [[("x", .int 1)]] [] s0 with
      | (.error e, _) => some e | _ => none) = some .valueError := by decide

end Records.Toy.Ra
