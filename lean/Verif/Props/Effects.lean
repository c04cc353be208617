import Verif.Proofs.Effects
import Verif.Spec.ToyHash
set_option linter.unusedSimpArgs false
/-
C109: records whose field values have comparisons, hashes and representations that raise or have effects.
-/
namespace Records
variable {W : World}

/-! ### the rest of the model is the case of pure comparisons -/

/-- C109: if comparing values is pure, exporting is as in `toDict`. -/
theorem C109_plain_to_dict (H : Hasher W) (rep : W.Obj → String) (C : RecClass W) (obj : Carrier W) (o : ExportOpts)
    (sel : Sel W.Obj) : toDictE (.plain H rep) C obj o sel = toDict C obj o sel := by
  unfold toDictE toDict
  simp only
  rw [exportTuplesE_congr fun f _ v => exportValueE_plain H rep o f v]

/-- C109: if comparing, hashing and printing values is pure, `repr` is as in `reprInst`. -/
theorem C109_plain_repr (H : Hasher W) (rep : W.Obj → String) (E : Env W) (qual : W.Cls → String) (C : RecClass W) (o : ExportOpts)
    (i : Inst W) : reprInstE (.plain H rep) E qual C o i = reprInst E qual rep C o i := by
  unfold reprInstE reprInst
  rw [C109_plain_to_dict]
  congr 1
  funext d
  have h : M.mapM (fun kv : String × W.Obj => M.bind ((ValueOps.plain H rep).repr kv.2) fun r => M.pure (kv.1 ++ "=" ++ r)) d =
      M.pure (W := W) (d.map fun kv => kv.1 ++ "=" ++ rep kv.2) := mapM_pure (W := W) (fun kv : String × W.Obj => kv.1 ++ "=" ++ rep kv.2) d
  rw [h, M.pure_bind]

/-- C109: if comparing and hashing values is pure, `hash` is as in `hashInst`. -/
theorem C109_plain_hash (H : Hasher W) (rep : W.Obj → String) (E : Env W) (C : RecClass W) (i : Inst W) (s : LState W) :
    hashInstE (.plain H rep) H.tuple E C i s = hashInst E H C i s := by
  unfold hashInstE hashInst
  rw [C109_plain_to_dict]
  cases C.frozen with
  | false => rfl
  | true =>
    simp only [Bool.not_true, Bool.false_eq_true, if_false]
    rcases i.hash with _ | _ | n
    · rfl
    · simp only
      rcases toDict C (.ofInst E i) {} Sel.empty s with ⟨_ | d, s'⟩
      · rfl
      · simp only [mapM_hash_plain]
        unfold hashTuple
        cases d.values.all W.hashable <;> rfl
    · rfl

/-- C109: if comparing and hashing values is pure and `!=` is the negation of `==`, equality is as in `eqInst`. -/
theorem C109_plain_eq (H : Hasher W) (rep : W.Obj → String) (E : Env W) (C : RecClass W) (a b : Inst W) (s : LState W) :
    eqInstE (.plain H rep) H.tuple E C a b s = eqInst E H C a b s := by
  unfold eqInstE eqInst
  simp only [C109_plain_hash, eqFieldsE_plain]
  split
  · rfl
  · split
    · rcases hashInst E H C a s with ⟨_ | m, a', s1⟩
      · rfl
      · simp only
        rcases hashInst E H C b s1 with ⟨_ | n, b', s2⟩
        · rfl
        · simp only; split <;> rfl
    · rfl

theorem listCmpE_plain (H : Hasher W) (rep : W.Obj → String) (O : ObjCmp W) (op : CmpOp) (as bs : List W.Obj) :
    listCmpE (.plain H rep) (fun op v w => M.ofExcept (O op v w)) op as bs = M.ofExcept (listCmp O op as bs) := by
  induction as generalizing bs with
  | nil => unfold listCmpE listCmp; rfl
  | cons a as ih => cases bs with
    | nil => unfold listCmpE listCmp; rfl
    | cons b bs =>
      unfold listCmpE listCmp
      by_cases hab : a = b
      · rw [if_pos hab, if_pos (.inl hab), ih]
      · rw [if_neg hab]
        show (if W.eq a b = true then _ else _) = _
        by_cases he : W.eq a b = true
        · rw [if_pos he, if_pos (.inr he), ih]
        · rw [if_neg he, if_neg (by rintro (h | h) <;> contradiction)]

/-- C109: if comparing values is pure, the ordering is as in `compare`. -/
theorem C109_plain_order (H : Hasher W) (rep : W.Obj → String) (O : ObjCmp W) (E : Env W) (op : CmpOp) {C : RecClass W}
    {a b : Inst W} (hc : b.cid = a.cid) (hs : W.isSub a.cid a.cid = true) (s : LState W) :
    compareE (.plain H rep) (fun op v w => M.ofExcept (O op v w)) E op C a b s = (compare E O op C a C b, s) := by
  unfold compareE compare cmpMethod
  simp only [hc, hs, ne_eq, not_true, false_and, if_false, listCmpE_plain]
  cases C.ordered with
  | false => rfl
  | true =>
    simp only [Bool.not_true, Bool.false_eq_true, if_false]
    cases orderingKey E C a with
    | error e => rfl
    | ok ka => cases orderingKey E C b with
      | error e => rfl
      | ok kb =>
        show M.ofExcept (listCmp O op ka kb) s = _
        cases h : listCmp O op ka kb <;> simp [Except.map, compare.orElse, h] <;> rfl

/-! ### exporting -/

/-- C109: `to_dict` compares the defaults of exactly those fields that are neither ruled out by a tag nor whitelisted and have a plain
default, unless defaults are to be included; in field order, each once.  If they all answer, the fields with answer `True` are left
out; otherwise the first exception ends the export (as RuntimeError if it is StopIteration). -/
theorem C109_to_dict (V : ValueOps W) (E : Env W) {C : RecClass W} (hC : Creatable C) {i : Inst W} (hi : Full C i) {o : ExportOpts}
    {black : List Nat} (ho : o.blacklist = .tags black) (s : LState W) :
    (∃ bs s', Runs (fun p => V.eq p.1 p.2) (questions (candidates o.includeDefaults black o.whitelist C i)) s bs s' ∧
      ∃ d, toDictE V C (.ofInst E i) o Sel.empty s = (.ok d, s') ∧
        d.Perm (keep (candidates o.includeDefaults black o.whitelist C i) bs) ∧
        (o.sort = .no → d = keep (candidates o.includeDefaults black o.whitelist C i) bs)) ∨
    ∃ e e' s', Stops (fun p => V.eq p.1 p.2) (questions (candidates o.includeDefaults black o.whitelist C i)) s e s' ∧ Leaves e e' ∧
      toDictE V C (.ofInst E i) o Sel.empty s = (.error e', s') := by
  rcases runs_or_stops (fun p => V.eq p.1 p.2) (questions (candidates o.includeDefaults black o.whitelist C i)) s with
    ⟨bs, s', h⟩ | ⟨e, s', h⟩
  · exact .inl ⟨bs, s', h, _, toDictE_runs hC.wf hi ho h, sortEntries_perm .., fun hs => by rw [hs]; rfl⟩
  · exact .inr ⟨e, _, s', h, leaves e, toDictE_stops hC.wf hi ho h⟩

/-- C109: with `include_defaults=True` nothing is compared: whatever the comparisons do, `to_dict` of any object (and with any select)
is as in the model with pure comparisons. -/
theorem C109_include_defaults (V : ValueOps W) (C : RecClass W) (obj : Carrier W) {o : ExportOpts} (ho : o.includeDefaults = true)
    (sel : Sel W.Obj) : toDictE V C obj o sel = toDict C obj o sel := by
  unfold toDictE toDict
  simp only
  rw [exportTuplesE_congr]
  intro f _ v
  unfold exportValueE exportValue
  simp [ho]

/-- C109: nothing is compared if the class has no plain defaults. -/
theorem C109_no_defaults (V : ValueOps W) {C : RecClass W} (hd : NoPlainDefaults C) (obj : Carrier W) (o : ExportOpts)
    (sel : Sel W.Obj) : toDictE V C obj o sel = toDict C obj o sel := by
  unfold toDictE toDict
  simp only
  rw [exportTuplesE_congr]
  intro f hf v
  have h : ∀ d, f.default ≠ some (.value d) := extraction_no_plain hd sel f hf
  unfold exportValueE exportValue
  by_cases hw : f.name ∈ o.whitelist
  · simp [hw]
  · cases o.includeDefaults with
    | true => simp
    | false =>
      simp only [hw, if_false, decide_false, Bool.false_or, Bool.false_eq_true]
      cases hfd : f.default with
      | none => simp
      | some d => cases d with
        | factory g => rfl
        | value d => exact absurd hfd (h d)

/-- C109: `repr` makes the comparisons of `to_dict`, then asks the values that are left for their representation, in order; the first
exception is the one of `repr`. -/
theorem C109_repr (V : ValueOps W) (E : Env W) (qual : W.Cls → String) {C : RecClass W} (hC : Creatable C) {i : Inst W}
    (hi : Full C i) (s : LState W) :
    (∃ bs s1, Runs (fun p => V.eq p.1 p.2) (questions (candidates false [] [] C i)) s bs s1 ∧
      ((∃ rs s2, Runs (fun kv => V.repr kv.2) (keep (candidates false [] [] C i) bs) s1 rs s2 ∧
        reprInstE V E qual C {} i s = (.ok (qual i.cid ++ "(" ++
          ", ".intercalate (List.zipWith (fun kv r => kv.1 ++ "=" ++ r) (keep (candidates false [] [] C i) bs) rs) ++ ")"), s2)) ∨
      ∃ e s2, Stops (fun kv => V.repr kv.2) (keep (candidates false [] [] C i) bs) s1 e s2 ∧
        reprInstE V E qual C {} i s = (.error e, s2))) ∨
    ∃ e e' s1, Stops (fun p => V.eq p.1 p.2) (questions (candidates false [] [] C i)) s e s1 ∧ Leaves e e' ∧
      reprInstE V E qual C {} i s = (.error e', s1) := by
  unfold reprInstE
  rcases runs_or_stops (fun p => V.eq p.1 p.2) (questions (candidates false [] [] C i)) s with ⟨bs, s1, h⟩ | ⟨e, s1, h⟩
  · have hd : toDictE V C (.ofInst E i) {} Sel.empty s = (.ok (keep (candidates false [] [] C i) bs), s1) :=
      toDictE_runs (E := E) hC.wf hi (o := {}) (black := []) rfl h
    refine .inl ⟨bs, s1, h, ?_⟩
    rw [M.bind_ok hd]
    rcases runs_or_stops (fun kv : String × W.Obj => V.repr kv.2) (keep (candidates false [] [] C i) bs) s1 with
      ⟨rs, s2, hr⟩ | ⟨e, s2, hr⟩
    · refine .inl ⟨rs, s2, hr, ?_⟩
      rw [M.bind_ok (mapM_runs (runs_parts hr))]
      rfl
    · refine .inr ⟨e, s2, hr, ?_⟩
      rw [M.bind_error (mapM_stops (stops_parts hr))]
  · refine .inr ⟨e, _, s1, h, leaves e, ?_⟩
    have hd : toDictE V C (.ofInst E i) {} Sel.empty s = (.error e.leaving, s1) :=
      toDictE_stops (E := E) hC.wf hi (o := {}) (black := []) rfl h
    rw [M.bind_error hd]

/-! ### hashing -/

/-- C109: hashing a frozen record for the first time makes the comparisons of `to_dict`, then hashes the values that are left, in order.
The hash is cached if nothing raised; otherwise the record is unchanged and the exception is the first one. -/
theorem C109_hash (V : ValueOps W) (tup : List Int → Int) (E : Env W) {C : RecClass W} (hC : Creatable C) (hf : C.frozen = true)
    {i : Inst W} (hi : Full C i) (hh : i.hash = some none) (s : LState W) :
    (∃ bs s1, Runs (fun p => V.eq p.1 p.2) (questions (candidates false [] [] C i)) s bs s1 ∧
      ((∃ ns s2, Runs V.hash ((keep (candidates false [] [] C i) bs).map (·.2)) s1 ns s2 ∧
        hashInstE V tup E C i s = (.ok (tup ns), { i with hash := some (some (tup ns)) }, s2)) ∨
      ∃ e s2, Stops V.hash ((keep (candidates false [] [] C i) bs).map (·.2)) s1 e s2 ∧
        hashInstE V tup E C i s = (.error e, i, s2))) ∨
    ∃ e e' s1, Stops (fun p => V.eq p.1 p.2) (questions (candidates false [] [] C i)) s e s1 ∧ Leaves e e' ∧
      hashInstE V tup E C i s = (.error e', i, s1) := by
  unfold hashInstE
  simp only [hf, hh, Bool.not_true, Bool.false_eq_true, if_false]
  rcases runs_or_stops (fun p => V.eq p.1 p.2) (questions (candidates false [] [] C i)) s with ⟨bs, s1, h⟩ | ⟨e, s1, h⟩
  · have hd := toDictE_runs (E := E) hC.wf hi (o := {}) (black := []) rfl h
    refine .inl ⟨bs, s1, h, ?_⟩
    have hd' : toDictE V C (.ofInst E i) {} Sel.empty s = (.ok (keep (candidates false [] [] C i) bs), s1) := hd
    rw [hd']
    simp only
    rcases runs_or_stops V.hash ((keep (candidates false [] [] C i) bs).map (·.2)) s1 with ⟨ns, s2, hr⟩ | ⟨e, s2, hr⟩
    · refine .inl ⟨ns, s2, hr, ?_⟩
      have hm : M.mapM V.hash (keep (candidates false [] [] C i) bs).values s1 = _ := mapM_runs hr
      rw [hm]
    · refine .inr ⟨e, s2, hr, ?_⟩
      have hm : M.mapM V.hash (keep (candidates false [] [] C i) bs).values s1 = _ := mapM_stops hr
      rw [hm]
  · refine .inr ⟨e, _, s1, h, leaves e, ?_⟩
    have hd : toDictE V C (.ofInst E i) {} Sel.empty s = (.error e.leaving, s1) :=
      toDictE_stops (E := E) hC.wf hi (o := {}) (black := []) rfl h
    rw [hd]

/-- C109: a hash that is cached is returned without asking the values anything. -/
theorem C109_hash_cached (V : ValueOps W) (tup : List Int → Int) (E : Env W) {C : RecClass W} (hf : C.frozen = true) {i : Inst W}
    {n : Int} (hh : i.hash = some (some n)) (s : LState W) : hashInstE V tup E C i s = (.ok n, i, s) := by
  unfold hashInstE
  simp [hf, hh]

/-! ### equality -/

theorem eqLoop {V : ValueOps W} {E : Env W} {C : RecClass W} {a b : Inst W} (ha : Full C a) (hb : Full C b) (s : LState W) :
    EqLoop V C a b s (eqFieldsE V E a b C.fields.keys s).1 (eqFieldsE V E a b C.fields.keys s).2 := by
  have hk : C.fields.keys = C.fields.map (·.1) := rfl
  rw [hk]
  rcases eqFieldsE_cases V (E := E) (a := a) (b := b) C.fields (fun kf h => ha.get (List.mem_map.2 ⟨kf, h, rfl⟩))
    (fun kf h => hb.get (List.mem_map.2 ⟨kf, h, rfl⟩)) s (fieldPairs C a b) rfl with
    ⟨s', h1, h2⟩ | ⟨pre, p, post, s1, s', h1, h2, h3⟩
  · rw [h2]
    exact .inl ⟨rfl, _, fun x hx => (List.mem_replicate.1 hx).2, h1⟩
  · refine .inr ⟨pre, p, post, _, s1, h1, fun x hx => (List.mem_replicate.1 hx).2, h2, ?_⟩
    rcases h3 with ⟨h3, h4⟩ | ⟨e, h3, h4⟩
    · rw [h4]; exact .inl ⟨rfl, h3⟩
    · rw [h4]; exact .inr ⟨e, rfl, h3⟩

/-- C109: `a == b` for non-frozen records of one class asks `!=` for the pairs of values in field order, until the first true answer or
exception. -/
theorem C109_eq (V : ValueOps W) (tup : List Int → Int) (E : Env W) {C : RecClass W} (hf : C.frozen = false) {a b : Inst W}
    (ha : Full C a) (hb : Full C b) (hc : b.cid = a.cid) (s : LState W) :
    ∃ r s', eqInstE V tup E C a b s = (r, a, b, s') ∧ EqLoop V C a b s r s' := by
  refine ⟨_, _, ?_, eqLoop (V := V) (E := E) ha hb s⟩
  unfold eqInstE
  simp [hf, hc]

/-- C109: for frozen records both hashes are computed first, `a` before `b`; an exception there is the one of `==`; different hashes
mean `False` without further comparisons; otherwise the fields are compared as in `C109_eq`. -/
theorem C109_eq_frozen (V : ValueOps W) (tup : List Int → Int) (E : Env W) {C : RecClass W} (hf : C.frozen = true) {a b : Inst W}
    (ha : Full C a) (hb : Full C b) (hc : b.cid = a.cid) {s : LState W} :
    (∀ e a' s1, hashInstE V tup E C a s = (.error e, a', s1) → eqInstE V tup E C a b s = (.error e, a', b, s1)) ∧
    (∀ m a' s1, hashInstE V tup E C a s = (.ok m, a', s1) →
      (∀ e b' s2, hashInstE V tup E C b s1 = (.error e, b', s2) → eqInstE V tup E C a b s = (.error e, a', b', s2)) ∧
      (∀ n b' s2, hashInstE V tup E C b s1 = (.ok n, b', s2) →
        (m ≠ n → eqInstE V tup E C a b s = (.ok false, a', b', s2)) ∧
        (m = n → ∃ r s', eqInstE V tup E C a b s = (r, a', b', s') ∧ EqLoop V C a b s2 r s'))) := by
  unfold eqInstE
  rw [if_neg (by simp [hc]), if_pos hf]
  refine ⟨fun e a' s1 h => by rw [h], fun m a' s1 h => ?_⟩
  rw [h]
  simp only
  refine ⟨fun e b' s2 h' => by rw [h'], fun n b' s2 h' => ?_⟩
  rw [h']
  simp only
  refine ⟨fun hmn => by rw [if_pos hmn], fun hmn => ?_⟩
  rw [if_neg (by simp [hmn])]
  exact ⟨_, _, rfl, eqLoop (V := V) (E := E) ha hb s2⟩

/-- the claim that a record of a non-frozen class always equals itself -/
def C109_claim : Prop :=
  ∀ (W : World) (V : ValueOps W) (tup : List Int → Int) (E : Env W) (C : RecClass W), Creatable C → C.frozen = false →
    ∀ i : Inst W, i.cid = C.cid → Full C i → ∀ s, (eqInstE V tup E C i i s).1 = .ok true

/-- C109: in contrast, the ordering does not ask identical values anything: for every record of an ordered class `r <= r` and `r >= r` are
`True`, `r < r` and `r > r` are `False`. -/
theorem C109_order_self (V : ValueOps W) (O : CmpOp → W.Obj → W.Obj → M W Bool) (E : Env W) {C : RecClass W} (ho : C.ordered = true)
    {i : Inst W} (hi : Full C i) (s : LState W) :
    compareE V O E .le C i i s = (.ok true, s) ∧ compareE V O E .ge C i i s = (.ok true, s) ∧
    compareE V O E .lt C i i s = (.ok false, s) ∧ compareE V O E .gt C i i s = (.ok false, s) := by
  obtain ⟨vs, hvs⟩ := orderingKey_full (E := E) hi
  have key : ∀ op, compareE V O E op C i i s = (.ok (op.nat vs.length vs.length), s) := by
    intro op
    unfold compareE
    rw [hvs]
    simp only [ho, Bool.not_true, Bool.false_eq_true, if_false]
    show listCmpE V O op vs vs s = _
    rw [listCmpE_self]
    rfl
  refine ⟨?_, ?_, ?_, ?_⟩ <;> rw [key] <;> simp [CmpOp.nat]

end Records

/-! ### examples -/
namespace Records.Toy.Eff
open Toy

/-- `.fn 1` is an array: comparing it raises ValueError; `.fn 2` is a NaN; every comparison, hash and representation is logged -/
def isArray (a : TObj) : Bool := a = .fn 1
def isNan (a : TObj) : Bool := a = .fn 2

def cmp (n : Nat) (neg : Bool) (a b : TObj) : M W Bool := M.bind (log n) fun _ =>
  if isArray a || isArray b then M.throw .valueError
  else if isNan a || isNan b then M.pure neg
  else M.pure (neg != eq a b)

def V : ValueOps W where
  eq := cmp 1 false
  ne := cmp 2 true
  hash a := M.bind (log 3) fun _ => if isArray a then M.throw .typeError else M.pure (hashOf a)
  repr a := M.bind (log 4) fun _ => M.pure (if isArray a then "array" else "v")

/-- the hash of a tuple -/
def tup (l : List Int) : Int := l.foldl (fun acc x => 31 * acc + x) 0

/-- the result and the log -/
def out {α : Type} (x : Except Exc α × LState W) : Except Exc α × List Nat := (x.1, x.2.user)

/-- `A(x=1, y=array).to_dict()` raises ValueError; one comparison is made, that of `y` with its default -/
example : out (toDictE V A (.ofInst env (mkA (.int 1) (.fn 1))) {} Sel.empty s0) = (.error .valueError, [1]) := rfl
/-- an array in `x`, which has no default, does no harm -/
example : (toDictE V A (.ofInst env (mkA (.fn 1) (.int 3))) {} Sel.empty s0).1 = .ok [("x", .fn 1)] := rfl
/-- nor do defaults that are included, or a whitelisted field -/
example : out (toDictE V A (.ofInst env (mkA (.int 1) (.fn 1))) { includeDefaults := true } Sel.empty s0) =
    (.ok [("x", .int 1), ("y", .fn 1)], []) := rfl
example : out (toDictE V A (.ofInst env (mkA (.int 1) (.fn 1))) { whitelist := ["y"] } Sel.empty s0) =
    (.ok [("x", .int 1), ("y", .fn 1)], []) := rfl

theorem mkA_full (x y : TObj) : Full A (mkA x y) := fun _ hk => hk

example : questions (candidates false [] [] A (mkA (.int 1) (.fn 1))) = [((.int 3 : TObj), (.fn 1 : TObj))] := rfl
example : Stops (fun p => V.eq p.1 p.2) (questions (candidates false [] [] A (mkA (.int 1) (.fn 1)))) s0 .valueError
    (cmp 1 false (.int 3) (.fn 1) s0).2 := ⟨[], _, [], [], s0, rfl, .nil _, rfl⟩
example : Runs (fun p => V.eq p.1 p.2) (questions (candidates false [] [] A (mkA (.int 1) (.int 3)))) s0 [true]
    (cmp 1 false (.int 3) (.int 3) s0).2 := .cons rfl (.nil _)
example : keep (candidates false [] [] A (mkA (.int 1) (.int 3))) [true] = [("x", (.int 1 : TObj))] := rfl
example := C109_to_dict V env A_creatable (mkA_full (.int 1) (.fn 1)) (o := {}) rfl s0
example := C109_include_defaults V A (.ofInst env (mkA (.int 1) (.fn 1))) (o := { includeDefaults := true }) rfl Sel.empty

/-- `repr` -/
example : out (reprInstE V env (fun _ => "A") A {} (mkA (.fn 1) (.int 3)) s0) = (.ok "A(x=array)", [1, 4]) := rfl
example := C109_repr V env (fun _ => "A") A_creatable (mkA_full (.int 1) (.int 3)) s0

/-- hashing a frozen record: the comparison with the default, then the hashes; cached afterwards -/
example : (hashInstE V tup env B (mkB (.int 1) (.int 4) "a") s0).1 = .ok 1092 := rfl
example : (hashInstE V tup env B (mkB (.int 1) (.int 4) "a") s0).2.2.user = [1, 3, 3, 3] := rfl
example : (hashInstE V tup env B (mkB (.int 1) (.fn 1) "a") s0).1 = .error .valueError := rfl
example : (hashInstE V tup env B (mkB (.fn 1) (.int 3) "a") s0).1 = .error .typeError := rfl
example := C109_hash V tup env B_creatable rfl (mkB_full (.int 1) (.int 4) "a" Option.none) rfl s0
example : hashInstE V tup env B (mkB (.fn 1) (.int 4) "a" (some 5)) s0 = (.ok 5, mkB (.fn 1) (.int 4) "a" (some 5), s0) :=
  C109_hash_cached V tup env rfl rfl s0

/-- equality: a difference before the array is found first -/
example : (eqInstE V tup env A (mkA (.int 1) (.fn 1)) (mkA (.int 2) (.fn 1)) s0).1 = .ok false := rfl
example : (eqInstE V tup env A (mkA (.int 1) (.fn 1)) (mkA (.int 1) (.fn 1)) s0).1 = .error .valueError := rfl
example : (eqInstE V tup env A (mkA (.int 1) (.fn 1)) (mkA (.int 1) (.fn 1)) s0).2.2.2.user = [2, 2] := rfl
example := C109_eq V tup env (C := A) rfl (mkA_full (.int 1) (.fn 1)) (mkA_full (.int 1) (.fn 1)) rfl s0
example := C109_eq_frozen V tup env (C := B) rfl (mkB_full (.int 1) (.fn 1) "a" Option.none) (mkB_full (.int 1) (.fn 1) "a" Option.none)
  rfl (s := s0)

/-- a class without defaults -/
def spN : ClassSpec W := { cid := .record 3, ordered := true, anns := [("x", .plain (.cls .int))] }
def N : RecClass W := clsOf spN noClass
theorem N_creatable : Creatable N := .intro spN N ⟨by decide, by decide, nofun⟩ nofun rfl
def mkN (x : TObj) : Inst W := { cid := .record 3, dict := [("x", x)], hash := Option.none }
theorem mkN_full (x : TObj) : Full N (mkN x) := fun _ hk => hk

example := C109_no_defaults V (C := N) (by
  intro kf hkf d
  cases hkf with
  | head => nofun
  | tail _ h => cases h) (.ofInst env (mkN (.fn 1))) {} Sel.empty

/-- a NaN in an ordered record: `r <= r`, but not `r == r` -/
example := C109_order_self V (fun _ _ _ => M.throw .typeError) env (C := N) rfl (mkN_full (.fn 2)) s0
example : (eqInstE V tup env N (mkN (.fn 2)) (mkN (.fn 2)) s0).1 = .ok false := rfl

end Records.Toy.Eff

namespace Records

/-- C109: a record need not equal itself (a field is a NaN). -/
theorem C109_refuted : ¬ C109_claim := fun h =>
  absurd (h Toy.W Toy.Eff.V Toy.Eff.tup Toy.env Toy.Eff.N Toy.Eff.N_creatable rfl (Toy.Eff.mkN (.fn 2)) rfl
    (Toy.Eff.mkN_full _) Toy.s0) (by
      have h : (eqInstE Toy.Eff.V Toy.Eff.tup Toy.env Toy.Eff.N (Toy.Eff.mkN (.fn 2)) (Toy.Eff.mkN (.fn 2)) Toy.s0).1 = .ok false := rfl
      rw [h]; nofun)

end Records
