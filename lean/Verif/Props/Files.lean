import Verif.Spec.Files
import Verif.Props.Roundtrip
import Verif.Proofs.Exporter
set_option linter.unusedSimpArgs false
/-
C102: JSON and pickles, as text and in files.
-/
namespace Records
variable {W : World}

theorem erase_set_new {d : Dict W.Obj} {k : String} (h : k ∉ d.map (·.1)) (v : W.Obj) : (d.set k v).erase k = d := by
  induction d with
  | nil => simp [Dict.set, Dict.erase]
  | cons x d ih =>
    obtain ⟨k', v'⟩ := x
    have hne : k' ≠ k := fun e => h (by simp [e])
    rw [Dict.set, if_neg hne, Dict.erase, if_neg hne, ih fun h' => h (List.mem_cons_of_mem _ h')]

theorem write_redirected {X : Type} {J : Codec W X} {read : W.Obj → M W W.Obj} {write : W.Obj → W.Obj → M W Unit}
    (hJ : FileLaws J read write) {f : W.Obj} (hf : W.isNone f = false) (x : X) (args : List W.Obj) {kw : Dict W.Obj}
    (hk : "io" ∉ kw.map (·.1)) (s : LState W) : Redirected write f (J.write x args kw s) (J.write x args (kw.set "io" f) s) := by
  have e1 : J.write x args kw = M.bind (J.dumps x args kw) fun t => M.pure (some t) := by
    unfold Codec.write
    rw [(Dict.get?_eq_none_iff _ _).2 hk]
  have e2 : J.write x args (kw.set "io" f) = M.bind (J.dump x f args kw) fun _ => M.pure none := by
    unfold Codec.write
    rw [Dict.get?_set, if_pos rfl]
    simp only [hf, Bool.false_eq_true, if_false]
    rw [erase_set_new hk]
  intro t s1 h
  rw [e1] at h
  unfold M.bind at h
  rcases hd : J.dumps x args kw s with ⟨_ | t', s'⟩
  · rw [hd] at h; cases h
  · rw [hd] at h
    cases h
    have hdump := hJ.dump x f args kw s t s1 hd
    rw [e2]
    unfold M.bind
    rw [hdump]
    constructor
    · intro s' hw
      rw [hw]
      rfl
    · intro e s' hw
      rw [hw]

/-! ### C102 -/

/-- C102: `io=None` is the same as no `io`. -/
theorem C102_no_file {X : Type} (J : Codec W X) {v : W.Obj} (hv : W.isNone v = true) (x : X) (args : List W.Obj) {kw : Dict W.Obj}
    (hk : "io" ∉ kw.map (·.1)) : J.write x args (kw.set "io" v) = J.write x args kw := by
  unfold Codec.write
  rw [Dict.get?_set, if_pos rfl, (Dict.get?_eq_none_iff _ _).2 hk]
  simp only [hv, if_true]
  rw [erase_set_new hk]

/-- C102: `to_json(..., io=f)`, with any selection and export options, writes to `f` the text that `to_json(...)` returns, and returns
`None`. -/
theorem C102_to_json {J : Codec W (Dict W.Obj)} {read : W.Obj → M W W.Obj} {write : W.Obj → W.Obj → M W Unit}
    (hJ : FileLaws J read write) {f : W.Obj} (hf : W.isNone f = false) (V : OptView W) (C : RecClass W) (obj : Carrier W)
    (eargs : List W.Obj) (ekw : Dict W.Obj) (sel : Sel W.Obj) (args : List W.Obj) {kw : Dict W.Obj} (hk : "io" ∉ kw.map (·.1))
    (s : LState W) :
    Redirected write f ((toJsonFn J).run V C obj eargs ekw sel args kw s).1
      ((toJsonFn J).run V C obj eargs ekw sel args (kw.set "io" f) s).1 ∧
    ((toJsonFn J).run V C obj eargs ekw sel args (kw.set "io" f) s).2 = ((toJsonFn J).run V C obj eargs ekw sel args kw s).2 := by
  have key : ∀ m s, Redirected write f ((if kw.has "v" then M.throw .typeError else J.write m args kw) s)
      ((if (kw.set "io" f).has "v" then M.throw .typeError else J.write m args (kw.set "io" f)) s) := by
    intro m s
    have hv : (kw.set "io" f).has "v" = kw.has "v" := by
      rw [Bool.eq_iff_iff, Dict.has_iff, Dict.has_iff, ← Dict.get?_isSome_iff, ← Dict.get?_isSome_iff, Dict.get?_set,
        if_neg (by decide)]
    rw [hv]
    split
    · intro t s' h
      cases h
    · exact write_redirected hJ hf m args hk s
  unfold toJsonFn XFun.run exportRun
  simp only
  cases bindOpts V eargs ekw with
  | error e => exact ⟨(fun _ _ h => nomatch h), rfl⟩
  | ok o =>
    obtain ⟨o, rev⟩ := o
    simp only
    rcases toDict C obj o rev s with ⟨e | d, s'⟩
    · exact ⟨(fun _ _ h => nomatch h), rfl⟩
    · simp only
      cases (sel.call [d] (.dict 0)).ret with
      | error e => exact ⟨(fun _ _ h => nomatch h), rfl⟩
      | ok m => exact ⟨key _ s', rfl⟩

/-- C102: so does `to_pickle`. -/
theorem C102_to_pickle {P : Codec W (Inst W)} {read : W.Obj → M W W.Obj} {write : W.Obj → W.Obj → M W Unit}
    (hP : FileLaws P read write) {f : W.Obj} (hf : W.isNone f = false) (r : Inst W) (args : List W.Obj) {kw : Dict W.Obj}
    (hk : "io" ∉ kw.map (·.1)) (s : LState W) :
    Redirected write f (toPickle P r args kw s) (toPickle P r args (kw.set "io" f) s) := by
  have hv : (kw.set "io" f).has "self" = kw.has "self" := by
    rw [Bool.eq_iff_iff, Dict.has_iff, Dict.has_iff, ← Dict.get?_isSome_iff, ← Dict.get?_isSome_iff, Dict.get?_set,
      if_neg (by decide)]
  unfold toPickle
  rw [hv]
  split
  · intro t s' h
    cases h
  · exact write_redirected hP hf r args hk s

/-- C102: `from_json_io(f, ...)`, with any selection, reads `f` and does what `from_json` does with the text. -/
theorem C102_from_json_io {E : Env W} {J : Codec W (Dict W.Obj)} {read : W.Obj → M W W.Obj} {write : W.Obj → W.Obj → M W Unit}
    (hJ : FileLaws J read write) (hE : ∀ t kw, J.loads t [] kw = E.jsonLoads t kw) (call : Dict W.Obj → M W (Res W))
    (sel : Sel W.Obj) (f : W.Obj) {kw : Dict W.Obj} (hk : ∀ n ∈ ["self", "cls", "v"], n ∉ kw.map (·.1)) :
    fromJsonIo E J call sel f kw = M.bind (read f) fun t => fromJson E call sel t kw := by
  have hc : clash ["self", "cls", "v"] kw = false := by
    unfold clash
    rw [List.any_eq_false]
    intro n hn h
    exact hk n hn ((Dict.has_iff _ _).1 h)
  unfold fromJsonIo fromJson
  rw [hc, hJ.load]
  funext s
  simp only [Bool.false_eq_true, if_false, hE]
  unfold M.bind
  rcases read f s with ⟨_ | t, s'⟩ <;> rfl

/-- C102: `from_pickle` returns the unpickled object itself if it is an instance of the class (or a subclass), and otherwise does what
`parse` does with it; what `pickle.loads` raises is raised. -/
theorem C102_from_pickle (E : Env W) (P : Codec W (Inst W)) (C : RecClass W) (n : Nat) (b : W.Obj) (args : List W.Obj)
    {kw : Dict W.Obj} (hk : "cls" ∉ kw.map (·.1) ∧ "v" ∉ kw.map (·.1)) (s : LState W) :
    (∀ e s', P.loads b args kw s = (.error e, s') → fromPickle E P C n b args kw s = (.error e, s')) ∧
    ∀ v s', P.loads b args kw s = (.ok v, s') →
      (W.isInstance v C.cid = true → fromPickle E P C n b args kw s = (.ok (.old v), s')) ∧
      (W.isInstance v C.cid = false → fromPickle E P C n b args kw s = parseN E C n v s') := by
  have hc : clash ["cls", "v"] kw = false := by
    unfold clash
    simp [(Dict.has_eq_false_iff kw "cls").2 hk.1, (Dict.has_eq_false_iff kw "v").2 hk.2]
  unfold fromPickle
  rw [hc]
  simp only [Bool.false_eq_true, if_false]
  unfold M.bind accept
  refine ⟨fun e s' h => by rw [h], fun v s' h => ?_⟩
  rw [h]
  refine ⟨fun hi => ?_, fun hi => ?_⟩ <;> simp [hi, M.pure]

/-- C102: `from_pickle_io(f, ...)` reads `f` and does what `from_pickle` does with the bytes. -/
theorem C102_from_pickle_io (E : Env W) {P : Codec W (Inst W)} {read : W.Obj → M W W.Obj} {write : W.Obj → W.Obj → M W Unit}
    (hP : FileLaws P read write) (C : RecClass W) (n : Nat) (f : W.Obj) (args : List W.Obj)
    {kw : Dict W.Obj} (hk : "cls" ∉ kw.map (·.1) ∧ "v" ∉ kw.map (·.1)) :
    fromPickleIo E P C n f args kw = M.bind (read f) fun b => fromPickle E P C n b args kw := by
  have hc : clash ["cls", "v"] kw = false := by
    unfold clash
    simp [(Dict.has_eq_false_iff kw "cls").2 hk.1, (Dict.has_eq_false_iff kw "v").2 hk.2]
  unfold fromPickleIo fromPickle
  rw [hc, hP.load]
  funext s
  simp only [Bool.false_eq_true, if_false]
  unfold M.bind
  rcases read f s with ⟨_ | t, s'⟩ <;> rfl

end Records

namespace Records
variable {W : World}

/-- C102: writing JSON to a file that keeps its text and reading it back is the same as doing it with the text. -/
theorem C102_through_file {E : Env W} {J : Codec W (Dict W.Obj)} {read : W.Obj → M W W.Obj} {write : W.Obj → W.Obj → M W Unit}
    (hJ : FileLaws J read write) (hE : ∀ t kw, J.loads t [] kw = E.jsonLoads t kw) {f : W.Obj} (hf : W.isNone f = false)
    (V : OptView W) (C : RecClass W) (obj : Carrier W) (eargs : List W.Obj) (ekw : Dict W.Obj) (sel : Sel W.Obj) (args : List W.Obj)
    {kw : Dict W.Obj} (hk : "io" ∉ kw.map (·.1)) {s s1 s2 s3 : LState W} {t : W.Obj}
    (h : ((toJsonFn J).run V C obj eargs ekw sel args kw s).1 = (.ok (some t), s1)) (hw : write f t s1 = (.ok (), s2))
    (hr : read f s2 = (.ok t, s3)) (call : Dict W.Obj → M W (Res W)) (sel' : Sel W.Obj) {kw' : Dict W.Obj}
    (hk' : ∀ n ∈ ["self", "cls", "v"], n ∉ kw'.map (·.1)) :
    ((toJsonFn J).run V C obj eargs ekw sel args (kw.set "io" f) s).1 = (.ok none, s2) ∧
      fromJsonIo E J call sel' f kw' s2 = fromJson E call sel' t kw' s3 := by
  refine ⟨((C102_to_json hJ hf V C obj eargs ekw sel args hk s).1 t s1 h).1 s2 hw, ?_⟩
  rw [C102_from_json_io hJ hE call sel' f hk', M.bind_ok hr]

/-- C102: arguments that collide with the names of the parameters raise TypeError before anything is read or written. -/
theorem C102_clash (E : Env W) (J : Codec W (Dict W.Obj)) (P : Codec W (Inst W)) (C : RecClass W) (n : Nat) (call : Dict W.Obj → M W (Res W))
    (sel : Sel W.Obj) (x : W.Obj) (i : Inst W) (args : List W.Obj) {kw : Dict W.Obj} (s : LState W) :
    (("cls" ∈ kw.map (·.1) ∨ "v" ∈ kw.map (·.1)) →
      fromPickle E P C n x args kw s = (.error .typeError, s) ∧ fromPickleIo E P C n x args kw s = (.error .typeError, s) ∧
        fromJsonIo E J call sel x kw s = (.error .typeError, s)) ∧
    ("self" ∈ kw.map (·.1) → toPickle P i args kw s = (.error .typeError, s) ∧ fromJsonIo E J call sel x kw s = (.error .typeError, s)) := by
  constructor
  · intro h
    have hc : clash ["cls", "v"] kw = true := by
      unfold clash
      rcases h with h | h <;> simp [(Dict.has_iff _ _).2 h]
    have hc' : clash ["self", "cls", "v"] kw = true := by
      unfold clash
      rcases h with h | h <;> simp [(Dict.has_iff _ _).2 h]
    unfold fromPickle fromPickleIo fromJsonIo
    rw [hc, hc']
    exact ⟨rfl, rfl, rfl⟩
  · intro h
    have h' : kw.has "self" = true := (Dict.has_iff _ _).2 h
    have hc' : clash ["self", "cls", "v"] kw = true := by
      unfold clash
      simp [h']
    unfold toPickle fromJsonIo
    rw [h', hc']
    exact ⟨rfl, rfl⟩

end Records

namespace Records.Toy.Fl
open Records.Toy Records.Toy.Trip

/-- the text of `{"x": 1}` -/
def text : World.Obj Toy.W := TObj.str "{'x': 1}"

/-- a file: the state is 1 if it contains the text, otherwise it is empty -/
def file : World.Obj Toy.W := TObj.fn 1

def write (_ t : World.Obj Toy.W) : M Toy.W Unit := fun s =>
  if t = text then (.ok (), { s with user := ([1] : List Nat) }) else (.error .valueError, s)

def read (_ : World.Obj Toy.W) : M Toy.W (World.Obj Toy.W) := fun s =>
  match (show List Nat from s.user) with
  | [1] => (.ok text, s)
  | _ => (.ok (TObj.str ""), s)

/-- a JSON codec that knows one text -/
def J : Codec Toy.W (Dict (World.Obj Toy.W)) where
  dumps d _ _ := dumps d
  dump d io _ _ := M.bind (dumps d) (write io)
  loads t _ kw := envJ.jsonLoads t kw
  load f _ kw := M.bind (read f) fun t => envJ.jsonLoads t kw

theorem J_laws : FileLaws J read write where
  dump x io args kw s t s' h := by
    show M.bind (dumps x) (write io) s = _
    exact M.bind_ok h
  load f args kw := rfl

/-- options are not used here -/
def view : OptView Toy.W := ⟨fun _ => false, fun _ => .no, fun _ => .tags [], fun _ => [], fun _ => Sel.empty⟩

def rec1 : Carrier Toy.W := .ofInst envJ (mkA (.int 1) (.int 3))

/-- `A(x=1).to_json()` -/
theorem run1 : ((toJsonFn J).run view Toy.A rec1 [] [] Sel.empty [] [] s0).1 = (.ok (some text), s0) := rfl

/-- the state after writing -/
def s1 : LState Toy.W := ⟨([1] : List Nat), fun _ => []⟩

/-- `A(x=1).to_json(io=f)`, then `A.from_json_io(f)` -/
example : ((toJsonFn J).run view Toy.A rec1 [] [] Sel.empty [] [("io", file)] s0).1 = (.ok none, s1) ∧
    fromJsonIo envJ J (fun m => callN envJ Toy.A 1 none m) Sel.empty file [] s1 =
      (.ok (.new ⟨.record 0, [("x", .bool true), ("y", .int 3)], none⟩), s1) :=
  C102_through_file (E := envJ) J_laws (fun _ _ => rfl) (f := file) rfl view Toy.A rec1 [] [] Sel.empty [] (kw := []) (by decide) run1
    (s2 := s1) rfl (s3 := s1) rfl (fun m => callN envJ Toy.A 1 none m) Sel.empty (kw' := []) (by decide)

-- without the file it is returned
example : J.write [("x", .int 1)] [] [("io", .none)] s0 = (.ok (some text), s0) := by
  exact congrFun (C102_no_file J (v := TObj.none) rfl [("x", TObj.int 1)] [] (kw := []) (by decide)) s0

/-- a pickle codec: bytes "A" is an instance of `A`, bytes "d" a dict -/
def P : Codec Toy.W (Inst Toy.W) where
  dumps _ _ _ := M.throw .typeError
  dump _ _ _ _ := M.throw .typeError
  loads t _ _ := match (show TObj from t) with
    | .str "A" => M.pure (inst 0 [("x", .int 1)])
    | .str "d" => M.pure (dict1 "x" (.int 1))
    | _ => M.throw .valueError
  load _ _ _ := M.throw .typeError

example : fromPickle env P Toy.A 1 (TObj.str "A") [] [] s0 = (.ok (.old (inst 0 [("x", .int 1)])), s0) :=
  ((C102_from_pickle env P Toy.A 1 (TObj.str "A") [] ⟨by decide, by decide⟩ s0).2 _ s0 rfl).1 rfl
example : fromPickle env P Toy.A 1 (TObj.str "d") [] [] s0 = (.ok (.new ⟨.record 0, [("x", .int 1), ("y", .int 3)], none⟩), s0) :=
  ((C102_from_pickle env P Toy.A 1 (TObj.str "d") [] ⟨by decide, by decide⟩ s0).2 _ s0 rfl).2 rfl
example : fromPickle env P Toy.A 1 (TObj.str "") [] [] s0 = (.error .valueError, s0) :=
  (C102_from_pickle env P Toy.A 1 (TObj.str "") [] ⟨by decide, by decide⟩ s0).1 _ s0 rfl

end Records.Toy.Fl
