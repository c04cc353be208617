import Verif.Conformance.Coercers
/-
tests/unittests/test_validation.py on the model.
-/
namespace Records.Conf

/-! ### the tokens of the tests -/

/-- comparison of numbers -/
def numCmp : Cmp O :=
  let v (o : O) : Int := (num o).getD 0
  ⟨fun a b => decide (v a < v b), fun a b => decide (v a ≤ v b), fun a b => decide (v b < v a), fun a b => decide (v b ≤ v a),
    fun a b => decide (v a = v b)⟩

/-- the effect of a warning: it is counted -/
def emit (_ : Bool) : M W Unit := fun st => (.ok (), { st with user := (show Nat from st.user) + 1 })

/-- an assertion validator (validators.py:77-86) -/
def assertTok (g : O → M W Bool) (warn : WarnMode := .off) (err : Option Exc := none) : Tok W :=
  .validation fun _ => .ok (AssertCfg.inner ⟨err, warn⟩ emit g)

/-- `Within(ge, lt, g_eq, l_eq)`; its constructor may raise in the class body -/
def WithinT (ge : Bound O := .least) (lt : Bound O := .greatest) (gEq : Bool := true) (lEq : Bool := false) : Tok W :=
  match Within.init numCmp ge lt gEq lEq with
  | .error e => .raises e
  | .ok w => assertTok fun v => M.pure (w.assert numCmp (.val v))

/-- `Clamp(ge, le)` -/
def ClampT (ge le : Bound O) : Tok W :=
  match Clamp.init numCmp ge le with
  | .error e => .raises e
  | .ok c => .validation fun _ => .ok fun v => match c.inner numCmp (.val v) with
    | .val w => M.pure w
    | _ => M.throw .typeError

/-- `Cyclic(minimum, maximum)` -/
def CyclicT (lo hi : Int) : Tok W := .validation fun _ => .ok fun v =>
  match v with
  | .int n => match cyclicInner lo hi n with
    | .ok m => M.pure (O.int m)
    | .error e => M.throw e
  | _ => M.throw .typeError

/-- `T(n)` for the two targets of the parametrised tests -/
def as (c : C) (n : Int) : O := if c = .int then .int n else .float (10 * n)

/-! ### the tests -/

-- 22-27
example : ∀ c ∈ [C.int, C.float], test (chk (ty c) [Loose, WithinT (.val (i 0))]) [.float 650, .float (-90)] =
    [.val (as c 65), ValueError] := by
  intro c hc; simp only [List.mem_cons, List.not_mem_nil, or_false] at hc; rcases hc with rfl | rfl <;> rfl
-- 30-36
example : ∀ c ∈ [C.int, C.float], test (chk (ty c) [Loose, WithinT (lt := .val (i 100)) (lEq := true)]) [.float 650, i 100, i 101] =
    [.val (as c 65), .val (as c 100), ValueError] := by
  intro c hc; simp only [List.mem_cons, List.not_mem_nil, or_false] at hc; rcases hc with rfl | rfl <;> rfl
-- 39-47
example : ∀ c ∈ [C.int, C.float], test (chk (ty c) [Loose, WithinT (.val (i 10)) (.val (i 100)) (gEq := false)])
      [.float 650, i 11, i 10, i 100] =
    [.val (as c 65), .val (as c 11), ValueError, ValueError] := by
  intro c hc; simp only [List.mem_cons, List.not_mem_nil, or_false] at hc; rcases hc with rfl | rfl <;> rfl
-- 50-56
example : test (chk (ty .int) [Loose, WithinT (.val (i 100)) (.val (i 100))]) [] = [ValueError] := by rfl
example : test (chk (ty .int) [Loose, WithinT (.val (i 100)) (.val (i 100)) (lEq := true)]) [] = [] := by rfl
example : test (chk (ty .int) [Loose, WithinT (.val (i 101)) (.val (i 100)) (lEq := true)]) [] = [ValueError] := by rfl
-- 59-63
example : test (chk (ty .int) [ClampT (.val (i 10)) (.val (i 100))]) [i 15, i 101, i 3] = [.val (i 15), .val (i 100), .val (i 10)] := by
  rfl
-- 66-70
example : test (chk (ty .int) [ClampT (.val (i 10)) (.val (i 10))]) [i 15, i 101, i 3] = [.val (i 10), .val (i 10), .val (i 10)] := by
  rfl
-- 73-75
example : test (chk (ty .int) [ClampT (.val (i 15)) (.val (i 10))]) [] = [ValueError] := by rfl
-- 78-84
example : test (chk (ty .int) [CyclicT 10 100]) [i 15, i 101, i 3, i 100, i 10] =
    [.val (i 15), .val (i 11), .val (i 93), .val (i 10), .val (i 10)] := by rfl
/-- `pattern.fullmatch(v)` on the inputs of the test -/
def isEquation (v : O) : M W Bool := M.pure (v = s "0+9+3+1" || v = s "95")
-- 87-93
example : test (chk (ty .str) [assertTok isEquation (err := some .lookupError)]) [s "0+9+3+1", s "95", s "a**3"] =
    [.val (s "0+9+3+1"), .val (s "95"), LookupError] := by rfl
-- 96-101
example : test (chk .any [assertTok (truthAssert (W := W))]) [s "hi", i 12, list []] = [.val (s "hi"), .val (i 12), ValueError] := by rfl
-- 104-109, 112-118: no exception, and one warning
example : ∀ w ∈ [WarnMode.on, WarnMode.logger],
    test (chk .any [assertTok (truthAssert (W := W)) w]) [s "hi", i 12, list []] = [.val (s "hi"), .val (i 12), .val (list [])] := by
  intro w hw; simp only [List.mem_cons, List.not_mem_nil, or_false] at hw; rcases hw with rfl | rfl <;> rfl
example : (match mkClass (W := W) { cid := C.record 0, anns := [("x", .plain (chk .any [assertTok (truthAssert (W := W)) .logger]))] } with
    | .ok K => (call K (some (list [])) [] (call K (some (i 12)) [] (call K (some (s "hi")) [] s0).2).2).2.user
    | .error _ => (7 : Nat)) = (1 : Nat) := by rfl
/-- `lambda v: len(v) >= 2` -/
def lenGe2 : Func W := fun args _ =>
  match args with
  | [.seq .generator _] => M.throw .typeError
  | [v] => M.pure (O.bool ((elems v).length ≥ 2))
  | _ => M.throw .typeError
/-- the options of an assertion validator without arguments -/
def dfltOpts : AssertOpts W := ⟨⟨none, .off⟩, emit⟩
-- 121-128
example : test (chk (.bareGeneric C.iterableABC) [.validation (assertCallTok lenGe2 dfltOpts)])
      [s "hi", .range 0 3 1, .range 0 0 1, gen [i 0, i 1, i 2]] =
    [.val (s "hi"), .val (.range 0 3 1), ValueError, TypeError] := by rfl
/-- `str.strip` on the inputs of the test -/
def stripF : Func W := fun args _ =>
  match args with
  | [.str "hi  "] => M.pure (s "hi")
  | [.str "  a  "] => M.pure (s "a")
  | [.str "   "] => M.pure (s "")
  | [.str t] => M.pure (s t)
  | _ => M.throw .typeError
-- 131-136
example : test (chk (ty .str) [.validation (callValidation stripF [] [])]) [s "hi  ", s "  a  ", s "   ", s "hi"] =
    [.val (s "hi"), .val (s "a"), .val (s ""), .val (s "hi")] := by rfl
/-- `len(v) == 1` -/
def isChar : Func W := fun args _ =>
  match args with
  | [v] => M.pure (O.bool ((elems v).length = 1))
  | _ => M.throw .typeError
/-- what an adder call puts into `pre_bind` -/
def preAdd (a : Adder) (g : Func W) (kw : Dict O := []) : Tok W :=
  match a with
  | .validator => .validation (callValidation g [] kw)
  | .coercer => .coercion (callCoercion g [] kw)
  | .assertValidator => .validation (assertCallTok g dfltOpts)
-- 139-153
example : test (chk (.union [ty .str, ty .bytes])) [s "1", .bytes [120], s "12"] (pre := [("x", none, preAdd .assertValidator isChar)]) =
    [.val (s "1"), .val (.bytes [120]), TypeError] := by rfl
-- 156-170: `err` is a class, not an exception, so the default ValueError is raised
example : test (chk (ty .str)) [s "1", s "x", s "12"] (pre := [("x", none, preAdd .assertValidator isChar)]) =
    [.val (s "1"), .val (s "x"), ValueError] := by rfl
/-- `v.replace('poop', '****')` on the inputs of the test -/
def censor : Func W := fun args _ =>
  match args with
  | [.str "poopy"] => M.pure (s "****y")
  | [v] => M.pure v
  | _ => M.throw .typeError
-- 173-186
example : test (chk (ty .str)) [s "foo", s "poopy"] (pre := [("x", none, preAdd .validator censor)]) =
    [.val (s "foo"), .val (s "****y")] := by rfl
/-- `from_hex` on the input of the test -/
def fromHex : Func W := fun args _ =>
  match args with
  | [.str "0xff"] => M.pure (i 255)
  | _ => M.throw .typeError
-- 189-204
example : test (chk (ty .int)) [i 15, s "0xff"] (pre := [("x", none, preAdd .coercer fromHex)]) = [.val (i 15), .val (i 255)] := by rfl

/-! ### post_new -/

/-- the fields `a`, `b`, `c` of an instance as numbers -/
def abc (x : Inst W) : Option (Int × Int × Int) :=
  match x.dict.get? "a", x.dict.get? "b", x.dict.get? "c" with
  | some (.int a), some (.int b), some (.int c) => some (a, b, c)
  | _, _, _ => none

/-- `list(A(...))` -/
def listABC (r : Except Exc (Res W)) : Except ExcKind (List O) :=
  match r with
  | .error e => .error e.kind
  | .ok (.new x) => match abc x with
    | some (a, b, c) => .ok [i a, i b, i c]
    | none => .error .attributeError
  | .ok (.old _) => .error .attributeError

/-- `self.a, self.b, self.c = sorted([self.a, self.b, self.c])` -/
def postSort (x : Inst W) : M W (Inst W × Option (Res W)) :=
  match abc x with
  | some (a, b, c) =>
    let lo := min a (min b c)
    let hi := max a (max b c)
    M.pure ({ x with dict := ((x.dict.set "a" (i lo)).set "b" (i (a + b + c - lo - hi))).set "c" (i hi) }, none)
  | none => M.throw .attributeError

/-- the declarations of the three tests -/
def abcSpec (post : Inst W → M W (Inst W × Option (Res W))) : ClassSpec W :=
  { cid := C.record 0, style := .check, anns := [("a", .plain (ty .int)), ("b", .plain (ty .int)), ("c", .plain (ty .int))],
    postNew := post }

/-- a class, or a dummy if its declaration raised -/
def cls (sp : ClassSpec W) (g : RecClass W → α) (d : α) : α := match mkClass sp with | .ok K => g K | .error _ => d

-- 207-219
example : cls (abcSpec postSort) (fun K => listABC (call K none [("a", i 3), ("b", i 0), ("c", i 12)] s0).1) (.ok []) =
    .ok [i 0, i 3, i 12] := by rfl
/-- `assert self.a <= self.b <= self.c` (AssertionError is `user 9`) -/
def postCheck (x : Inst W) : M W (Inst W × Option (Res W)) :=
  match abc x with
  | some (a, b, c) => if a ≤ b ∧ b ≤ c then M.pure (x, none) else M.throw ⟨.user 9, none⟩
  | none => M.throw .attributeError
-- 222-237
example : cls (abcSpec postCheck) (fun K => listABC (call K none [("a", i 0), ("b", i 3), ("c", i 12)] s0).1) (.ok []) =
    .ok [i 0, i 3, i 12] := by rfl
example : cls (abcSpec postCheck) (fun K => listABC (call K none [("a", i 4), ("b", i 3), ("c", i 12)] s0).1) (.ok []) =
    .error (.user 9) := by rfl
/-- the class of test_post_new_check_with_unary without its own parser (the parser needs the class) -/
def unarySpec : ClassSpec W :=
  { abcSpec postCheck with unary := some true, attrs := [("b", .value (i 1)), ("c", .value (i 2))] }
/-- with the parser `from_int`: `cls(**{'a': v, 'b': v + 1, 'c': v + 2})` -/
def unaryCls (K : RecClass W) : RecClass W :=
  { K with parsers := K.parsers ++ [.user fun v => match v with
      | .int n => callN E K 3 none [("a", i n), ("b", i (n + 1)), ("c", i (n + 2))]
      | _ => M.throw .typeError] }
-- 240-265
example : cls unarySpec (fun K => [listABC (call (unaryCls K) none [("a", i 0), ("b", i 3), ("c", i 12)] s0).1,
      listABC (call (unaryCls K) none [("a", i 4), ("b", i 3), ("c", i 12)] s0).1,
      listABC (call (unaryCls K) (some (i 15)) [] s0).1]) [] =
    [.ok [i 0, i 3, i 12], .error (.user 9), .ok [i 15, i 16, i 17]] := by rfl

end Records.Conf
