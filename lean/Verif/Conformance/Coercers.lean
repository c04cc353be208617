import Verif.Conformance.Checking
/-
tests/unittests/test_coercers.py on the model.
-/
namespace Records.Conf

/-! ### the tokens of the tests

`OriginDependant.__call__` (std_fillers.py:101-102) and `LooseMixin.__call__` (std_fillers.py:110-113) around the `func_args`
of the model. -/

/-- a token whose callback gets the target type -/
def originTok (g : C → Coercer W) : Tok W :=
  .coercion (.coercer fun o => match o with | some c => .ok (g c) | none => .error .typeError)

/-- a `LooseMixin` token -/
def looseMixin (g : C → Coercer W) : CTok W :=
  .coercer fun o => match looseBind o with | .ok c => .ok (g c) | .error e => .error e

def looseC (kw : List (String × O) := []) : CTok W := looseMixin fun c => loose none c [] kw
/-- `Loose`, `Loose(**kw)` -/
def Loose (kw : List (String × O) := []) : Tok W := .coercion (looseC kw)
/-- `Loose.constrain(item)(**kw)` -/
def LooseCon (item : Info W) (kw : List (String × O) := []) : Tok W :=
  match looseConstrain (O.none : W.Obj) item with
  | .ok i => .coercion (looseMixin fun c => looseInfo i c [] kw)
  | .error e => .raises e
def LooseUnpack : Tok W := .coercion (looseMixin fun c => looseUnpack none c [] [])
def LooseUnpackCon (items : List (UItem W)) : Tok W :=
  match looseUnpackConstrain (O.none : W.Obj) items with
  | .ok u => .coercion (looseMixin fun c => looseUnpackInfo u c [] [])
  | .error e => .raises e
def LooseUnpackMap : Tok W := .coercion (looseMixin fun c => looseUnpackMap none c [] [])
def LooseUnpackMapCon (items : Dict (Info W)) : Tok W :=
  match looseMapConstrain (O.none : W.Obj) items with
  | .ok u => .coercion (looseMixin fun c => looseMapInfo u c [] [])
  | .error e => .raises e

/-- `eval` on the expressions of the tests; names that are not in the namespace raise -/
def ev (t : String) : M W O :=
  match t with
  | "float(6+9)" => M.pure (.float 150)
  | "6+9" => M.pure (.int 15)
  | "95 + 0" => M.pure (.int 95)
  | "95/0.0" => M.throw .zeroDivision
  | "6.0+9.1" => M.pure (.float 151)
  | "3.6" => M.pure (.float 36)
  | "True" => M.pure (.bool true)
  | "1" => M.pure (.int 1)
  | "12" => M.pure (.int 12)
  | "E(1)" => M.pure (.enum 1)
  | "E.x" => M.pure (.enum 1)
  | _ => M.throw ⟨.user 1, none⟩
def evalC : CTok W := .coercer fun _ => .ok (evalCoercer ev)
def Eval : Tok W := .coercion evalC

/-- what `Whole` sees -/
def numObj : O → NumObj W
  | .int n => .rational (O.int n) n 1
  | .bool b => .rational (O.int (if b then 1 else 0)) (if b then 1 else 0) 1
  | .frac n d => .rational (O.int n) n d
  | .float t => .real (O.float t) (f64 ((t : Rat) / 10))
  | .complex re im => .complex (.real (O.float re) (f64 ((re : Rat) / 10))) (im == 0)
  | _ => .other
def Whole : Tok W := originTok fun c v => wholeCall (W := W) c [] [] (numObj v)

def ToBytes (length : Option Nat) : Tok W :=
  originTok fun c v => toBytesCall (W := W) O.bytes c length false false (intOf v)
def Falsish : Tok W := originTok fun c => falsish (W := W) c [] []

/-! ### the tests -/

-- 31-42
example : test (chk (ty .float) [Loose, Eval]) [.float 20, i 6, .bool true, s "2.0", s "float(6+9)", tuple [], s "95/0.0", s "95 + 0"] =
    [.val (.float 20), .val (.float 60), .val (.float 10), .val (.float 20), .val (.float 150), TypeError, TypeError, TypeError] := by
  rfl
-- 45-55
example : test (chk (ty .float) [Loose, .coercion (.compose [looseC, evalC])])
      [.float 20, i 6, .bool true, s "2.0", s "6+9", tuple [], s "95/0.0"] =
    [.val (.float 20), .val (.float 60), .val (.float 10), .val (.float 20), .val (.float 150), TypeError, TypeError] := by rfl
-- 58-60
example : test (chk (.bareGeneric C.iterableABC) [Loose]) [] = [TypeError] := by rfl
-- 63-70
example : test (chk (ty .range) [LooseUnpack])
      [.range 1 10 2, tuple [i 1, i 10, i 2], tuple [i 1, i 10], tuple [i 10], i 10] =
    [.val (.range 1 10 2), .val (.range 1 10 2), .val (.range 1 10 1), .val (.range 0 10 1), TypeError] := by rfl
-- 73-80
example : test (chk (ty .ntuple) [LooseUnpackMap])
      [nt (i 1) (i 10) (i 2), sdict [("a", i 1), ("b", i 10), ("c", i 2)], sdict [("a", i 1), ("b", i 10)], i 10] =
    [.val (nt (i 1) (i 10) (i 2)), .val (nt (i 1) (i 10) (i 2)), .val (nt (i 1) (i 10) (i 0)), TypeError] := by rfl
-- 83-97
example : test (chk (ty .int) [.style .checkStrict, Whole])
      [i 3, .bool true, .float 30, .frac 2 1, .complex 10 0, .float 25, .frac 4 3, s "15", .complex 10 10] =
    [.val (i 3), .val (i 1), .val (i 3), .val (i 2), .val (i 1), TypeError, TypeError, TypeError, TypeError] := by decide +kernel

/-- `int.from_bytes(v, byteorder='big')` -/
def fromBytes : Func W := fun args _ =>
  match args with
  | [v] =>
    let ints := (elems v).map intOf
    match v with
    | .bytes l => M.pure (O.int (l.foldl (fun a b => a * 256 + b) 0 : Nat))
    | .seq _ _ =>
      if ints.all (fun x => match x with | some n => decide (0 ≤ n ∧ n < 256) | none => false) then
        M.pure (O.int (ints.foldl (fun a b => a * 256 + b.getD 0) 0))
      else M.throw .valueError
    | _ => M.throw .typeError
  | _ => M.throw .typeError
-- 100-109
example : test (chk (ty .int) [.coercion (classMethodCoercion (fun _ => .ok fromBytes) [] [("byteorder", (s "big" : W.Obj))])])
      [i 6, .bool true, .bytes [], .bytes [1, 0x33], list [], list [i 2, i 18], list [i 300]] =
    [.val (i 6), .val (.bool true), .val (i 0), .val (i (256 + 3 * 16 + 3)), .val (i 0), .val (i (2 * 256 + 18)), ValueError] := by
  rfl
-- 112-118
example : test (chk (ty .bytearray) [ToBytes none]) [.bytearray [50, 51], i 12, i 300, .float 256] =
    [.val (.bytearray [50, 51]), .val (.bytearray [12]), .val (.bytearray [1, 300 - 256]), TypeError] := by decide +kernel
-- 121-128
example : test (chk (ty .bytearray) [ToBytes (some 1)]) [.bytearray [50, 51], i 12, .float 256, i 300] =
    [.val (.bytearray [50, 51]), .val (.bytearray [12]), TypeError, OverflowError] := by decide +kernel
-- 131-138
example : test (chk (ty .bool) [.coercion .fromInteger]) [.bool true, i 0, i 1, .float 10, i 2] =
    [.val (.bool true), .val (.bool false), .val (.bool true), .val (.bool true), TypeError] := by rfl
-- 141-149
example : ∀ p ∈ [(Hint.none, O.none), (ty .none, O.none), (ty .ellipsis, O.ellipsis)],
    test (chk p.1 [Falsish]) [p.2, .bool false, list [], s "", s "nill"] = [.val p.2, .val p.2, .val p.2, .val p.2, TypeError] := by
  intro p hp
  simp only [List.mem_cons, List.not_mem_nil, or_false] at hp
  rcases hp with rfl | rfl | rfl <;> rfl
-- 152-157
example : test (chk (ty .str) [Loose [("encoding", s "ascii")]]) [s "abc", .bytes [97, 98, 99], .bytes [97, 98, 99, 255]] =
    [.val (s "abc"), .val (s "abc"), ValueError] := by rfl
-- 160-166
example : test (chk (.union [strict (ty .bool) [.coercion .fromInteger], .annotated (ty .float) [Loose]]))
      [s "3.6", .bool true, .float 10, i 1] =
    [.val (.float 36), .val (.bool true), .val (.float 10), ValueError] := by rfl
/-- `re.compile` -/
def compileF : Func W := fun args _ => match args with | [.str t] => M.pure (O.pattern t) | _ => M.throw .typeError
-- 169-171
example : test (chk (ty .pattern) [.coercion (callCoercion compileF [] [])]) [s ".*"] = [.val (.pattern ".*")] := by rfl
/-- `str.lower` on the inputs of the test -/
def lowerF : Func W := fun args _ =>
  match args with
  | [.str "Y"] => M.pure (s "y")
  | [.str t] => M.pure (s t)
  | _ => M.throw .typeError
-- 174-189
example : test (chk (ty .bool) [.coercion (.compose [.coercer fun _ => .ok (mapCoercion (W := W)
        [(s "true", O.bool true), (s "false", O.bool false), (s "yes", O.bool true), (s "no", O.bool false), (s "y", O.bool true),
          (s "n", O.bool false)] []), callCoercion lowerF [] []])])
      [.bool true, .bool false, s "Y", s "false", s "maybe"] =
    [.val (.bool true), .val (.bool false), .val (.bool true), .val (.bool false), TypeError] := by rfl
/-- `C()` of test_func_map_fact: counts the instances -/
def newC : M W O := fun st => (.ok (.inst (.user 20) (show Nat from st.user) .nil), { st with user := (show Nat from st.user) + 1 })
-- 192-211; the counter after the two calls is the number of instances made by the coercer
def factCls : Except Exc (RecClass W) := mkClass (W := W)
  { cid := C.record 0, anns := [("x", .plain (chk (ty (.user 20)) [.coercion (.coercer fun _ => .ok (mapCoercion (W := W) [] [(s "c", newC)]))]))] }
example : test (chk (ty (.user 20)) [.coercion (.coercer fun _ => .ok (mapCoercion (W := W) [] [(s "c", newC)]))])
      [s "c", s "c", s "lu"] =
    [.val (.inst (.user 20) 0 .nil), .val (.inst (.user 20) 1 .nil), TypeError] := by rfl
example : (match factCls with
    | .ok K => (call K (some (s "c")) [] (call K (some (s "c")) [] s0).2).2.user
    | .error _ => (0 : Nat)) = (2 : Nat) := by rfl
-- 214-220
example : test (chk (.iter C.sequenceABC (chk (ty .int) [Loose])) [.style .check])
      [list [], list [i 1, i 2], list [.float 12, i 1, i 3], list [i 1, i 3, .float 12], tuple [i 1, .float 12, i 1]] =
    [.val (list []), .val (list [i 1, i 2]), .val (list [i 1, i 1, i 3]), .val (list [i 1, i 3, i 1]),
      .val (tuple [i 1, i 1, i 1])] := by rfl
-- 223-230
example : test (chk (.tupleVar (chk (ty .int) [Loose])) [.style .check])
      [tuple [], tuple [i 1, i 2], tuple [.float 12, i 1, i 3], tuple [i 1, i 3, .float 12], tuple [i 1, .float 12, i 1],
        tuple [i 1, .float 12, .float 12]] =
    [.val (tuple []), .val (tuple [i 1, i 2]), .val (tuple [i 1, i 1, i 3]), .val (tuple [i 1, i 3, i 1]),
      .val (tuple [i 1, i 1, i 1]), .val (tuple [i 1, i 1, i 1])] := by rfl
/-- `repr` on the inputs of the test -/
def reprF : Func W := fun args _ => match args with | [.bool true] => M.pure (s "True") | _ => M.throw .typeError
-- 233-242
example : test (chk (.tupleFix [chk (ty .int) [Loose], chk (ty .float) [Eval], chk (ty .str) [.coercion (callCoercion reprF [] [])]])
        [.style .check])
      [tuple [i 1, .float 32, s "a"], tuple [.float 53, .float 52, s "5.2"], tuple [i 6, s "6.0+9.1", s "hi"],
        tuple [i 6, s "6.0+9.1", .bool true]] =
    [.val (tuple [i 1, .float 32, s "a"]), .val (tuple [i 5, .float 52, s "5.2"]), .val (tuple [i 6, .float 151, s "hi"]),
      .val (tuple [i 6, .float 151, s "True"])] := by rfl
-- 245-251
example : test (chk (.deque C.deque (chk (ty .int) [Loose])) [.style .check])
      [deque [], deque [i 1, i 2], deque [.float 12, i 1, i 3], deque [i 1, i 3, .float 12], deque [i 1, .float 12, i 1]] =
    [.val (deque []), .val (deque [i 1, i 2]), .val (deque [i 1, i 1, i 3]), .val (deque [i 1, i 3, i 1]),
      .val (deque [i 1, i 1, i 1])] := by rfl
-- 254-259
example : test (chk (.mapping C.mappingABC (ty .int) (chk (ty .float) [Loose])) [.style .check])
      [dict [], dict [(i 9, i 3)], dict [(i 64, .float 80), (i 9, i 3)], dict [(i 64, i 8), (i 9, i 3)]] =
    [.val (dict []), .val (dict [(i 9, .float 30)]), .val (dict [(i 64, .float 80), (i 9, .float 30)]),
      .val (dict [(i 64, .float 80), (i 9, .float 30)])] := by rfl
-- 262-267
example : test (chk (.defaultdict C.defaultdict (ty .int) (chk (ty .float) [Loose])) [.style .check])
      [ddict [], ddict [(i 9, i 3)], ddict [(i 64, .float 80), (i 9, i 3)], ddict [(i 64, i 8), (i 9, i 3)]] =
    [.val (ddict []), .val (ddict [(i 9, .float 30)]), .val (ddict [(i 64, .float 80), (i 9, .float 30)]),
      .val (ddict [(i 64, .float 80), (i 9, .float 30)])] := by rfl
-- 270-273
example : test (.annotated (ty .int) [Loose]) [] = [ValueError] := by rfl
-- 276-285
example : test (chk (.union [ty .bool, ty .float]) [Eval]) [s "3.6", .bool true, .float 10, s "True", s "1", i 1] =
    [.val (.float 36), .val (.bool true), .val (.float 10), .val (.bool true), TypeError, TypeError] := by rfl
-- 288-303
example : test (.union [strict (ty .int) [Eval], chk (ty .str)]) [i 5, s "a", s "12"] = [.val (i 5), .val (s "a"), .val (s "12")] := by
  rfl
example : test (.union [strict (ty .int) [Loose], chk (ty .pattern) [.coercion (callCoercion compileF [] [])]]) [i 5, s "a", s "12"] =
    [.val (i 5), .val (.pattern "a"), ValueError] := by rfl
-- 306-316, 319-329: what the two tokens put into the namespace
example : test (chk (ty .enumE) [Eval]) [s "E(1)", s "E.x", s "1"] = [.val (.enum 1), .val (.enum 1), TypeError] := by rfl
example : evalMake (W := W) [.named (some "E") (O.cls .enumE)] [] = .ok (⟨false, [("E", O.cls .enumE)]⟩ : EvalTok W) := by rfl
example : (match evalMake (W := W) [.dots] [] with
    | .ok t => t.namespace (.named (some "E") (O.cls .enumE : W.Obj))
    | .error e => .error e) = .ok [("E", (O.cls .enumE : W.Obj))] := by rfl
-- 332-336
example : test (chk (ty .bytes) [LooseCon (.cls C.str) [("encoding", s "ascii")]]) [s "abc", i 12] =
    [.val (.bytes [97, 98, 99]), TypeError] := by rfl
-- 339-343
example : test (chk (ty .int) [LooseCon (.cls C.float)]) [.float 15, s "12"] = [.val (i 1), TypeError] := by rfl
-- 346-355
example : test (chk (ty .slice) [LooseUnpackCon [.info (.cls C.int), .info (.cls C.int)]])
      [.slice (some 1) (some 10) (some 2), tuple [i 1, i 10], tuple [i 10], tuple [i 10, s "a"], tuple [i 10, i 3, i 5]] =
    [.val (.slice (some 1) (some 10) (some 2)), .val (.slice (some 1) (some 10) none), TypeError, TypeError, TypeError] := by rfl
-- 358-368
example : test (chk (ty .tupT) [LooseUnpackCon [.info (.cls C.int), .dots]])
      [list [i 1, i 5, i 3, i 2, i 154], tuple [i 1, i 10], tuple [], tuple [i 10, s "a"]] =
    [.val (.seq .tupT (spine [i 1, i 5, i 3, i 2, i 154])), .val (.seq .tupT (spine [i 1, i 10])), .val (.seq .tupT .nil),
      TypeError] := by rfl
-- 371-379
example : test (chk (ty .ntuple) [LooseUnpackMapCon [("a", .cls C.int), ("b", .cls C.object), ("c", .cls C.int)]])
      [sdict [("a", i 1), ("b", s "hi"), ("c", i 15)], sdict [("a", i 1), ("b", s "hi")], sdict [("a", s "1"), ("b", s "hi")],
        sdict [("b", s "hi")]] =
    [.val (nt (i 1) (s "hi") (i 15)), .val (nt (i 1) (s "hi") (i 0)), TypeError, TypeError] := by rfl

/-- `ast.literal_eval` on the texts of the test -/
def literal (t : String) : Except Exc O :=
  match t with
  | "[1,2,\"\"]" => .ok (list [i 1, i 2, s ""])
  | _ => .error .valueError
/-- the loop of `LiteralEval` on inputs that are evaluated once -/
def litRun : Coercer W := fun v =>
  match v with
  | .str t => match literal t with
    | .ok w => M.pure w
    | .error e => M.throw (if e.kind = .valueError then .typeError else e)
  | v => M.pure v
def literalTypes : LiteralTypes W where
  mem c := [C.int, .str, .float, .complex, .set, .tuple, .dict, .list, .bool].elem c
-- 382-386
example : test (chk (ty .list) [.coercion (literalEvalTok literalTypes litRun)]) [s "[1,2,\"\"]", s "list()"] =
    [.val (list [i 1, i 2, s ""]), TypeError] := by rfl
example : LitRun (W := W) literal (s "[1,2,\"\"]") (.ok (list [i 1, i 2, s ""])) ∧
    LitRun (W := W) literal (s "list()") (.error .typeError) :=
  ⟨.step _ _ _ _ rfl rfl (.done _ rfl), .valueError _ _ .valueError rfl rfl rfl⟩
-- 389-391
example : test (chk (.bareGeneric C.iterableABC) [.coercion (literalEvalTok literalTypes litRun)]) [] = [TypeError] := by rfl

/-- the coercer of test_sub_filler_tuple on the input of the test -/
def quotient : Func W := fun args _ => match args with | [.str "1/2"] => M.pure (O.float 5) | _ => M.throw .typeError
-- 394-407
example : test (chk (.tupleFix [chk (ty .int), chk (ty .float)])) [tuple [i 5, s "1/2"]]
    (pre := [("x", some 1, .coercion (callCoercion quotient [] []))]) = [.val (tuple [i 5, .float 5])] := by rfl
/-- `abs` of a complex number, on the input of the test -/
def absF : Func W := fun args _ => match args with | [.complex 15 20] => M.pure (O.float 25) | _ => M.throw .typeError
-- 410-424
example : test (chk (.iter C.list (chk (ty .float)))) [list [.float 5, .float 10, .complex 15 20]]
    (pre := [("x", some 0, .coercion (callCoercion absF [] []))]) = [.val (list [.float 5, .float 10, .float 25])] := by rfl
/-- the coercer of test_sub_filler_union -/
def decodeF : Func W := fun args _ => match args with | [.bytes l] => M.ofExcept (decodeAscii l) | _ => M.throw .typeError
-- 427-439 (with a shorter text)
example : test (.union [ty .float, ty .str]) [.bytes [104, 105], s "hi"] (style := .check)
    (pre := [("x", some 1, .coercion (callCoercion decodeF [] []))]) = [.val (s "hi"), .val (s "hi")] := by rfl
-- 442-454
example : test (.union [chk (ty (.user 10)), chk (ty (.user 11))]) [inst (.user 12) 0 []] = [.val (inst (.user 12) 0 [])] := by rfl

end Records.Conf
