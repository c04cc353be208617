import Verif.Conformance.World
/-
tests/unittests/test_checking.py, test_checking_strict.py, test_special_type.py on the model.  Every example cites the lines of
the test it transcribes; `vs` and the outcomes are in the order of the test.
-/
namespace Records.Conf

/-! ### test_checking.py -/

/-- `Literal['a', 'b', 2, 0]` -/
def lit : Hint W := .literal 0 [O.str "a", O.str "b", O.int 2, O.int 0]
def s (t : String) : O := .str t
def i (n : Int) : O := .int n

-- 22-28
example : test (chk (ty .str)) [s "a", i 12] = [.val (s "a"), TypeError] := by rfl
-- 31-40
example : test (chk (ty .int)) [i 12, .bool false, .float 20] = [.val (i 12), .val (.bool false), TypeError] := by rfl
example : test (chk (.newType (ty .int))) [i 12, .bool false, .float 20] = [.val (i 12), .val (.bool false), TypeError] := by
  rfl
-- 43-55
example : test (chk (.generic C.iterableABC [ty .str]))
      [s "12", tuple [s "a", s "b", s "c"], gen [s "0", s "1", s "2", s "3"], .range 0 4 1, i 123] =
    [.val (s "12"), .val (tuple [s "a", s "b", s "c"]), .val (gen [s "0", s "1", s "2", s "3"]), .val (.range 0 4 1),
      TypeError] := by rfl
-- 58-70
example : test (chk (.iter C.sequenceABC (chk (ty .str))))
      [s "12", tuple [s "a", s "b", s "c"], list [s "0", s "1", s "2", s "3"], i 123, .range 0 12 1] =
    [.val (s "12"), .val (tuple [s "a", s "b", s "c"]), .val (list [s "0", s "1", s "2", s "3"]), TypeError, TypeError] := by
  rfl
-- 73-86
example : test (chk (ty .list)) [list [s "1", s "2"], list [s "a", s "b", s "c"], i 123, .range 0 12 1] =
    [.val (list [s "1", s "2"]), .val (list [s "a", s "b", s "c"]), TypeError, TypeError] := by rfl
example : test (chk (.bareGeneric C.list)) [list [s "1", s "2"], list [s "a", s "b", s "c"], i 123, .range 0 12 1] =
    [.val (list [s "1", s "2"]), .val (list [s "a", s "b", s "c"]), TypeError, TypeError] := by rfl
-- 89-103
example : test (chk lit) [s "b", s "a", i 2, s "2", .float 23, .bool false] =
    [.val (s "b"), .val (s "a"), .val (i 2), ValueError, TypeError, ValueError] := by rfl
-- 106-114
example : test (chk .none) [.none, s "None", .bool false] = [.val .none, TypeError, TypeError] := by rfl
example : test (chk (ty .none)) [.none, s "None", .bool false] = [.val .none, TypeError, TypeError] := by rfl
-- 117-127
example : test (chk (ty .type)) [.cls .int, .cls .object, .cls .list] = [.val (.cls .int), .val (.cls .object), .val (.cls .list)] := by
  rfl
example : test (chk .typeBare) [.cls .int, .cls .object, .cls .list] = [.val (.cls .int), .val (.cls .object), .val (.cls .list)] := by
  rfl
example : test (chk .opaque) [] = [TypeError] := by rfl
-- 130-141
example : test (chk (.union [ty .int, ty .bool])) [i 12, i 15, .bool true, s "2", .float 23] =
    [.val (i 12), .val (i 15), .val (.bool true), TypeError, TypeError] := by rfl
/-- the argument of both `test_nested` -/
def nested : O := list [list [.float 20, i 3, i 6], list [i 1, i 2, i 3], list [i (-9), i 5, i 6]]
-- 144-147
example : test (chk (.iter C.list (.iter C.list (ty .numberABC)))) [nested] = [.val nested] := by rfl
-- 150-159
example : test (chk (.typeOf (some C.exception))) [.cls .exception, .cls .typeError, .cls .baseException, i 156] =
    [.val (.cls .exception), .val (.cls .typeError), ValueError, TypeError] := by rfl
-- 162-175
example : test (chk (.tupleFix [chk (ty .int), chk (ty .str)]))
      [tuple [i 5, s "6"], tuple [i 9, s "3"], i 56, tuple [s "3", i 3], tuple [i 3, s "3", .none], tuple [i 3]] =
    [.val (tuple [i 5, s "6"]), .val (tuple [i 9, s "3"]), TypeError, TypeError, ValueError, ValueError] := by rfl
-- 178-189
example : test (chk (.tupleVar (chk (ty .int))))
      [tuple [i 5, i 6], tuple [i 9, i 3, i 7], tuple [], i 56, tuple [s "3", i 3]] =
    [.val (tuple [i 5, i 6]), .val (tuple [i 9, i 3, i 7]), .val (tuple []), TypeError, TypeError] := by rfl
-- 192-198
example : test (.tupleFix [chk (ty .str), ty .int]) [] = [TypeError] := by rfl
example : test (.tupleVar (chk (ty .str))) [] = [TypeError] := by rfl
-- 201-204
example : test (.mapping C.dict (chk (ty .str)) (ty .int)) [] = [TypeError] := by rfl
-- 207-210
example : test (.iter C.list (chk (ty .str))) [] = [TypeError] := by rfl
-- 213-222
example : test (chk (.mapping C.mappingABC (chk (ty .int)) (ty .int))) [dict [(i 5, s "6")], dict [], i 56, dict [(s "3", i 3)]] =
    [.val (dict [(i 5, s "6")]), .val (dict []), TypeError, TypeError] := by rfl
-- 225-228
example : test (.generic C.iterableABC [chk (ty .str)]) [] = [TypeError] := by rfl
-- 231-241
example : test (chk .callable) [.cls .int, .fn "eval", .fn "typing.Iterable", i 12] =
    [.val (.cls .int), .val (.fn "eval"), .val (.fn "typing.Iterable"), TypeError] := by rfl
-- 244-251
example : test (chk (.union [.iter C.list (chk (ty .int)), ty .int])) [list [i 12, i 36, i 12], i 6, list [s "str"]] =
    [.val (list [i 12, i 36, i 12]), .val (i 6), TypeError] := by rfl
-- 254-259
example : test (chk (.union [ty .bool, ty .int])) [i 1, .bool true] = [.val (i 1), .val (.bool true)] := by rfl
-- 262-280
example : test (chk (ty .object)) [i 12, .bool false, .float 20, inst (.user 5) 0 [], inst .object 1 []] =
    [.val (i 12), .val (.bool false), .val (.float 20), .val (inst (.user 5) 0 []), .val (inst .object 1 [])] := by rfl
example : test (chk .any) [i 12, .bool false, .float 20, inst (.user 5) 0 [], inst .object 1 []] =
    [.val (i 12), .val (.bool false), .val (.float 20), .val (inst (.user 5) 0 []), .val (inst .object 1 [])] := by rfl

/-! ### test_checking_strict.py -/

-- 21-27
example : test (strict (ty .str)) [s "a", i 12] = [.val (s "a"), TypeError] := by rfl
-- 30-38
example : test (strict (ty .int)) [i 12, .bool false, .float 20] = [.val (i 12), TypeError, TypeError] := by rfl
-- 41-43
example : test (strict (.generic C.iterableABC [ty .str])) [] = [TypeError] := by rfl
-- 46-48
example : test (strict (.iter C.sequenceABC (strict (ty .str)))) [] = [TypeError] := by rfl
-- 51-65
example : test (strict lit) [s "b", s "a", i 2, s "2", .float 23, .bool false] =
    [.val (s "b"), .val (s "a"), .val (i 2), ValueError, TypeError, TypeError] := by rfl
-- 68-76
example : test (strict .none) [.none, s "None", .bool false] = [.val .none, TypeError, TypeError] := by rfl
example : test (strict (ty .none)) [.none, s "None", .bool false] = [.val .none, TypeError, TypeError] := by rfl
-- 79-90
example : test (strict (.union [ty .int, ty .str])) [i 12, i 15, s "2", .bool true, .float 23] =
    [.val (i 12), .val (i 15), .val (s "2"), TypeError, TypeError] := by rfl
-- 93-109
example : test (strict (.union [ty (.user 0), ty (.user 1)])) [inst (.user 0) 0 [], inst (.user 1) 0 [], inst (.user 2) 0 [], .float 23] =
    [.val (inst (.user 0) 0 []), .val (inst (.user 1) 0 []), TypeError, TypeError] := by rfl
-- 112-115
example : test (strict (.iter C.list (.iter C.list (ty .numberABC)))) [nested] = [.val nested] := by rfl
-- 118-136
example : test (strict (.typeOf (some C.exception))) [.cls .exception, .cls .typeError, .cls .baseException, i 156, .cls .excE] =
    [.val (.cls .exception), .val (.cls .typeError), ValueError, TypeError, TypeError] := by rfl
-- 139-154
example : test (strict (.tupleFix [strict (ty .int), strict (ty .str)]))
      [tuple [i 5, s "6"], tuple [i 9, s "3"], i 56, tuple [s "3", i 3], tuple [i 3, s "3", .none], tuple [i 3],
        tuple [.bool true, s "9"]] =
    [.val (tuple [i 5, s "6"]), .val (tuple [i 9, s "3"]), TypeError, TypeError, ValueError, ValueError, TypeError] := by rfl
-- 157-170
example : test (strict (.tupleVar (strict (ty .int))))
      [tuple [i 5, i 6], tuple [i 9, i 3, i 7], tuple [], i 56, tuple [s "3", i 3], tuple [.bool true, i 3]] =
    [.val (tuple [i 5, i 6]), .val (tuple [i 9, i 3, i 7]), .val (tuple []), TypeError, TypeError, TypeError] := by rfl
-- 173-179
example : test (.tupleFix [strict (ty .str), ty .int]) [] = [TypeError] := by rfl
example : test (.tupleVar (strict (ty .str))) [] = [TypeError] := by rfl
-- 182-185
example : test (.mapping C.dict (strict (ty .str)) (ty .int)) [] = [TypeError] := by rfl
-- 188-191
example : test (.iter C.list (strict (ty .str))) [] = [TypeError] := by rfl
-- 194-205
example : test (strict (.mapping C.dict (strict (ty .int)) (ty .int)))
      [dict [(i 5, s "6")], dict [], i 56, dict [(s "3", i 3)], dict [(.bool false, i 3)]] =
    [.val (dict [(i 5, s "6")]), .val (dict []), TypeError, TypeError, TypeError] := by rfl
-- 208-211: as test_checking.py:225-228

/-! ### test_special_type.py -/

-- 26-31, 34-38
example : test (.union [ty .str, ty .int]) [.float 126] = [.val (.float 126)] := by rfl
example : test (.tupleFix [ty .str, ty .int]) [.float 126] = [.val (.float 126)] := by rfl
-- 8-23, both variants of the fixture
example : ∀ frozen, (match mkClass (W := W) { cid := C.record 0, frozen := frozen, anns := [("b", .plain (.iter C.list (ty .bool)))] } with
    | .error _ => []
    | .ok K => [readX "b" (call K (some (list [])) [] s0).1,
        readX "b" (call K none [("b", list [i 0, i 1, i 2])] s0).1,
        readX "b" (call K (some (i 25)) [("b", i 36)] s0).1]) =
    [.val (list []), .val (list [i 0, i 1, i 2]), TypeError] := by intro frozen; cases frozen <;> rfl

end Records.Conf
