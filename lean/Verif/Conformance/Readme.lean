import Verif.Conformance.Records
/-
The examples of README.md and doc/source/select.rst on the model.  Four of them do not work as written: the comments say so, and the
model agrees (the examples were read, not run).
-/
namespace Records.Conf

/-! ### README.md -/

/-- `x: float; y: float; z: float = 0.0` -/
def rmPoint : ClassSpec W :=
  { cid := C.record 0, anns := [("x", .plain (ty .float)), ("y", .plain (ty .float)), ("z", .plain (ty .float))],
    attrs := [("z", .value (.float 0))] }
-- 19-23: `Point(x=0, y=0)` is printed; `x` and `y` stay integers
example : cls rmPoint (fun K => out (mk K (ints [("x", 0), ("y", 0)]))) (.raised .runtimeError) =
    .new [("x", i 0), ("y", i 0), ("z", .float 0)] := by rfl
example : cls rmPoint (fun K => match mk K (ints [("x", 0), ("y", 0)]) with
      | .ok (.new x) => (reprInst E (fun _ => "Point") (fun v => match v with | .int 0 => "0" | _ => "?") K {} x s0).1
      | _ => .ok "") (.ok "") = .ok "Point(x=0, y=0)" := by rfl
-- 25-27
example : cls rmPoint (fun K => out (mk K [("x", s "hello"), ("y", s "world"), ("z", s "1.0")])) (.raised .runtimeError) =
    .new [("x", s "hello"), ("y", s "world"), ("z", s "1.0")] := by rfl

/-- `last_name.replace('richard', '*******')` on the inputs below -/
def rmCensor : Func W := fun args _ =>
  match args with
  | [.str "prichard"] => M.pure (s "p*******")
  | [v] => M.pure v
  | _ => M.throw .typeError
/-- `post_new` of `Person` (59-61) -/
def rmPostNew (x : Inst W) : M W (Inst W × Option (Res W)) :=
  match x.dict.get? "names_of_children", x.dict.get? "number_of_children" with
  | some l, some n => if eq (.int (elems l).length) n then M.pure (x, none) else M.throw .valueError
  | _, _ => M.throw .attributeError
/-- `Person` (43-61) -/
def rmPerson : ClassSpec W :=
  { cid := C.record 0,
    anns := [("first_name", .plain (ty .str)), ("last_name", .plain (chk (ty .str))), ("year_of_birth", .plain (strict (ty .int))),
      ("lucky_number", .plain (chk (ty .int) [Loose])), ("number_of_children", .plain (chk (ty .int) [WithinT (.val (i 0))])),
      ("names_of_children", .plain (chk (.iter C.list (chk (ty .int) [Eval]))))],
    pre := [("last_name", none, preAdd .validator rmCensor)],
    postNew := rmPostNew }
/-- a call of `Person` -/
def rmCall (first last year lucky n : O) (names : List O) : RecOut :=
  cls rmPerson (fun K => out (mk K [("first_name", first), ("last_name", last), ("year_of_birth", year), ("lucky_number", lucky),
    ("number_of_children", n), ("names_of_children", list names)])) (.raised .runtimeError)
-- 44-48: nothing is checked in `first_name`, `lucky_number` is coerced; 49-50, 53-57: elements are evaluated, the last name is changed
example : rmCall (i 5) (s "prichard") (i 1990) (s "12") (i 2) [i 1, s "6+9"] =
    .new [("first_name", i 5), ("last_name", s "p*******"), ("year_of_birth", i 1990), ("lucky_number", i 12),
      ("number_of_children", i 2), ("names_of_children", list [i 1, i 15])] := by rfl
-- 45, 46, 48: what is refused
example : rmCall (s "a") (i 5) (i 1990) (i 7) (i 0) [] = .raised .typeError := by rfl
example : rmCall (s "a") (s "b") (.bool true) (i 7) (i 0) [] = .raised .typeError := by rfl
example : rmCall (s "a") (s "b") (i 1990) (i 7) (i (-1)) [] = .raised .valueError := by rfl
-- 59-61
example : rmCall (s "a") (s "b") (i 1990) (i 7) (i 1) [] = .raised .valueError := by rfl

/-- `name: str; password: str; age: int = 18`, checked -/
def rmUser : ClassSpec W :=
  { cid := C.record 0, style := .check, anns := [("name", .plain (ty .str)), ("password", .plain (ty .str)), ("age", .plain (ty .int))],
    attrs := [("age", .value (i 18))] }
-- 77
example : cls rmUser (fun K => fromMap K [] none [("name", s "richard"), ("password", s "swordfish")]) (.raised .runtimeError) =
    .new [("name", s "richard"), ("password", s "swordfish"), ("age", i 18)] := by rfl
-- 78: the text has a closing parenthesis too many and is no JSON (JSONDecodeError is a ValueError)
example : cls rmUser (fun K => fromJs K {} (s "{\"name\": \"richard\", \"password\": \"swordfish\"})")) (.raised .runtimeError) =
    .raised .valueError := by rfl
-- 79-80: the namespace has an attribute `user` instead of `name`, so that this raises AttributeError
example : cls rmUser (fun K => fromInst K {} (.ofObj E (ns [("user", s "rich"), ("password", s "ard"), ("age", i 7)] : W.Obj)) [] [])
    (.raised .runtimeError) = .raised .attributeError := by rfl
-- 83-84
example : cls rmUser (fun K => fromMap K [] (some { rename := lst [("user", "name")], remove := .iterable (.many ["favorite_color"]) })
      [("user", s "richard"), ("password", s "pw"), ("favorite_color", s "red")]) (.raised .runtimeError) =
    .new [("password", s "pw"), ("name", s "richard"), ("age", i 18)] := by rfl

/-- `x: float; y: float; z: float = 0`, checked (92-95) -/
def rmPointC : ClassSpec W := { pointSpec false with style := .check }
-- 97-107: `[2, 3, 6]` contains integers, which are no floats: ParseFailure; with floats it works
example : cls rmPointC (fun K =>
      let K' : RecClass W := { K with parsers := K.parsers ++ [fromTuple K] }
      [out (un K' (list [i 2, i 3, i 6])), out (un K' (list [.float 20, .float 30, .float 60]))]) [] =
    [.raised .typeError, .new [("x", .float 20), ("y", .float 30), ("z", .float 60)]] := by rfl
-- 115-126: neither is `Point(x=2, y=3, z=6)` possible for checked floats; with floats the export adds the key
example : cls rmPointC (fun K => [out (mk K (ints [("x", 2), ("y", 3), ("z", 6)]))]) [] = [.raised .typeError] := by rfl
example : cls rmPointC (fun K =>
      let p := mk K [("x", .float 20), ("y", .float 30), ("z", .float 60)]
      [exp K p {}, expSel K p {} { add := lst [("w", i 0)] }]) [] =
    [some [("x", .float 20), ("y", .float 30), ("z", .float 60)],
      some [("x", .float 20), ("y", .float 30), ("z", .float 60), ("w", i 0)]] := by rfl

/-! ### doc/source/select.rst (the exports are compared with `6` where the field holds `'6'`; `from_dict` is `from_mapping`) -/

/-- `x: int; y: str` -/
def docA : ClassSpec W := { cid := C.record 0, anns := [("x", .plain (ty .int)), ("y", .plain (ty .str))] }
def docX : Dict O := [("x", i 5), ("y", s "6")]
example : cls docA (fun K =>
      let a := mk K docX
      [exp K a {}, expSel K a {} { remove := .str "x" }]) [] = [some docX, some [("y", s "6")]] := by rfl
example : cls docA (fun K => match (Sel.empty : Sel O).merge [({ add := .mapping [("z", i 3)] } : SelectArgs O).mk']
        (some ({ rename := .mapping [("x", "X")] } : SelectArgs O).mk'), exp K (mk K docX) {} with
      | .ok sel, some d => sel.applyTo d
      | _, _ => .error .runtimeError) (.error .runtimeError) = .ok [("y", s "6"), ("X", i 5), ("z", i 3)] := by rfl
example : cls docA (fun K => [fromMap K [] none docX, fromMap K [] (some { add := .mapping [("x", i 5)] }) [("y", s "6")],
      fromMap K [{ remove := .str "z" }] (some { rename := .mapping [("X", "x")] }) [("X", i 5), ("y", s "6"), ("z", i 3)]]) [] =
    [.new docX, .new [("y", s "6"), ("x", i 5)], .new [("y", s "6"), ("x", i 5)]] := by rfl

end Records.Conf
