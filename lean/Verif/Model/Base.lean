/-
Shared vocabulary of the model: Python exceptions as values, and Python `dict`s as
insertion-ordered association lists.
-/
namespace Records

/-- Python exception classes that the library raises, catches or distinguishes.
`user n` stands for any other subclass of `Exception` (not of StopIteration); `base n` for any `BaseException` that is *not* a
subclass of `Exception` (`KeyboardInterrupt`, `SystemExit`, ...). -/
inductive ExcKind
  | typeError
  | parseFailure      -- records/record.py:42-46, a subclass of TypeError
  | valueError
  | keyError
  | indexError
  | lookupError
  | attributeError
  | runtimeError
  | recursionError
  | zeroDivision
  | overflow
  | syntaxError
  | stopIteration
  | user (n : Nat)
  | base (n : Nat)
  deriving DecidableEq, Repr

/-- An exception instance.  Messages are dropped except for the field name that
`RecordBase.__new__` puts into the message (records/record.py:219). -/
structure Exc where
  kind : ExcKind
  field : Option String := none
  deriving DecidableEq, Repr

/-- Would `except Exception` catch it? -/
def Exc.isException (e : Exc) : Bool :=
  match e.kind with
  | .base _ => false
  | _ => true

/-- Would `except TypeError` catch it?  (`ParseFailure` is a subclass, records/record.py:42.) -/
def Exc.isTypeError (e : Exc) : Bool :=
  match e.kind with
  | .typeError | .parseFailure => true
  | _ => false

def Exc.typeError : Exc := ⟨.typeError, none⟩
def Exc.parseFailure : Exc := ⟨.parseFailure, none⟩
def Exc.valueError : Exc := ⟨.valueError, none⟩
def Exc.keyError : Exc := ⟨.keyError, none⟩
def Exc.attributeError : Exc := ⟨.attributeError, none⟩
def Exc.runtimeError : Exc := ⟨.runtimeError, none⟩
def Exc.lookupError : Exc := ⟨.lookupError, none⟩
def Exc.indexError : Exc := ⟨.indexError, none⟩
def Exc.recursionError : Exc := ⟨.recursionError, none⟩
def Exc.zeroDivision : Exc := ⟨.zeroDivision, none⟩
def Exc.overflow : Exc := ⟨.overflow, none⟩
def Exc.stopIteration : Exc := ⟨.stopIteration, none⟩

/-- what leaves a generator when `e` is raised in it: StopIteration becomes RuntimeError (PEP 479) -/
def Exc.leaving (e : Exc) : Exc := if e.kind = .stopIteration then .runtimeError else e

/-- A Python `dict` with string keys: entries in insertion order. -/
abbrev Dict (V : Type) := List (String × V)

namespace Dict
variable {V : Type}

/-- `d.get(k)` -/
def get? : Dict V → String → Option V
  | [], _ => none
  | (k', v) :: d, k => if k' = k then some v else get? d k

/-- `k in d` -/
def has (d : Dict V) (k : String) : Bool := (get? d k).isSome

/-- `d[k] = v`: an existing key keeps its position, a new key goes to the end. -/
def set : Dict V → String → V → Dict V
  | [], k, v => [(k, v)]
  | (k', v') :: d, k, v => if k' = k then (k, v) :: d else (k', v') :: set d k v

/-- `del d[k]` / `d.pop(k, None)`, as an operation on the entries. -/
def erase : Dict V → String → Dict V
  | [], _ => []
  | (k', v') :: d, k => if k' = k then d else (k', v') :: erase d k

/-- keys in insertion order -/
def keys (d : Dict V) : List String := d.map (·.1)

/-- values in insertion order -/
def values (d : Dict V) : List V := d.map (·.2)

/-- `d.update(e)` -/
def update (d e : Dict V) : Dict V := e.foldl (fun d kv => d.set kv.1 kv.2) d

/-- the representation invariant of a `dict`: no key occurs twice -/
def WF (d : Dict V) : Prop := (keys d).Nodup

end Dict
end Records
