import Verif.Spec.Roundtrip
/-
Specification for `repr`: how Python reads a call with keyword arguments, and evaluates it. Nothing here refers to how `__repr__` makes its
text.
-/
namespace Records
variable {W : World}

/-- Where a reader of an expression is: the number of open brackets, and the string literal it is in (its quote, and whether the last
character was an unescaped backslash). -/
structure Pos where
  depth : Nat
  quote : Option (Char × Bool)
deriving DecidableEq

/-- outside of all brackets and string literals -/
def Pos.top : Pos := ⟨0, none⟩

def quoteChars : List Char := ['\'', '"']
def openers : List Char := ['(', '[', '{']
def closers : List Char := [')', ']', '}']

/-- after reading one more character -/
def Pos.step (p : Pos) (c : Char) : Pos :=
  match p.quote with
  | some (q, true) => ⟨p.depth, some (q, false)⟩
  | some (q, false) => if c = '\\' then ⟨p.depth, some (q, true)⟩ else if c = q then ⟨p.depth, none⟩ else p
  | none =>
    if c ∈ quoteChars then ⟨p.depth, some (c, false)⟩
    else if c ∈ openers then ⟨p.depth + 1, none⟩
    else if c ∈ closers then ⟨p.depth - 1, none⟩
    else p

/-- the text, read from `p`, ends outside of all brackets and literals, and contains no comma and no unmatched closing bracket there -/
def ClosesFrom : Pos → List Char → Prop
  | p, [] => p = .top
  | p, c :: cs => ¬ (p = .top ∧ (c = ',' ∨ c ∈ closers)) ∧ ClosesFrom (p.step c) cs

instance instDecidableClosesFrom : ∀ p t, Decidable (ClosesFrom p t)
  | p, [] => inferInstanceAs (Decidable (p = .top))
  | p, c :: cs =>
    have := instDecidableClosesFrom (p.step c) cs
    inferInstanceAs (Decidable (¬ (p = .top ∧ (c = ',' ∨ c ∈ closers)) ∧ ClosesFrom (p.step c) cs))

/-- one argument: brackets and string literals are balanced, and commas occur in them only. The `repr` of numbers, strings, lists,
tuples, dicts, and calls is of this form. -/
def OneArg (t : String) : Prop := ClosesFrom .top t.toList

/-- a dotted name, as the `__qualname__` of a class or the name of a field -/
def PlainName (t : String) : Prop :=
  ∀ c ∈ t.toList, c ∉ quoteChars ∧ c ∉ openers ∧ c ∉ closers ∧ c ∉ [',', '=', ' ']

/-- the parts between the commas at the top level -/
def splitTop : Pos → List Char → List (List Char)
  | _, [] => [[]]
  | p, c :: cs =>
    if p = .top ∧ c = ',' then [] :: splitTop p cs
    else match splitTop (p.step c) cs with
      | [] => [[c]]
      | t :: ts => (c :: t) :: ts

/-- an argument `name=value`, blanks before the name are ignored -/
def readArg (t : List Char) : Option (String × String) :=
  let u := t.dropWhile (· = ' ')
  match u.dropWhile (· ≠ '=') with
  | [] => none
  | _ :: v => some (String.ofList (u.takeWhile (· ≠ '=')), String.ofList v)

/-- a call with keyword arguments: the text before the first bracket, and the names and values between it and the last one -/
def readCall (text : String) : Option (String × List (String × String)) :=
  let t := text.toList
  match t.dropWhile (· ≠ '(') with
  | [] => none
  | _ :: body =>
    if body.getLast? ≠ some ')' then none
    else
      let args := body.dropLast
      let name := String.ofList (t.takeWhile (· ≠ '('))
      if args = [] then some (name, [])
      else ((splitTop .top args).mapM readArg).map fun l => (name, l)

/-- evaluating the arguments, left to right -/
def evalArgs (ev : String → M W W.Obj) : List (String × String) → M W (Dict W.Obj)
  | [] => M.pure []
  | (k, t) :: l => M.bind (ev t) fun v => M.bind (evalArgs ev l) fun d => M.pure ((k, v) :: d)

/-- `eval(text)` of a call with keyword arguments: the name is looked up, then the arguments are evaluated, then the class is called.
`ev` is `eval` on the arguments; `call C kw` is the call `C(**kw)`. Other texts are of no interest here. -/
def evalCall (scope : String → Option (RecClass W)) (ev : String → M W W.Obj) (call : RecClass W → Dict W.Obj → M W (Res W))
    (text : String) : M W (Res W) :=
  match readCall text with
  | none => M.throw .valueError
  | some (name, args) => match scope name with
    | none => M.throw .valueError
    | some C => M.bind (evalArgs ev args) (call C)

end Records
