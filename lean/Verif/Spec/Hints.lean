import Verif.Model.Filler
/-
Specification vocabulary about token lists and type hints.  Only the data types of the model (tokens, hints) are used,
none of the functions that build, bind or run fillers.
-/
namespace Records
variable {W : World}

/-- the style after a token: a style token overrides -/
def Tok.restyle (acc : Style) : Tok W → Style
  | .style s => s
  | _ => acc

/-- the last style token of a list; `default` if there is none -/
def lastStyle (toks : List (Tok W)) : Style := toks.foldl Tok.restyle .default

/-- the style in force: the last style token, or the default style of the class -/
def styleOf (d : Style) (toks : List (Tok W)) : Style := if lastStyle toks = .default then d else lastStyle toks

/-- the coercion callback of a token -/
def Tok.coercer? (isBool : Bool) (origin : Option W.Cls) : Tok W → Option (W.Obj → M W W.Obj)
  | .coercion ct => match getCoercer isBool origin ct with
    | .ok c => some c
    | .error _ => none
  | _ => none

/-- the validation callback of a token -/
def Tok.validator? (origin : Option W.Cls) : Tok W → Option (W.Obj → M W W.Obj)
  | .validation f => match f origin with
    | .ok c => some c
    | .error _ => none
  | _ => none

/-- the coercion callbacks of a token list, in order -/
def tokCoercers (isBool : Bool) (origin : Option W.Cls) (toks : List (Tok W)) : List (W.Obj → M W W.Obj) :=
  toks.filterMap (Tok.coercer? isBool origin)

/-- the validation callbacks of a token list, in order -/
def tokValidators (origin : Option W.Cls) (toks : List (Tok W)) : List (W.Obj → M W W.Obj) :=
  toks.filterMap (Tok.validator? origin)

/-- is it a coercion token? -/
def Tok.isCoercion : Tok W → Bool
  | .coercion _ => true
  | _ => false

/-- is it a validation token? -/
def Tok.isValidation : Tok W → Bool
  | .validation _ => true
  | _ => false

/-- is it a style token? -/
def Tok.isStyle : Tok W → Bool
  | .style _ => true
  | _ => false

/-- a token that neither checks, nor coerces, nor validates -/
def Tok.harmless : Tok W → Bool
  | .style .default => true
  | .style .hollow => true
  | .tag _ => true
  | .other => true
  | _ => false

mutual
/-- Can tokens be attached to the hint? Not if it is (a NewType of, or a union with) something that is no known kind of
type. `direct`: the hint is itself the first argument of `Annotated` or the supertype of a `NewType`, where a (further)
`Annotated` is not understood. -/
def Hint.takesTokens (direct : Bool) : Hint W → Bool
  | .opaque => false
  | .annotated _ _ => !direct
  | .newType h => h.takesTokens true
  | .union hs => Hint.takesTokensL hs
  | _ => true
def Hint.takesTokensL : List (Hint W) → Bool
  | [] => true
  | h :: hs => h.takesTokens false && Hint.takesTokensL hs
end

mutual
/-- No type checking, coercion or validation is requested anywhere in the hint. -/
def Hint.unchecked : Hint W → Bool
  | .annotated h toks => toks.all Tok.harmless && h.takesTokens true && h.unchecked
  | .newType h => h.unchecked
  | .union hs => Hint.uncheckedL hs
  | .tupleFix hs => Hint.uncheckedL hs
  | .generic _ hs => Hint.uncheckedL hs
  | .tupleVar h => h.unchecked
  | .iter _ h => h.unchecked
  | .deque _ h => h.unchecked
  | .mapping _ k v => k.unchecked && v.unchecked
  | .defaultdict _ k v => k.unchecked && v.unchecked
  | _ => true
def Hint.uncheckedL : List (Hint W) → Bool
  | [] => true
  | h :: hs => h.unchecked && Hint.uncheckedL hs
end

/-- The hint is, through NewTypes, something that is no known kind of type (an `Annotated` is not understood there). -/
def Hint.uninterpretable : Hint W → Bool
  | .opaque => true
  | .annotated _ _ => true
  | .newType h => h.uninterpretable
  | _ => false

mutual
/-- Somewhere (outside the parameters of a non-specialised generic) tokens are attached to an uninterpretable hint. -/
def Hint.misplaced (direct : Bool) : Hint W → Bool
  | .annotated h toks => !direct && ((!toks.isEmpty && h.uninterpretable) || h.misplaced true)
  | .newType h => h.misplaced true
  | .union hs => Hint.misplacedL hs
  | .tupleFix hs => Hint.misplacedL hs
  | .tupleVar h => h.misplaced false
  | .iter _ h => h.misplaced false
  | .deque _ h => h.misplaced false
  | .mapping _ k v => k.misplaced false || v.misplaced false
  | .defaultdict _ k v => k.misplaced false || v.misplaced false
  | _ => false
def Hint.misplacedL : List (Hint W) → Bool
  | [] => false
  | h :: hs => h.misplaced false || Hint.misplacedL hs
end

/-- The token can be turned into its callback for a target class. -/
def Tok.usable (isBool : Bool) (origin : Option W.Cls) : Tok W → Prop
  | .coercion ct => ∃ c, getCoercer isBool origin ct = .ok c
  | .validation f => ∃ c, f origin = .ok c
  | .raises _ => False
  | _ => True

/-- The value already matches class `c` under style `st`: exactly, or by subclass under `check`. -/
def Fits (st : Style) (c : W.Cls) (v : W.Obj) : Prop :=
  W.typeOf v = c ∨ (st = .check ∧ W.isInstance v c = true)

/-- `v` is one of the literals: same type, and identical or equal -/
def IsLiteral (vals : List W.Obj) (v : W.Obj) : Prop :=
  ∃ p ∈ vals, W.typeOf p = W.typeOf v ∧ (p = v ∨ W.eq p v = true)

instance (st : Style) (c : W.Cls) (v : W.Obj) : Decidable (Fits st c v) := by unfold Fits; infer_instance

end Records
