import Verif.Spec.Class
/-
Specification vocabulary for the exceptions a class statement can raise: what the tokens in it raise when they are
instantiated, and when they are asked for their coercer or validator.
-/
namespace Records
variable {W : World}

variable (Q : ExcKind → Prop)

mutual
/-- a coercion token that, asked for its coercer for any origin, raises only `Q` -/
def CTok.Made : CTok W → Prop
  | .coercer f => ∀ o e, f o = .error e → Q e.kind
  | .fromInteger => True
  | .notToken => True
  | .compose ts => CTok.MadeL ts
def CTok.MadeL : List (CTok W) → Prop
  | [] => True
  | t :: ts => t.Made ∧ CTok.MadeL ts
end

/-- A token that raises only `Q` when it is used in a declaration; a coercion token may be used only if `Q` contains
ValueError. -/
def Tok.Made : Tok W → Prop
  | .coercion t => t.Made Q ∧ Q .valueError
  | .validation f => ∀ o e, f o = .error e → Q e.kind
  | .raises e => Q e.kind
  | _ => True

mutual
/-- the tokens anywhere in a type hint -/
def Hint.Made : Hint W → Prop
  | .newType h => h.Made
  | .union hs => Hint.MadeL hs
  | .tupleFix hs => Hint.MadeL hs
  | .tupleVar h => h.Made
  | .iter _ h => h.Made
  | .deque _ h => h.Made
  | .mapping _ k v => k.Made ∧ v.Made
  | .defaultdict _ k v => k.Made ∧ v.Made
  | .generic _ hs => Hint.MadeL hs
  | .annotated h toks => h.Made ∧ ∀ t ∈ toks, Tok.Made Q t
  | _ => True
def Hint.MadeL : List (Hint W) → Prop
  | [] => True
  | h :: hs => h.Made ∧ Hint.MadeL hs
end

/-- The tokens of a class statement raise only `Q` when they are used.  (The tokens around a `Final[...]` are not used:
they only count as tags.) -/
structure ClassSpec.Made (sp : ClassSpec W) : Prop where
  anns : ∀ n h t, (n, h) ∈ sp.anns → h.type? = some t → t.Made Q
  pre : ∀ q ∈ sp.pre, q.2.2.Made Q

/-- The exceptions a `pre_bind` causes itself, whatever its tokens are: AttributeError for a name that is no field,
RuntimeError for an inherited field, LookupError or IndexError if a sub-key is used. -/
inductive ClassSpec.BadPre (sp : ClassSpec W) : Exc → Prop
  | unknown (n key t) : (n, key, t) ∈ sp.pre → n ∉ sp.inherited ++ sp.declared → BadPre sp .attributeError
  | bound (n key t) : (n, key, t) ∈ sp.pre → n ∈ sp.inherited → BadPre sp .runtimeError
  | subKey (n i t) : (n, some i, t) ∈ sp.pre → BadPre sp .lookupError
  | subIndex (n i t) : (n, some i, t) ∈ sp.pre → BadPre sp .indexError

end Records
