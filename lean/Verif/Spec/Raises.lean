import Verif.Model.New
import Verif.Spec.Class
/-
Specification vocabulary for the exceptions a record class can raise: sets of exception classes, and what it means that the
callbacks of a declaration raise only exceptions of such a set.
-/
namespace Records
variable {W : World} {α : Type}

/-- `x` raises only exceptions of the classes in `Q` -/
def Only (Q : ExcKind → Prop) (x : M W α) : Prop := ∀ s e s', x s = (.error e, s') → Q e.kind

/-- whatever `x` raises is an `Exception`, or is of a class in `Q` -/
def OnlyBase (Q : ExcKind → Prop) (x : M W α) : Prop :=
  ∀ s e s', x s = (.error e, s') → e.isException = true ∨ Q e.kind

/-- `Q` contains the exceptions that the library raises itself when it fills, parses and constructs: TypeError, its
subclass ParseFailure, and ValueError; and, for a StopIteration in a generator, RuntimeError -/
class OwnErrors (Q : ExcKind → Prop) : Prop where
  typeError : Q .typeError
  parseFailure : Q .parseFailure
  valueError : Q .valueError
  generator : Q .stopIteration → Q .runtimeError

variable (Q : ExcKind → Prop)

/-- the constructors called to rebuild a container raise only `Q` -/
structure World.Only (W : World) : Prop where
  mkIter : ∀ c l, Records.Only Q (M.lift (W.mkIter c l))
  mkDeque : ∀ c l m, Records.Only Q (M.lift (W.mkDeque c l m))
  mkMap : ∀ c l, Records.Only Q (M.lift (W.mkMap c l))
  mkDefaultDict : ∀ c d l, Records.Only Q (M.lift (W.mkDefaultDict c d l))

/-- What parsers of the library run raises `Exception`s or `Q`.  Exception classes whose constructor, called with one
string, raises something other than TypeError, raise something in `Q`. -/
structure Env.Only (E : Env W) : Prop where
  getattr : ∀ v n, OnlyBase Q (E.getattr v n)
  chainView : ∀ v, OnlyBase Q (E.chainView v)
  starView : ∀ v, OnlyBase Q (E.starView v)
  jsonLoads : ∀ v kw, OnlyBase Q (E.jsonLoads v kw)
  rewrap : ∀ n e, E.rewrap n = .raises e → Q e.kind

mutual
/-- the coercers made by a coercion token -/
def CTok.Only : CTok W → Prop
  | .coercer f => ∀ o c, f o = .ok c → ∀ v, Records.Only Q (c v)
  | .fromInteger => True
  | .notToken => True
  | .compose ts => CTok.OnlyL ts
def CTok.OnlyL : List (CTok W) → Prop
  | [] => True
  | t :: ts => t.Only ∧ CTok.OnlyL ts
end

/-- the coercers and validators made by a token -/
def Tok.Only : Tok W → Prop
  | .coercion t => t.Only Q
  | .validation f => ∀ o c, f o = .ok c → ∀ v, Records.Only Q (c v)
  | _ => True

mutual
/-- the tokens anywhere in a type hint; Python has no union without members -/
def Hint.Only : Hint W → Prop
  | .newType h => h.Only
  | .union hs => hs ≠ [] ∧ Hint.OnlyL hs
  | .tupleFix hs => Hint.OnlyL hs
  | .tupleVar h => h.Only
  | .iter _ h => h.Only
  | .deque _ h => h.Only
  | .mapping _ k v => k.Only ∧ v.Only
  | .defaultdict _ k v => k.Only ∧ v.Only
  | .generic _ hs => Hint.OnlyL hs
  | .annotated h toks => h.Only ∧ ∀ t ∈ toks, Tok.Only Q t
  | _ => True
def Hint.OnlyL : List (Hint W) → Prop
  | [] => True
  | h :: hs => h.Only ∧ Hint.OnlyL hs
end

/-- a declaration -/
def FHint.Only : FHint W → Prop
  | .plain h => h.Only Q
  | .final h _ => h.Only Q
  | _ => True

/-- a default factory -/
def Deflt.Only : Deflt W → Prop
  | .value _ => True
  | .factory f => Records.Only Q f

/-- a parser may raise any `Exception` -/
def Parser.Only : Parser W → Prop
  | .user f => ∀ v, OnlyBase Q (f v)
  | _ => True

/-- The callbacks of a class statement raise only `Q`: coercers, validators, default factories, `post_new`; parsers may
also raise any `Exception`.  The class does not set its type checking to `TypeCheckStyle.default`. -/
structure ClassSpec.Only (sp : ClassSpec W) : Prop where
  style : sp.style ≠ .default
  anns : ∀ a ∈ sp.anns, a.2.Only Q
  attrs : ∀ a ∈ sp.attrs, a.2.Only Q
  mroAttrs : ∀ n d, sp.mroAttrs n = some d → d.Only Q
  pre : ∀ q ∈ sp.pre, q.2.2.Only Q
  parsers : ∀ q ∈ sp.parsers, q.Only Q
  postNew : ∀ i, Records.Only Q (sp.postNew i)

/-- the record classes, over hierarchies of any depth and width, all of whose callbacks raise only `Q` -/
inductive RaisesOnly : RecClass W → Prop
  | intro (sp : ClassSpec W) (C : RecClass W) : sp.OK → sp.Only Q → (∀ q ∈ sp.parents, RaisesOnly q) → mkClass sp = .ok C →
      RaisesOnly C

end Records
