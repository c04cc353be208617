import Verif.Model.Exporter
import Verif.Model.Validators
/-
Specification vocabulary for exceptions that are no `Exception` (KeyboardInterrupt, SystemExit, ...).

The user state carries a record `p` of what callbacks raised: `p st = some e` says that in state `st` it is on record that a
callback raised `e`.  Callbacks put `e` on record only when they raise it; they may keep the record anywhere in the state and
may do anything else.
-/
namespace Records
variable {W : World} {α : Type}

/-- If `x` starts with an empty record and ends with `e` on record, then `e` is no `Exception` and `x` raises `e`. -/
def Reports (p : W.St → Option Exc) (x : M W α) : Prop :=
  ∀ s, p s.user = none → ∀ e, p (x s).2.user = some e → (x s).1 = .error e ∧ e.isException = false

variable (p : W.St → Option Exc)

/-- the constructors of foreign classes -/
structure World.Reports : Prop where
  mkIter : ∀ c l, Records.Reports p (M.lift (W.mkIter c l))
  mkDeque : ∀ c l m, Records.Reports p (M.lift (W.mkDeque c l m))
  mkMap : ∀ c l, Records.Reports p (M.lift (W.mkMap c l))
  mkDefaultDict : ∀ c d l, Records.Reports p (M.lift (W.mkDefaultDict c d l))
  construct : ∀ c a kw, Records.Reports p (M.lift (W.construct c a kw))

/-- the foreign operations of the record layer -/
structure Env.Reports (E : Env W) : Prop where
  getattr : ∀ v n, Records.Reports p (E.getattr v n)
  chainView : ∀ v, Records.Reports p (E.chainView v)
  starView : ∀ v, Records.Reports p (E.starView v)
  dictView : ∀ v, Records.Reports p (E.dictView v)
  jsonLoads : ∀ v kw, Records.Reports p (E.jsonLoads v kw)

mutual
/-- the callbacks of a coercion token -/
def CTok.Reports : CTok W → Prop
  | .coercer f => ∀ o c, f o = .ok c → ∀ v, Records.Reports p (c v)
  | .fromInteger => True
  | .notToken => True
  | .compose ts => CTok.ReportsL ts
def CTok.ReportsL : List (CTok W) → Prop
  | [] => True
  | t :: ts => t.Reports ∧ CTok.ReportsL ts
end

/-- the callbacks of a token -/
def Tok.Reports : Tok W → Prop
  | .coercion t => t.Reports p
  | .validation f => ∀ o c, f o = .ok c → ∀ v, Records.Reports p (c v)
  | _ => True

mutual
/-- the callbacks of all tokens in a type hint -/
def Hint.Reports : Hint W → Prop
  | .newType h => h.Reports
  | .union hs => Hint.ReportsL hs
  | .tupleFix hs => Hint.ReportsL hs
  | .tupleVar h => h.Reports
  | .iter _ h => h.Reports
  | .deque _ h => h.Reports
  | .mapping _ k v => k.Reports ∧ v.Reports
  | .defaultdict _ k v => k.Reports ∧ v.Reports
  | .generic _ hs => Hint.ReportsL hs
  | .annotated h toks => h.Reports ∧ ∀ t ∈ toks, Tok.Reports p t
  | _ => True
def Hint.ReportsL : List (Hint W) → Prop
  | [] => True
  | h :: hs => h.Reports ∧ Hint.ReportsL hs
end

/-- the callbacks of a declaration -/
def FHint.Reports : FHint W → Prop
  | .plain h => h.Reports p
  | .final h toks => h.Reports p ∧ ∀ t ∈ toks, Tok.Reports p t
  | _ => True

/-- a default factory -/
def Deflt.Reports : Deflt W → Prop
  | .value _ => True
  | .factory f => Records.Reports p f

/-- a parser -/
def Parser.Reports : Parser W → Prop
  | .user f => ∀ v, Records.Reports p (f v)
  | _ => True

/-- the callbacks of a class statement -/
structure ClassSpec.Reports (sp : ClassSpec W) : Prop where
  anns : ∀ a ∈ sp.anns, a.2.Reports p
  attrs : ∀ a ∈ sp.attrs, a.2.Reports p
  mroAttrs : ∀ n d, sp.mroAttrs n = some d → d.Reports p
  pre : ∀ q ∈ sp.pre, q.2.2.Reports p
  parsers : ∀ q ∈ sp.parsers, q.Reports p
  postNew : ∀ i, Records.Reports p (sp.postNew i)

/-- the record classes, over hierarchies of any depth and width, all of whose callbacks report -/
inductive Reporting : RecClass W → Prop
  | intro (sp : ClassSpec W) (C : RecClass W) : sp.Reports p → (∀ q ∈ sp.parents, Reporting q) → mkClass sp = .ok C → Reporting C

end Records
