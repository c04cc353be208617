import Verif.Spec.Deep
import Verif.Model.Field
/-
Which field declarations are accepted: hints of any depth, with tokens anywhere in them.

As in `Spec/Deep.lean`, a part of a hint is looked at with `args`, the tokens of the `Annotated` directly around it, and `toks`,
the tokens it receives from outside.
-/
namespace Records
variable {W : World}

/-- `BoolType c`: `c` is `bool`; or, if there were such a class, a subclass of it (other than `NoneType` and the like) -/
def BoolType (c : W.Cls) : Prop :=
  c = W.boolCls ∨ (W.isSub c W.boolCls = true ∧ c ≠ W.noneCls ∧ c ≠ W.ellipsisCls ∧ c ≠ W.objectCls)

/-- The tokens `ts` may be put on one target (`origin`: its class, if it has one): each can be turned into its callback, there are
no coercion tokens if the type is not checked, and an exact check is not asked of an abstract class. -/
def LegalTokens (d : Style) (bool : Prop) (origin : Option W.Cls) (ts : List (Tok W)) : Prop :=
  (∀ t ∈ ts, ∃ b : Bool, (b = true ↔ bool) ∧ t.usable b origin) ∧
  (styleOf d ts = .hollow → ∀ t ∈ ts, t.isCoercion = false) ∧
  (styleOf d ts = .checkStrict → ∀ c, origin = some c → W.isAbstract c = false)

/-- the tokens may be put on a field of class `c` -/
def LegalClass (d : Style) (c : W.Cls) (ts : List (Tok W)) : Prop := LegalTokens d (BoolType c) (some c) ts

mutual
/-- A field may be declared with this hint (in a class with default style `d`):
* a type without parts: its tokens are legal;
* a union: each member is, with the tokens of the union added;
* a container: the tokens are legal on its class, its parts are legal by themselves, and it does not go unchecked around a checked
  part;
* a generic whose parts the library cannot check: likewise, and no part is checked;
* a hint that cannot be interpreted: no tokens reach it, and the class does not check by default. -/
def Legal (d : Style) : Hint W → Option (List (Tok W)) → List (Tok W) → Prop
  | .cls c, args, toks => LegalClass d c (toks ++ args.getD [])
  | .none, args, toks => LegalClass d W.noneCls (toks ++ args.getD [])
  | .any, args, toks => LegalClass d W.objectCls (toks ++ args.getD [])
  | .bareGeneric c, args, toks => LegalClass d c (toks ++ args.getD [])
  | .typeBare, args, toks => LegalClass d W.typeCls (toks ++ args.getD [])
  | .typeOf _, args, toks => LegalClass d W.typeCls (toks ++ args.getD [])
  | .callable, args, toks => LegalTokens d False Option.none (toks ++ args.getD [])
  | .literal _ _, args, toks => LegalTokens d False Option.none (toks ++ args.getD [])
  | .newType h, args, toks => Legal d h (some (args.getD [])) toks
  | .union hs, args, toks => LegalAll d hs (args.getD [] ++ toks)
  | .tupleFix hs, args, toks => LegalClass d W.tupleCls (toks ++ args.getD []) ∧ LegalAll d hs [] ∧
      (styleOf d (toks ++ args.getD []) = .hollow → UncheckedAll d hs [])
  | .tupleVar h, args, toks => LegalClass d W.tupleCls (toks ++ args.getD []) ∧ Legal d h none [] ∧
      (styleOf d (toks ++ args.getD []) = .hollow → Unchecked d h none [])
  | .iter c h, args, toks => LegalClass d c (toks ++ args.getD []) ∧ Legal d h none [] ∧
      (styleOf d (toks ++ args.getD []) = .hollow → Unchecked d h none [])
  | .deque c h, args, toks => LegalClass d c (toks ++ args.getD []) ∧ Legal d h none [] ∧
      (styleOf d (toks ++ args.getD []) = .hollow → Unchecked d h none [])
  | .mapping c k v, args, toks => LegalClass d c (toks ++ args.getD []) ∧ (Legal d k none [] ∧ Legal d v none []) ∧
      (styleOf d (toks ++ args.getD []) = .hollow → Unchecked d k none [] ∧ Unchecked d v none [])
  | .defaultdict c k v, args, toks => LegalClass d c (toks ++ args.getD []) ∧ (Legal d k none [] ∧ Legal d v none []) ∧
      (styleOf d (toks ++ args.getD []) = .hollow → Unchecked d k none [] ∧ Unchecked d v none [])
  | .generic c hs, args, toks => LegalClass d c (toks ++ args.getD []) ∧ LegalAll d hs [] ∧ UncheckedAll d hs []
  | .annotated h ts, none, toks => Legal d h (some ts) toks
  | .annotated _ _, some args, toks => args = [] ∧ toks = [] ∧ d = .hollow
  | .opaque, args, toks => args.getD [] = [] ∧ toks = [] ∧ d = .hollow
/-- all of them, with the tokens `toks` added to each -/
def LegalAll (d : Style) : List (Hint W) → List (Tok W) → Prop
  | [], _ => True
  | h :: hs, toks => Legal d h none toks ∧ LegalAll d hs toks
end

/-- `Target h args toks c ts`: somewhere in the hint there is a type of class `c`, and the tokens `ts` reach it -/
inductive Target : Hint W → Option (List (Tok W)) → List (Tok W) → W.Cls → List (Tok W) → Prop
  | cls {c args toks} : Target (.cls c) args toks c (toks ++ args.getD [])
  | none {args toks} : Target .none args toks W.noneCls (toks ++ args.getD [])
  | any {args toks} : Target .any args toks W.objectCls (toks ++ args.getD [])
  | bareGeneric {c args toks} : Target (.bareGeneric c) args toks c (toks ++ args.getD [])
  | typeBare {args toks} : Target .typeBare args toks W.typeCls (toks ++ args.getD [])
  | typeOf {b args toks} : Target (.typeOf b) args toks W.typeCls (toks ++ args.getD [])
  | tupleFix {hs args toks} : Target (.tupleFix hs) args toks W.tupleCls (toks ++ args.getD [])
  | tupleVar {h args toks} : Target (.tupleVar h) args toks W.tupleCls (toks ++ args.getD [])
  | iter {c h args toks} : Target (.iter c h) args toks c (toks ++ args.getD [])
  | deque {c h args toks} : Target (.deque c h) args toks c (toks ++ args.getD [])
  | mapping {c k v args toks} : Target (.mapping c k v) args toks c (toks ++ args.getD [])
  | defaultdict {c k v args toks} : Target (.defaultdict c k v) args toks c (toks ++ args.getD [])
  | generic {c hs args toks} : Target (.generic c hs) args toks c (toks ++ args.getD [])
  | newType {h args toks c ts} : Target h (some (args.getD [])) toks c ts → Target (.newType h) args toks c ts
  | annotated {h l toks c ts} : Target h (some l) toks c ts → Target (.annotated h l) Option.none toks c ts
  | member {h hs args toks c ts} : h ∈ hs → Target h Option.none (args.getD [] ++ toks) c ts → Target (.union hs) args toks c ts
  | inTupleFix {h hs args toks c ts} : h ∈ hs → Target h Option.none [] c ts → Target (.tupleFix hs) args toks c ts
  | inTupleVar {h args toks c ts} : Target h Option.none [] c ts → Target (.tupleVar h) args toks c ts
  | inIter {c' h args toks c ts} : Target h Option.none [] c ts → Target (.iter c' h) args toks c ts
  | inDeque {c' h args toks c ts} : Target h Option.none [] c ts → Target (.deque c' h) args toks c ts
  | key {c' k v args toks c ts} : Target k Option.none [] c ts → Target (.mapping c' k v) args toks c ts
  | value {c' k v args toks c ts} : Target v Option.none [] c ts → Target (.mapping c' k v) args toks c ts
  | defaultKey {c' k v args toks c ts} : Target k Option.none [] c ts → Target (.defaultdict c' k v) args toks c ts
  | defaultValue {c' k v args toks c ts} : Target v Option.none [] c ts → Target (.defaultdict c' k v) args toks c ts
  | inGeneric {h hs c' args toks c ts} : h ∈ hs → Target h Option.none [] c ts → Target (.generic c' hs) args toks c ts

mutual
/-- there are no tokens in the hint -/
def TokenFree : Hint W → Prop
  | .annotated h ts => ts = [] ∧ TokenFree h
  | .newType h => TokenFree h
  | .union hs => AllTokenFree hs
  | .tupleFix hs => AllTokenFree hs
  | .tupleVar h => TokenFree h
  | .iter _ h => TokenFree h
  | .deque _ h => TokenFree h
  | .mapping _ k v => TokenFree k ∧ TokenFree v
  | .defaultdict _ k v => TokenFree k ∧ TokenFree v
  | .generic _ hs => AllTokenFree hs
  | _ => True
def AllTokenFree : List (Hint W) → Prop
  | [] => True
  | h :: hs => TokenFree h ∧ AllTokenFree hs
end

mutual
/-- every part of the hint can be checked: there is nothing in it that the library cannot interpret (an `Annotated` behind a
`NewType` is among that), and no parameters of a generic that it does not know -/
def Checkable (inNew : Bool) : Hint W → Prop
  | .annotated h _ => inNew = false ∧ Checkable true h
  | .newType h => Checkable true h
  | .union hs => AllCheckable hs
  | .tupleFix hs => AllCheckable hs
  | .tupleVar h => Checkable false h
  | .iter _ h => Checkable false h
  | .deque _ h => Checkable false h
  | .mapping _ k v => Checkable false k ∧ Checkable false v
  | .defaultdict _ k v => Checkable false k ∧ Checkable false v
  | .generic _ hs => hs = []
  | .opaque => False
  | _ => True
def AllCheckable : List (Hint W) → Prop
  | [] => True
  | h :: hs => Checkable false h ∧ AllCheckable hs
end

/-- an own declaration that is legal by itself: not a raw `Final`, `Final` only in frozen classes, and a legal type, with the tokens
`pre_bind` adds to it -/
def FHint.Accepted (d : Style) (frozen : Bool) (toks : List (Tok W)) : FHint W → Prop
  | .classVar => True
  | .rawFinal => False
  | .plain t => Legal d t none toks
  | .final t _ => frozen = true ∧ Legal d t none toks

end Records
