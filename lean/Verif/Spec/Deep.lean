import Verif.Spec.Hints
/-
Deep conformance of a value to a nested type hint.

Every part of a hint is looked at with
* `args`: the tokens of the `Annotated` directly around it (`none`: there is none),
* `toks`: the tokens it receives from outside (from the unions around it, or from `pre_bind`).
The style in force at a part is the last style token of `toks ++ args`, or the default `d` of the class.
-/
namespace Records
variable {W : World}

/-- the value conforms to class `c` under style `st` -/
def ClassConf (st : Style) (c : W.Cls) (v : W.Obj) : Prop :=
  st = .hollow ∨
  if c = W.noneCls then W.isNone v = true
  else if c = W.ellipsisCls then W.isEllipsis v = true
  else Fits st c v

mutual
/-- The value conforms to the hint: every checked part has the declared type (unchecked parts are unconstrained). -/
def Conf (d : Style) : Hint W → Option (List (Tok W)) → List (Tok W) → W.Obj → Prop
  | .cls c, args, toks, v => ClassConf (styleOf d (toks ++ args.getD [])) c v
  | .none, args, toks, v => ClassConf (styleOf d (toks ++ args.getD [])) W.noneCls v
  | .any, args, toks, v => ClassConf (styleOf d (toks ++ args.getD [])) W.objectCls v
  | .callable, args, toks, v => styleOf d (toks ++ args.getD []) = .hollow ∨ W.isCallable v = true
  | .newType h, args, toks, v => Conf d h (some (args.getD [])) toks v
  | .union hs, args, toks, v => hs = [] ∨ ConfAny d hs (args.getD [] ++ toks) v
  | .literal _ vals, args, toks, v =>
    styleOf d (toks ++ args.getD []) = .hollow ∨ (W.hashable v = true ∧ IsLiteral vals v)
  | .typeBare, args, toks, v => ClassConf (styleOf d (toks ++ args.getD [])) W.typeCls v
  | .typeOf base, args, toks, v =>
    styleOf d (toks ++ args.getD []) = .hollow ∨ (ClassConf (styleOf d (toks ++ args.getD [])) W.typeCls v ∧
      ∃ c b, W.asClass v = some c ∧ base = some b ∧ W.isSub c b = true)
  | .tupleFix hs, args, toks, v =>
    styleOf d (toks ++ args.getD []) = .hollow ∨ (ClassConf (styleOf d (toks ++ args.getD [])) W.tupleCls v ∧
      ConfZip d hs (W.elems v))
  | .tupleVar h, args, toks, v =>
    styleOf d (toks ++ args.getD []) = .hollow ∨ (ClassConf (styleOf d (toks ++ args.getD [])) W.tupleCls v ∧
      ∀ e ∈ W.elems v, Conf d h none [] e)
  | .iter c h, args, toks, v =>
    styleOf d (toks ++ args.getD []) = .hollow ∨ (ClassConf (styleOf d (toks ++ args.getD [])) c v ∧
      ∀ e ∈ W.elems v, Conf d h none [] e)
  | .deque c h, args, toks, v =>
    styleOf d (toks ++ args.getD []) = .hollow ∨ (ClassConf (styleOf d (toks ++ args.getD [])) c v ∧
      ∀ e ∈ W.elems v, Conf d h none [] e)
  | .mapping c k h, args, toks, v =>
    styleOf d (toks ++ args.getD []) = .hollow ∨ (ClassConf (styleOf d (toks ++ args.getD [])) c v ∧
      ∀ p ∈ W.items v, Conf d k none [] p.1 ∧ Conf d h none [] p.2)
  | .defaultdict c k h, args, toks, v =>
    styleOf d (toks ++ args.getD []) = .hollow ∨ (ClassConf (styleOf d (toks ++ args.getD [])) c v ∧
      ∀ p ∈ W.items v, Conf d k none [] p.1 ∧ Conf d h none [] p.2)
  | .generic c _, args, toks, v => ClassConf (styleOf d (toks ++ args.getD [])) c v
  | .bareGeneric c, args, toks, v => ClassConf (styleOf d (toks ++ args.getD [])) c v
  | .annotated h ts, none, toks, v => Conf d h (some ts) toks v
  | .annotated _ _, some _, _, _ => True
  | .opaque, _, _, _ => True
/-- the value conforms to one of the hints -/
def ConfAny (d : Style) : List (Hint W) → List (Tok W) → W.Obj → Prop
  | [], _, _ => False
  | h :: hs, toks, v => Conf d h none toks v ∨ ConfAny d hs toks v
/-- as many values as hints, each conforms to its hint -/
def ConfZip (d : Style) : List (Hint W) → List W.Obj → Prop
  | [], [] => True
  | h :: hs, v :: vs => Conf d h none [] v ∧ ConfZip d hs vs
  | [], _ :: _ => False
  | _ :: _, [] => False
end

mutual
/-- `P node toks` holds at every part `node` of the hint that makes a filler of its own, where `toks` are all tokens that
reach it. -/
def Everywhere (P : Hint W → List (Tok W) → Prop) : Hint W → Option (List (Tok W)) → List (Tok W) → Prop
  | .newType h, args, toks => Everywhere P h (some (args.getD [])) toks
  | .union hs, args, toks => EverywhereL P hs (args.getD [] ++ toks)
  | .tupleFix hs, args, toks => P (.tupleFix hs) (toks ++ args.getD []) ∧ EverywhereL P hs []
  | .tupleVar h, args, toks => P (.tupleVar h) (toks ++ args.getD []) ∧ Everywhere P h none []
  | .iter c h, args, toks => P (.iter c h) (toks ++ args.getD []) ∧ Everywhere P h none []
  | .deque c h, args, toks => P (.deque c h) (toks ++ args.getD []) ∧ Everywhere P h none []
  | .mapping c k v, args, toks =>
    P (.mapping c k v) (toks ++ args.getD []) ∧ Everywhere P k none [] ∧ Everywhere P v none []
  | .defaultdict c k v, args, toks =>
    P (.defaultdict c k v) (toks ++ args.getD []) ∧ Everywhere P k none [] ∧ Everywhere P v none []
  | .annotated h ts, none, toks => Everywhere P h (some ts) toks
  | .annotated _ _, some _, _ => True
  | .opaque, _, _ => True
  | .cls c, args, toks => P (.cls c) (toks ++ args.getD [])
  | .none, args, toks => P .none (toks ++ args.getD [])
  | .any, args, toks => P .any (toks ++ args.getD [])
  | .callable, args, toks => P .callable (toks ++ args.getD [])
  | .literal i vs, args, toks => P (.literal i vs) (toks ++ args.getD [])
  | .typeBare, args, toks => P .typeBare (toks ++ args.getD [])
  | .typeOf b, args, toks => P (.typeOf b) (toks ++ args.getD [])
  | .generic c hs, args, toks => P (.generic c hs) (toks ++ args.getD [])
  | .bareGeneric c, args, toks => P (.bareGeneric c) (toks ++ args.getD [])
def EverywhereL (P : Hint W → List (Tok W) → Prop) : List (Hint W) → List (Tok W) → Prop
  | [], _ => True
  | h :: hs, toks => Everywhere P h none toks ∧ EverywhereL P hs toks
end

/-- Facts about the built-in classes that hold in CPython. -/
structure Sane (W : World) : Prop where
  noneFinal : ∀ c, W.isSub c W.noneCls = true → c = W.noneCls
  boolNotNone : W.boolCls ≠ W.noneCls
  boolNotEllipsis : W.boolCls ≠ W.ellipsisCls
  noneNotEllipsis : W.noneCls ≠ W.ellipsisCls
  objectNotNone : W.objectCls ≠ W.noneCls
  objectNotEllipsis : W.objectCls ≠ W.ellipsisCls

/-- The class constructor consumes an iterable of elements; the new object has that class and elements from it (in
order: all of them, for a fixed-length tuple). -/
structure GoodIter (exact : Bool) (c : W.Cls) : Prop where
  drains : W.drains c = true
  mkIter : ∀ l st w st', W.mkIter c l st = (.ok w, st') → W.typeOf w = c ∧ (∀ e ∈ W.elems w, e ∈ l) ∧
    (exact = true → W.elems w = l)
  mkDeque : ∀ l m st w st', W.mkDeque c l m st = (.ok w, st') → W.typeOf w = c ∧ ∀ e ∈ W.elems w, e ∈ l

/-- The class constructor makes a mapping of that class with keys and values from the given pairs. -/
structure GoodMap (c : W.Cls) : Prop where
  mkMap : ∀ l st w st', W.mkMap c l st = (.ok w, st') → W.typeOf w = c ∧
    ∀ p ∈ W.items w, (∃ q ∈ l, q.1 = p.1) ∧ ∃ q ∈ l, q.2 = p.2
  mkDefaultDict : ∀ f l st w st', W.mkDefaultDict c f l st = (.ok w, st') → W.typeOf w = c ∧
    ∀ p ∈ W.items w, (∃ q ∈ l, q.1 = p.1) ∧ ∃ q ∈ l, q.2 = p.2

/-- `c` is an ordinary container class and the constructors of all its subclasses are `good` -/
def Container (good : W.Cls → Prop) (c : W.Cls) : Prop :=
  c ≠ W.noneCls ∧ c ≠ W.ellipsisCls ∧ ∀ c', c' = c ∨ W.isSub c' c = true → good c'

/-- The hypotheses of C38 at one part: no validators; no coercers on None, Ellipsis and Callable; container classes with
well-behaved constructors. -/
def TidyPart (h : Hint W) (toks : List (Tok W)) : Prop :=
  toks.all (fun t => !t.isValidation) = true ∧
  match h with
  | .cls c => (c = W.noneCls ∨ c = W.ellipsisCls) → toks.all (fun t => !t.isCoercion) = true
  | .none => toks.all (fun t => !t.isCoercion) = true
  | .callable => toks.all (fun t => !t.isCoercion) = true
  | .bareGeneric c => (c = W.noneCls ∨ c = W.ellipsisCls) → toks.all (fun t => !t.isCoercion) = true
  | .generic c _ => (c = W.noneCls ∨ c = W.ellipsisCls) → toks.all (fun t => !t.isCoercion) = true
  | .typeBare => W.typeCls ≠ W.noneCls ∧ W.typeCls ≠ W.ellipsisCls
  | .typeOf _ => W.typeCls ≠ W.noneCls ∧ W.typeCls ≠ W.ellipsisCls
  | .tupleFix _ => Container (GoodIter true) W.tupleCls
  | .tupleVar _ => Container (GoodIter true) W.tupleCls
  | .iter c _ => Container (GoodIter false) c
  | .deque c _ => Container (GoodIter false) c
  | .mapping c _ _ => Container GoodMap c
  | .defaultdict c _ _ => Container GoodMap c
  | _ => True

/-- The hypothesis of C39 at one part: no coercers and no validators. -/
def PlainPart (_ : Hint W) (toks : List (Tok W)) : Prop :=
  toks.all (fun t => !t.isCoercion && !t.isValidation) = true

/-! ### unchecked types -/

mutual
/-- No part of a value of this type is checked: the style in force (the last style token, else the default) is hollow; a union is
unchecked if all its members are; a hint that cannot be interpreted always is.  `args`: the tokens listed for the type, `toks`:
the tokens added to it. -/
def Unchecked (d : Style) : Hint W → Option (List (Tok W)) → List (Tok W) → Prop
  | .newType h, args, toks => Unchecked d h (some (args.getD [])) toks
  | .union hs, args, toks => UncheckedAll d hs (args.getD [] ++ toks)
  | .annotated h ts, none, toks => Unchecked d h (some ts) toks
  | .annotated _ _, some _, _ => True
  | .opaque, _, _ => True
  | _, args, toks => styleOf d (toks ++ args.getD []) = .hollow
/-- all of them, with the tokens `toks` added to each -/
def UncheckedAll (d : Style) : List (Hint W) → List (Tok W) → Prop
  | [], _ => True
  | h :: hs, toks => Unchecked d h none toks ∧ UncheckedAll d hs toks
end

end Records
