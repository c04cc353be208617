import Verif.Spec.Container
/-
Specification vocabulary for tokens that `pre_bind` adds to a part of a field's type (`sub_key=`).
-/
namespace Records
variable {W : World}

/-- `Annotated[h, *toks]`; `h` itself if there are no tokens -/
def Hint.withTokens (h : Hint W) (toks : List (Tok W)) : Hint W :=
  match toks with
  | [] => h
  | _ :: _ => .annotated h toks

/-- a union, or a `NewType` of one -/
inductive Hint.Union : Hint W → Prop
  | union (hs) : Hint.Union (.union hs)
  | newType {h} : Hint.Union h → Hint.Union (.newType h)

/-- `Amended h toks h'`: `h'` is the type `h` with the tokens `toks` written into its `Annotated`: in front of the tokens
already listed there, if `h` is not a union; behind them if it is -/
inductive Amended : Hint W → List (Tok W) → Hint W → Prop
  | nothing (h) : Amended h [] h
  | plain {h toks} : (∀ h' ts, h ≠ .annotated h' ts) → toks ≠ [] → Amended h toks (.annotated h toks)
  | front {h us toks} : ¬ h.Union → toks ≠ [] → Amended (.annotated h us) toks (.annotated h (toks ++ us))
  | behind {h us toks} : h.Union → toks ≠ [] → Amended (.annotated h us) toks (.annotated h (us ++ toks))

/-- `Keyed h keys hs`: the parts of the container type `h` are `hs`, and part `j` is addressed by the keys `keys j`. -/
inductive Keyed : Hint W → (Nat → Int → Prop) → List (Hint W) → Prop
  | iter (c h) : Keyed (.iter c h) (fun j i => i = j) [h]
  | deque (c h) : Keyed (.deque c h) (fun j i => i = j) [h]
  | mapping (c k v) : Keyed (.mapping c k v) (fun j i => i = j) [k, v]
  | defaultdict (c k v) : Keyed (.defaultdict c k v) (fun j i => i = j) [k, v]
  | tupleVar (h) : Keyed (.tupleVar h) (fun j i => i = j ∨ i = (j : Int) - 1) [h]
  | tupleFix (hs) : Keyed (.tupleFix hs) (fun j i => i = j ∨ i = (j : Int) - hs.length) hs

/-- `Rebuilt h hs h'`: `h'` is the container type `h` with the parts `hs` in place of its own -/
inductive Rebuilt : Hint W → List (Hint W) → Hint W → Prop
  | iter (c h h') : Rebuilt (.iter c h) [h'] (.iter c h')
  | deque (c h h') : Rebuilt (.deque c h) [h'] (.deque c h')
  | mapping (c k v k' v') : Rebuilt (.mapping c k v) [k', v'] (.mapping c k' v')
  | defaultdict (c k v k' v') : Rebuilt (.defaultdict c k v) [k', v'] (.defaultdict c k' v')
  | tupleVar (h h') : Rebuilt (.tupleVar h) [h'] (.tupleVar h')
  | tupleFix (hs hs') : Rebuilt (.tupleFix hs) hs' (.tupleFix hs')

/-- `Addressed keys j pre ts`: `ts` are the tokens of `pre` that are addressed to part `j`, in the order of `pre` -/
inductive Addressed (keys : Nat → Int → Prop) (j : Nat) : List (Option Int × Tok W) → List (Tok W) → Prop
  | nil : Addressed keys j [] []
  | take {i t pre ts} : keys j i → Addressed keys j pre ts → Addressed keys j ((some i, t) :: pre) (t :: ts)
  | skip {i t pre ts} : ¬ keys j i → Addressed keys j pre ts → Addressed keys j ((some i, t) :: pre) ts
  | own {t pre ts} : Addressed keys j pre ts → Addressed keys j ((none, t) :: pre) ts

/-- `HasKey h i`: the type `h` has a part with key `i`: `0` is the element of a collection; `0` and `1` are the key and the
value of a mapping; tuples and unions are indexed like Python sequences (a `Tuple[h, ...]` has one element) -/
inductive HasKey : Hint W → Int → Prop
  | iter (c h) : HasKey (.iter c h) 0
  | deque (c h) : HasKey (.deque c h) 0
  | key (c k v) : HasKey (.mapping c k v) 0
  | value (c k v) : HasKey (.mapping c k v) 1
  | ddkey (c k v) : HasKey (.defaultdict c k v) 0
  | ddvalue (c k v) : HasKey (.defaultdict c k v) 1
  | tupleVar (h) : HasKey (.tupleVar h) 0
  | tupleVarNeg (h) : HasKey (.tupleVar h) (-1)
  | tupleFix {hs : List (Hint W)} {i : Int} : -(hs.length : Int) ≤ i → i < hs.length → HasKey (.tupleFix hs) i
  | union {hs : List (Hint W)} {i : Int} : -(hs.length : Int) ≤ i → i < hs.length → HasKey (.union hs) i
  | newType {h i} : HasKey h i → HasKey (.newType h) i

/-- a tuple or a union (possibly behind `NewType`) -/
inductive Positional : Hint W → Prop
  | tupleVar (h) : Positional (.tupleVar h)
  | tupleFix (hs) : Positional (.tupleFix hs)
  | union (hs) : Positional (.union hs)
  | newType {h} : Positional h → Positional (.newType h)

/-- the two fillers do the same -/
def SameFiller (f g : F W) : Prop :=
  (∀ v s, f.call v s = g.call v s) ∧ (∀ v s, f.fill v s = g.fill v s) ∧ f.isHollow = g.isHollow

/-- both declarations fail, or both succeed and the two fields do the same -/
def Agree (x y : Except Exc (F W)) : Prop :=
  (∃ f g, x = .ok f ∧ y = .ok g ∧ SameFiller f g) ∨ ((∃ e, x = .error e) ∧ ∃ e, y = .error e)

end Records
