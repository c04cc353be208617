import Verif.Spec.Deep
/-
When filling is idempotent: conditions on a type hint under which a value that conforms to it is stored unchanged, although coercers
may be attached.  Only the unions in the hint need conditions.
-/
namespace Records
variable {W : World}

/-- no validation token reaches the part -/
def NoValidators (_ : Hint W) (toks : List (Tok W)) : Prop := toks.all (fun t => !t.isValidation) = true

/-- the coercion callbacks of the token raise only ordinary exceptions -/
def Tok.Mannered (t : Tok W) : Prop :=
  ∀ ib o c, t.coercer? ib o = some c → ∀ v s e s', c v s = (.error e, s') → e.isException = true

/-- One member of a union, in force with type checking: a single class, `None`, `Callable` or a `Literal`, maybe with coercers that
raise only ordinary exceptions; or a container without coercers anywhere. -/
def Member (d : Style) : Hint W → Option (List (Tok W)) → List (Tok W) → Prop
  | .newType h, args, toks => Member d h (some (args.getD [])) toks
  | .annotated h ts, none, toks => Member d h (some ts) toks
  | .annotated _ _, some _, _ => False
  | .union _, _, _ => False
  | .opaque, _, _ => False
  | .cls _, args, toks => styleOf d (toks ++ args.getD []) ≠ .hollow ∧ ∀ t ∈ toks ++ args.getD [], t.Mannered
  | .none, args, toks => styleOf d (toks ++ args.getD []) ≠ .hollow ∧ ∀ t ∈ toks ++ args.getD [], t.Mannered
  | .any, args, toks => styleOf d (toks ++ args.getD []) ≠ .hollow ∧ ∀ t ∈ toks ++ args.getD [], t.Mannered
  | .callable, args, toks => styleOf d (toks ++ args.getD []) ≠ .hollow ∧ ∀ t ∈ toks ++ args.getD [], t.Mannered
  | .literal _ _, args, toks => styleOf d (toks ++ args.getD []) ≠ .hollow ∧ ∀ t ∈ toks ++ args.getD [], t.Mannered
  | .typeBare, args, toks => styleOf d (toks ++ args.getD []) ≠ .hollow ∧ ∀ t ∈ toks ++ args.getD [], t.Mannered
  | .bareGeneric _, args, toks => styleOf d (toks ++ args.getD []) ≠ .hollow ∧ ∀ t ∈ toks ++ args.getD [], t.Mannered
  | h, args, toks => styleOf d (toks ++ args.getD []) ≠ .hollow ∧ Everywhere PlainPart h args toks

mutual
/-- Every union in the hint is free of coercers, or consists of members of the simple kind above. -/
def Settled (d : Style) : Hint W → Option (List (Tok W)) → List (Tok W) → Prop
  | .newType h, args, toks => Settled d h (some (args.getD [])) toks
  | .annotated h ts, none, toks => Settled d h (some ts) toks
  | .union hs, args, toks => EverywhereL PlainPart hs (args.getD [] ++ toks) ∨ ∀ h ∈ hs, Member d h none (args.getD [] ++ toks)
  | .tupleFix hs, _, _ => SettledL d hs
  | .tupleVar h, _, _ => Settled d h none []
  | .iter _ h, _, _ => Settled d h none []
  | .deque _ h, _, _ => Settled d h none []
  | .mapping _ k v, _, _ => Settled d k none [] ∧ Settled d v none []
  | .defaultdict _ k v, _, _ => Settled d k none [] ∧ Settled d v none []
  | _, _, _ => True
def SettledL (d : Style) : List (Hint W) → Prop
  | [] => True
  | h :: hs => Settled d h none [] ∧ SettledL d hs
end

end Records
