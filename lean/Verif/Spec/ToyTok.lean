import Verif.Model.Filler
import Verif.Spec.Toy
/-
Example callbacks and tokens in the concrete world.
-/
namespace Records.Toy

/-- coercer: logs `n`, returns `r` -/
def ret (n : Nat) (r : TObj) : Coercer W := fun _ => M.bind (log n) fun _ => M.pure r

/-- coercer: logs `n`, raises `e` -/
def err (n : Nat) (e : Exc) : Coercer W := fun _ => M.bind (log n) fun _ => M.throw e

/-- validator: logs `n` -/
def pass (n : Nat) : Coercer W := fun v => M.bind (log n) fun _ => M.pure v

/-- coercer: returns `i` while the log is empty, `j` afterwards -/
def moody (i j : Int) : Coercer W := fun _ s => match (show List Nat from s.user) with
  | [] => (.ok (.int i), s)
  | _ => (.ok (.int j), s)

def ctok (c : Coercer W) : Tok W := .coercion (.coercer fun _ => .ok c)

def vtok (c : Coercer W) : Tok W := .validation fun _ => .ok c

/-- the token `Loose` -/
def looseTok : Tok W := .coercion (.coercer fun o => match looseBind (W := W) o with
  | .ok c => .ok (loose none c [] [])
  | .error e => .error e)

end Records.Toy
