import Verif.Model.Extras
/-
Vocabulary for C110.
-/
namespace Records
variable {W : World}

/-- the `json` module after the steps: the one assigned last, else the first one -/
def lastJson (first : Codec W (Dict W.Obj)) : List (Step W) → Codec W (Dict W.Obj)
  | [] => first
  | .setJson J :: l => lastJson J l
  | _ :: l => lastJson first l

/-- the `pickle` module after the steps -/
def lastPickle (first : Codec W (Inst W)) : List (Step W) → Codec W (Inst W)
  | [] => first
  | .setPickle P :: l => lastPickle P l
  | _ :: l => lastPickle first l

/-- the `re` module after the steps -/
def lastRe (first : ReModule W) : List (Step W) → ReModule W
  | [] => first
  | .setRe R :: l => lastRe R l
  | _ :: l => lastRe first l

end Records
