import Verif.Model.Files
/-
Files: what the modules `json` and `pickle` do with one.
-/
namespace Records
variable {W : World}

/-- `dump` writes what `dumps` returns, `load` decodes what `read` returns (`read f` is `f.read()`, `write f t` is `f.write(t)`) -/
structure FileLaws {X : Type} (J : Codec W X) (read : W.Obj → M W W.Obj) (write : W.Obj → W.Obj → M W Unit) : Prop where
  dump : ∀ x io args kw s t s', J.dumps x args kw s = (.ok t, s') → J.dump x io args kw s = write io t s'
  load : ∀ f args kw, J.load f args kw = M.bind (read f) fun t => J.loads t args kw

/-- a function that returned a text returns nothing and writes the text to `f` instead; if it failed, nothing is said here about the
new state -/
def Redirected (write : W.Obj → W.Obj → M W Unit) (f : W.Obj) (r r' : Except Exc (Option W.Obj) × LState W) : Prop :=
  ∀ t s, r = (.ok (some t), s) →
    (∀ s', write f t s = (.ok (), s') → r' = (.ok none, s')) ∧ ∀ e s', write f t s = (.error e, s') → r' = (.error e, s')

end Records
