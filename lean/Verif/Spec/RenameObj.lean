import Verif.Spec.Rename
import Verif.Model.State

/-!
# RT1 objects with other names for their parameters
-/

namespace RT1

noncomputable section

/-- The definition of tau, omega, NormBRDF or bsf with other names. -/
def PDef.rename (σ : String → String) : PDef → PDef
  | .val a => .val a
  | .str e => .str (e.rename σ)
  | .basic e => .basic (e.rename σ)

/-- An exception whose message mentions other names. -/
def PyErr.rename (σ : String → String) : PyErr → PyErr
  | .typeError ns => .typeError (ns.map σ)
  | .assertMissing ns => .assertMissing (ns.map σ)
  | e => e

/-- The outcome of a call: the same value, or the same exception with other names in its message. -/
def Py.rename {α : Type} (σ : String → String) : Py α → Py α
  | .ok a => .ok a
  | .error e => .error (e.rename σ)

/-- `o'` has the settings of `o` with other names for the parameters. -/
structure RenamedSettings (σ : String → String) (o o' : Obj) : Prop where
  V : o'.V = o.V.rename σ
  SRF : o'.SRF = o.SRF.rename σ
  intQ : o'.intQ = o.intQ
  sig0 : o'.sig0 = o.sig0
  dB : o'.dB = o.dB
  I0 : o'.I0 = o.I0
  pdef : ∀ p, o'.pdef p = (o.pdef p).rename σ
  params : o'.params = o.params.rename σ
  mono : o'.mono = o.mono
  ang : o'.ang = o.ang

end

end RT1
