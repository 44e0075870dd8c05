import Verif.Model.Switch
import Verif.Spec.Inputs
import Verif.Spec.Site

/-! Specification for programs that switch backends. -/

namespace RT1

noncomputable section
open Classical

/-- `a` can be broadcast to the shape of `b` and has the same entries. -/
structure Arr.Sub (a b : Arr) : Prop where
  fits : Arr.Fits a.shape b.shape
  val : ∀ idx, a.at' idx = b.at' idx

/-- If a parameter is defined by a sympy object, that object contains no symbols.  (With symbols it
can be assigned but not evaluated.) -/
def Op.ClosedDef : Op → Prop
  | .setParamDef _ _ (.basic e) => e.free = []
  | _ => True

/-- Calls of a program: angle arrays are not overwritten in place, definitions are closed, backends
are set in any way. -/
def SOp.Fine : SOp → Prop
  | .op o => o.Keeps ∧ o.ClosedDef
  | .setBackend _ => True

/-- The backend that the compiled phase function `f` of an object with these parameter names runs
with: the one it was first compiled with, otherwise the current one. -/
def Switch.backendOf (s : World × Tags) (f : Scatter) (names : List String) : Backend :=
  ((LRU.find s.2.scatter (f, names)).getD s.1.backend)

/-- The same accessors, with other backends for the volume phase function, the surface phase function, and everything
else. -/
def Acc.withBackends (A : Acc Py) (kV kS k : Backend) : Acc Py := { A with
  backend := fun c => match c with
    | .V => .ok kV
    | .SRF => .ok kS
    | _ => .ok k }

end

end RT1
