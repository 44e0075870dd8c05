import Verif.Spec.Switch
import Verif.Spec.Remembered

/-! Specification for programs that switch backends and use the interaction term (C73). -/

namespace RT1

noncomputable section
open Classical

/-- The backend that the coefficients of the object `id` run with: the one they were compiled with, otherwise the
current one. -/
def Switch.coefBackend (s : World × Tags) (id : ℕ) : Backend :=
  if (∃ o, s.1.objs id = some o ∧ o.fnevals_ ≠ none) then s.2.fn id else s.1.backend

/-- Value of all contributions of a record whose volume phase function, surface phase function and coefficients run
with the given backends. -/
def Remembered.total3 (kV kS k : Backend) (r : Remembered) : Py Arr :=
  ((r.acc k).withBackends kV kS k).calcTry

end

end RT1
