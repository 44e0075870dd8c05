import Verif.Model.Names
import Verif.Spec.Params

/-!
# Specification: the names of parameters
-/

namespace RT1

noncomputable section

/-- The program supplies a value for a parameter of this name, to any object. -/
def Supplies (ops : List Op) (k : String) : Prop := ∃ op ∈ ops, ∃ id, k ∈ (op.supplied id).keys

/-- From here on, whatever the program does, every call on any object that needs the name `n` raises. -/
def BrokenFor (n : String) (s : Scoped) : Prop :=
  ∀ {more : List Op} {s1 : Scoped}, ScopedExec more s s1 → ∀ {op : Op} {r : Py Unit} {s2 : Scoped},
    n ∈ op.needs → ScopedCall (step op) op.needs s1 r s2 → ∃ e, r = .error e

end

end RT1
