import Verif.Model.State

/-!
# Specification of the parameter dictionary
-/

namespace RT1

noncomputable section
open Classical

/-- The last value given for a name in a list of keyword arguments. -/
def lastValue (l : Dict) (k : String) : Option Arr :=
  (l.reverse.find? fun p => p.1 = k).map Prod.snd

/-- The keyword arguments with which a call supplies parameters to the object `id`. -/
def Op.supplied (id : ℕ) : Op → Dict
  | .updateParams j kw => if j = id then kw else []
  | .evalCalc j kw => if j = id then kw else []
  | .surface j kw => if j = id then kw else []
  | .volume j kw => if j = id then kw else []
  | .interaction j kw => if j = id then kw else []
  | _ => []

/-- All keyword arguments a history supplies to the object `id`, in order. -/
def suppliedBy (id : ℕ) (ops : List Op) : Dict := ops.flatMap (Op.supplied id)

/-- Calls that do not assign a new definition to the parameter `p` of `id`. -/
def Op.KeepsDef (id : ℕ) (p : PName) : Op → Prop
  | .setParamDef j q _ => ¬ (j = id ∧ q = p)
  | _ => True

/-- Calls other than `set_monostatic`, `set_bistatic` on `id`. -/
def Op.KeepsMode (id : ℕ) : Op → Prop
  | .setMonostatic j _ => j ≠ id
  | .setBistatic j _ _ _ _ => j ≠ id
  | _ => True

end

end RT1
