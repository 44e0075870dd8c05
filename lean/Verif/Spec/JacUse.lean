import Verif.Spec.Jac

/-!
# The places where a name of `param_dict` is used

A name can occur in the definitions of tau, omega, NormBRDF and bsf and in the scattering
functions.  The derivative of the signal is a sum over all these places.
-/

namespace RT1

noncomputable section
open Classical

/-- A place where a name can be used: the definition of a parameter, or the scattering
function of the contribution. -/
inductive Use where
  | par (p : PName)
  | fn
  deriving DecidableEq

/-- The definitions, all replaced by numbers except the one of the place `u`. -/
def Use.only (u : Use) (d : PName → PDef) : PName → PDef := fun p =>
  if u = .par p then d p else .val (Arr.lit 0)

/-- Value of the scattering function if the entry `key` has the value `t`; constant if the
place `u` is a definition. -/
def Use.value (u : Use) (s : Scatter) (x : Site) (key : String) (t : ℝ) : ℝ :=
  match u with
  | .par _ => s.phase.evalR x.env
  | .fn => s.phase.evalR (Function.update x.env key t)

/-- The surface contribution if the entry `key` has the value `t` at the place `u` only. -/
def Use.surface (u : Use) (c : Cfg) (d : PName → PDef) (x : Site) (key : String) (t : ℝ) : ℝ :=
  (x.vary (u.only d) key t).surface (u.value c.SRF x key t)

/-- The volume contribution if the entry `key` has the value `t` at the place `u` only. -/
def Use.volume (u : Use) (c : Cfg) (d : PName → PDef) (x : Site) (key : String) (t : ℝ) : ℝ :=
  (x.vary (u.only d) key t).volume (u.value c.V x key t)

/-- The first definition in the list that uses the name, else the scattering function. -/
def firstUse (d : PName → PDef) (key : String) : List PName → Use
  | [] => .fn
  | p :: ps => if (d p).Uses key then .par p else firstUse d key ps

/-- All places of the surface contribution. -/
def surfaceUses : List Use := [.par .tau, .par .NormBRDF, .par .bsf, .fn]

/-- All places of the volume contribution. -/
def volumeUses : List Use := [.par .tau, .par .omega, .par .bsf, .fn]

end

end RT1
