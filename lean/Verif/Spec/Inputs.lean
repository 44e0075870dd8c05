import Verif.Model.State

/-! Which inputs are enough for an evaluation. -/

namespace RT1

noncomputable section
open Classical

/-- The shape `s` can be broadcast to the shape `t`. -/
def Arr.Fits : List ℕ → List ℕ → Prop
  | [], _ => True
  | _ :: _, [] => False
  | a :: s, b :: t => (a = 1 ∨ a = b) ∧ Arr.Fits s t

/-- Everything an object needs for evaluating surface and volume contributions, with
shapes that fit into `S`. -/
structure Complete (o : Obj) (S : List ℕ) : Prop where
  t0 : ∃ a, o.ang .t0 = some a ∧ Arr.Fits a.shape S
  p0 : ∃ a, o.ang .p0 = some a ∧ Arr.Fits a.shape S
  tex : o.mono = true ∨ ∃ a, o.ang .tex = some a ∧ Arr.Fits a.shape S
  pex : o.mono = true ∨ ∃ a, o.ang .pex = some a ∧ Arr.Fits a.shape S
  I0 : Arr.Fits o.I0.shape S
  params : ∀ k a, o.params.get? k = some a → Arr.Fits a.shape S
  defs : ∀ p, match o.pdef p with
    | .val a => Arr.Fits a.shape S
    | .str e => ∀ s ∈ e.free, s ∈ o.params.keys
    | .basic e => e.free = []
  V : ∀ s ∈ o.V.phase.free, s ∈ ["theta_0", "theta_ex", "phi_0", "phi_ex"] ++ o.params.keys
  SRF : ∀ s ∈ o.SRF.phase.free, s ∈ ["theta_0", "theta_ex", "phi_0", "phi_ex"] ++ o.params.keys

/-- The name is used in a definition (a formula) of tau, omega, NormBRDF or bsf. -/
def Obj.UsedInDef (o : Obj) (n : String) : Prop := ∃ p e, o.pdef p = .str e ∧ n ∈ e.free

/-- The name is used by the model, does not stand for an angle, and has no value. -/
def Obj.Missing (o : Obj) (n : String) : Prop :=
  (o.UsedInDef n ∨ n ∈ o.V.phase.free ∨ n ∈ o.SRF.phase.free) ∧
    n ∉ ["theta_0", "theta_ex", "phi_0", "phi_ex"] ∧ n ∉ o.params.keys

/-- The definition of `p` uses a name that has no value. -/
def Obj.Lacks (o : Obj) (p : PName) : Prop :=
  ∃ e, o.pdef p = .str e ∧ ∃ n ∈ e.free, n ∉ ["theta_0", "theta_ex", "phi_0", "phi_ex"] ∧ n ∉ o.params.keys

/-- The scattering function uses a name that has no value. -/
def Obj.LacksIn (o : Obj) (s : Scatter) : Prop :=
  ∃ n ∈ s.phase.free, n ∉ ["theta_0", "theta_ex", "phi_0", "phi_ex"] ∧ n ∉ o.params.keys

/-- Like `Complete`, but names can be missing: angles are set, all arrays fit, definitions do
not use the reserved names of the angles. -/
structure Unfilled (o : Obj) (S : List ℕ) : Prop where
  t0 : ∃ a, o.ang .t0 = some a ∧ Arr.Fits a.shape S
  p0 : ∃ a, o.ang .p0 = some a ∧ Arr.Fits a.shape S
  tex : o.mono = true ∨ ∃ a, o.ang .tex = some a ∧ Arr.Fits a.shape S
  pex : o.mono = true ∨ ∃ a, o.ang .pex = some a ∧ Arr.Fits a.shape S
  I0 : Arr.Fits o.I0.shape S
  params : ∀ k a, o.params.get? k = some a → Arr.Fits a.shape S
  defs : ∀ p, match o.pdef p with
    | .val a => Arr.Fits a.shape S
    | .str e => ∀ s ∈ e.free, s ∉ ["theta_0", "theta_ex", "phi_0", "phi_ex"]
    | .basic e => e.free = []

end

end RT1
