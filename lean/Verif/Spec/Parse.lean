import Verif.Model.State
import Verif.Model.Parse
import Verif.Spec.Inputs
import Mathlib.Analysis.SpecialFunctions.Pow.Real

/-!
# What a formula means
-/

namespace RT1

noncomputable section
open Classical

/-- The names of the quantities in a formula. -/
def Src.names : Src → List String
  | .num _ => []
  | .name n => [n]
  | .neg a => a.names
  | .add a b => a.names ++ b.names
  | .sub a b => a.names ++ b.names
  | .mul a b => a.names ++ b.names
  | .div a b => a.names ++ b.names
  | .pow a _ => a.names
  | .call _ a => a.names

/-- The functions a formula uses. -/
def Src.funcs : Src → List String
  | .num _ => []
  | .name _ => []
  | .neg a => a.funcs
  | .add a b => a.funcs ++ b.funcs
  | .sub a b => a.funcs ++ b.funcs
  | .mul a b => a.funcs ++ b.funcs
  | .div a b => a.funcs ++ b.funcs
  | .pow a _ => a.funcs
  | .call f a => f :: a.funcs

/-- The value of a function of a formula, where it is defined. -/
def fnValue (f : String) (x : ℝ) : Option ℝ :=
  if f = "sin" then some (Real.sin x)
  else if f = "cos" then some (Real.cos x)
  else if f = "exp" then some (Real.exp x)
  else if f = "sqrt" then (if 0 ≤ x then some (Real.sqrt x) else none)
  else if f = "sign" then some (if 0 < x then 1 else if x < 0 then -1 else 0)
  else none

/-- The value of a formula for given values of the names, where it is defined. -/
def Src.value (ρ : String → ℝ) : Src → Option ℝ
  | .num r => some r
  | .name n => some (ρ n)
  | .neg a => (a.value ρ).map fun x => -x
  | .add a b => (a.value ρ).bind fun x => (b.value ρ).map fun y => x + y
  | .sub a b => (a.value ρ).bind fun x => (b.value ρ).map fun y => x - y
  | .mul a b => (a.value ρ).bind fun x => (b.value ρ).map fun y => x * y
  | .div a b => (a.value ρ).bind fun x => (b.value ρ).bind fun y => if y = 0 then none else some (x / y)
  | .pow a r => (a.value ρ).bind fun x =>
    if 0 < x ∨ (x = 0 ∧ 0 ≤ r) ∨ (x < 0 ∧ ∃ k : ℤ, r = k) then some (x ^ r) else none
  | .call f a => (a.value ρ).bind fun x => fnValue f x

/-- The functions every formula may use. -/
def knownFuncs : List String := ["sin", "cos", "exp", "sqrt", "sign"]

/-- The name is read as a parameter. -/
def SympyNames.IsPar (ns : SympyNames) (n : String) : Prop := n = "N" ∨ ns.find n = none

/-- Names that sympy defines as numbers are read as these numbers. -/
def SympyNames.reads (ns : SympyNames) (ρ : String → ℝ) (n : String) : ℝ :=
  if n = "N" then ρ n else
  match ns.find n with
  | some (.number r) => r
  | _ => ρ n

/-- The value of the parameter `R.p` is the value of the formula `s` for the current parameters; `Q` are
the names that have to be supplied. -/
structure MeansText (id : ℕ) (p : PName) (s : Src) (Q : String → Prop) (reads : (String → ℝ) → String → ℝ) (params : Dict)
    (w : World) : Prop where
  value : ∀ z idx ρ v, (Self.evalParam id p w).1 = .ok z →
    (∀ n ∈ s.names, Q n → ∃ a, params.get? n = some a ∧ a.at' idx = .fin (ρ n)) →
    s.value (reads ρ) = some v → z.at' idx = .fin v
  ok : ∀ S, (∀ n ∈ s.names, Q n → ∃ a, params.get? n = some a ∧ Arr.Fits a.shape S) →
    ∃ z, (Self.evalParam id p w).1 = .ok z ∧ Arr.Fits z.shape S
  missing : (∃ n ∈ s.names, Q n ∧ n ∉ params.keys) →
    ∃ l, (Self.evalParam id p w).1 = .error (.typeError l) ∧ ∀ n, n ∈ l ↔ n ∈ s.names ∧ Q n ∧ n ∉ params.keys

end

end RT1
