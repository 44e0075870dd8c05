import Verif.Spec.Parse
import Verif.Spec.Construct

/-!
# Formulas as parameters of scattering functions
-/

namespace RT1

noncomputable section
open Classical Make

/-- The formula contains no root of 0. -/
def Src.NoRoot (ρ : String → ℝ) : Src → Prop
  | .num _ => True
  | .name _ => True
  | .neg a => a.NoRoot ρ
  | .add a b => a.NoRoot ρ ∧ b.NoRoot ρ
  | .sub a b => a.NoRoot ρ ∧ b.NoRoot ρ
  | .mul a b => a.NoRoot ρ ∧ b.NoRoot ρ
  | .div a b => a.NoRoot ρ ∧ b.NoRoot ρ
  | .pow a r => a.NoRoot ρ ∧ (a.value ρ = some 0 → ∃ n : ℕ, r = n)
  | .call f a => a.NoRoot ρ ∧ (f = "sqrt" → a.value ρ ≠ some 0)

/-- The number that an argument stands for: a number, or the value of the formula that a text contains. `read` are
the syntax trees of texts, `reads` tells which values names have. -/
inductive Val.Formula (read : String → Src) (ns : SympyNames) (reads : (String → ℝ) → String → ℝ) (ρ : String → ℝ) :
    Val → ℝ → Prop
  | real (r : ℝ) : Val.Formula read ns reads ρ (.real r) r
  | int (i : ℤ) : Val.Formula read ns reads ρ (.int i) i
  | text {s : String} {r : ℝ} (funcs : ∀ f ∈ (read s).funcs, f ∈ knownFuncs)
      (names : ∀ n ∈ (read s).names, ns.IsPar n ∨ ∃ r, ns.find n = some (.number r))
      (noRoot : (read s).NoRoot (reads ρ)) (value : (read s).value (reads ρ) = some r) :
      Val.Formula read ns reads ρ (.text s) r

/-- The arguments of a call stand for the numbers `a0 a1 a2` (default `±1, 1, 1`), `t`, `i` and `n` coefficients
(default none). -/
structure DocumentedText (read : String → Src) (ns : SympyNames) (reads : (String → ℝ) → String → ℝ) (ρ : String → ℝ)
    (c : Cls) (pos : List Val) (kw : Kw) (a0 a1 a2 t : ℝ) (i : ℕ) (n : Option ℕ) : Prop where
  call : Fitting c.own pos kw
  t : c.own = some "t" → ∃ v, Arg c.own pos kw "t" v ∧ Val.Formula read ns reads ρ v t
  i : c.own = some "i" → Arg c.own pos kw "i" (.int i)
  a : (∀ v, ("a", v) ∉ kw) ∧ a0 = (if c.vol then -1 else 1) ∧ a1 = 1 ∧ a2 = 1 ∨
    ∃ x y z, ("a", Val.seq [x, y, z]) ∈ kw ∧ Val.Formula read ns reads ρ x a0 ∧ Val.Formula read ns reads ρ y a1 ∧
      Val.Formula read ns reads ρ z a2
  n : (∀ v, ("ncoefs", v) ∉ kw) ∧ n = none ∨ ∃ k : ℕ, ("ncoefs", Val.int k) ∈ kw ∧ n = some k

end

end RT1
