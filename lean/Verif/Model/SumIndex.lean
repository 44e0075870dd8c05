import Verif.Model.Scatter

/-!
# The summation index of the Legendre expansion

`Model/Scatter.lean` writes the coefficients of the expansion as a function of a natural number.  In the
code they are one expression in the symbol `n`, and the sum over `n` is evaluated by sympy: the symbol is
replaced by the numbers 0, 1, ... *everywhere* in the summand, i.e. also where `n` is the name of a parameter
of the user.
-/

namespace RT1

noncomputable section
open Classical

/-- `expr.subs(sp.Symbol(x), r)`. -/
def Expr.subs (x : String) (r : ℝ) : Expr → Expr
  | .num q => .num q
  | .sym s => if s = x then .num r else .sym s
  | .add a b => .add (a.subs x r) (b.subs x r)
  | .mul a b => .mul (a.subs x r) (b.subs x r)
  | .pow a q => .pow (a.subs x r) q
  | .sin a => .sin (a.subs x r)
  | .cos a => .cos (a.subs x r)
  | .sign a => .sign (a.subs x r)
  | .exp a => .exp (a.subs x r)

namespace Scatter

section
variable {R : Type} [CommRing R] [Algebra ℝ R] (emb : Expr → R)

/-- An expression in the summand, when the index has the value `n`. -/
def indexed (n : ℕ) (e : Expr) : R := emb (e.subs "n" n)

/-- `sp.Sum(coef * sp.legendre(n, self.calc_scattering_angle(...)), (n, 0, N - 1)).doit()` (_scatter.py 141-147,
284-289). -/
def sumIndex (N : ℕ) (coef : ℕ → R) (t0 tex p0 pex : Trig R) (a : A3) : R :=
  ∑ n ∈ Finset.range N, coef n * Polynomial.aeval (angleR (indexed emb n) t0 tex p0 pex a) (legendre n)

/-- `sum(frac * func.legendre_coefficients for frac, func in choices)` inside of the sum (_scatter.py 280-286). -/
def groupIndexed : List (Expr × Scatter) → Py (ℕ → R)
  | [] => .ok fun _ => 0
  | (w, o) :: l => do
    let f ← o.legCoef
    let g ← groupIndexed l
    .ok fun n => indexed emb n w * indexed emb n (f n) + g n

/-- The loop over the a-groups (_scatter.py 276-291). -/
def groupsIndexed (t0 tex p0 pex : Trig R) : List (A3 × List (Expr × Scatter)) → Py R
  | [] => .ok 0
  | (a, l) :: gs => do
    let N ← groupNcoefs l
    let f ← groupIndexed emb l
    let r ← groupsIndexed t0 tex p0 pex gs
    .ok (sumIndex emb N f t0 tex p0 pex a + r)

/-- `legendre_expansion(t_0, t_ex, p_0, p_ex).doit()` (_scatter.py 107-147, 272-291) with the substitution of
the index. -/
def symExpansion (t0 tex p0 pex : Trig R) (o : Scatter) : Py R :=
  match o with
  | prim k a _ => do
    let N ← o.ncoefs
    if 0 < N then
      .ok (sumIndex emb N (fun n => indexed emb n (primCoef a k n)) t0 tex p0 pex a)
    else .error .assertionError
  | lin ws os _ => groupsIndexed emb t0 tex p0 pex (aGroups ws os)
end

end Scatter

end

end RT1
