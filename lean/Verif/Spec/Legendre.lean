import Mathlib.Algebra.Polynomial.AlgebraMap
import Mathlib.Data.Real.Basic

/-!
# Legendre polynomials

The Legendre polynomials `P_n` by Bonnet's recurrence
`(n+2) P_{n+2} = (2n+3) x P_{n+1} - (n+1) P_n` (this is what `sp.legendre(n, x)` denotes).
-/

namespace RT1

open Polynomial

/-- The `n`-th Legendre polynomial. -/
noncomputable def legendre : ℕ → ℝ[X]
  | 0 => 1
  | 1 => X
  | n + 2 =>
    C (((2 * n + 3 : ℕ) : ℝ) / ((n + 2 : ℕ) : ℝ)) * X * legendre (n + 1)
      - C (((n + 1 : ℕ) : ℝ) / ((n + 2 : ℕ) : ℝ)) * legendre n

end RT1
