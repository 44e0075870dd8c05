import Verif.Model.Expr
import Verif.Spec.Legendre
import Mathlib.Analysis.SpecialFunctions.Gamma.Basic

/-!
# Scattering distribution functions

Models `_scatter.py`, `volume.py` and `surface.py`.
-/

namespace RT1

noncomputable section
open Classical

/-- The three generalisation parameters `a` of the scattering angle. -/
structure A3 where
  a0 : Expr
  a1 : Expr
  a2 : Expr

/-- Default `a` of volume functions, volume.py 36-39. -/
def volA : A3 := ⟨.num (-1), .num 1, .num 1⟩
/-- Default `a` of surface functions, surface.py 37-40. -/
def srfA : A3 := ⟨.num 1, .num 1, .num 1⟩

/-- The predefined scattering functions (volume.py 67, 101, 141, 182; surface.py 68, 102,
159, 202) with their own parameters. -/
inductive Kind where
  | volIsotropic
  | volRayleigh
  | volHG (t : Expr)
  | volHGRayleigh (t : Expr)
  | srfIsotropic
  | srfCosineLobe (i : ℕ)
  | srfHG (t : Expr)
  | srfHGnadirnorm (t : Expr)

/-- A scattering object: a predefined function with `a` and the `ncoefs` given to its
constructor, or a linear combination (`_LinComb`, _scatter.py 197-246) of weights and parts. -/
inductive Scatter where
  | prim (k : Kind) (a : A3) (nc : Option ℕ)
  | lin (ws : List Expr) (os : List Scatter) (a : A3)

namespace Scatter

/-- `self.a`. -/
def a : Scatter → A3
  | prim _ a _ => a
  | lin _ _ a => a

/-- `calc_scattering_angle` with symbolic angles, i.e. `scattering_angle_symbolic`
(_scatter.py 25-37, 77-81). -/
def angleExpr (a : A3) : Expr :=
  a.a0 * .cos (.sym "theta_0") * .cos (.sym "theta_ex")
    + a.a1 * .sin (.sym "theta_0") * .sin (.sym "theta_ex")
        * .cos (.sym "phi_0") * .cos (.sym "phi_ex")
    + a.a2 * .sin (.sym "theta_0") * .sin (.sym "theta_ex")
        * .sin (.sym "phi_0") * .sin (.sym "phi_ex")

/-- `nadir_hemreflect` of HG_nadirnorm (surface.py 228-243 and 259-274). -/
def nadirHemreflect (t : Expr) (a : A3) : Expr :=
  .num 4 * ((.num 1 - .pow t 2)
    * (.num 1 - t * (-t + a.a0)
        - .pow ((.num 1 + .pow t 2 - .num 2 * a.a0 * t) * (.num 1 + .pow t 2)) (1/2))
    / (.num 2 * .pow a.a0 2 * .pow t 2
        * .pow (.num 1 + .pow t 2 - .num 2 * a.a0 * t) (1/2)))

/-- The Henyey-Greenstein quotient with denominator prefactor `c`
(volume.py 165-169, surface.py 184-192). -/
def hgExpr (c : ℝ) (t : Expr) (a : A3) : Expr :=
  (.num 1 - .pow t 2)
    / (.num c * .pow (.num 1 + .pow t 2 - .num 2 * t * angleExpr a) (3/2))

/-- `phase_function` of the predefined scattering functions: volume.py 95-97, 121-123,
163-171, 205-224; surface.py 96-98, 144-155, 181-192, 225-254. -/
def primPhase (a : A3) : Kind → Expr
  | .volIsotropic => .num (1 / (4 * Real.pi))
  | .volRayleigh => .num (3 / (16 * Real.pi)) * (.num 1 + .pow (angleExpr a) 2)
  | .volHG t => hgExpr (4 * Real.pi) t a
  | .volHGRayleigh t =>
    .num (3 / (8 * Real.pi))
      * (.num 1 / (.num 2 + .pow t 2) * (.num 1 + .pow (angleExpr a) 2) * (.num 1 - .pow t 2)
          / .pow (.num 1 + .pow t 2 - .num 2 * t * angleExpr a) (3/2))
  | .srfIsotropic => .num (1 / Real.pi)
  | .srfCosineLobe i =>
    .num (1 / Real.pi)
      * .pow (angleExpr a * (.num 1 + .sign (angleExpr a)) / .num 2) (i : ℝ)
  | .srfHG t => hgExpr Real.pi t a
  | .srfHGnadirnorm t => .num 1 / nadirHemreflect t a * hgExpr Real.pi t a

mutual
/-- `phase_function`; for a linear combination the weighted sum (_scatter.py 249-255). -/
def phase : Scatter → Expr
  | prim k a _ => primPhase a k
  | lin ws os _ => phaseL ws os
/-- The loop `for c, o in zip(self._weights, self._objs)` of _scatter.py 251-255.  Simplified for the
empty combination: in the code its sum is the python integer 0, which has no `free_symbols` and fails
(AttributeError) where these are read (_calc.py 569, plot.py 116 and 401); here it is the constant 0. -/
def phaseL : List Expr → List Scatter → Expr
  | w :: ws, o :: os => w * phase o + phaseL ws os
  | _, _ => .num 0
end

/-- `legendre_coefficients` at the index `n` of the predefined functions: volume.py 89-92,
126-137, 174-178, 227-256; surface.py 90-93, 122-141, 195-198, 257-281. -/
def primCoef (a : A3) : Kind → ℕ → Expr
  | .volIsotropic, n => .num (1 / (4 * Real.pi) * (if n = 0 then 1 else 0))
  | .volRayleigh, n =>
    .num (3 / (16 * Real.pi)
      * (4 / 3 * (if n = 0 then 1 else 0) + 2 / 3 * (if n = 2 then 1 else 0)))
  | .volHG t, n => .num (1 / (4 * Real.pi) * (2 * n + 1)) * .pow t n
  | .volHGRayleigh t, n =>
    if n < 2 then
      .num (3 / (8 * Real.pi)) * .num 1 / (.num 2 + .pow t 2)
        * (.num ((n + 2) * (n + 1) / (2 * n + 3)) * .pow t ((n : ℝ) + 2)
            + .num ((n + 1) ^ 2 / (2 * n + 3)) * .pow t n
            + .num ((5 * n ^ 2 - 1) / (2 * n - 1)) * .pow t n)
    else
      .num (3 / (8 * Real.pi)) * .num 1 / (.num 2 + .pow t 2)
        * (.num (n * (n - 1) / (2 * n - 1)) * .pow t ((n : ℝ) - 2)
            + .num ((n + 2) * (n + 1) / (2 * n + 3)) * .pow t ((n : ℝ) + 2)
            + .num ((n + 1) ^ 2 / (2 * n + 3)) * .pow t n
            + .num ((5 * n ^ 2 - 1) / (2 * n - 1)) * .pow t n)
  | .srfIsotropic, n => .num (1 / Real.pi * (if n = 0 then 1 else 0))
  | .srfCosineLobe i, n =>
    .num (1 / Real.pi
      * (((2 : ℝ) ^ (-2 - (i : ℝ)) * (1 + 2 * n) * Real.sqrt Real.pi * Real.Gamma (1 + i))
          / (Real.Gamma ((2 - n + i) * (1 / 2)) * Real.Gamma ((3 + n + i) * (1 / 2)))))
  | .srfHG t, n => .num (1 / Real.pi * (2 * n + 1)) * .pow t n
  | .srfHGnadirnorm t, n =>
    .num 1 / nadirHemreflect t a * (.num (1 / Real.pi * (2 * n + 1)) * .pow t n)

/-- `legendre_coefficients`; not defined for linear combinations (_scatter.py 264-269). -/
def legCoef : Scatter → Py (ℕ → Expr)
  | prim k a _ => .ok (primCoef a k)
  | lin _ _ _ => .error .notImplementedError

mutual
/-- `ncoefs`: fixed for Isotropic (volume.py 83-86, surface.py 84-87) and Rayleigh
(volume.py 115-118), otherwise the constructor argument (AttributeError if it was not
given, _scatter.py 14-23), the maximum of the parts for LinComb (_scatter.py 258-262;
ValueError for an empty list). -/
def ncoefs : Scatter → Py ℕ
  | prim .volIsotropic _ _ => .ok 1
  | prim .srfIsotropic _ _ => .ok 1
  | prim .volRayleigh _ _ => .ok 3
  | prim _ _ (some n) => .ok n
  | prim _ _ none => .error .attributeError
  | lin _ os _ => do
    let l ← ncoefsL os
    if l = [] then .error .valueError else .ok (l.foldr max 0)
/-- The list `[o.ncoefs for o in self._objs]`. -/
def ncoefsL : List Scatter → Py (List ℕ)
  | [] => .ok []
  | o :: os => do
    let n ← ncoefs o
    let l ← ncoefsL os
    .ok (n :: l)
end

/-- One step of the grouping loop (_scatter.py 242-243):
`self._a_groups.setdefault(tuple(func.a), []).append((frac, func))`.  Simplified: equal numbers are equal keys (some
sympy versions distinguish the integer 1 given as text from the float 1.0). -/
def addGroup : List (A3 × List (Expr × Scatter)) → Expr × Scatter →
    List (A3 × List (Expr × Scatter))
  | [], p => [(p.2.a, [p])]
  | (k, l) :: gs, p => if k = p.2.a then (k, l ++ [p]) :: gs else (k, l) :: addGroup gs p

/-- `self._a_groups` (_scatter.py 241-243). -/
def aGroups (ws : List Expr) (os : List Scatter) : List (A3 × List (Expr × Scatter)) :=
  (ws.zip os).foldl addGroup []

/-- Cosine and sine of an angle in a ring of symbolic expressions. -/
structure Trig (R : Type) where
  c : R
  s : R

/-- `sp.pi - t` (sympy evaluates its cosine and sine automatically). -/
def Trig.piSub {R : Type} [CommRing R] (t : Trig R) : Trig R := ⟨-t.c, t.s⟩
/-- `p + sp.pi`. -/
def Trig.addPi {R : Type} [CommRing R] (t : Trig R) : Trig R := ⟨-t.c, -t.s⟩

section
variable {R : Type} [CommRing R] [Algebra ℝ R] (emb : Expr → R)

/-- `calc_scattering_angle(t_0, t_ex, p_0, p_ex, a)` (_scatter.py 77-81). -/
def angleR (t0 tex p0 pex : Trig R) (a : A3) : R :=
  emb a.a0 * t0.c * tex.c
    + emb a.a1 * t0.s * tex.s * p0.c * pex.c
    + emb a.a2 * t0.s * tex.s * p0.s * pex.s

/-- `sp.Sum(coef * sp.legendre(n, angle), (n, 0, N - 1)).doit()`.  Simplified: no parameter is called `n` like the index
(`Model/SumIndex.lean` and C91 treat this case). -/
def legSum (N : ℕ) (coef : ℕ → R) (x : R) : R :=
  ∑ n ∈ Finset.range N, coef n * Polynomial.aeval x (legendre n)

/-- Expansion of one a-group of a linear combination (_scatter.py 277-289): the maximal
number of coefficients in the group, the sum of the weighted coefficients. -/
def groupCoefs : List (Expr × Scatter) → Py (ℕ → R)
  | [] => .ok fun _ => 0
  | (w, o) :: l => do
    let f ← o.legCoef
    let g ← groupCoefs l
    .ok fun n => emb w * emb (f n) + g n

/-- `max(i[1].ncoefs for i in choices)`. -/
def groupNcoefs (l : List (Expr × Scatter)) : Py ℕ := do
  let ns ← ncoefsL (l.map Prod.snd)
  if ns = [] then .error .valueError else .ok (ns.foldr max 0)

/-- The loop over the a-groups (_scatter.py 276-291). -/
def groupsExpansion (t0 tex p0 pex : Trig R) : List (A3 × List (Expr × Scatter)) → Py R
  | [] => .ok 0
  | (a, l) :: gs => do
    let N ← groupNcoefs l
    let f ← groupCoefs emb l
    let r ← groupsExpansion t0 tex p0 pex gs
    .ok (legSum N f (angleR emb t0 tex p0 pex a) + r)

/-- `legendre_expansion(t_0, t_ex, p_0, p_ex)` (_scatter.py 107-147, 272-291). -/
def legExpansion (t0 tex p0 pex : Trig R) (o : Scatter) : Py R :=
  match o with
  | prim k a _ => do
    let N ← o.ncoefs
    if 0 < N then
      .ok (legSum N (fun n => emb (primCoef a k n)) (angleR emb t0 tex p0 pex a))
    else .error .assertionError
  | lin ws os _ => groupsExpansion emb t0 tex p0 pex (aGroups ws os)
end

/-- `calc(t_0, t_ex, p_0, p_ex, param_dict)` (_scatter.py 83-105, 149-175): compile the
phase function for the angle symbols and the parameter names, call it.  The memo table of
`_lambda_func` is not modelled here: scattering functions are values in this file.  With objects and the
table (`Model/Live.lean`) the same values are returned as long as nothing is assigned (`C83_constant`). -/
def calcVal (b : Backend) (o : Scatter) (t0 tex p0 pex : Arr) (pd : Dict) : Py Arr := do
  let f ← Lam.compile b (["theta_0", "theta_ex", "phi_0", "phi_ex"] ++ pd.keys) o.phase
  f.call b [t0, tex, p0, pex] pd

end Scatter

end

end RT1
