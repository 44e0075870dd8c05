import Verif.Model.Scatter
import Mathlib.Algebra.MvPolynomial.Basic
import Mathlib.Algebra.MvPolynomial.Variables

/-!
# Symbolic expansion of the interaction term

Models `_calc.py` 875-1065: the product of the Legendre expansions is a polynomial in the
four atoms sin/cos(theta_s), sin/cos(phi_s) whose coefficients depend on the other symbols.
`expand` keeps it in expanded form (the canonical form of `MvPolynomial`), `xreplace`
replaces whole powers of one atom.
-/

namespace RT1

noncomputable section
open Classical

/-- Symbolic coefficients: functions of the values of the symbols (angles, parameters). -/
abbrev K := (String → ℝ) → ℝ

/-- The atoms sin(theta_s), cos(theta_s), sin(phi_s), cos(phi_s). -/
inductive Atom where
  | sinT
  | cosT
  | sinP
  | cosP
deriving DecidableEq

/-- Expanded symbolic expressions. -/
abbrev P := MvPolynomial Atom K

open MvPolynomial

/-- An entry of `_geom_ang_symbs`: a symbol or a fixed number. -/
inductive AngS where
  | sym (s : String)
  | num (r : ℝ)

/-- Value of an angle entry. -/
def AngS.val : AngS → K
  | sym s => fun ρ => ρ s
  | num r => fun _ => r

/-- Cosine and sine of an angle entry as symbolic coefficients. -/
def AngS.trig (x : AngS) : Scatter.Trig P :=
  ⟨C fun ρ => Real.cos (x.val ρ), C fun ρ => Real.sin (x.val ρ)⟩

/-- theta_s -/
def thetaS : Scatter.Trig P := ⟨X .cosT, X .sinT⟩
/-- phi_s -/
def phiS : Scatter.Trig P := ⟨X .cosP, X .sinP⟩

/-- Embedding of an expression that does not contain theta_s, phi_s. -/
def embP (e : Expr) : P := C fun ρ => e.evalR ρ

/-- Result of `xreplace` on the power `x ** k` of the atom `x`, for the dictionary `d`
that maps `x ** i` to `d i`: the whole power is replaced if it is a key, otherwise its base
if that is a key. -/
def replPow (x : Atom) (d : ℕ → Option P) (k : ℕ) : P :=
  if k = 0 then 1 else
  match d k with
  | some v => v
  | none =>
    match d 1 with
    | some v => v ^ k
    | none => X x ^ k

/-- `expand(expr.xreplace(d))` for a dictionary with powers of the atom `x` as keys. -/
def xreplace (x : Atom) (d : ℕ → Option P) (p : P) : P :=
  ∑ m ∈ p.support, monomial (m.erase x) (coeff m p) * replPow x d (m x)

/-- `_cosintegral(i)` (_calc.py 981-1001). -/
def cosintegral (i : ℕ) : ℝ :=
  if i % 2 = 0 then (2 : ℝ) ^ (-(i : ℤ)) * (i.choose (i / 2) : ℝ) else 0

/-- A number as symbolic expression. -/
def numP (r : ℝ) : P := C fun _ => r

/-- `replacements1` of _calc.py 1037-1051 (`nS`, `nV` are `SRF.ncoefs`, `V.ncoefs`). -/
def repl1 (nS nV : ℕ) (i : ℕ) : Option P :=
  if 1 ≤ i ∧ i < nS + nV + 1 ∧ i % 2 = 1 then some 0
  else if 2 ≤ i ∧ i < nS + nV + 1 ∧ i % 2 = 0 then some ((1 - X .cosP ^ 2) ^ (i / 2))
  else none

/-- `replacements3` of _calc.py 1059-1062. -/
def repl3 (nS nV : ℕ) (i : ℕ) : Option P :=
  if 1 ≤ i ∧ i < nS + nV + 1 then some (numP (cosintegral i)) else none

/-- `_integrate_0_2pi_phis` (_calc.py 1003-1065). -/
def integratePhi (nS nV : ℕ) (p : P) : P :=
  xreplace .cosP (repl3 nS nV) (xreplace .sinP (repl1 nS nV) p)

/-- `replacements` of _calc.py 968-975. -/
def replSinT (nS nV : ℕ) (i : ℕ) : Option P :=
  if 1 ≤ i ∧ i < nS + nV - 1 ∧ i % 2 = 0 then some ((1 - X .cosT ^ 2) ^ (i / 2)) else none

/-- The four entries of `_geom_ang_symbs`: theta_0, theta_ex, phi_0, phi_ex. -/
structure Geom4 where
  t0 : AngS
  tex : AngS
  p0 : AngS
  pex : AngS

/-- The product `2*pi*volexp*brdfexp` of _calc.py 949-960. -/
def fPoly (V SRF : Scatter) (g : Geom4) : Py P := do
  let brdfexp ← SRF.legExpansion embP thetaS g.tex.trig phiS g.pex.trig.addPi
  let volexp ← V.legExpansion embP g.t0.trig.piSub thetaS g.p0.trig phiS
  .ok (numP (2 * Real.pi) * volexp * brdfexp)

/-- `_calc_interaction_expansion` (_calc.py 919-979). -/
def interactionExpansion (V SRF : Scatter) (g : Geom4) : Py P := do
  let p ← fPoly V SRF g
  let nS ← SRF.ncoefs
  let nV ← V.ncoefs
  .ok (xreplace .sinT (replSinT nS nV) (integratePhi nS nV p))

/-- `repl0` of _calc.py 903. -/
def repl0 (i : ℕ) : Option P := if i = 1 then some 0 else none

/-- The dictionary `repl1` of _calc.py 907-910. -/
def replF1 (N : ℕ) (i : ℕ) : Option P :=
  if i = 1 then some 1 else if 1 ≤ i ∧ i ≤ N then some 0 else none

/-- The dictionary `repln` of _calc.py 914. -/
def replFn (n : ℕ) (i : ℕ) : Option P := if i = n then some 1 else none

/-- `_extract_coefficients` (_calc.py 875-917). -/
def extractCoefficients (nS nV : ℕ) (p : P) : List P :=
  let N := nS + nV - 1
  let f0 := xreplace .cosT repl0 p
  let f1 := xreplace .cosT (replF1 N) p - f0
  [f0, f1] ++ ((List.range (N - 2)).map fun j =>
    xreplace .cosT repl0 (xreplace .cosT (replFn (j + 2)) p) - f0)

/-- The coefficients computed by `_fn` (_calc.py 830-841). -/
def fnCoefs (V SRF : Scatter) (g : Geom4) : Py (List P) := do
  let p ← interactionExpansion V SRF g
  let nS ← SRF.ncoefs
  let nV ← V.ncoefs
  .ok (extractCoefficients nS nV p)

/-- The list of functions compiled by `_fnevals` (_calc.py 858-865).  `free` are the names
of the symbols that occur in the coefficients (those of the phase functions). -/
structure FnLam where
  vars : List String
  free : List String
  fns : List P

/-- Value of a coefficient for finite values of all arguments (nan otherwise; simplified:
sympy only looks at the arguments that occur in the coefficient). -/
def fnVal (vars : List String) (f : P) (env : String → XR) : XR :=
  if ∀ s ∈ vars, (env s).isFin = true then
    XR.fin (coeff 0 f fun s => (env s).toReal)
  else XR.nan

/-- The coefficient does not contain any symbol. Simplified: "no symbol occurs" is
represented by "is a constant function of the symbols". -/
def isConstFn (f : P) : Prop := ∀ ρ ρ' : String → ℝ, coeff 0 f ρ = coeff 0 f ρ'

/-- `self._fnevals(*args)` for positional arguments that have been broadcast to a common
shape (_calc.py 1110, 1137).  Leftover atoms theta_s, phi_s or unknown parameters raise
NameError (sympy); a wrong number of arguments raises. sympy returns a bare number for a
coefficient without symbols, symengine always returns full arrays. -/
def FnLam.call (b : Backend) (f : FnLam) (args : List Arr) : Py (List Arr) :=
  if args.length ≠ f.vars.length then
    .error (match b with | .sympy => .typeError [] | .symengine => .valueError)
  else if ∃ s ∈ f.free, s ∉ f.vars then .error .nameError
  else if ∃ p ∈ f.fns, p.vars ≠ ∅ then .error .nameError
  else
    match Arr.bshapes (args.map Arr.shape) with
    | none => .error .valueError
    | some sh =>
      .ok (f.fns.map fun p =>
        if b = .sympy ∧ isConstFn p then Arr.num (XR.fin (coeff 0 p fun _ => 0))
        else ⟨sh, fun idx => fnVal f.vars p (Lam.envAt (f.vars.zip args) idx)⟩)

end

end RT1
