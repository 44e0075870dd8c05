import Verif.Model.Construct
import Verif.Spec.Calc

/-!
# Which arguments constructors accept (C86)

Stated for the values a user passes, without reference to the order of the checks.
-/

namespace RT1

noncomputable section
open Make

/-- Strings have to be expressions. -/
def Readable (parse : String → Py Expr) (v : Val) : Prop := ∀ s, v = .text s → ∃ e, parse s = .ok e

/-- The elements of lists and strings. -/
inductive Items : Val → List Val → Prop
  | seq (l : List Val) : Items (.seq l) l
  | text (s : String) : Items (.text s) (s.toList.map fun c => .text (String.singleton c))

/-- The argument named `n` of a call is `v`; `own` is the name of the first positional parameter. -/
def Arg (own : Option String) (pos : List Val) (kw : Kw) (n : String) (v : Val) : Prop :=
  (n, v) ∈ kw ∨ own = some n ∧ pos = [v]

/-- Only known arguments, each at most once, at most one by position. -/
structure Fitting (own : Option String) (pos : List Val) (kw : Kw) : Prop where
  known : ∀ p ∈ kw, p.1 = "ncoefs" ∨ p.1 = "a" ∨ own = some p.1
  few : pos = [] ∨ ∃ v, pos = [v] ∧ own ≠ none
  once : pos ≠ [] → ∀ p ∈ kw, own ≠ some p.1

/-- The argument `a` is missing, None, or consists of three entries. -/
def AngleOK (parse : String → Py Expr) (kw : Kw) : Prop :=
  ∀ v, ("a", v) ∈ kw → v = .none ∨ ∃ l, Items v l ∧ l.length = 3 ∧ ∀ x ∈ l, Readable parse x

/-- What the constructors of the predefined classes accept. -/
structure Accepts (parse : String → Py Expr) (c : Cls) (pos : List Val) (kw : Kw) : Prop where
  call : Fitting c.own pos kw
  a : AngleOK parse kw
  t : c.own = some "t" → ∃ v, Arg c.own pos kw "t" v ∧ v ≠ .none ∧ Readable parse v
  i : c.own = some "i" → ∃ v, Arg c.own pos kw "i" v ∧ ((∃ n : ℕ, v = .int n) ∨ ∃ b, v = .bool b)

/-- A scattering function whose `a` can be used as a key: its entries are not lists. -/
def IsFunction (v : Val) : Prop :=
  ∃ a, ((∃ c nc p, v = .prim c a nc p) ∨ ∃ vol ws os nc, v = .lin vol ws os a nc) ∧ ∀ l, Val.seq l ∉ a

/-- What the constructor of linear combinations accepts: pairs of a weight and a scattering function. -/
structure AcceptsLin (parse : String → Py Expr) (pos : List Val) (kw : Kw) : Prop where
  call : Fitting (some "choices") pos kw
  a : AngleOK parse kw
  choices : ∃ v items, Arg (some "choices") pos kw "choices" v ∧ Items v items ∧
    ∀ x ∈ items, ∃ w o, Items x [w, o] ∧ Readable parse w ∧ IsFunction o

/-- The number that an argument stands for, for given values of the symbols. -/
inductive Val.Stands (parse : String → Py Expr) (ρ : String → ℝ) : Val → ℝ → Prop
  | real (r : ℝ) : Val.Stands parse ρ (.real r) r
  | int (i : ℤ) : Val.Stands parse ρ (.int i) i
  | expr {e : Expr} {r : ℝ} (h : e.Is ρ r) : Val.Stands parse ρ (.expr e) r
  | text {s : String} {e : Expr} {r : ℝ} (hs : parse s = .ok e) (h : e.Is ρ r) : Val.Stands parse ρ (.text s) r

/-- The textbook values of the predefined classes. -/
def Make.Cls.value (c : Cls) (a0 t : ℝ) (i : ℕ) (x : ℝ) : ℝ :=
  match c with
  | .volIsotropic => 1 / (4 * Real.pi)
  | .volRayleigh => Phase.rayleigh x
  | .volHG => Phase.hg (4 * Real.pi) t x
  | .volHGRayleigh => Phase.hgRayleigh t x
  | .srfIsotropic => 1 / Real.pi
  | .srfCosineLobe => Phase.cosineLobe i x
  | .srfHG => Phase.hg Real.pi t x
  | .srfHGnadirnorm => 1 / Phase.hgNadir a0 t * Phase.hg Real.pi t x

/-- The number of coefficients of the documentation: given by the user except for functions that need one
or three coefficients. -/
def Make.Cls.coefs (c : Cls) (n : Option ℕ) : Py ℕ :=
  match c with
  | .volIsotropic | .srfIsotropic => .ok 1
  | .volRayleigh => .ok 3
  | _ => match n with
    | some k => .ok k
    | none => .error .attributeError

/-- The arguments of a call stand for the numbers `a0 a1 a2` (default `±1, 1, 1`), `t`, `i` and `n`
coefficients (default none). -/
structure Documented (parse : String → Py Expr) (ρ : String → ℝ) (c : Cls) (pos : List Val) (kw : Kw)
    (a0 a1 a2 t : ℝ) (i : ℕ) (n : Option ℕ) : Prop where
  call : Fitting c.own pos kw
  t : c.own = some "t" → ∃ v, Arg c.own pos kw "t" v ∧ Val.Stands parse ρ v t
  i : c.own = some "i" → Arg c.own pos kw "i" (.int i)
  a : (∀ v, ("a", v) ∉ kw) ∧ a0 = (if c.vol then -1 else 1) ∧ a1 = 1 ∧ a2 = 1 ∨
    ∃ x y z, ("a", Val.seq [x, y, z]) ∈ kw ∧ Val.Stands parse ρ x a0 ∧ Val.Stands parse ρ y a1 ∧ Val.Stands parse ρ z a2
  n : (∀ v, ("ncoefs", v) ∉ kw) ∧ n = none ∨ ∃ k : ℕ, ("ncoefs", Val.int k) ∈ kw ∧ n = some k

end

end RT1
