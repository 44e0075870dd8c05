import Verif.Model.Scatter

/-!
# Constructors of scattering functions

Models the constructors in `volume.py`, `surface.py` and `_scatter.py`, which turn the arguments of the
user into the scattering functions of `Model/Scatter.lean`.  `sp.parse_expr` is not modelled: all
definitions get it as a function `parse`, which may raise.
-/

namespace RT1.Make

noncomputable section

/-- The predefined classes (volume.py 67, 101, 141, 182; surface.py 68, 102, 159, 202). -/
inductive Cls where
  | volIsotropic
  | volRayleigh
  | volHG
  | volHGRayleigh
  | srfIsotropic
  | srfCosineLobe
  | srfHG
  | srfHGnadirnorm
deriving DecidableEq

/-- Python values that are passed to constructors or returned by them.  `seq` is a list, `text` a
string, `expr` a sympy expression, `other` anything else that cannot be iterated over.  A scattering
function keeps what its constructor stored: the attributes `a`, `_ncoefs` and `t` or `i` (`p`); a linear
combination the weights and parts.  (The groups of parts are formed from the attributes of the parts when
they are needed, see `Scatter.aGroups`; for assignments to attributes see `Model/Live.lean`.) -/
inductive Val where
  | none
  | real (r : ℝ)
  | int (i : ℤ)
  | bool (b : Bool)
  | text (s : String)
  | expr (e : Expr)
  | seq (l : List Val)
  | prim (c : Cls) (a : List Val) (nc p : Val)
  | lin (vol : Bool) (ws os a : List Val) (nc : Val)
  | other

/-- Keyword arguments; python accepts every name at most once. -/
abbrev Kw := List (String × Val)

/-- The name of the parameter of the constructor itself (volume.py 155, 197; surface.py 112, 173, 217). -/
def Cls.own : Cls → Option String
  | .volHG | .volHGRayleigh | .srfHG | .srfHGnadirnorm => some "t"
  | .srfCosineLobe => some "i"
  | _ => .none

/-- Volume functions inherit from `VolumeScatter`. -/
def Cls.vol : Cls → Bool
  | .volIsotropic | .volRayleigh | .volHG | .volHGRayleigh => true
  | _ => false

variable (parse : String → Py Expr)

/-- `_parse_sympy_param` (helpers.py 10-16). -/
def parseParam : Val → Py Val
  | .text s => do pure (.expr (← parse s))
  | v => pure v

/-- Iterating over a value: lists, and strings by their characters. -/
def iter : Val → Py (List Val)
  | .seq l => pure l
  | .text s => pure (s.toList.map fun c => .text (String.singleton c))
  | _ => .error (.typeError [])

/-- The values of `a` (volume.py 36-37, surface.py 37-38); no predefined class has a class attribute `a`. -/
def argA (vol : Bool) : Option Val → Py (List Val)
  | .none | some .none => pure [.real (if vol then -1 else 1), .real 1, .real 1]
  | some v => iter v

/-- `VolumeScatter.__init__`, `SurfaceScatter.__init__` (volume.py 28-43, surface.py 29-43): the
attributes `a` and `_ncoefs`.  Registering the plot functions is left out. -/
def base (vol : Bool) (kw : Kw) : Py (List Val × Val) := do
  if kw.all (fun p => p.1 = "ncoefs" ∨ p.1 = "a") then
    let l ← argA vol (kw.lookup "a")
    let a ← l.mapM (parseParam parse)
    if a.length = 3 then pure (a, (kw.lookup "ncoefs").getD .none) else .error .assertionError
  else .error (.typeError [])

/-- The checks on `t` (volume.py 158-160, 200-202; surface.py 176-178, 220-222). -/
def checkT : Val → Py Val
  | .none => .error .assertionError
  | p => parseParam parse p

/-- The checks on `i` (surface.py 115-119).  A python bool is an int. -/
def checkI (p : Val) : Py Val :=
  match p with
  | .int i => if 0 ≤ i then pure p else .error .assertionError
  | .bool _ => pure p
  | _ => .error .assertionError

/-- The check of the own parameter. -/
def checkOwn (c : Cls) (p : Val) : Py Val :=
  match c with
  | .volHG | .volHGRayleigh | .srfHG | .srfHGnadirnorm => checkT parse p
  | .srfCosineLobe => checkI p
  | _ => pure .none

/-- How python assigns the arguments of `__init__(self, own=None, **kwargs)` or
`__init__(self, **kwargs)`: the value of the own parameter and the remaining keywords. -/
def assign (own : Option String) (pos : List Val) (kw : Kw) : Py (Val × Kw) :=
  match own, pos with
  | .none, [] => pure (.none, kw)
  | some n, [] => pure ((kw.lookup n).getD .none, kw.filter fun p => decide (p.1 ≠ n))
  | some n, [v] => if (kw.lookup n).isSome then .error (.typeError []) else pure (v, kw)
  | _, _ => .error (.typeError [])

/-- The constructor of a predefined class: `super().__init__(**kwargs)` comes first. -/
def make (c : Cls) (pos : List Val) (kw : Kw) : Py Val := do
  let (p, rest) ← assign c.own pos kw
  let (a, nc) ← base parse c.vol rest
  let p ← checkOwn parse c p
  pure (.prim c a nc p)

/-- `for w, o in choices` (_scatter.py 232): the item has to consist of two values. -/
def unpack (v : Val) : Py (Val × Val) := do
  match ← iter v with
  | [w, o] => pure (w, o)
  | _ => .error .valueError

/-- Lists are not hashable. -/
def Val.isSeq : Val → Bool
  | .seq _ => true
  | _ => false

/-- `tuple(func.a)` as key of a dictionary (_scatter.py 243): lists are not hashable. -/
def keyOf : Val → Py Unit
  | .prim _ a _ _ => check a
  | .lin _ _ _ a _ => check a
  | _ => .error .attributeError
where
  /-- Hash of the tuple. -/
  check (a : List Val) : Py Unit :=
    if a.any Val.isSeq then .error (.typeError []) else pure ()

/-- `LinComb(choices, **kwargs)` of volume.py 55-62 (`vol`) or surface.py 55-62, with
`_LinComb.__init__` (_scatter.py 231-246). -/
def makeLin (vol : Bool) (pos : List Val) (kw : Kw) : Py Val := do
  let (choices, rest) ← assign (some "choices") pos kw
  let items ← iter choices
  let ps ← items.mapM fun v => do
    let (w, o) ← unpack v
    pure (← parseParam parse w, o)
  ps.forM fun p => keyOf p.2
  let (a, nc) ← base parse vol rest
  pure (.lin vol (ps.map Prod.fst) (ps.map Prod.snd) a nc)

/-- Numbers and expressions as expressions (python numbers in sympy arithmetic). -/
def Val.toExpr : Val → Option Expr
  | .real r => some (.num r)
  | .int i => some (.num i)
  | .bool b => some (.num (if b then 1 else 0))
  | .expr e => some e
  | _ => .none

/-- Non-negative integers. -/
def Val.toNat : Val → Option ℕ
  | .int i => if 0 ≤ i then some i.toNat else .none
  | .bool b => some (if b then 1 else 0)
  | _ => .none

/-- The attribute `a` as used in formulas. -/
def toA3 : List Val → Option A3
  | [x, y, z] => do pure ⟨← x.toExpr, ← y.toExpr, ← z.toExpr⟩
  | _ => .none

/-- The predefined function with the value of its own parameter. -/
def Cls.toKind (c : Cls) (p : Val) : Option Kind :=
  match c with
  | .volIsotropic => some .volIsotropic
  | .volRayleigh => some .volRayleigh
  | .volHG => p.toExpr.map .volHG
  | .volHGRayleigh => p.toExpr.map .volHGRayleigh
  | .srfIsotropic => some .srfIsotropic
  | .srfCosineLobe => p.toNat.map .srfCosineLobe
  | .srfHG => p.toExpr.map .srfHG
  | .srfHGnadirnorm => p.toExpr.map .srfHGnadirnorm

mutual
/-- The function of `Model/Scatter.lean` that a constructed object is, if its attributes are numbers and
expressions and `ncoefs` is missing or a natural number (nothing else is modelled there). -/
def Val.toScatter : Val → Option Scatter
  | .prim c a nc p => do
    let k ← c.toKind p
    let a ← toA3 a
    match nc with
    | .none => pure (.prim k a .none)
    | nc => pure (.prim k a (some (← nc.toNat)))
  | .lin _ ws os a _ => do
    pure (.lin (← ws.mapM Val.toExpr) (← toScatters os) (← toA3 a))
  | _ => .none
/-- The parts of a linear combination. -/
def toScatters : List Val → Option (List Scatter)
  | [] => some []
  | v :: l => do pure ((← v.toScatter) :: (← toScatters l))
end

end

end RT1.Make
