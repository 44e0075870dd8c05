import Verif.Model.Fn
import Verif.Spec.ExpInt

/-!
# Numerical evaluation

The evaluation methods of `RT1` (`_surface`, `_volume`, `_interaction`, the body of `calc`,
the derivatives and `jacobian`), written for an arbitrary monad `m` and a record `Acc m` of
accessors for the attributes and (memoised) properties they read.  `Model/State.lean`
instantiates the accessors with the memo tables of the class.
-/

namespace RT1

noncomputable section
open Classical

/-- The parameters that can be defined by expressions. -/
inductive PName where
  | tau
  | omega
  | NormBRDF
  | bsf
deriving DecidableEq, Repr

/-- A parameter definition: a string (parsed), a sympy object, or a number/array. -/
inductive PDef where
  | str (e : Expr)
  | basic (e : Expr)
  | val (a : Arr)

/-- `scipy.special.expi`. -/
def XR.expi : XR → XR
  | .fin a => if a = 0 then .ninf else .fin (Ei a)
  | .pinf => .pinf
  | .ninf => .fin 0
  | .nan => .nan

/-- `scipy.special.expn(k, x)` for `k >= 2`: nan for negative `x`. -/
def XR.expn (k : ℕ) : XR → XR
  | .fin a => if a < 0 then .nan else .fin (expInt k a)
  | .pinf => .fin 0
  | .ninf => .nan
  | .nan => .nan

/-- The compiled functions that the evaluation methods call. -/
inductive Callee where
  | V
  | SRF
  | fn
  /-- the derivative of a parameter definition (compiled for every call) -/
  | dpar
  | dVol (key : String)
  | dSrf (key : String)
  /-- the definition of a parameter (called by `par`) -/
  | par (p : PName)

/-- Accessors for what the evaluation methods read from `self`. -/
structure Acc (m : Type → Type) where
  /-- the backend a function was compiled with -/
  backend : Callee → m Backend
  V : m Scatter
  SRF : m Scatter
  intQ : m Bool
  sig0 : m Bool
  dB : m Bool
  I0 : m Arr
  t0 : m Arr
  tex : m Arr
  p0 : m Arr
  pex : m Arr
  mu0 : m Arr
  muEx : m Arr
  mu0x : m Arr
  muExx : m Arr
  /-- value of `self.tau`, `self.omega`, `self.NormBRDF`, `self.bsf` -/
  par : PName → m Arr
  /-- `self._get_param_symbs(param)` -/
  symbs : PName → m (List String)
  /-- the raw definition `self._tau` etc. -/
  pdef : PName → m PDef
  params : m Dict
  fnevals : m (Option FnLam)
  dVolLam : String → m Lam
  dSrfLam : String → m Lam

variable {m : Type → Type} [Monad m] [MonadExceptOf PyErr m]

/-- Run a plain python computation in `m`. -/
def liftPy {α : Type} : Py α → m α
  | .ok a => pure a
  | .error e => throw e

/-- `x * y` -/
def mulM (x y : m Arr) : m Arr := do
  let a ← x
  let b ← y
  liftPy (Arr.mul a b)
/-- `x / y` -/
def divM (x y : m Arr) : m Arr := do
  let a ← x
  let b ← y
  liftPy (Arr.div a b)
/-- `x + y` -/
def addM (x y : m Arr) : m Arr := do
  let a ← x
  let b ← y
  liftPy (Arr.add a b)
/-- `x - y` -/
def subM (x y : m Arr) : m Arr := do
  let a ← x
  let b ← y
  liftPy (Arr.sub a b)
/-- elementwise numpy function -/
def mapM' (f : XR → XR) (x : m Arr) : m Arr := do
  let a ← x
  pure (Arr.map f a)
/-- a float literal -/
def litM (r : ℝ) : m Arr := pure (Arr.lit r)

@[inherit_doc] scoped infixl:70 " *. " => mulM
@[inherit_doc] scoped infixl:70 " /. " => divM
@[inherit_doc] scoped infixl:65 " +. " => addM
@[inherit_doc] scoped infixl:65 " -. " => subM

/-- `-x` -/
def negM (x : m Arr) : m Arr := mapM' (- ·) x
/-- `np.exp(x)` -/
def expM (x : m Arr) : m Arr := mapM' XR.exp x
/-- `np.log(x)` -/
def logM (x : m Arr) : m Arr := mapM' XR.log x

namespace Acc

variable (A : Acc m)

/-- `self.SRF.calc(self.t_0, self.t_ex, self.p_0, self.p_ex, param_dict=self.param_dict)` -/
def srfCalc : m Arr := do
  let o ← A.SRF
  let a ← A.t0
  let b ← A.tex
  let c ← A.p0
  let d ← A.pex
  let pd ← A.params
  let k ← A.backend .SRF
  liftPy (o.calcVal k a b c d pd)

/-- `self.V.calc(self.t_0, self.t_ex, self.p_0, self.p_ex, param_dict=self.param_dict)` -/
def vCalc : m Arr := do
  let o ← A.V
  let a ← A.t0
  let b ← A.tex
  let c ← A.p0
  let d ← A.pex
  let pd ← A.params
  let k ← A.backend .V
  liftPy (o.calcVal k a b c d pd)

/-- `np.exp(-(self.tau / self._mu_0) - (self.tau / self._mu_ex))` -/
def atten : m Arr :=
  expM (negM (A.par .tau /. A.mu0) -. (A.par .tau /. A.muEx))

/-- `_surface` (_calc.py 608-624). -/
def surface : m Arr := do
  let Ibs ← A.I0 *. A.mu0 *. A.srfCalc
  let Isurf ← A.atten *. pure Ibs
  A.par .NormBRDF *. ((litM 1 -. A.par .bsf) *. pure Isurf +. A.par .bsf *. pure Ibs)

/-- `_volume` (_calc.py 649-663). -/
def volume : m Arr := do
  let vol ← (A.I0 *. A.par .omega *. A.mu0 /. (A.mu0 +. A.muEx))
    *. (litM 1 -. A.atten) *. A.vCalc
  (litM 1 -. A.par .bsf) *. pure vol

/-- `nmax = self.V.ncoefs + self.SRF.ncoefs - 1` -/
def nmax : m ℕ := do
  let v ← A.V
  let nV ← liftPy v.ncoefs
  let s ← A.SRF
  let nS ← liftPy s.ncoefs
  pure (nV + nS - 1)

/-- `np.exp(-tau / mu)` -/
def expTauMu (mu tau : Arr) : Py Arr := do
  let x ← Arr.div (Arr.neg tau) mu
  .ok (Arr.exp x)

/-- `hlp1` of `_S2_mu` (_calc.py 1069-1073). -/
def hlp1 (mu tau : Arr) : Py Arr := do
  let e ← expTauMu mu tau
  let om ← Arr.sub (Arr.lit 1) mu
  let q ← Arr.div mu om
  let x ← Arr.mul e (Arr.log q)
  let y ← Arr.sub x (Arr.map XR.expi (Arr.neg tau))
  let tm ← Arr.div tau mu
  let d ← Arr.sub tm tau
  let z ← Arr.mul e (Arr.map XR.expi d)
  Arr.add y z

/-- `innerfunc(k)` of `_S2_mu` (_calc.py 1076-1078; its memo table lives only during the
call and is not modelled). -/
def innerfunc (mu tau : Arr) (k : ℕ) : Py Arr := do
  let p := Arr.map (fun v => XR.fin 1 / XR.npow v k) mu
  let e ← expTauMu mu tau
  let q ← Arr.div e (Arr.lit k)
  let d ← Arr.sub (Arr.map (XR.expn (k + 1)) tau) q
  Arr.mul p d

/-- `sum(innerfunc(k) for k in range(1, (n + 1) + 1))`, starting with the number 0. -/
def innerSum (mu tau : Arr) : ℕ → Py Arr
  | 0 => do
    let x ← innerfunc mu tau 1
    Arr.add (Arr.lit 0) x
  | n + 1 => do
    let s ← innerSum mu tau n
    let x ← innerfunc mu tau (n + 2)
    Arr.add s x

/-- `_S2_mu(mu, tau)` (_calc.py 1067-1087). -/
def S2mu (nmax : ℕ) (mu tau : Arr) : Py Arr := do
  let h ← hlp1 mu tau
  let l ← (List.range nmax).mapM (innerSum mu tau)
  let S2 ← Arr.stack l
  Arr.add S2 h

/-- The cosine powers `np.array([mu ** (n + 1) for n in range(nmax)])` of `_mu_0_x` and
`_mu_ex_x` (_calc.py 801-813). -/
def muPowers (nmax : ℕ) (mu : Arr) : Py Arr :=
  Arr.stack ((List.range nmax).map fun n => Arr.map (XR.npow · (n + 1)) mu)

/-- `self._fnevals(*args)` (_calc.py 1110, 1137). -/
def fnCall (f : FnLam) (args : List Arr) : m (List Arr) := do
  let k ← A.backend .fn
  liftPy (f.call k args)

/-- The common part of `_calc_Fint_1` and `_calc_Fint_2` (_calc.py 1102-1114, 1129-1141):
evaluate the coefficients for the given angles, multiply with the cosine powers and the
S2-functions, sum over the leading axis. -/
def fint (ang : m (List Arr)) (mux mu : m Arr) : m Arr := do
  let a ← ang
  let pd ← A.params
  let args ← liftPy (Arr.broadcastArrays (a ++ pd.map Prod.snd))
  let f ← A.fnevals
  let outs ← match f with
    | none => throw (.typeError [])
    | some f => A.fnCall f args
  let fn ← liftPy (Arr.broadcastArrays (outs.map Arr.atleast1d))
  let mx ← mux
  let mu ← mu
  let tau ← A.par .tau
  let nm ← A.nmax
  let s2 ← liftPy (S2mu nm mu tau)
  let multip ← liftPy (Arr.mul mx s2)
  let fnA ← liftPy (Arr.stack fn)
  let prod ← liftPy (Arr.mul fnA multip)
  liftPy (Arr.sum0 prod)

/-- `_calc_Fint_1` (_calc.py 1089-1114). -/
def fint1 : m Arr :=
  A.fint (do
    let a ← A.t0
    let b ← A.p0
    let c ← A.tex
    let d ← A.pex
    pure [a, b, c, d]) A.mu0x A.mu0

/-- `_calc_Fint_2` (_calc.py 1116-1141): incidence and exit angles exchanged. -/
def fint2 : m Arr :=
  A.fint (do
    let a ← A.tex
    let b ← A.pex
    let c ← A.t0
    let d ← A.p0
    pure [a, b, c, d]) A.muExx A.muEx

/-- `_interaction` (_calc.py 688-703). -/
def interaction : m Arr := do
  let F1 ← A.fint1
  let F2 ← A.fint2
  let Iint ← A.I0 *. A.mu0 *. A.par .omega
    *. (expM (negM (A.par .tau) /. A.muEx) *. pure F1
        +. expM (negM (A.par .tau) /. A.mu0) *. pure F2)
  A.par .NormBRDF *. (litM 1 -. A.par .bsf) *. pure Iint

/-- `_convert_sig0_db` with the object's own settings (_calc.py 714-730). -/
def convert (val : Arr) : m Arr := do
  let s ← A.sig0
  let db ← A.dB
  let signorm ← if s = true then litM (4 * Real.pi) *. A.mu0 /. A.I0 else litM 1
  let ret ← liftPy (Arr.mul val signorm)
  if db = true then litM 10 *. pure (Arr.map XR.log10 ret) else pure ret

/-- The end of the `try` block of `calc` (_calc.py 551-560): total and contributions are
stacked and converted; without `int_Q` the interaction term is neither added nor returned. -/
def finish (q : Bool) (Isurf Ivol Iint : Arr) : m Arr :=
  if q = true then do
    let tot ← pure Isurf +. pure Ivol +. pure Iint
    let st ← liftPy (Arr.stack [tot, Isurf, Ivol, Iint])
    A.convert st
  else do
    let tot ← pure Isurf +. pure Ivol
    let st ← liftPy (Arr.stack [tot, Isurf, Ivol])
    A.convert st

/-- Replacement of nan values caused by tau = 0 (_calc.py 539-549). -/
def fixNan (I : Arr) : m Arr :=
  if I.anyNan then do
    let t ← A.par .tau
    let c ← liftPy (Arr.nanIffZero I t)
    pure (if c = true then Arr.nanToZero I else I)
  else pure I

/-- The body of the `try` block of `calc` (_calc.py 518-560).  A tau without axes is a
python number (`isinstance(self.tau, (int, float))`). -/
def calcBody : m Arr := do
  let tau ← A.par .tau
  if tau.shape = [] then do
    let Isurf ← A.surface
    let tau' ← A.par .tau
    if (tau'.get []).isPos = true then do
      let Ivol ← A.volume
      let q ← A.intQ
      if q = true then do
        let Iint ← A.interaction
        A.finish q Isurf Ivol Iint
      else A.finish q Isurf Ivol (Arr.lit 0)
    else do
      let q ← A.intQ
      A.finish q Isurf (Arr.zerosLike Isurf) (Arr.zerosLike Isurf)
  else do
    let Isurf ← A.surface
    let Ivol ← A.volume
    let q ← A.intQ
    if q = true then do
      let I ← A.interaction
      let Iint ← A.fixNan I
      A.finish q Isurf Ivol Iint
    else A.finish q Isurf Ivol (Arr.lit 0)

/-- The names reported by the `except TypeError` branch of `calc` (_calc.py 563-576). -/
def missingNames : m (List String) := do
  let a ← A.symbs .tau
  let b ← A.symbs .omega
  let c ← A.symbs .NormBRDF
  let d ← A.symbs .bsf
  let v ← A.V
  let s ← A.SRF
  let pd ← A.params
  pure ((a ++ b ++ c ++ d ++ v.phase.free ++ s.phase.free).filter fun k =>
    decide (k ∉ ["phi_0", "phi_ex", "theta_0", "theta_ex"] ∧ k ∉ pd.keys))

/-- `calc()` without parameter update: body and exception handler (_calc.py 515-583). -/
def calcTry : m Arr :=
  tryCatch A.calcBody fun e =>
    match e with
    | .typeError ns => do
      let names ← A.missingNames
      if names ≠ [] then throw (.typeError names) else throw (.typeError ns)
    | e => throw e

/-! ### derivatives -/

/-- `_dvolume_dtau` (_calc.py 1144-1165). -/
def dvolumeDtau : m Arr := do
  let dvdt ← A.I0 *. A.par .omega *. (A.mu0 /. (A.mu0 +. A.muEx))
    *. ((litM 1 /. A.mu0 +. litM 1 /. (mapM' (fun v => XR.fin 1 / v) A.muEx))
        *. expM (negM (A.par .tau) /. A.mu0 -. A.par .tau /. A.muEx))
    *. A.vCalc
  (litM 1 -. A.par .bsf) *. pure dvdt

/-- `_dvolume_domega` (_calc.py 1167-1183). -/
def dvolumeDomega : m Arr := do
  let dvdo ← (A.I0 *. A.mu0 /. (A.mu0 +. A.muEx)) *. (litM 1 -. A.atten) *. A.vCalc
  (litM 1 -. A.par .bsf) *. pure dvdo

/-- `_dvolume_dbsf` (_calc.py 1185-1207). -/
def dvolumeDbsf : m Arr := do
  let vol ← (A.I0 *. A.par .omega *. A.mu0 /. (A.mu0 +. A.muEx))
    *. (litM 1 -. A.atten) *. A.vCalc
  pure (Arr.neg vol)

/-- `_dvolume_dNormBRDF` (_calc.py 1209-1221). -/
def dvolumeDNormBRDF : m Arr := litM 0

/-- `_dsurface_dtau` (_calc.py 1223-1244). -/
def dsurfaceDtau : m Arr := do
  let dsdt ← A.I0 *. (litM (-1) /. A.mu0 -. litM 1 /. A.muEx)
    *. expM (negM (A.par .tau) /. A.mu0 -. A.par .tau /. A.muEx)
    *. A.mu0 *. A.srfCalc
  A.par .NormBRDF *. (litM 1 -. A.par .bsf) *. pure dsdt

/-- `_dsurface_domega` (_calc.py 1246-1258). -/
def dsurfaceDomega : m Arr := litM 0

/-- `_dsurface_dNormBRDF` (_calc.py 1260-1284). -/
def dsurfaceDNormBRDF : m Arr := do
  let Ibs ← A.I0 *. A.mu0 *. A.srfCalc
  let Isurf ← A.atten *. pure Ibs
  (litM 1 -. A.par .bsf) *. pure Isurf +. A.par .bsf *. pure Ibs

/-- `_dsurface_dbsf` (_calc.py 1286-1318). -/
def dsurfaceDbsf : m Arr := do
  let Ibs ← A.I0 *. A.mu0 *. A.srfCalc
  let Isurf ← A.atten *. pure Ibs *. (do let t ← A.t0; pure (Arr.onesLike t))
  A.par .NormBRDF *. (pure Ibs -. pure Isurf)

/-- `_dparam_ddummy_lambda(param, key)(self.t_0, ..., **self.param_dict)`
(_calc.py 1321-1346 and its call sites). -/
def dparam (p : PName) (key : String) : m Arr := do
  let d ← A.pdef p
  let e : Expr := match d with
    | .str e => e.diff key
    | _ => .num 1
  let pd ← A.params
  let k ← A.backend .dpar
  let f ← liftPy (Lam.compile k
    (["theta_0", "theta_ex", "phi_0", "phi_ex"] ++ pd.keys) e)
  let a ← A.t0
  let b ← A.tex
  let c ← A.p0
  let d ← A.pex
  let pd ← A.params
  liftPy (f.call k [a, b, c, d] pd)

/-- `_d_volume_ddummy(key)` (_calc.py 1348-1392). -/
def dVolumeDummy (key : String) : m Arr := do
  let s ← A.symbs .tau
  if key ∈ s then
    let inner ← A.dparam .tau key
    A.dvolumeDtau *. pure inner
  else do
    let s ← A.symbs .omega
    if key ∈ s then
      let inner ← A.dparam .omega key
      A.dvolumeDomega *. pure inner
    else do
      let s ← A.symbs .bsf
      if key ∈ s then
        let inner ← A.dparam .bsf key
        A.dvolumeDbsf *. pure inner
      else do
        let dIvol ← A.I0 *. A.par .omega *. A.mu0 /. (A.mu0 +. A.muEx)
          *. (litM 1 -. A.atten)
          *. (do
            let f ← A.dVolLam key
            let a ← A.t0
            let b ← A.tex
            let c ← A.p0
            let d ← A.pex
            let pd ← A.params
            let k ← A.backend (.dVol key)
            liftPy (f.call k [a, b, c, d] pd))
        (litM 1 -. A.par .bsf) *. pure dIvol

/-- `_d_surface_ddummy(key)` (_calc.py 1425-1463). -/
def dSurfaceDummy (key : String) : m Arr := do
  let s ← A.symbs .NormBRDF
  if key ∈ s then
    let inner ← A.dparam .NormBRDF key
    A.dsurfaceDNormBRDF *. pure inner
  else do
    let s ← A.symbs .bsf
    if key ∈ s then
      let inner ← A.dparam .bsf key
      A.dsurfaceDbsf *. pure inner
    else do
      let dIbs ← A.I0 *. A.mu0
        *. (do
            let f ← A.dSrfLam key
            let a ← A.t0
            let b ← A.tex
            let c ← A.p0
            let d ← A.pex
            let pd ← A.params
            let k ← A.backend (.dSrf key)
            liftPy (f.call k [a, b, c, d] pd))
      let dIs ← A.atten *. pure dIbs
      A.par .NormBRDF *. ((litM 1 -. A.par .bsf) *. pure dIs +. A.par .bsf *. pure dIbs)

/-- `norm` of `jacobian` (_calc.py 1542-1547). -/
def jacNorm : m Arr := do
  let s ← A.sig0
  let db ← A.dB
  if s = true ∧ db = false then litM (4 * Real.pi) *. A.mu0
  else if db = true then
    litM 10 /. (litM (Real.log 10) *. (A.surface +. A.volume))
  else litM 1

/-- One iteration of the loop over `param_list` (_calc.py 1550-1568). -/
def jacEntry (norm : Arr) (key : String) : m Arr := do
  if key = "omega" then (dsurfaceDomega +. A.dvolumeDomega) *. pure norm
  else if key = "tau" then (A.dsurfaceDtau +. A.dvolumeDtau) *. pure norm
  else if key = "NormBRDF" then (A.dsurfaceDNormBRDF +. dvolumeDNormBRDF) *. pure norm
  else if key = "bsf" then (A.dsurfaceDbsf +. A.dvolumeDbsf) *. pure norm
  else do
    let pd ← A.params
    if key ∈ pd.keys then
      (A.dSurfaceDummy key +. A.dVolumeDummy key) *. pure norm
    else throw .assertionError

/-- The loop over `param_list` (_calc.py 1549-1568). -/
def jacLoop (norm : Arr) : List String → m (List Arr)
  | [] => pure []
  | k :: ks => do
    let x ← A.jacEntry norm k
    let l ← jacLoop norm ks
    pure (x :: l)

/-- `jacobian(param_list, format="list")` (_calc.py 1542-1570). -/
def jacList (keys : List String) : m (List Arr) := do
  let norm ← A.jacNorm
  A.jacLoop norm keys

end Acc

end

end RT1
