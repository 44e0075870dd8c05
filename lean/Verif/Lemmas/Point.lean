import Verif.Lemmas.Ops
import Verif.Lemmas.LamL
import Verif.Spec.Site

/-! Pointwise values of the evaluations. -/

namespace RT1

noncomputable section
open Classical

/-- Value at a broadcast index, nan for an exception. -/
def valAt (x : Py Arr) (idx : List ℕ) : XR :=
  match x with
  | .ok a => a.at' idx
  | .error _ => XR.nan

theorem PW.valAt (x : Py Arr) (idx : List ℕ) : PW x idx (valAt x idx) := by
  intro z hz; rw [hz]; rfl

/-- Values of everything an evaluation reads, at one index. -/
structure XSite where
  I0 : XR
  t0 : XR
  tex : XR
  p0 : XR
  pex : XR
  par : PName → XR
  ρ : String → XR

/-- The values of an object. -/
def XSite.of (b : Backend) (o : Obj) (idx : List ℕ) : XSite where
  I0 := o.I0.at' idx
  t0 := valAt (Fresh.ang o .t0) idx
  tex := valAt (Fresh.tex o) idx
  p0 := valAt (Fresh.ang o .p0) idx
  pex := valAt (Fresh.pex o) idx
  par := fun p => valAt (Fresh.par b o p) idx
  ρ := o.params.valAt idx

namespace XSite
variable (x : XSite)
def env : String → XR := angEnv x.t0 x.tex x.p0 x.pex x.ρ
def mu0 : XR := XR.cos x.t0
def muEx : XR := XR.cos x.tex
def atten : XR := XR.exp (-(x.par .tau / x.mu0) - x.par .tau / x.muEx)
def surface (f : XR) : XR :=
  x.par .NormBRDF * ((XR.fin 1 - x.par .bsf) * (x.atten * (x.I0 * x.mu0 * f))
    + x.par .bsf * (x.I0 * x.mu0 * f))
def volume (f : XR) : XR :=
  (XR.fin 1 - x.par .bsf)
    * ((x.I0 * x.par .omega * x.mu0 / (x.mu0 + x.muEx)) * (XR.fin 1 - x.atten) * f)
def convert (sig0 dB : Bool) (v : XR) : XR :=
  let ret := v * (if sig0 = true then XR.fin (4 * Real.pi) * x.mu0 / x.I0 else XR.fin 1)
  if dB = true then XR.fin 10 * XR.log10 ret else ret
end XSite

section
variable {b : Backend} {o : Obj} {dv ds : String → Py Lam} {idx : List ℕ}

local notation "A" => Fresh.acc b o dv ds
local notation "x" => XSite.of b o idx

theorem PW.mu0 : PW (A).mu0 idx (x).mu0 :=
  PW.bind_pw (PW.valAt _ idx) fun a h => PW.of_ok (by
    show XR.cos (a.at' idx) = _
    rw [h]; rfl)

theorem PW.muEx : PW (A).muEx idx (x).muEx :=
  PW.bind_pw (PW.valAt _ idx) fun a h => PW.of_ok (by
    show XR.cos (a.at' idx) = _
    rw [h]; rfl)

theorem PW.par (p : PName) : PW ((A).par p) idx ((x).par p) := PW.valAt _ _

theorem PW.calcVal (s : Scatter) {a1 a2 a3 a4 : Arr} (pd : Dict) :
    PW (s.calcVal b a1 a2 a3 a4 pd) idx
      (s.phase.evalX (angEnv (a1.at' idx) (a2.at' idx) (a3.at' idx) (a4.at' idx) (pd.valAt idx))) := by
  refine PW.bind fun f hf => ?_
  intro z hz
  exact Lam.call4_at' hf hz idx

/-- A phase function can only be evaluated if all its symbols are known. -/
theorem calcVal_names {b : Backend} {s : Scatter} {a1 a2 a3 a4 z : Arr} {pd : Dict}
    (h : s.calcVal b a1 a2 a3 a4 pd = .ok z) {n : String} (hn : n ∈ s.phase.free) :
    n ∈ ["theta_0", "theta_ex", "phi_0", "phi_ex"] ∨ n ∈ pd.keys := by
  unfold Scatter.calcVal at h
  have hmem : n ∈ ["theta_0", "theta_ex", "phi_0", "phi_ex"] ++ pd.keys := by
    cases hf : Lam.compile b (["theta_0", "theta_ex", "phi_0", "phi_ex"] ++ pd.keys) s.phase with
    | error e => rw [hf] at h; cases h
    | ok f =>
      rw [hf] at h
      have hfe := Lam.compile_ok hf
      cases b with
      | symengine =>
        simp only [Lam.compile] at hf
        split_ifs at hf with hc
        exact hc n hn
      | sympy =>
        subst hfe
        have h' : Lam.call .sympy ⟨["theta_0", "theta_ex", "phi_0", "phi_ex"] ++ pd.keys, s.phase⟩
          [a1, a2, a3, a4] pd = .ok z := h
        unfold Lam.call at h'
        cases hb : Lam.bindArgs .sympy (["theta_0", "theta_ex", "phi_0", "phi_ex"] ++ pd.keys)
            [a1, a2, a3, a4] pd with
        | error e => rw [hb] at h'; cases h'
        | ok bnd =>
          rw [hb] at h'
          obtain ⟨vals, -, rfl⟩ := Lam.bindArgs_ok hb
          have h2 : Lam.evalBound .sympy s.phase ((["theta_0", "theta_ex", "phi_0", "phi_ex"]
            ++ pd.keys).zip ([a1, a2, a3, a4] ++ vals)) = .ok z := h'
          simp only [Lam.evalBound] at h2
          split_ifs at h2 with hc
          have := hc n hn
          rw [List.mem_map] at this
          obtain ⟨⟨k, v⟩, hp, rfl⟩ := this
          exact (List.of_mem_zip hp).1
  exact List.mem_append.mp hmem

/-- Value of a phase function for any environment that agrees on the known names. -/
theorem PW.calcVal' {b : Backend} {idx : List ℕ} (s : Scatter) {a1 a2 a3 a4 : Arr} {pd : Dict}
    {E : String → XR}
    (hE : ∀ n, n ∈ ["theta_0", "theta_ex", "phi_0", "phi_ex"] ∨ n ∈ pd.keys →
      angEnv (a1.at' idx) (a2.at' idx) (a3.at' idx) (a4.at' idx) (pd.valAt idx) n = E n) :
    PW (s.calcVal b a1 a2 a3 a4 pd) idx (s.phase.evalX E) := by
  intro z hz
  rw [PW.calcVal s pd z hz]
  exact Expr.evalX_congr fun n hn => hE n (calcVal_names hz hn)

theorem PW.srfCalc {E : String → XR}
    (hE : ∀ n, n ∈ ["theta_0", "theta_ex", "phi_0", "phi_ex"] ∨ n ∈ o.params.keys →
      (x).env n = E n) : PW (A).srfCalc idx (o.SRF.phase.evalX E) := by
  unfold Acc.srfCalc
  refine PW.bind fun s hs => ?_
  have hs' : Except.ok o.SRF = Except.ok s := hs
  simp only [Except.ok.injEq] at hs'
  subst hs'
  refine PW.bind_pw (PW.valAt _ idx) fun a1 h1 => PW.bind_pw (PW.valAt _ idx) fun a2 h2 =>
    PW.bind_pw (PW.valAt _ idx) fun a3 h3 => PW.bind_pw (PW.valAt _ idx) fun a4 h4 =>
    PW.bind fun pd hpd => ?_
  have hpd' : Except.ok o.params = Except.ok pd := hpd
  simp only [Except.ok.injEq] at hpd'
  subst hpd'
  refine PW.lift ?_
  refine PW.calcVal' o.SRF fun n hn => ?_
  rw [h1, h2, h3, h4]
  exact hE n hn

theorem PW.vCalc {E : String → XR}
    (hE : ∀ n, n ∈ ["theta_0", "theta_ex", "phi_0", "phi_ex"] ∨ n ∈ o.params.keys →
      (x).env n = E n) : PW (A).vCalc idx (o.V.phase.evalX E) := by
  unfold Acc.vCalc
  refine PW.bind fun s hs => ?_
  have hs' : Except.ok o.V = Except.ok s := hs
  simp only [Except.ok.injEq] at hs'
  subst hs'
  refine PW.bind_pw (PW.valAt _ idx) fun a1 h1 => PW.bind_pw (PW.valAt _ idx) fun a2 h2 =>
    PW.bind_pw (PW.valAt _ idx) fun a3 h3 => PW.bind_pw (PW.valAt _ idx) fun a4 h4 =>
    PW.bind fun pd hpd => ?_
  have hpd' : Except.ok o.params = Except.ok pd := hpd
  simp only [Except.ok.injEq] at hpd'
  subst hpd'
  refine PW.lift ?_
  refine PW.calcVal' o.V fun n hn => ?_
  rw [h1, h2, h3, h4]
  exact hE n hn

theorem PW.atten : PW (A).atten idx (x).atten :=
  PW.expM (PW.subM (PW.negM (PW.divM (PW.par _) PW.mu0)) (PW.divM (PW.par _) PW.muEx))

theorem PW.I0 : PW (A).I0 idx (x).I0 := PW.of_ok rfl

theorem PW.surface {f : XR} (hf : PW (A).srfCalc idx f) :
    PW (A).surface idx ((x).surface f) := by
  unfold Acc.surface
  refine PW.bind_pw (PW.mulM (PW.mulM (PW.I0) (PW.mu0))
    (hf)) fun a1 h1 => ?_
  refine PW.bind_pw (PW.mulM (PW.atten) (PW.pure h1)) fun a2 h2 => ?_
  exact PW.mulM (PW.par _) (PW.addM (PW.mulM (PW.subM (PW.lit 1) (PW.par _)) (PW.pure h2))
    (PW.mulM (PW.par _) (PW.pure h1)))

theorem PW.volume {f : XR} (hf : PW (A).vCalc idx f) :
    PW (A).volume idx ((x).volume f) := by
  unfold Acc.volume
  refine PW.bind_pw (PW.mulM (PW.mulM (PW.divM (PW.mulM (PW.mulM (PW.I0)
    (PW.par .omega)) (PW.mu0)) (PW.addM (PW.mu0)
    (PW.muEx))) (PW.subM (PW.lit 1) (PW.atten)))
    (hf)) fun a1 h1 => ?_
  exact PW.mulM (PW.subM (PW.lit 1) (PW.par _)) (PW.pure h1)

theorem PW.convert {a : Arr} {v : XR} (ha : a.at' idx = v) :
    PW ((A).convert a) idx ((x).convert o.sig0 o.dB v) := by
  unfold Acc.convert
  refine PW.bind fun s hs => ?_
  have hs' : Except.ok o.sig0 = Except.ok s := hs
  simp only [Except.ok.injEq] at hs'
  subst hs'
  refine PW.bind fun s hs => ?_
  have hs' : Except.ok o.dB = Except.ok s := hs
  simp only [Except.ok.injEq] at hs'
  subst hs'
  have key : ∀ n : Arr, ∀ u : XR, n.at' idx = u → PW (do
      let ret ← liftPy (a.mul n)
      if o.dB = true then RT1.mulM (litM 10) (Pure.pure (Arr.map XR.log10 ret)) else Pure.pure ret)
      idx (if o.dB = true then XR.fin 10 * XR.log10 (v * u) else v * u) := by
    intro n u hn
    refine PW.bind_pw (PW.lift (PW.map2 ha hn)) fun r hr => ?_
    by_cases h : o.dB = true
    · simp only [h, if_true]
      exact PW.mulM (PW.lit 10) (PW.pure (by rw [Arr.at'_map, hr]))
    · simp only [h]
      exact PW.pure hr
  unfold XSite.convert
  by_cases h : o.sig0 = true
  · simp only [h, if_true]
    exact PW.bind_pw (PW.divM (PW.mulM (PW.lit _) PW.mu0) PW.I0) fun n hn => key n _ hn
  · simp only [h]
    exact PW.bind_pw (PW.lit 1) fun n hn => key n _ hn
end

theorem PW.freshSurface {b : Backend} {o : Obj} {idx : List ℕ} {f : XR}
    (hf : PW (Fresh.acc0 b o).srfCalc idx f) :
    PW (Fresh.surface b o) idx ((XSite.of b o idx).convert o.sig0 o.dB
      ((XSite.of b o idx).surface f)) :=
  PW.bind_pw (PW.surface hf) fun _ h => PW.convert h

theorem PW.freshVolume {b : Backend} {o : Obj} {idx : List ℕ} {f : XR}
    (hf : PW (Fresh.acc0 b o).vCalc idx f) :
    PW (Fresh.volume b o) idx ((XSite.of b o idx).convert o.sig0 o.dB
      ((XSite.of b o idx).volume f)) :=
  PW.bind_pw (PW.volume hf) fun _ h => PW.convert h

end

end RT1
