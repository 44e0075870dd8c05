import Verif.Lemmas.JacObs
import Verif.Lemmas.ExprL
import Verif.Lemmas.ParL

/-! Concrete objects with a parameter `x` that is used in a definition. -/

namespace RT1

noncomputable section
open Classical

/-- Values for tau, omega, NormBRDF, bsf and x. -/
def keyKw (τ ω N β v : ℝ) : Dict :=
  [("tau", Arr.lit τ), ("omega", Arr.lit ω), ("NormBRDF", Arr.lit N), ("bsf", Arr.lit β), ("x", Arr.lit v)]

/-- The default definitions with another definition of one parameter. -/
def keyDefs (pn : PName) (e : Expr) : PName → PDef := Function.update defaultDefs pn (.str e)

/-- The values of the parameters. -/
def keyρ (τ ω N β v : ℝ) (k : String) : ℝ :=
  if k = "x" then v else (demoSite 0 0 0 τ ω N β).ρ k

/-- The site of the example object. -/
def keySite (pn : PName) (e : Expr) (I t p τ ω N β v : ℝ) : Site where
  t0 := t
  tex := t
  p0 := p
  pex := p + Real.pi
  I0 := I
  tau := (keyDefs pn e .tau).value (keyρ τ ω N β v) τ
  omega := (keyDefs pn e .omega).value (keyρ τ ω N β v) ω
  NormBRDF := (keyDefs pn e .NormBRDF).value (keyρ τ ω N β v) N
  bsf := (keyDefs pn e .bsf).value (keyρ τ ω N β v) β
  ρ := keyρ τ ω N β v

/-- The example object after `R.tau = "..."` (or another parameter). -/
def keyObj (V SRF : Scatter) (q s d : Bool) (pn : PName) (e : Expr) (I t p τ ω N β v : ℝ) : Obj :=
  { demoObj V SRF q s d (Arr.lit I) (Arr.lit t) (Arr.lit p) (keyKw τ ω N β v) with pdef := keyDefs pn e }

theorem key_params (V SRF : Scatter) (q s d : Bool) (pn : PName) (e : Expr) (I t p τ ω N β v : ℝ) :
    (keyObj V SRF q s d pn e I t p τ ω N β v).params =
      [("bsf", arr1 β), ("tau", arr1 τ), ("omega", arr1 ω), ("NormBRDF", arr1 N), ("x", arr1 v)] := by
  simp [keyObj, demoObj, keyKw, Dict.update, Dict.set, arr1]

/-- The formulas of all four parameters. -/
theorem keyDefs_str {pn : PName} {e : Expr} (hfree : ∀ n ∈ e.free, n = "x") (p : PName) :
    ∃ e', keyDefs pn e p = .str e' ∧ (∀ n ∈ e'.free, n ∈ ["bsf", "tau", "omega", "NormBRDF", "x"]) ∧
      (e' = e ∨ ∃ k, e' = .sym k) := by
  unfold keyDefs
  by_cases h : p = pn
  · subst h
    refine ⟨e, Function.update_self .., fun n hn => by rw [hfree n hn]; simp, Or.inl rfl⟩
  · rw [Function.update_of_ne h]
    cases p
    · exact ⟨.sym "tau", rfl, by simp [Expr.free], Or.inr ⟨_, rfl⟩⟩
    · exact ⟨.sym "omega", rfl, by simp [Expr.free], Or.inr ⟨_, rfl⟩⟩
    · exact ⟨.sym "NormBRDF", rfl, by simp [Expr.free], Or.inr ⟨_, rfl⟩⟩
    · exact ⟨.sym "bsf", rfl, by simp [Expr.free], Or.inr ⟨_, rfl⟩⟩

section
variable (V SRF : Scatter) (q s d : Bool) (pn : PName) (e : Expr) (I t p τ ω N β v : ℝ)
  (hV : ∀ n ∈ V.phase.free, n ∈ ["theta_0", "theta_ex", "phi_0", "phi_ex", "x"])
  (hS : ∀ n ∈ SRF.phase.free, n ∈ ["theta_0", "theta_ex", "phi_0", "phi_ex", "x"])
  (hfree : ∀ n ∈ e.free, n = "x")
include hV hS hfree

theorem key_complete : Complete (keyObj V SRF q s d pn e I t p τ ω N β v) [1] where
  t0 := ⟨arr1 t, by simp [keyObj, demoObj, arr1], by simp [arr1, Arr.atleast1d, Arr.lit, Arr.num, Arr.Fits]⟩
  p0 := ⟨arr1 p, by simp [keyObj, demoObj, arr1], by simp [arr1, Arr.atleast1d, Arr.lit, Arr.num, Arr.Fits]⟩
  tex := Or.inl rfl
  pex := Or.inl rfl
  I0 := by simp [keyObj, demoObj, Arr.lit, Arr.num]
  params := by
    intro k a hk
    rw [key_params] at hk
    have : ∀ r, Arr.Fits (arr1 r).shape [1] := fun r => by
      simp [arr1, Arr.atleast1d, Arr.lit, Arr.num, Arr.Fits]
    simp only [Dict.get?, List.find?_cons] at hk
    split at hk
    · cases hk; exact this _
    split at hk
    · cases hk; exact this _
    split at hk
    · cases hk; exact this _
    split at hk
    · cases hk; exact this _
    split at hk
    · cases hk; exact this _
    · cases hk
  defs := by
    intro p'
    obtain ⟨e', he, hf, -⟩ := keyDefs_str (pn := pn) hfree p'
    rw [key_params, show (keyObj V SRF q s d pn e I t p τ ω N β v).pdef p' = _ from he]
    exact hf
  V := by
    intro n hn
    rw [key_params]
    have h := hV n hn
    simp only [List.mem_cons, List.not_mem_nil, or_false] at h
    rcases h with rfl | rfl | rfl | rfl | rfl <;> simp [Dict.keys]
  SRF := by
    intro n hn
    rw [key_params]
    have h := hS n hn
    simp only [List.mem_cons, List.not_mem_nil, or_false] at h
    rcases h with rfl | rfl | rfl | rfl | rfl <;> simp [Dict.keys]

theorem key_fsite (b : Backend) (hdef : e.Def (keyρ τ ω N β v)) :
    FSite b (keyObj V SRF q s d pn e I t p τ ω N β v) [0] (keySite pn e I t p τ ω N β v) := by
  have hc := key_complete V SRF q s d pn e I t p τ ω N β v hV hS hfree
  have h1 : ∀ r, (arr1 r).at' [0] = XR.fin r := fun r => by
    unfold arr1; rw [Arr.at'_atleast1d]; rfl
  have hval : ∀ k a, (keyObj V SRF q s d pn e I t p τ ω N β v).params.get? k = some a →
      a.at' [0] = XR.fin (keyρ τ ω N β v k) := by
    intro k a hk
    rw [key_params] at hk
    simp only [Dict.get?, List.find?_cons] at hk
    unfold keyρ demoSite
    split at hk
    · rename_i h; simp only [decide_eq_true_eq] at h; subst h; cases hk; simp [h1]
    split at hk
    · rename_i h; simp only [decide_eq_true_eq] at h; subst h; cases hk; simp [h1]
    split at hk
    · rename_i h; simp only [decide_eq_true_eq] at h; subst h; cases hk; simp [h1]
    split at hk
    · rename_i h; simp only [decide_eq_true_eq] at h; subst h; cases hk; simp [h1]
    split at hk
    · rename_i h; simp only [decide_eq_true_eq] at h; subst h; cases hk; simp [h1]
    · cases hk
  have hpar : ∀ p' w, HasVal (Fresh.par b (keyObj V SRF q s d pn e I t p τ ω N β v) p') [0]
      ((keyDefs pn e p').value (keyρ τ ω N β v) w) := by
    intro p' w
    obtain ⟨e', he, hf, hcase⟩ := keyDefs_str (pn := pn) hfree p'
    have hp : (keyObj V SRF q s d pn e I t p τ ω N β v).pdef p' = .str e' := he
    refine HasVal.of_succ (hc.s_par b p') ?_
    have h2 := PW.parStr (b := b) hp [0]
    have hd' : e'.Def (keyρ τ ω N β v) := by
      rcases hcase with rfl | ⟨k, rfl⟩
      · exact hdef
      · trivial
    rw [he]
    show PW _ _ (XR.fin (e'.evalR _))
    rw [← Expr.evalX_of_def hd']
    refine (congrArg (PW _ _) (Expr.evalX_congr fun n hn => ?_)).mp h2
    have hk : n ∈ (keyObj V SRF q s d pn e I t p τ ω N β v).params.keys := by
      have h := hf n hn
      rw [key_params]
      simp only [List.mem_cons, List.not_mem_nil, or_false] at h
      rcases h with rfl | rfl | rfl | rfl | rfl <;> simp [Dict.keys]
    obtain ⟨a, ha⟩ := Dict.get?_of_mem hk
    unfold Dict.valAt
    rw [ha]
    exact hval n a ha
  refine ⟨⟨arr1 t, by simp [Fresh.ang, keyObj, demoObj, arr1], h1 t⟩,
    ⟨arr1 t, by simp [Fresh.tex, Fresh.ang, keyObj, demoObj, arr1], h1 t⟩,
    ⟨arr1 p, by simp [Fresh.ang, keyObj, demoObj, arr1], h1 p⟩, ?_, hpar .tau τ, hpar .omega ω,
    hpar .NormBRDF N, hpar .bsf β, rfl, hval⟩
  refine HasVal.of_succ hc.s_pex ?_
  unfold Fresh.pex
  have hm : (keyObj V SRF q s d pn e I t p τ ω N β v).mono = true := rfl
  rw [if_pos hm]
  refine PW.bind fun a ha => ?_
  have ha' : a = arr1 p := by simp [Fresh.ang, keyObj, demoObj] at ha; exact ha.symm
  subst ha'
  exact PW.map2 (u := XR.fin p) (v := XR.fin Real.pi) (h1 p) rfl

/-- `jacobian(["x"])` of the example object returns a value. -/
theorem key_jac (hdef : e.Def (keyρ τ ω N β v)) :
    ∃ r, ObservesJac "x" (demoCfg V SRF q s d) (keyDefs pn e) (keySite pn e I t p τ ω N β v) r := by
  have hr := demo_reachable .symengine V SRF q s d (Arr.lit I) (Arr.lit t) (Arr.lit p) (keyKw τ ω N β v)
  have ho := demo_objs .symengine V SRF q s d (Arr.lit I) (Arr.lit t) (Arr.lit p) (keyKw τ ω N β v)
  have hb := demo_backend .symengine V SRF q s d (Arr.lit I) (Arr.lit t) (Arr.lit p) (keyKw τ ω N β v)
  obtain ⟨m, hm, hms⟩ := demo_mu0 V SRF q s d (Arr.lit I) t (Arr.lit p) (keyKw τ ω N β v)
  have hm' : Fresh.mu0 (keyObj V SRF q s d pn e I t p τ ω N β v) = .ok m := hm
  generalize demoW .symengine V SRF q s d (Arr.lit I) (Arr.lit t) (Arr.lit p) (keyKw τ ω N β v) = w at *
  have hr' := hr.step (op := .setParamDef 0 pn (.str e)) trivial
  have ho' : (step (.setParamDef 0 pn (.str e)) w).2.objs 0 =
      some (keyObj V SRF q s d pn e I t p τ ω N β v) := modObj_get (w := (clearParam w).2) ho _
  have hb' : (step (.setParamDef 0 pn (.str e)) w).2.backend = .symengine := (step_backend _ _).trans hb
  have hc := key_complete V SRF q s d pn e I t p τ ω N β v hV hS hfree
  have hs := key_fsite V SRF q s d pn e I t p τ ω N β v hV hS hfree .symengine hdef
  rw [← hb'] at hs
  exact ObservesJac.of_complete hr' ho' hc hm' hms
    (Or.inr ⟨hb', by rw [key_params]; simp [Dict.keys]⟩) hs

end

end

end RT1
