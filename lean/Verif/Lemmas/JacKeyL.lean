import Verif.Lemmas.DiffL
import Verif.Lemmas.JacObs
import Verif.Lemmas.JacVal

/-! Entries of `jacobian()` for parameters that are used in definitions. -/

namespace RT1

noncomputable section
open Classical

/-- The four names that stand for the angles. -/
local notation "angles" => ["theta_0", "theta_ex", "phi_0", "phi_ex"]

theorem Site.env_other' (x : Site) {n : String} (hn : n ∉ angles) : x.env n = x.ρ n := by
  simp only [List.mem_cons, List.not_mem_nil, or_false, not_or] at hn
  unfold Site.env
  rw [if_neg hn.1, if_neg hn.2.1, if_neg hn.2.2.1, if_neg hn.2.2.2]

theorem Site.vary_env (x : Site) (d : PName → PDef) {key : String} (hk : key ∉ angles) (t : ℝ) :
    (x.vary d key t).env = Function.update x.env key t := by
  funext n
  by_cases h : n = key
  · subst h
    rw [Site.env_other' _ hk, Function.update_self]
    show Function.update x.ρ n t n = t
    rw [Function.update_self]
  · rw [Function.update_of_ne h]
    by_cases hn : n ∈ angles
    · simp only [List.mem_cons, List.not_mem_nil, or_false] at hn
      rcases hn with rfl | rfl | rfl | rfl <;> rfl
    · rw [Site.env_other' _ hn, Site.env_other' _ hn]
      show Function.update x.ρ key t n = x.ρ n
      rw [Function.update_of_ne h]

/-- A parameter defined by a formula has the value of the formula. -/
theorem FSite.par_str {b : Backend} {o : Obj} {idx : List ℕ} {x : Site} (h : FSite b o idx x)
    {p : PName} {e : Expr} (hp : o.pdef p = .str e) (hd : e.Def x.ρ) : x.par p = e.evalR x.ρ := by
  have hv : HasVal (Fresh.par b o p) idx (x.par p) := by
    cases p
    · exact h.tau
    · exact h.omega
    · exact h.NormBRDF
    · exact h.bsf
  obtain ⟨a, ha, hat⟩ := hv
  have h1 := PW.parStr (b := b) hp idx a ha
  rw [hat] at h1
  have h2 : e.evalX (o.params.valAt idx) = e.evalX fun n => XR.fin (x.ρ n) := by
    refine Expr.evalX_congr fun n hn => ?_
    have hk : n ∈ o.params.keys := by
      by_contra hc
      rw [par_str_missing hp ⟨n, hn, hc⟩] at ha
      cases ha
    obtain ⟨v, hv⟩ := Dict.get?_of_mem hk
    unfold Dict.valAt
    rw [hv]
    exact h.params n v hv
  rw [h2, Expr.evalX_of_def hd] at h1
  exact XR.fin.inj h1

/-- The derivative of a definition with respect to `key`. -/
def PDef.deriv (d : PDef) (key : String) (ρ : String → ℝ) : ℝ :=
  match d with
  | .str e => (e.diff key).evalR ρ
  | _ => 0

theorem PDef.Smooth.hasDerivAt {d : PDef} {key : String} {ρ : String → ℝ} (h : d.Smooth key ρ) (v : ℝ) :
    HasDerivAt (fun t => d.value (Function.update ρ key t) v) (d.deriv key ρ) (ρ key) := by
  cases d with
  | str e => exact Expr.Smooth.hasDerivAt h.1
  | val a => exact hasDerivAt_const _ _
  | basic e => exact hasDerivAt_const _ _

theorem PDef.Smooth.deriv_zero {d : PDef} {key : String} {ρ : String → ℝ} (h : d.Smooth key ρ)
    (hk : ¬ d.Uses key) : d.deriv key ρ = 0 := by
  cases d with
  | str e => exact h.1.diff_zero hk
  | val a => rfl
  | basic e => rfl

theorem PDef.value_of_not_uses {d : PDef} {key : String} {ρ : String → ℝ}
    (hk : ¬ d.Uses key) (v t : ℝ) : d.value (Function.update ρ key t) v = d.value ρ v := by
  cases d with
  | str e => exact Expr.evalR_update_of_not_free hk t
  | val a => rfl
  | basic e => rfl

theorem FSite.value_self {b : Backend} {o : Obj} {idx : List ℕ} {x : Site} (h : FSite b o idx x)
    (p : PName) {key : String} (hs : (o.pdef p).Smooth key x.ρ) : (o.pdef p).value x.ρ (x.par p) = x.par p := by
  unfold PDef.value
  cases hp : o.pdef p with
  | str e => rw [hp] at hs; exact (h.par_str hp hs.1.def).symm
  | val a => rfl
  | basic e => rfl

theorem symbs_uses {o : Obj} {p : PName} {key : String} : key ∈ Fresh.symbs o p ↔ (o.pdef p).Uses key := by
  unfold Fresh.symbs PDef.Uses
  cases o.pdef p with
  | str e => exact List.mem_dedup
  | val a => simp
  | basic e => simp

/-- The inner derivative that the code evaluates. -/
theorem ddef_eq {o : Obj} {p : PName} {key : String} {x : Site} (hs : (o.pdef p).Smooth key x.ρ)
    (hu : (o.pdef p).Uses key) :
    o.ddef p key (fun n => XR.fin (x.env n)) = XR.fin ((o.pdef p).deriv key x.ρ) := by
  unfold Obj.ddef PDef.deriv
  cases hp : o.pdef p with
  | val a => rw [hp] at hu; cases hu
  | basic e => rw [hp] at hu; cases hu
  | str e =>
    rw [hp] at hs
    show (e.diff key).evalX _ = _
    rw [← Expr.evalX_of_def hs.1.diff_def]
    refine Expr.evalX_congr fun n hn => ?_
    rw [Site.env_other' _ (hs.2 n (Expr.diff_free hn))]

/-- The site when the entry keeps its value. -/
theorem FSite.vary_self {b : Backend} {o : Obj} {idx : List ℕ} {x : Site} (h : FSite b o idx x)
    {key : String} (hs : ∀ p, (o.pdef p).Smooth key x.ρ) : x.vary o.pdef key (x.ρ key) = x := by
  unfold Site.vary
  simp only [Function.update_eq_self]
  rw [show (o.pdef .tau).value x.ρ x.tau = x.tau from h.value_self .tau (hs _),
    show (o.pdef .omega).value x.ρ x.omega = x.omega from h.value_self .omega (hs _),
    show (o.pdef .NormBRDF).value x.ρ x.NormBRDF = x.NormBRDF from h.value_self .NormBRDF (hs _),
    show (o.pdef .bsf).value x.ρ x.bsf = x.bsf from h.value_self .bsf (hs _)]

/-- Derivative of the linear signal with respect to an entry of `param_dict` that is used in
definitions and scattering functions. -/
def Site.dKey (x : Site) (f f' p p' τ' ω' N' β' : ℝ) : ℝ :=
  (x.dSurfTauR f + x.dVolTauTrue p) * τ' + x.dVolOmegaR p * ω' + x.dSurfNormR f * N' +
    (x.dSurfBsfR f + x.dVolBsfR p) * β' + x.surface f' + x.volume p'

theorem hasDerivAt_vary {x : Site} {d : PName → PDef} {key : String} (h0 : x.mu0 ≠ 0) (h1 : x.muEx ≠ 0)
    {f p : ℝ → ℝ} {f' p' : ℝ}
    (hs : ∀ q, (d q).Smooth key x.ρ) (hx : x.vary d key (x.ρ key) = x)
    (hf : HasDerivAt f f' (x.ρ key)) (hp : HasDerivAt p p' (x.ρ key)) :
    HasDerivAt (fun t => (x.vary d key t).lin (f t) (p t))
      (x.dKey (f (x.ρ key)) f' (p (x.ρ key)) p' ((d .tau).deriv key x.ρ) ((d .omega).deriv key x.ρ)
        ((d .NormBRDF).deriv key x.ρ) ((d .bsf).deriv key x.ρ)) (x.ρ key) := by
  have hT := (hs .tau).hasDerivAt x.tau
  have hO := (hs .omega).hasDerivAt x.omega
  have hN := (hs .NormBRDF).hasDerivAt x.NormBRDF
  have hB := (hs .bsf).hasDerivAt x.bsf
  have vT : (d .tau).value (Function.update x.ρ key (x.ρ key)) x.tau = x.tau := congrArg Site.tau hx
  have vO : (d .omega).value (Function.update x.ρ key (x.ρ key)) x.omega = x.omega := congrArg Site.omega hx
  have vN : (d .NormBRDF).value (Function.update x.ρ key (x.ρ key)) x.NormBRDF = x.NormBRDF :=
    congrArg Site.NormBRDF hx
  have vB : (d .bsf).value (Function.update x.ρ key (x.ρ key)) x.bsf = x.bsf := congrArg Site.bsf hx
  have e : (fun t => (x.vary d key t).lin (f t) (p t)) = fun t =>
      (d .NormBRDF).value (Function.update x.ρ key t) x.NormBRDF *
        ((1 - (d .bsf).value (Function.update x.ρ key t) x.bsf) *
          Real.exp (-((d .tau).value (Function.update x.ρ key t) x.tau / x.mu0) -
            (d .tau).value (Function.update x.ρ key t) x.tau / x.muEx) +
          (d .bsf).value (Function.update x.ρ key t) x.bsf) * x.I0 * x.mu0 * f t +
      (1 - (d .bsf).value (Function.update x.ρ key t) x.bsf) * x.I0 *
        (d .omega).value (Function.update x.ρ key t) x.omega * (x.mu0 / (x.mu0 + x.muEx)) *
        (1 - Real.exp (-((d .tau).value (Function.update x.ρ key t) x.tau / x.mu0) -
            (d .tau).value (Function.update x.ρ key t) x.tau / x.muEx)) * p t := by
    funext t
    unfold Site.lin
    rw [Site.surface_att, Site.volume_att]
    rfl
  rw [e]
  generalize (d .tau).value = T at *
  generalize (d .omega).value = O at *
  generalize (d .NormBRDF).value = N at *
  generalize (d .bsf).value = B at *
  generalize (d .tau).deriv key x.ρ = T' at *
  generalize (d .omega).deriv key x.ρ = O' at *
  generalize (d .NormBRDF).deriv key x.ρ = N' at *
  generalize (d .bsf).deriv key x.ρ = B' at *
  have hE := ((hT.div_const x.mu0).neg.sub (hT.div_const x.muEx)).exp
  have hB1 := hB.const_sub 1
  have hA := (((hN.mul ((hB1.mul hE).add hB)).mul_const x.I0).mul_const x.mu0).mul hf
  have hV := ((((hB1.mul_const x.I0).mul hO).mul_const (x.mu0 / (x.mu0 + x.muEx))).mul
    (hE.const_sub 1)).mul hp
  refine HasDerivAt.congr_deriv (hA.add hV) ?_
  simp only [Pi.mul_apply, Pi.add_apply, Pi.sub_apply, Pi.neg_apply, vT, vO, vN, vB]
  unfold Site.dKey Site.dSurfTauR Site.dVolTauTrue Site.dVolOmegaR Site.dSurfNormR Site.dSurfBsfR
    Site.dVolBsfR
  rw [Site.surface_att, Site.volume_att]
  unfold Site.att
  ring

end

end RT1
