import Verif.Lemmas.DemoVec
import Verif.Lemmas.IntWit
import Verif.Props.Contrib
import Verif.Props.Interaction

/-!
# The interaction row of `calc`, linearity of the interaction contribution, tau = 0

`ObservesRowP 3` is an entry of the interaction row of `calc()`, `ObservesP` an entry of the array
returned by `interaction()`; both are proved to have the same value where there is a canopy and no
direction is nadir.
-/

namespace RT1

noncomputable section
open Classical

/-! ## C20: the interaction row -/

/-- The fourth row of `calc` is what `interaction()` returns. -/
theorem C20_interaction_row {c : Cfg} {md : Mode} {x : Site} {r r' : XR}
    (h : ObservesRowP 3 c md x r) (h' : ObservesP c md x r')
    {nV nS : ℕ} (hV : c.V.ncoefs = .ok (nV + 1)) (hS : c.SRF.ncoefs = .ok (nS + 1))
    (hx : x.Oblique) (hI : c.sig0 = true → x.I0 ≠ 0) : r = r' := by
  obtain ⟨g, hg, rfl⟩ := h.geom hV hS hx hI
  obtain ⟨g', hg', rfl⟩ := h'.geom hV hS hx hI
  rw [hg.unique hg']

/-- Monostatic: the fourth row of `calc` is the documented interaction contribution. -/
theorem C36_monostatic_row {c : Cfg} {md : Mode} {x : Site} {r : XR} (h : ObservesRowP 3 c md x r)
    {nV nS : ℕ} (hV : c.V.ncoefs = .ok (nV + 1)) (hS : c.SRF.ncoefs = .ok (nS + 1))
    (hm : md.mono = true) (hx : x.Oblique) (hI : c.sig0 = true → x.I0 ≠ 0) :
    r = x.inUnits c.sig0 c.dB (x.NormBRDF * (1 - x.bsf) * x.I0 * Real.cos x.t0 * x.omega
      * (Real.exp (-x.tau / Real.cos x.tex) * x.Fint c.V c.SRF
        + Real.exp (-x.tau / Real.cos x.t0) * x.swap.Fint c.V c.SRF)) := by
  obtain ⟨g, hg, rfl⟩ := h.geom hV hS hx hI
  rw [geomInteraction_mono hg hm]
  rfl

theorem hgV_plain (t : ℝ) : (hgV t).Plain := fun n hn => hgV_free t n hn
theorem hgS_plain (s : ℝ) : (hgS s).Plain := fun n hn => hgS_free s n hn

/-- `calc()` returns an array for every vector of witness sites. -/
theorem wit_calc (b : Backend) (t s : ℝ) (sg d : Bool) (n : ℕ) (site : List ℕ → Site)
    (hm : ∀ idx, Arr.Valid [n] idx → (site idx).tex = (site idx).t0 ∧
      (site idx).pex = (site idx).p0 + Real.pi ∧ (site idx).Reports []) :
    ∃ arr, arr.shape = [n, 4] ∧ CalcP ⟨hgV t, hgS s, true, sg, d⟩ ⟨true, []⟩ arr [n] site :=
  tens_calc sg d n [] site b (hgV_plain t) (hgS_plain s) (.inl rfl) (hg_fnCoefs t s _)
    ⟨1, hgV_ncoefs t⟩ ⟨1, hgS_ncoefs s⟩ hm

example : ∃ r r', ObservesRowP 3 ⟨hgV (1/4), hgS (1/3), true, true, true⟩ ⟨true, []⟩
      (witSite (Real.pi / 3) (Real.pi / 3) 0 Real.pi) r ∧
    ObservesP ⟨hgV (1/4), hgS (1/3), true, true, true⟩ ⟨true, []⟩
      (witSite (Real.pi / 3) (Real.pi / 3) 0 Real.pi) r' ∧
    (witSite (Real.pi / 3) (Real.pi / 3) 0 Real.pi).Oblique := by
  obtain ⟨r', F, -, h2, -, h⟩ := wit_observed .sympy (1/4) (1/3) true true (mono := true) (fun _ => false)
    (t0 := Real.pi / 3) (tex := Real.pi / 3) (p0 := 0) (pex := Real.pi) fun _ => ⟨rfl, by simp⟩
  rw [h2 fun _ => rfl] at h
  have hπ := Real.pi_pos
  obtain ⟨arr, hsh, hc⟩ := wit_calc .sympy (1/4) (1/3) true true 2
    (fun _ => witSite (Real.pi / 3) (Real.pi / 3) 0 Real.pi)
    fun idx _ => ⟨rfl, by simp [witSite], witSite_reports _ _ _ _⟩
  have hv : Arr.Valid [2] [1] := by simp [Arr.Valid]
  exact ⟨_, r', hc.row hv (k := 3) (by rw [hsh]; simp [Arr.Valid]), h,
    witSite_oblique (by positivity) (by linarith) (by positivity) (by linarith)⟩

/-! ## C22–C24: the interaction contribution as a function of bsf, omega, NormBRDF, I0 -/

/-- An observed value of the interaction contribution: `interaction()` or the fourth row of
`calc()`. -/
def ObservesAny (c : Cfg) (md : Mode) (x : Site) (r : XR) : Prop :=
  ObservesP c md x r ∨ ObservesRowP 3 c md x r

theorem ObservesAny.geom {c : Cfg} {md : Mode} {x : Site} {r : XR} (h : ObservesAny c md x r)
    {nV nS : ℕ} (hV : c.V.ncoefs = .ok (nV + 1)) (hS : c.SRF.ncoefs = .ok (nS + 1))
    (hx : x.Oblique) (hI : c.sig0 = true → x.I0 ≠ 0) :
    ∃ g : Geom4, GeomAt md g x ∧ r = x.inUnits c.sig0 c.dB (geomInteraction c.V c.SRF g x) :=
  h.elim (fun h => h.geom hV hS hx hI) fun h => h.geom hV hS hx hI

/-- The scattering functions have the same expansions for the parameter values of both sites. -/
def SameScatter (c : Cfg) (x y : Site) : Prop := ∀ a b p q,
  c.V.expVal y.env a b p q = c.V.expVal x.env a b p q ∧
  c.V.expVal y.swap.env a b p q = c.V.expVal x.swap.env a b p q ∧
  c.SRF.expVal y.env a b p q = c.SRF.expVal x.env a b p q ∧
  c.SRF.expVal y.swap.env a b p q = c.SRF.expVal x.swap.env a b p q

/-- The sum of the two attenuated double integrals. -/
def pathSum (V S : Scatter) (g : Geom4) (x : Site) : ℝ :=
  Real.exp (-x.tau / x.muEx) * geomFint V S g x.mu0 x.tau x.env
      + Real.exp (-x.tau / x.mu0) * geomFint V S g x.muEx x.tau x.swap.env

theorem geomInteraction_eq (V S : Scatter) (g : Geom4) (x : Site) :
    geomInteraction V S g x = x.NormBRDF * (1 - x.bsf) * (x.I0 * x.mu0 * x.omega * pathSum V S g x) := rfl

theorem GeomAt.named {md : Mode} {g : Geom4} {x : Site} (h : GeomAt md g x) : g.Named := by
  intro e he s hs
  simp only [List.mem_cons, List.not_mem_nil, or_false] at he
  cases hm : md.mono with
  | true =>
    obtain ⟨-, -, h1, h2, h3, h4⟩ := h.mono hm
    rcases he with rfl | rfl | rfl | rfl
    · rw [h1] at hs; cases hs; simp
    · rw [h2] at hs; cases hs; simp
    · rcases h4 with ⟨h4, -⟩ | ⟨h4, -⟩ <;> rw [h4] at hs <;> cases hs; simp
    · rcases h4 with ⟨h4, -⟩ | ⟨h4, -⟩ <;> rw [h3, h4] at hs <;> cases hs; simp
  | false =>
    have hb := h.bi hm
    have : ∀ n s, g.entry n = .sym s → s ∈ ["theta_0", "phi_0", "theta_ex", "phi_ex"] := by
      intro n s hs
      rw [hb n] at hs
      split at hs <;> cases hs
      cases n <;> simp [AngN.symName]
    rcases he with rfl | rfl | rfl | rfl
    · exact this .t0 s hs
    · exact this .tex s hs
    · exact this .p0 s hs
    · exact this .pex s hs

theorem pathSum_congr {c : Cfg} {md : Mode} {g : Geom4} {x y : Site} (hg : GeomAt md g x)
    (h1 : y.t0 = x.t0) (h2 : y.tex = x.tex) (h3 : y.p0 = x.p0) (h4 : y.pex = x.pex)
    (h5 : y.tau = x.tau) (hs : SameScatter c x y) : pathSum c.V c.SRF g y = pathSum c.V c.SRF g x := by
  have hn := hg.named
  have key : ∀ e ∈ [g.t0, g.tex, g.p0, g.pex], e.val y.env = e.val x.env ∧
      e.val y.swap.env = e.val x.swap.env := by
    intro e he
    constructor <;> refine AngS.val_congr fun s hs => ?_ <;>
      (have := hn e he s hs
       simp only [List.mem_cons, List.not_mem_nil, or_false] at this
       rcases this with rfl | rfl | rfl | rfl <;>
         simp only [Site.env_t0, Site.env_tex, Site.env_p0, Site.env_pex, Site.swap, h1, h2, h3, h4])
  have k1 := key g.t0 (by simp)
  have k2 := key g.tex (by simp)
  have k3 := key g.p0 (by simp)
  have k4 := key g.pex (by simp)
  have m0 : y.mu0 = x.mu0 := by simp only [Site.mu0, h1]
  have m1 : y.muEx = x.muEx := by simp only [Site.muEx, h2]
  unfold pathSum geomFint
  rw [m0, m1, h5]
  simp only [k1.1, k1.2, k2.1, k2.2, k3.1, k3.2, k4.1, k4.2, (hs _ _ _ _).1, (hs _ _ _ _).2.1,
    (hs _ _ _ _).2.2.1, (hs _ _ _ _).2.2.2]

/-- The interaction contribution at sites that differ in bsf, omega, NormBRDF, intensity only. -/
theorem interaction_factor (c : Cfg) (md : Mode) (x : Site) {nV nS : ℕ}
    (hV : c.V.ncoefs = .ok (nV + 1)) (hS : c.SRF.ncoefs = .ok (nS + 1)) (hx : x.Oblique) :
    ∃ k : ℝ, ∀ y r, ObservesAny c md y r → (y.t0 = x.t0 ∧ y.tex = x.tex ∧ y.p0 = x.p0 ∧ y.pex = x.pex ∧
      y.tau = x.tau) → SameScatter c x y → (c.sig0 = true → y.I0 ≠ 0) →
      r = y.inUnits c.sig0 c.dB (y.NormBRDF * (1 - y.bsf) * y.I0 * y.omega * (Real.cos x.t0 * k)) := by
  by_cases hg : ∃ g, GeomAt md g x
  · obtain ⟨g, hg⟩ := hg
    refine ⟨pathSum c.V c.SRF g x, fun y r h he hs hI => ?_⟩
    obtain ⟨e1, e2, e3, e4, e5⟩ := he
    have hy : y.Oblique := by
      refine ⟨?_, ?_, ?_, ?_, ?_⟩
      · simpa only [Site.mu0, e1] using hx.mu0
      · simpa only [Site.mu0, e1] using hx.mu0'
      · simpa only [Site.muEx, e2] using hx.muEx
      · simpa only [Site.muEx, e2] using hx.muEx'
      · rw [e5]; exact hx.tau
    obtain ⟨g', hg', rfl⟩ := h.geom hV hS hy hI
    have hgy : GeomAt md g y := by
      have ea : ∀ n, y.angle n = x.angle n := by intro n; cases n <;> assumption
      refine ⟨fun hm => ?_, fun hm n => ?_⟩
      · rw [e1, e2, e3, e4]; exact hg.mono hm
      · rw [ea]; exact hg.bi hm n
    rw [hg'.unique hgy, geomInteraction_eq, pathSum_congr hg e1 e2 e3 e4 e5 hs]
    simp only [Site.mu0, e1]
    congr 1
    ring
  · refine ⟨0, fun y r h he hs hI => absurd ?_ hg⟩
    obtain ⟨e1, e2, e3, e4, e5⟩ := he
    have hy : y.Oblique := by
      refine ⟨?_, ?_, ?_, ?_, ?_⟩
      · simpa only [Site.mu0, e1] using hx.mu0
      · simpa only [Site.mu0, e1] using hx.mu0'
      · simpa only [Site.muEx, e2] using hx.muEx
      · simpa only [Site.muEx, e2] using hx.muEx'
      · rw [e5]; exact hx.tau
    obtain ⟨g', hg', rfl⟩ := h.geom hV hS hy hI
    have ea : ∀ n, y.angle n = x.angle n := by intro n; cases n <;> assumption
    refine ⟨g', fun hm => ?_, fun hm n => ?_⟩
    · rw [← e1, ← e2, ← e3, ← e4]; exact hg'.mono hm
    · rw [← ea]; exact hg'.bi hm n

/-- The interaction contribution is affine in bsf: it vanishes for 1. -/
theorem C22_interaction_affine {c : Cfg} {md : Mode} {x : Site} (hd : c.dB = false) {nV nS : ℕ}
    (hV : c.V.ncoefs = .ok (nV + 1)) (hS : c.SRF.ncoefs = .ok (nS + 1)) (hx : x.Oblique)
    (hI : c.sig0 = true → x.I0 ≠ 0) :
    ∃ k : ℝ, ∀ β ρ r, ObservesAny c md (x.withBsf β ρ) r → SameScatter c x (x.withBsf β ρ) →
      r = XR.fin ((1 - β) * k + β * 0) := by
  obtain ⟨k, hk⟩ := interaction_factor c md x hV hS hx
  refine ⟨x.NormBRDF * x.I0 * x.omega * Real.cos x.t0 * k * x.unit c.sig0, fun β ρ r h hs => ?_⟩
  rw [hk _ r h ⟨rfl, rfl, rfl, rfl, rfl⟩ hs hI, hd, Site.inUnits_linear]
  congr 1
  simp only [Site.withBsf, Site.unit, Site.signorm, Site.mu0]
  ring

/-- The interaction contribution is proportional to omega and to NormBRDF. -/
theorem C23_interaction {c : Cfg} {md : Mode} {x : Site} (hd : c.dB = false) {nV nS : ℕ}
    (hV : c.V.ncoefs = .ok (nV + 1)) (hS : c.SRF.ncoefs = .ok (nS + 1)) (hx : x.Oblique)
    (hI : c.sig0 = true → x.I0 ≠ 0) :
    ∃ k : ℝ, ∀ n ω ρ r, ObservesAny c md ((x.withNorm n ρ).withOmega ω ρ) r →
      SameScatter c x ((x.withNorm n ρ).withOmega ω ρ) → r = XR.fin (n * ω * k) := by
  obtain ⟨k, hk⟩ := interaction_factor c md x hV hS hx
  refine ⟨(1 - x.bsf) * x.I0 * Real.cos x.t0 * k * x.unit c.sig0, fun n ω ρ r h hs => ?_⟩
  rw [hk _ r h ⟨rfl, rfl, rfl, rfl, rfl⟩ hs hI, hd, Site.inUnits_linear]
  congr 1
  simp only [Site.withOmega, Site.withNorm, Site.unit, Site.signorm, Site.mu0]
  ring

/-- In intensity units the interaction contribution is proportional to the incident intensity. -/
theorem C24_interaction_intensity {c : Cfg} {md : Mode} {x : Site} (hd : c.dB = false)
    (hs : c.sig0 = false) {nV nS : ℕ}
    (hV : c.V.ncoefs = .ok (nV + 1)) (hS : c.SRF.ncoefs = .ok (nS + 1)) (hx : x.Oblique) :
    ∃ k : ℝ, ∀ I r, ObservesAny c md (x.withI0 I) r → r = XR.fin (I * k) := by
  obtain ⟨k, hk⟩ := interaction_factor c md x hV hS hx
  refine ⟨x.NormBRDF * (1 - x.bsf) * x.omega * (Real.cos x.t0 * k), fun I r h => ?_⟩
  rw [hk _ r h ⟨rfl, rfl, rfl, rfl, rfl⟩ (fun _ _ _ _ => ⟨rfl, rfl, rfl, rfl⟩) (by simp [hs]), hd,
    Site.inUnits_linear, hs]
  congr 1
  simp only [Site.withI0, Site.unit, Bool.false_eq_true, if_false]
  ring

/-- In sigma0 units (linear or dB) the interaction contribution does not depend on the incident
intensity. -/
theorem C24_interaction_sigma0 {c : Cfg} {md : Mode} {x : Site} (hs : c.sig0 = true) {nV nS : ℕ}
    (hV : c.V.ncoefs = .ok (nV + 1)) (hS : c.SRF.ncoefs = .ok (nS + 1)) (hx : x.Oblique)
    {I I' : ℝ} (hI : I ≠ 0) (hI' : I' ≠ 0) {r r' : XR}
    (h : ObservesAny c md (x.withI0 I) r) (h' : ObservesAny c md (x.withI0 I') r') : r = r' := by
  obtain ⟨k, hk⟩ := interaction_factor c md x hV hS hx
  rw [hk _ r h ⟨rfl, rfl, rfl, rfl, rfl⟩ (fun _ _ _ _ => ⟨rfl, rfl, rfl, rfl⟩) fun _ => hI,
    hk _ r' h' ⟨rfl, rfl, rfl, rfl, rfl⟩ (fun _ _ _ _ => ⟨rfl, rfl, rfl, rfl⟩) fun _ => hI', hs]
  simp only [Site.inUnits, Site.withI0, Site.signorm, Site.mu0, if_true]
  have : ∀ a b d : ℝ, a * I * b * d * (4 * Real.pi * Real.cos x.t0 / I)
      = a * I' * b * d * (4 * Real.pi * Real.cos x.t0 / I') := by
    intro a b d; field_simp
  rw [this]

/-- sigma0 is `4 pi cos(t_0)/I0` times the intensity. -/
theorem C24_interaction_factor {c : Cfg} {md : Mode} {x : Site} {nV nS : ℕ}
    (hV : c.V.ncoefs = .ok (nV + 1)) (hS : c.SRF.ncoefs = .ok (nS + 1)) (hx : x.Oblique)
    (hI : x.I0 ≠ 0) {r r' : ℝ}
    (h : ObservesAny (c.units false false) md x (XR.fin r))
    (h' : ObservesAny (c.units true false) md x (XR.fin r')) :
    r' = 4 * Real.pi * Real.cos x.t0 / x.I0 * r := by
  obtain ⟨g, hg, e⟩ := h.geom hV hS hx fun h => Bool.noConfusion h
  obtain ⟨g', hg', e'⟩ := h'.geom hV hS hx fun _ => hI
  rw [hg'.unique hg] at e'
  simp only [Cfg.units, Site.inUnits_linear, Site.unit, Bool.false_eq_true, if_false, if_true,
      XR.fin.injEq, Site.signorm, Site.mu0] at e e'
  rw [e, e']
  ring

example : ∃ r, ObservesAny ⟨hgV (1/4), hgS (1/3), true, false, false⟩ ⟨true, []⟩
      ((witSite (Real.pi / 3) (Real.pi / 3) 0 Real.pi).withBsf (1/2) (fun k => if k = "tau" then 1 else
        if k = "omega" then 1/2 else if k = "NormBRDF" then 1 else 1/2)) r ∧
    SameScatter ⟨hgV (1/4), hgS (1/3), true, false, false⟩ (witSite (Real.pi / 3) (Real.pi / 3) 0 Real.pi)
      ((witSite (Real.pi / 3) (Real.pi / 3) 0 Real.pi).withBsf (1/2) (fun k => if k = "tau" then 1 else
        if k = "omega" then 1/2 else if k = "NormBRDF" then 1 else 1/2)) := by
  obtain ⟨arr, hsh, hc⟩ := wit_calc .sympy (1/4) (1/3) false false 2
    (fun _ => (witSite (Real.pi / 3) (Real.pi / 3) 0 Real.pi).withBsf (1/2) (fun k => if k = "tau" then 1 else
        if k = "omega" then 1/2 else if k = "NormBRDF" then 1 else 1/2))
    fun idx _ => ⟨rfl, by simp [witSite, Site.withBsf], by
      refine ⟨?_, ?_, ?_, ?_, by simp⟩ <;> simp [Site.withBsf, witSite]⟩
  have hv : Arr.Valid [2] [1] := by simp [Arr.Valid]
  refine ⟨_, .inr (hc.row hv (k := 3) (by rw [hsh]; simp [Arr.Valid])), fun a b p q => ?_⟩
  simp only [hgV_val, hgS_val, and_self]

/-! ## C21: no vegetation -/

/-- Surface: without canopy the bare-soil contribution, in all calls. -/
theorem C21_surface {c : Cfg} {x : Site} {r : XR}
    (h : Observes surface c x r ∨ ObservesRow 1 c x r) {f : ℝ} (hf : c.SRF.ValueAt x f)
    (ht : x.tau = 0) (h0 : Real.cos x.t0 ≠ 0) (h1 : Real.cos x.tex ≠ 0)
    (hI : c.sig0 = true → x.I0 ≠ 0) :
    r = x.inUnits c.sig0 c.dB (x.NormBRDF * x.I0 * Real.cos x.t0 * f) := by
  rw [C18_surface h hf h0 h1 hI, ht]
  simp

/-- Volume: zero without canopy, in all calls. -/
theorem C21_volume {c : Cfg} {x : Site} {r : XR}
    (h : Observes volume c x r ∨ ObservesRow 2 c x r) {p : ℝ} (hp : c.V.ValueAt x p)
    (ht : x.tau = 0) (hx : x.Regular c.sig0) :
    r = x.inUnits c.sig0 c.dB 0 := by
  rw [C19_volume (h.imp id fun h => ⟨h, ht.ge⟩) hp hx.mu0 hx.muEx hx.sum hx.I0, ht]
  simp

/-- Interaction row of `calc`, tau given as a number or as an array: zero at every index without
canopy and the interaction contribution elsewhere. Partial: no direction may be nadir. -/
theorem C21_interaction_partial {c : Cfg} {md : Mode} {arr : Arr} {S : List ℕ} {site : List ℕ → Site}
    (h : CalcP c md arr S site) (hq : c.intQ = true)
    {nV nS : ℕ} (hV : c.V.ncoefs = .ok (nV + 1)) (hS : c.SRF.ncoefs = .ok (nS + 1))
    (hx : ∀ idx, Arr.Valid S idx → 0 < Real.cos (site idx).t0 ∧ Real.cos (site idx).t0 < 1 ∧
      0 < Real.cos (site idx).tex ∧ Real.cos (site idx).tex < 1 ∧ 0 ≤ (site idx).tau)
    {idx : List ℕ} (hv : Arr.Valid S idx) (ht : (site idx).tau = 0)
    (hI : c.sig0 = true → (site idx).I0 ≠ 0) :
    arr.get (idx ++ [3]) = (site idx).inUnits c.sig0 c.dB 0 :=
  h.interaction hq hV hS hx hv ht hI

/-- Sites with tau = 0 and tau = 1. -/
def tauSite (t : ℝ) (τ : ℝ) : Site :=
  { witSite t t 0 Real.pi with
    tau := τ
    ρ := fun k => if k = "tau" then τ else (witSite t t 0 Real.pi).ρ k }

theorem tauSite_ok (t τ : ℝ) : (tauSite t τ).tex = (tauSite t τ).t0 ∧
    (tauSite t τ).pex = (tauSite t τ).p0 + Real.pi ∧ (tauSite t τ).Reports [] := by
  have h := witSite_reports t t 0 Real.pi
  refine ⟨rfl, by simp [tauSite, witSite], ?_⟩
  refine ⟨?_, ?_, ?_, ?_, by simp⟩
  · simpa [tauSite] using h.bsf
  · simp [tauSite]
  · simpa [tauSite] using h.omega
  · simpa [tauSite] using h.NormBRDF

example : ∃ arr, CalcP ⟨hgV (1/4), hgS (1/3), true, true, true⟩ ⟨true, []⟩ arr [2]
      (fun idx => tauSite (Real.pi / 3) (if idx = [0] then 0 else 1)) := by
  obtain ⟨arr, -, h⟩ := wit_calc .sympy (1/4) (1/3) true true 2
    (fun idx => tauSite (Real.pi / 3) (if idx = [0] then 0 else 1)) fun idx _ => tauSite_ok _ _
  exact ⟨arr, h⟩

/-- C21 is false for `interaction()`: nan instead of zero without canopy. -/
theorem C21_interaction_nan {c : Cfg} {md : Mode} {x : Site} {r : XR} (h : ObservesP c md x r)
    {nV nS : ℕ} (hV : c.V.ncoefs = .ok (nV + 1)) (hS : c.SRF.ncoefs = .ok (nS + 1))
    (h0 : 0 < Real.cos x.t0) (h1 : 0 < Real.cos x.tex) (ht : x.tau = 0) : r = XR.nan :=
  h.nan hV hS ⟨h0, h1, ht.ge, .inr (.inr ht)⟩

/-- C21 is false for `calc()` with an array of optical depths if a direction is nadir: the call
`calc` with `tau=[0, 1]`, `t_0=[pi/3, 0]` returns nan as interaction contribution at the first
index, where tau = 0. -/
theorem C21_calc_counterexample : ∃ c arr site, CalcP c ⟨true, []⟩ arr [2] site ∧ c.intQ = true ∧
    (site [0]).tau = 0 ∧ (site [0]).Physical ∧ (site [1]).Physical ∧ arr.get [0, 3] = XR.nan := by
  set site : List ℕ → Site := fun idx => if idx = [0] then tauSite (Real.pi / 3) 0 else tauSite 0 1 with hsite
  obtain ⟨arr, hsh, h⟩ := wit_calc .sympy (1/4) (1/3) false false 2 site
    fun idx _ => by simp only [hsite]; split <;> exact tauSite_ok _ _
  have phys : ∀ t τ : ℝ, 0 ≤ τ → 0 < Real.cos t → (tauSite t τ).Physical := by
    intro t τ h1 h2
    refine ⟨?_, ?_, ?_, ?_, ?_, ?_, ?_, ?_⟩ <;>
      simp [tauSite, witSite, Site.mu0, Site.muEx, h1, h2]
  have s0 : site [0] = tauSite (Real.pi / 3) 0 := by simp [hsite]
  have s1 : site [1] = tauSite 0 1 := by simp [hsite]
  refine ⟨_, arr, site, h, rfl, by rw [s0]; rfl, by rw [s0]; exact phys _ _ le_rfl (by rw [cos_third]; norm_num),
    by rw [s1]; exact phys _ _ zero_le_one (by simp), ?_⟩
  exact h.nadir_nan rfl (hgV_ncoefs _) (hgS_ncoefs _) (idx := [0]) (idx' := [1]) (by simp [Arr.Valid])
    (by simp [Arr.Valid])
    (by rw [s0]; exact ⟨by show 0 < Real.cos (Real.pi / 3); rw [cos_third]; norm_num,
      by show 0 < Real.cos (Real.pi / 3); rw [cos_third]; norm_num, le_refl _, .inr (.inr rfl)⟩)
    (by rw [s1]; exact ⟨by show 0 < Real.cos 0; simp, by show 0 < Real.cos 0; simp,
      zero_le_one, .inl Real.cos_zero⟩)
    (by rw [s0]; rfl) (by rw [s1]; show (1 : ℝ) ≠ 0; norm_num)

end

end RT1
