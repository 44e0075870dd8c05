import Verif.Lemmas.SymL
import Verif.Props.IntRows
import Verif.Lemmas.ScalarCall
import Verif.Props.Contrib

/-!
# Reciprocity and azimuthal symmetry

`x.swap` is the site with incidence and exit directions exchanged, `x.withAz p q` the site with
other azimuth angles.
-/

namespace RT1

noncomputable section
open Classical

/-! ## C28: reciprocity -/

/-- Exchanging the directions multiplies the surface contribution (linear intensity) by
`cos t_ex / cos t_0`. -/
theorem C28_surface {c : Cfg} {x : Site} {r r' : XR} (hs : c.sig0 = false) (hd : c.dB = false)
    (hS : c.SRF.NoAngles) {f : ℝ} (hf : c.SRF.ValueAt x f)
    (h0 : Real.cos x.t0 ≠ 0) (h1 : Real.cos x.tex ≠ 0)
    (h : Observes surface c x r ∨ ObservesRow 1 c x r)
    (h' : Observes surface c x.swap r' ∨ ObservesRow 1 c x.swap r') :
    ∃ v, r = XR.fin v ∧ r' = XR.fin (v * (Real.cos x.tex / Real.cos x.t0)) := by
  refine ⟨_, C18_surface_linear h hf h0 h1 hs hd, ?_⟩
  rw [C18_surface_linear h' (hS.swap hf) h1 h0 hs hd]
  congr 1
  simp only [Site.swap]
  rw [show -(x.tau / Real.cos x.tex) - x.tau / Real.cos x.t0 =
    -(x.tau / Real.cos x.t0) - x.tau / Real.cos x.tex by ring]
  field_simp

/-- Exchanging the directions multiplies the volume contribution (linear intensity) by
`cos t_ex / cos t_0`. -/
theorem C28_volume {c : Cfg} {x : Site} {r r' : XR} (hs : c.sig0 = false) (hd : c.dB = false)
    (hV : c.V.NoAngles) {f : ℝ} (hf : c.V.ValueAt x f) (hx : x.Regular false)
    (h : Observes volume c x r ∨ ObservesRow 2 c x r ∧ 0 ≤ x.tau)
    (h' : Observes volume c x.swap r' ∨ ObservesRow 2 c x.swap r' ∧ 0 ≤ x.tau) :
    ∃ v, r = XR.fin v ∧ r' = XR.fin (v * (Real.cos x.tex / Real.cos x.t0)) := by
  refine ⟨_, C19_volume_linear h hf hx.mu0 hx.muEx hx.sum hs hd, ?_⟩
  have h2 : Real.cos x.tex + Real.cos x.t0 ≠ 0 := by
    rw [add_comm]; exact hx.sum
  rw [C19_volume_linear h' (hV.swap hf) hx.muEx hx.mu0 h2 hs hd]
  congr 1
  simp only [Site.swap]
  have := hx.mu0
  unfold Site.mu0 at this
  rw [add_comm (Real.cos x.tex), mul_comm (Real.exp (-(x.tau / Real.cos x.tex)))]
  field_simp

/-- Interaction, bistatic without fixed angles (also for the fourth row of `calc()`): exchanging
the directions multiplies the contribution (linear intensity) by `cos t_ex / cos t_0`.
Missing: objects with fixed angles, for which the property is false. -/
theorem C28_interaction_partial {c : Cfg} {x : Site} {r r' : XR} (hs : c.sig0 = false)
    (hd : c.dB = false) {nV nS : ℕ} (hV : c.V.ncoefs = .ok (nV + 1)) (hS : c.SRF.ncoefs = .ok (nS + 1))
    (hx : x.Oblique) (h : ObservesAny c ⟨false, []⟩ x r) (h' : ObservesAny c ⟨false, []⟩ x.swap r') :
    ∃ v, r = XR.fin v ∧ r' = XR.fin (v * (Real.cos x.tex / Real.cos x.t0)) := by
  obtain ⟨g, hg, rfl⟩ := h.geom hV hS hx (by simp [hs])
  obtain ⟨g', hg', rfl⟩ := h'.geom hV hS ⟨hx.muEx, hx.muEx', hx.mu0, hx.mu0', hx.tau⟩ (by simp [hs])
  rw [geomInteraction_bi hg rfl rfl, geomInteraction_bi hg' rfl rfl]
  refine ⟨x.interactionAz c.V c.SRF Real.pi, by simp [Site.inUnits, hs, hd], ?_⟩
  have h0 : Real.cos x.t0 ≠ 0 := hx.mu0.ne'
  simp only [Site.inUnits, hs, hd, Bool.false_eq_true, if_false]
  congr 1
  have e : x.swap.swap = x := rfl
  unfold Site.interactionAz
  rw [e]
  simp only [Site.mu0, Site.muEx, Site.swap] at *
  field_simp
  ring

/-- Sites of both kinds, for any two zenith angles. -/
example {t0 tex : ℝ} (h0 : 0 < t0) (h0' : t0 < Real.pi / 2) (h1 : 0 < tex) (h1' : tex < Real.pi / 2) :
    ∃ r r', ObservesAny ⟨hgV (1/4), hgS (1/3), true, false, false⟩ ⟨false, []⟩ (witSite t0 tex 1 2) r ∧
      ObservesAny ⟨hgV (1/4), hgS (1/3), true, false, false⟩ ⟨false, []⟩ (witSite t0 tex 1 2).swap r' ∧
      (witSite t0 tex 1 2).Oblique := by
  obtain ⟨r, F, -, h2, -, h⟩ := wit_observed .sympy (1/4) (1/3) false false (mono := false) (fun _ => false)
    (t0 := t0) (tex := tex) (p0 := 1) (pex := 2) fun h => Bool.noConfusion h
  obtain ⟨r', F', -, h2', -, h'⟩ := wit_observed .sympy (1/4) (1/3) false false (mono := false) (fun _ => false)
    (t0 := tex) (tex := t0) (p0 := 2) (pex := 1) fun h => Bool.noConfusion h
  rw [h2 fun _ => rfl] at h
  rw [h2' fun _ => rfl] at h'
  exact ⟨r, r', .inl h, .inl h', witSite_oblique h0 h0' h1 h1'⟩

theorem volA_noAngles : volA.NoAngles := by
  refine ⟨?_, ?_, ?_⟩ <;> (intro n hn; simp [volA, Expr.free] at hn)

theorem srfA_noAngles : srfA.NoAngles := by
  refine ⟨?_, ?_, ?_⟩ <;> (intro n hn; simp [srfA, Expr.free] at hn)

theorem hgV_noAngles (t : ℝ) : (hgV t).NoAngles :=
  .prim (by intro e he; simp [Kind.params] at he; subst he; intro n hn; cases hn)
    volA_noAngles

theorem hgS_noAngles (t : ℝ) : (hgS t).NoAngles :=
  .prim (by intro e he; simp [Kind.params] at he; subst he; intro n hn; cases hn)
    srfA_noAngles

/-- Surface and volume contribution, for any two zenith angles. -/
example {t0 tex : ℝ} (h0 : 0 < t0) (h0' : t0 < Real.pi / 2) (h1 : 0 < tex) (h1' : tex < Real.pi / 2) :
    (∃ r r' v, Observes surface ⟨hgV (1/4), exS, true, false, false⟩ (witSite t0 tex 1 2) r ∧
      Observes surface ⟨hgV (1/4), exS, true, false, false⟩ (witSite t0 tex 1 2).swap r' ∧
      r = XR.fin v ∧ r' = XR.fin (v * (Real.cos tex / Real.cos t0))) ∧
    ∃ r r' v, Observes volume ⟨exV, exS, true, false, false⟩ (witSite t0 tex 1 2) r ∧
      Observes volume ⟨exV, exS, true, false, false⟩ (witSite t0 tex 1 2).swap r' ∧
      r = XR.fin v ∧ r' = XR.fin (v * (Real.cos tex / Real.cos t0)) := by
  have hob := witSite_oblique h0 h0' h1 h1' (p0 := 1) (pex := 2)
  have call : ∀ V : Scatter, V.Plain → ∀ a b p q : ℝ,
      (∃ r, Observes surface ⟨V, exS, true, false, false⟩ (witSite a b p q) r) ∧
      ∃ r, Observes volume ⟨V, exS, true, false, false⟩ (witSite a b p q) r := by
    intro V hV a b p q
    obtain ⟨⟨arr, w', -, -, h⟩, arr', w'', -, -, h'⟩ := scalar_site_call .sympy (V := V) (SRF := exS) true false
      false (x := witSite a b p q) (mono := false) (l := []) (fun _ => false) (fun h => Bool.noConfusion h)
      (witSite_reports ..) (fun n hn => List.mem_append_left _ (hV n hn))
      (fun n hn => List.mem_append_left _ (exS_plain n hn))
    exact ⟨⟨_, h⟩, _, h'⟩
  constructor
  · obtain ⟨r, hr⟩ := (call _ (hgV_plain (1/4)) t0 tex 1 2).1
    obtain ⟨r', hr'⟩ := (call _ (hgV_plain (1/4)) tex t0 2 1).1
    obtain ⟨v, e, e'⟩ := C28_surface (c := ⟨hgV (1/4), exS, true, false, false⟩) rfl rfl (.prim (by simp [Kind.params]) srfA_noAngles) (exS_value _) hob.mu0.ne'
      hob.muEx.ne' (.inl hr) (.inl hr')
    exact ⟨r, r', v, hr, hr', e, e'⟩
  · obtain ⟨r, hr⟩ := (call _ exV_plain t0 tex 1 2).2
    obtain ⟨r', hr'⟩ := (call _ exV_plain tex t0 2 1).2
    obtain ⟨v, e, e'⟩ := C28_volume (c := ⟨exV, exS, true, false, false⟩) rfl rfl (.prim (by simp [Kind.params]) volA_noAngles) (exV_value _)
      ⟨hob.mu0.ne', hob.muEx.ne', (add_pos hob.mu0 hob.muEx).ne', by simp⟩ (.inl hr) (.inl hr')
    exact ⟨r, r', v, hr, hr', e, e'⟩

/-- Scattering functions with custom parameter names, also combinations, qualify. -/
example : (Scatter.lin [.sym "w"] [.prim (.volHG (.sym "t")) volA (some 10)] volA).NoAngles := by
  refine .lin ?_ ?_ ?_
  · intro e he n hn
    simp at he; subst he; simp [Expr.free] at hn; subst hn
    simp
  · intro o ho
    simp at ho; subst ho
    refine .prim ?_ ?_
    · intro e he n hn
      simp [Kind.params] at he; subst he; simp [Expr.free] at hn; subst hn
      simp
    · exact volA_noAngles
  · exact volA_noAngles

theorem wit_fixed_value {t s a b p q : ℝ} {g : Geom4} {F : List AngN} (hF : ∀ n, n ∈ F ↔ n = .t0)
    (hg : GeomAt ⟨false, F⟩ g (witSite a b p q)) (ha : 0 < Real.cos a) (hb : 0 < Real.cos b)
    (c1 : Real.cos (p - (q + Real.pi)) = 0) (c2 : Real.cos (q - (p + Real.pi)) = 0) :
    geomInteraction (hgV t) (hgS s) g (witSite a b p q) = Real.cos a / (8 * Real.pi) * (
      Real.exp (-1 / Real.cos b) * (2 * polar (Real.cos a) 1 0 + 6 * (t * Real.cos a + s * Real.cos b)
        * polar (Real.cos a) 1 1 + 18 * t * s * (Real.cos a * Real.cos b) * polar (Real.cos a) 1 2)
      + Real.exp (-1 / Real.cos a) * (2 * polar (Real.cos b) 1 0 + 6 * (t * Real.cos a + s * Real.cos a)
        * polar (Real.cos b) 1 1 + 18 * t * s * (Real.cos a * Real.cos a) * polar (Real.cos b) 1 2)) := by
  have hπ := Real.pi_pos
  have hbi := hg.bi rfl
  simp only [hF] at hbi
  have b1 : g.t0 = .num a := by simpa [Geom4.entry, AngN.symName, Site.angle, witSite] using hbi .t0
  have b2 : g.tex = .sym "theta_ex" := by simpa [Geom4.entry, AngN.symName] using hbi .tex
  have b3 : g.p0 = .sym "phi_0" := by simpa [Geom4.entry, AngN.symName] using hbi .p0
  have b4 : g.pex = .sym "phi_ex" := by simpa [Geom4.entry, AngN.symName] using hbi .pex
  have key : ∀ (ρ : String → ℝ) (μ : ℝ), 0 < μ → Real.cos (ρ "phi_0" - (ρ "phi_ex" + Real.pi)) = 0 →
      geomFint (hgV t) (hgS s) g μ 1 ρ = 1 / (4 * Real.pi) * (2 * polar μ 1 0
        + 6 * (t * Real.cos a + s * Real.cos (ρ "theta_ex")) * polar μ 1 1
        + 18 * t * s * (Real.cos a * Real.cos (ρ "theta_ex")) * polar μ 1 2) := by
    intro ρ μ hμ hc
    have := hg_hemi (t := t) (s := s) hμ zero_le_one ρ a (ρ "theta_ex") (ρ "phi_0") (ρ "phi_ex" + Real.pi)
    rw [hc] at this
    refine Eq.trans ?_ (this.trans (by ring))
    unfold geomFint
    refine hemi_congr fun θ φ => ?_
    rw [b1, b2, b3, b4, expVal_updown]
    rfl
  set x := witSite a b p q with hx
  have e1 := key x.env (Real.cos a) ha (by rw [x.env_p0, x.env_pex]; exact c1)
  have e2 := key x.swap.env (Real.cos b) hb (by rw [x.swap.env_p0, x.swap.env_pex]; exact c2)
  rw [x.env_tex] at e1
  rw [x.swap.env_tex] at e2
  unfold geomInteraction
  have m0 : x.mu0 = Real.cos a := rfl
  have m1 : x.muEx = Real.cos b := rfl
  have tt : x.tau = 1 := rfl
  rw [m0, m1, tt, e1, e2]
  simp only [hx, witSite, Site.swap]
  field_simp
  ring

/-- C28 is false for the interaction contribution of objects with fixed angles: with `t_0` fixed by
`set_bistatic` for both directions the values are not related by `cos t_ex / cos t_0`. -/
theorem C28_interaction_counterexample : ∃ c x F F' v v', (∀ n, n ∈ F ↔ n = .t0) ∧
    (∀ n, n ∈ F' ↔ n = .t0) ∧ c.sig0 = false ∧ c.dB = false ∧ x.Oblique ∧
    ObservesP c ⟨false, F⟩ x (XR.fin v) ∧ ObservesP c ⟨false, F'⟩ x.swap (XR.fin v') ∧
    v' ≠ v * (Real.cos x.tex / Real.cos x.t0) := by
  have hπ := Real.pi_pos
  obtain ⟨r, F, h1, -, -, h⟩ := wit_observed .sympy (1/4) (1/3) false false (mono := false)
    (fun n => decide (n = .t0))
    (t0 := Real.pi / 3) (tex := Real.pi / 4) (p0 := 0) (pex := Real.pi / 2) fun h => Bool.noConfusion h
  obtain ⟨r', F', h1', -, -, h'⟩ := wit_observed .sympy (1/4) (1/3) false false (mono := false)
    (fun n => decide (n = .t0))
    (t0 := Real.pi / 4) (tex := Real.pi / 3) (p0 := Real.pi / 2) (pex := 0) fun h => Bool.noConfusion h
  have hx : (witSite (Real.pi / 3) (Real.pi / 4) 0 (Real.pi / 2)).Oblique :=
    witSite_oblique (by positivity) (by linarith) (by positivity) (by linarith)
  have hx' : (witSite (Real.pi / 4) (Real.pi / 3) (Real.pi / 2) 0).Oblique :=
    witSite_oblique (by positivity) (by linarith) (by positivity) (by linarith)
  have hF : ∀ n, n ∈ F ↔ n = .t0 := fun n => by rw [h1 n]; simp
  have hF' : ∀ n, n ∈ F' ↔ n = .t0 := fun n => by rw [h1' n]; simp
  obtain ⟨g, hg, rfl⟩ := h.geom (hgV_ncoefs _) (hgS_ncoefs _) hx (fun h => Bool.noConfusion h)
  obtain ⟨g', hg', rfl⟩ := h'.geom (hgV_ncoefs _) (hgS_ncoefs _) hx' (fun h => Bool.noConfusion h)
  refine ⟨_, _, F, F', _, _, hF, hF', rfl, rfl, hx, h, h', ?_⟩
  have c1 : Real.cos (0 - (Real.pi / 2 + Real.pi)) = 0 := by
    rw [show 0 - (Real.pi / 2 + Real.pi) = -(Real.pi / 2 + Real.pi) by ring, Real.cos_neg, Real.cos_add_pi,
      Real.cos_pi_div_two, neg_zero]
  have c2 : Real.cos (Real.pi / 2 - (0 + Real.pi)) = 0 := by
    rw [show Real.pi / 2 - (0 + Real.pi) = -(Real.pi / 2) by ring, Real.cos_neg, Real.cos_pi_div_two]
  simp only [Bool.false_eq_true, if_false]
  have ha : 0 < Real.cos (Real.pi / 3) := hx.mu0
  have hb : 0 < Real.cos (Real.pi / 4) := hx.muEx
  have hlt : Real.cos (Real.pi / 3) < Real.cos (Real.pi / 4) :=
    Real.cos_lt_cos_of_nonneg_of_le_pi_div_two (by positivity) (by linarith) (by linarith)
  rw [wit_fixed_value hF hg ha hb c1 c2, wit_fixed_value hF' hg' hb ha c2 c1]
  show _ ≠ _ * (Real.cos (Real.pi / 4) / Real.cos (Real.pi / 3))
  generalize Real.cos (Real.pi / 3) = u at *
  generalize Real.cos (Real.pi / 4) = w at *
  have A1 := polar_pos ha one_pos 1
  have A2 := polar_pos ha one_pos 2
  have B1 := polar_pos hb one_pos 1
  have B2 := polar_pos hb one_pos 2
  generalize polar u 1 0 = P0 at *
  generalize polar u 1 1 = P1 at *
  generalize polar u 1 2 = P2 at *
  generalize polar w 1 0 = Q0 at *
  generalize polar w 1 1 = Q1 at *
  generalize polar w 1 2 = Q2 at *
  have E1 := Real.exp_pos (-1 / w)
  have E2 := Real.exp_pos (-1 / u)
  generalize Real.exp (-1 / w) = e1 at *
  generalize Real.exp (-1 / u) = e2 at *
  intro e
  have e' : w / (8 * Real.pi) * (
      (e2 * (2 * Q0 + 6 * (1 / 4 * w + 1 / 3 * u) * Q1 + 18 * (1 / 4) * (1 / 3) * (w * u) * Q2)
      + e1 * (2 * P0 + 6 * (1 / 4 * w + 1 / 3 * w) * P1 + 18 * (1 / 4) * (1 / 3) * (w * w) * P2))
      - (e1 * (2 * P0 + 6 * (1 / 4 * u + 1 / 3 * w) * P1 + 18 * (1 / 4) * (1 / 3) * (u * w) * P2)
      + e2 * (2 * Q0 + 6 * (1 / 4 * u + 1 / 3 * u) * Q1 + 18 * (1 / 4) * (1 / 3) * (u * u) * Q2))) = 0 := by
    rw [mul_sub, sub_eq_zero, e]
    field_simp
  have hpos : 0 < w / (8 * Real.pi) := by positivity
  rcases mul_eq_zero.mp e' with h | h
  · exact hpos.ne' h
  · have hd := sub_pos.mpr hlt
    have t1 := mul_pos (mul_pos E2 hd) B1
    have t2 := mul_pos (mul_pos E1 hd) A1
    have t3 := mul_pos (mul_pos (mul_pos E2 hd) ha) B2
    have t4 := mul_pos (mul_pos (mul_pos E1 hd) hb) A2
    nlinarith

/-! ## C29: azimuthal symmetry -/

/-- The surface contribution depends on the azimuth angles only through their difference. -/
theorem C29_surface {c : Cfg} {x : Site} {r r' : XR} (hS : c.SRF.Azimuthal x.env) {f : ℝ}
    (hf : c.SRF.ValueAt x f) (h0 : Real.cos x.t0 ≠ 0) (h1 : Real.cos x.tex ≠ 0)
    (hI : c.sig0 = true → x.I0 ≠ 0) {p q : ℝ} (hpq : p - q = x.p0 - x.pex)
    (h : Observes surface c x r ∨ ObservesRow 1 c x r)
    (h' : Observes surface c (x.withAz p q) r' ∨ ObservesRow 1 c (x.withAz p q) r') : r = r' := by
  rw [C18_surface h hf h0 h1 hI, C18_surface h' (hS.rotate hpq hf) h0 h1 hI]
  rfl

/-- The volume contribution depends on the azimuth angles only through their difference. -/
theorem C29_volume {c : Cfg} {x : Site} {r r' : XR} (hV : c.V.Azimuthal x.env) {f : ℝ}
    (hf : c.V.ValueAt x f) (hx : x.Regular c.sig0) {p q : ℝ} (hpq : p - q = x.p0 - x.pex)
    (h : Observes volume c x r ∨ ObservesRow 2 c x r ∧ 0 ≤ x.tau)
    (h' : Observes volume c (x.withAz p q) r' ∨ ObservesRow 2 c (x.withAz p q) r' ∧ 0 ≤ x.tau) : r = r' := by
  rw [C19_volume h hf hx.mu0 hx.muEx hx.sum hx.I0,
    C19_volume h' (hV.rotate hpq hf) hx.mu0 hx.muEx hx.sum hx.I0]
  rfl

theorem GeomAt.rotate {md : Mode} {g g' : Geom4} {x : Site} {p q : ℝ} (h : GeomAt md g x)
    (h' : GeomAt md g' (x.withAz p q)) (hpq : p - q = x.p0 - x.pex) {y y' : Site}
    (hy : y = x ∧ y' = x.withAz p q ∨ y = x.swap ∧ y' = (x.withAz p q).swap) :
    g'.t0.val y'.env = g.t0.val y.env ∧ g'.tex.val y'.env = g.tex.val y.env ∧
    g'.p0.val y'.env = g.p0.val y.env + (p - x.p0) ∧ g'.pex.val y'.env = g.pex.val y.env + (p - x.p0) := by
  have yt0 : y'.t0 = y.t0 := by rcases hy with ⟨rfl, rfl⟩ | ⟨rfl, rfl⟩ <;> rfl
  have ytex : y'.tex = y.tex := by rcases hy with ⟨rfl, rfl⟩ | ⟨rfl, rfl⟩ <;> rfl
  have yp0 : y'.p0 = y.p0 + (p - x.p0) := by
    rcases hy with ⟨rfl, rfl⟩ | ⟨rfl, rfl⟩
    · show p = y.p0 + (p - y.p0); ring
    · show q = x.pex + (p - x.p0); linarith
  have ypex : y'.pex = y.pex + (p - x.p0) := by
    rcases hy with ⟨rfl, rfl⟩ | ⟨rfl, rfl⟩
    · show q = y.pex + (p - y.p0); linarith
    · show p = x.p0 + (p - x.p0); ring
  cases hm : md.mono with
  | true =>
    obtain ⟨-, -, a1, a2, a3, a4⟩ := h.mono hm
    obtain ⟨-, -, b1, b2, b3, b4⟩ := h'.mono hm
    have hp : g'.p0.val y'.env = g.p0.val y.env + (p - x.p0) := by
      rcases a4 with ⟨a4, a5⟩ | ⟨a4, a5⟩ <;> rcases b4 with ⟨b4, b5⟩ | ⟨b4, b5⟩
      · rw [a4, b4]
        show y'.env "phi_0" = y.env "phi_0" + _
        rw [y'.env_p0, y.env_p0, yp0]
      · rw [a5] at b5; cases b5
      · rw [a5] at b5; cases b5
      · rw [a4, b4]
        show p = x.p0 + (p - x.p0)
        ring
    refine ⟨?_, ?_, hp, ?_⟩
    · rw [a1, b1]
      show y'.env "theta_0" = y.env "theta_0"
      rw [y'.env_t0, y.env_t0, yt0]
    · rw [a2, b2]
      show y'.env "theta_0" = y.env "theta_0"
      rw [y'.env_t0, y.env_t0, yt0]
    · rw [a3, b3]; exact hp
  | false =>
    have a := h.bi hm
    have b := h'.bi hm
    refine ⟨?_, ?_, ?_, ?_⟩
    · have a := a .t0
      have b := b .t0
      simp only [Geom4.entry, AngN.symName] at a b
      rw [a, b]
      by_cases hn : AngN.t0 ∈ md.fixed
      · rw [if_pos hn, if_pos hn]; rfl
      · rw [if_neg hn, if_neg hn]
        show y'.env "theta_0" = y.env "theta_0"
        rw [y'.env_t0, y.env_t0, yt0]
    · have a := a .tex
      have b := b .tex
      simp only [Geom4.entry, AngN.symName] at a b
      rw [a, b]
      by_cases hn : AngN.tex ∈ md.fixed
      · rw [if_pos hn, if_pos hn]; rfl
      · rw [if_neg hn, if_neg hn]
        show y'.env "theta_ex" = y.env "theta_ex"
        rw [y'.env_tex, y.env_tex, ytex]
    · have a := a .p0
      have b := b .p0
      simp only [Geom4.entry, AngN.symName] at a b
      rw [a, b]
      by_cases hn : AngN.p0 ∈ md.fixed
      · rw [if_pos hn, if_pos hn]
        show p = x.p0 + (p - x.p0)
        ring
      · rw [if_neg hn, if_neg hn]
        show y'.env "phi_0" = y.env "phi_0" + _
        rw [y'.env_p0, y.env_p0, yp0]
    · have a := a .pex
      have b := b .pex
      simp only [Geom4.entry, AngN.symName] at a b
      rw [a, b]
      by_cases hn : AngN.pex ∈ md.fixed
      · rw [if_pos hn, if_pos hn]
        show q = x.pex + (p - x.p0)
        linarith
      · rw [if_neg hn, if_neg hn]
        show y'.env "phi_ex" = y.env "phi_ex" + _
        rw [y'.env_pex, y.env_pex, ypex]

/-- The interaction contribution depends on the azimuth angles only through their difference, for
every geometry and every choice of fixed angles. -/
theorem C29_interaction {c : Cfg} {md : Mode} {x : Site} {r r' : XR} {nV nS : ℕ}
    (hV : c.V.ncoefs = .ok (nV + 1)) (hS : c.SRF.ncoefs = .ok (nS + 1))
    (aV : c.V.Azimuthal x.env) (aS : c.SRF.Azimuthal x.env) (hx : x.Oblique)
    (hI : c.sig0 = true → x.I0 ≠ 0) {p q : ℝ} (hpq : p - q = x.p0 - x.pex)
    (h : ObservesAny c md x r) (h' : ObservesAny c md (x.withAz p q) r') : r = r' := by
  obtain ⟨g, hg, rfl⟩ := h.geom hV hS hx hI
  obtain ⟨g', hg', rfl⟩ := h'.geom hV hS ⟨hx.mu0, hx.mu0', hx.muEx, hx.muEx', hx.tau⟩ hI
  have key : ∀ y y' : Site, y.ρ = x.ρ → y'.ρ = y.ρ →
      (y = x ∧ y' = x.withAz p q ∨ y = x.swap ∧ y' = (x.withAz p q).swap) → ∀ μ τ,
      geomFint c.V c.SRF g' μ τ y'.env = geomFint c.V c.SRF g μ τ y.env := by
    intro y y' e1 e2 hy μ τ
    obtain ⟨a1, a2, a3, a4⟩ := hg.rotate hg' hpq hy
    unfold geomFint
    rw [a1, a2, a3, a4, add_right_comm]
    exact hemi_rotate (aV.congr e1) (aS.congr e1) e2
  have e1 := key x (x.withAz p q) rfl rfl (.inl ⟨rfl, rfl⟩) x.mu0 x.tau
  have e2 := key x.swap (x.withAz p q).swap rfl rfl (.inr ⟨rfl, rfl⟩) x.muEx x.tau
  have e : geomInteraction c.V c.SRF g' (x.withAz p q) = geomInteraction c.V c.SRF g x := by
    unfold geomInteraction
    show x.NormBRDF * (1 - x.bsf) * (x.I0 * x.mu0 * x.omega
      * (Real.exp (-x.tau / x.muEx) * geomFint c.V c.SRF g' x.mu0 x.tau (x.withAz p q).env
      + Real.exp (-x.tau / x.mu0) * geomFint c.V c.SRF g' x.muEx x.tau (x.withAz p q).swap.env)) = _
    rw [e1, e2]
  rw [e]
  rfl

/-- Monostatic results do not depend on `p_0`. -/
theorem C29_monostatic {c : Cfg} {F : List AngN} {x : Site} {r r' : XR} {nV nS : ℕ} {p : ℝ}
    (hm : x.pex = x.p0 + Real.pi) (hI : c.sig0 = true → x.I0 ≠ 0) (hx : x.Oblique)
    (aV : c.V.Azimuthal x.env) (aS : c.SRF.Azimuthal x.env) :
    (∀ f, c.SRF.ValueAt x f → ObservesM surface c ⟨true, F⟩ x r →
      ObservesM surface c ⟨true, F⟩ (x.withAz p (p + Real.pi)) r' → r = r') ∧
    (∀ f, c.V.ValueAt x f → ObservesM volume c ⟨true, F⟩ x r →
      ObservesM volume c ⟨true, F⟩ (x.withAz p (p + Real.pi)) r' → r = r') ∧
    (c.V.ncoefs = .ok (nV + 1) → c.SRF.ncoefs = .ok (nS + 1) → ObservesAny c ⟨true, F⟩ x r →
      ObservesAny c ⟨true, F⟩ (x.withAz p (p + Real.pi)) r' → r = r') := by
  have hpq : p - (p + Real.pi) = x.p0 - x.pex := by rw [hm]; ring
  refine ⟨fun f hf h h' => ?_, fun f hf h h' => ?_, fun hV hS h h' => ?_⟩
  · exact C29_surface aS hf hx.mu0.ne' hx.muEx.ne' hI hpq (.inl h.observes) (.inl h'.observes)
  · exact C29_volume aV hf ⟨hx.mu0.ne', hx.muEx.ne', (add_pos hx.mu0 hx.muEx).ne', hI⟩ hpq
      (.inl h.observes) (.inl h'.observes)
  · exact C29_interaction hV hS aV aS hx hI hpq h h'

theorem hgV_azimuthal (t : ℝ) (ρ : String → ℝ) : (hgV t).Azimuthal ρ :=
  .prim (by intro e he; simp [Kind.params] at he; subst he; intro n hn; cases hn)
    ⟨volA_noAngles,
      1, ⟨trivial, rfl⟩, ⟨trivial, rfl⟩⟩

theorem hgS_azimuthal (t : ℝ) (ρ : String → ℝ) : (hgS t).Azimuthal ρ :=
  .prim (by intro e he; simp [Kind.params] at he; subst he; intro n hn; cases hn)
    ⟨srfA_noAngles,
      1, ⟨trivial, rfl⟩, ⟨trivial, rfl⟩⟩

/-- Two monostatic evaluations with different azimuth angles; functions with `a[1] == a[2]`. -/
example : ∃ r r', ObservesAny ⟨hgV (1/4), hgS (1/3), true, true, true⟩ ⟨true, []⟩
      (witSite (Real.pi / 3) (Real.pi / 3) 0 Real.pi) r ∧
    ObservesAny ⟨hgV (1/4), hgS (1/3), true, true, true⟩ ⟨true, []⟩
      ((witSite (Real.pi / 3) (Real.pi / 3) 0 Real.pi).withAz 1 (1 + Real.pi)) r' ∧ r = r' := by
  obtain ⟨r, F, -, h2, -, h⟩ := wit_observed .sympy (1/4) (1/3) true true (mono := true) (fun _ => false)
    (t0 := Real.pi / 3) (tex := Real.pi / 3) (p0 := 0) (pex := Real.pi) fun _ => ⟨rfl, by simp⟩
  obtain ⟨r', F', -, h2', -, h'⟩ := wit_observed .sympy (1/4) (1/3) true true (mono := true) (fun _ => false)
    (t0 := Real.pi / 3) (tex := Real.pi / 3) (p0 := 1) (pex := 1 + Real.pi) fun _ => ⟨rfl, rfl⟩
  rw [h2 fun _ => rfl] at h
  rw [h2' fun _ => rfl] at h'
  have hπ := Real.pi_pos
  refine ⟨r, r', .inl h, .inl h', (C29_monostatic (by simp [witSite]) (by simp [witSite])
    (witSite_oblique (by positivity) (by linarith) (by positivity) (by linarith))
    (hgV_azimuthal _ _) (hgS_azimuthal _ _)).2.2 (hgV_ncoefs _) (hgS_ncoefs _) (.inl h) (.inl h')⟩

end

end RT1
