import Verif.Lemmas.Trunc

/-!
# The interaction contribution with fixed angles (C75, C78)
-/

namespace RT1

noncomputable section
open Classical Filter Topology

/-- `F_int` of the expansions along the path of `y` with the directions of `z`. -/
def Site.FintPath (V S : Scatter) (δ : ℝ) (y z : Site) : ℝ :=
  hemi y.mu0 y.tau fun θ φ => V.expVal y.env z.t0 (Real.pi - θ) z.p0 φ * S.expVal y.env θ z.tex φ (z.pex + δ)

theorem Growing.fintPath {V S : ℕ → Scatter} {x : Site} {P F : Bidir} (hV : Growing V x P) (hS : Growing S x F) {y : Site}
    (hy : y.ρ = x.ρ) (hτ : 0 ≤ y.tau) (hμ : 0 < y.mu0) (δ : ℝ) (z : Site) :
    Tendsto (fun N => Site.FintPath (V N) (S N) δ y z) atTop (𝓝 (Site.FintDirs P F δ y z)) := by
  obtain ⟨K, hK⟩ := hV.bound
  obtain ⟨L, hL⟩ := hS.bound
  refine Energy.hemi_tendsto (K := K * L) hτ hμ (fun N => ?_) (fun N s φ => ?_) fun s φ => ?_
  · exact ((hV.cont N y hy).comp (by fun_prop) (by fun_prop) (by fun_prop) (by fun_prop)).mul
      ((hS.cont N y hy).comp (by fun_prop) (by fun_prop) (by fun_prop) (by fun_prop))
  · rw [abs_mul]
    exact mul_le_mul (hK N y hy _ _ _ _) (hL N y hy _ _ _ _) (abs_nonneg _) ((abs_nonneg _).trans (hK N y hy 0 0 0 0))
  · exact (hV.lim y hy _ _ _ _).mul (hS.lim y hy _ _ _ _)

theorem Near.fintPath {V S : Scatter} {x : Site} {P F : Bidir} {eV MV eS MS : ℝ} (hV : Near V x P eV MV) (hS : Near S x F eS MS) {y : Site}
    (hy : y.ρ = x.ρ) (hτ : 0 ≤ y.tau) (hμ : 0 < y.mu0) (δ : ℝ) (z : Site) :
    |Site.FintPath V S δ y z - Site.FintDirs P F δ y z| ≤ 2 * Real.pi * (1 - Real.exp (-y.tau / y.mu0)) * (eV * (MS + eS) + MV * eS) := by
  refine Energy.hemi_sub_le (B := (MV + eV) * (MS + eS)) (B' := MV * MS) hτ hμ ?_ ?_ (fun s φ => ?_) (fun s φ => ?_) fun s φ => ?_
  · exact (((hV.contE y hy).comp (by fun_prop) (by fun_prop) (by fun_prop) (by fun_prop)).mul
      ((hS.contE y hy).comp (by fun_prop) (by fun_prop) (by fun_prop) (by fun_prop))).measurable
  · exact ((hV.cont.comp (by fun_prop) (by fun_prop) (by fun_prop) (by fun_prop)).mul
      (hS.cont.comp (by fun_prop) (by fun_prop) (by fun_prop) (by fun_prop))).measurable
  · rw [abs_mul]
    exact mul_le_mul (hV.exp_le hy _ _ _ _) (hS.exp_le hy _ _ _ _) (abs_nonneg _) (by linarith [hV.nonneg.1, hV.nonneg.2])
  · rw [abs_mul]
    exact mul_le_mul (hV.bound _ _ _ _) (hS.bound _ _ _ _) (abs_nonneg _) hV.nonneg.2
  · generalize hA : V.expVal y.env z.t0 (Real.pi - s) z.p0 φ = A
    generalize hB : S.expVal y.env s z.tex φ (z.pex + δ) = B
    generalize hC : P z.t0 (Real.pi - s) z.p0 φ = C
    generalize hD : F s z.tex φ (z.pex + δ) = D
    have e : A * B - C * D = (A - C) * B + C * (B - D) := by ring
    rw [e]
    refine (abs_add_le _ _).trans ?_
    rw [abs_mul, abs_mul]
    have h1 : |A - C| ≤ eV := by rw [← hA, ← hC]; exact hV.close y hy _ _ _ _
    have h2 : |B| ≤ MS + eS := by rw [← hB]; exact hS.exp_le hy _ _ _ _
    have h3 : |C| ≤ MV := by rw [← hC]; exact hV.bound _ _ _ _
    have h4 : |B - D| ≤ eS := by rw [← hB, ← hD]; exact hS.close y hy _ _ _ _
    exact add_le_add (mul_le_mul h1 h2 (abs_nonneg _) hV.nonneg.1) (mul_le_mul h3 h4 (abs_nonneg _) hV.nonneg.2)

/-- Bistatic geometry: fixed angles keep their values along the reverse path, the surface expansion is
evaluated at the opposite exit azimuth. -/
theorem geomInteraction_pinned {md : Mode} {g : Geom4} {x : Site} (h : GeomAt md g x) (hm : md.mono = false) (V S : Scatter) :
    geomInteraction V S g x = x.NormBRDF * (1 - x.bsf) * x.I0 * x.mu0 * x.omega *
      (Real.exp (-x.tau / x.muEx) * Site.FintPath V S Real.pi x (Site.pinned md.fixed x x)
        + Real.exp (-x.tau / x.mu0) * Site.FintPath V S Real.pi x.swap (Site.pinned md.fixed x x.swap)) := by
  have hb := h.bi hm
  have e : ∀ y : Site, geomFint V S g y.mu0 y.tau y.env = Site.FintPath V S Real.pi y (Site.pinned md.fixed x y) := by
    intro y
    have b1 : g.t0.val y.env = (Site.pinned md.fixed x y).t0 := by
      rw [show g.t0 = _ from hb .t0]; unfold Site.pinned; dsimp only; split_ifs
      · rfl
      · exact y.env_t0
    have b2 : g.tex.val y.env = (Site.pinned md.fixed x y).tex := by
      rw [show g.tex = _ from hb .tex]; unfold Site.pinned; dsimp only; split_ifs
      · rfl
      · exact y.env_tex
    have b3 : g.p0.val y.env = (Site.pinned md.fixed x y).p0 := by
      rw [show g.p0 = _ from hb .p0]; unfold Site.pinned; dsimp only; split_ifs
      · rfl
      · exact y.env_p0
    have b4 : g.pex.val y.env = (Site.pinned md.fixed x y).pex := by
      rw [show g.pex = _ from hb .pex]; unfold Site.pinned; dsimp only; split_ifs
      · rfl
      · exact y.env_pex
    unfold geomFint Site.FintPath
    refine hemi_congr fun θ φ => ?_
    rw [b1, b2, b3, b4, expVal_updown]
  have e1 := e x
  have e2 : geomFint V S g x.muEx x.tau x.swap.env = _ := e x.swap
  unfold geomInteraction
  rw [e1, e2]
  ring

theorem Site.pinned_congr {l l' : List AngN} (h : ∀ n, n ∈ l ↔ n ∈ l') (x y : Site) : Site.pinned l x y = Site.pinned l' x y := by
  unfold Site.pinned
  simp only [h]

theorem Growing.pinned {V S : ℕ → Scatter} {x : Site} {P F : Bidir} (hV : Growing V x P) (hS : Growing S x F)
    (hx : x.Oblique) {md : ℕ → Mode} {g : ℕ → Geom4} (hg : ∀ N, GeomAt (md N) (g N) x) (hm : ∀ N, (md N).mono = false)
    {fixed : List AngN} (hf : ∀ N n, n ∈ (md N).fixed ↔ n ∈ fixed) :
    Tendsto (fun N => geomInteraction (V N) (S N) (g N) x) atTop (𝓝 (x.interactionPinned fixed P F Real.pi)) := by
  have e : (fun N => geomInteraction (V N) (S N) (g N) x) = fun N => x.NormBRDF * (1 - x.bsf) * x.I0 * x.mu0 * x.omega *
      (Real.exp (-x.tau / x.muEx) * Site.FintPath (V N) (S N) Real.pi x (Site.pinned fixed x x)
        + Real.exp (-x.tau / x.mu0) * Site.FintPath (V N) (S N) Real.pi x.swap (Site.pinned fixed x x.swap)) := funext fun N => by
    rw [geomInteraction_pinned (hg N) (hm N), Site.pinned_congr (hf N), Site.pinned_congr (hf N)]
  rw [e]
  exact ((((hV.fintPath hS rfl hx.tau.le hx.mu0 _ _).const_mul _).add
    ((hV.fintPath hS (y := x.swap) rfl hx.tau.le hx.muEx _ _).const_mul _))).const_mul _

theorem Near.pinned {V S : Scatter} {x : Site} {P F : Bidir} {eV MV eS MS : ℝ} (hV : Near V x P eV MV) (hS : Near S x F eS MS)
    (hx : x.Oblique) {md : Mode} {g : Geom4} (hg : GeomAt md g x) (hm : md.mono = false) :
    |geomInteraction V S g x - x.interactionPinned md.fixed P F Real.pi| ≤ x.coupling * (eV * (MS + eS) + MV * eS) := by
  rw [geomInteraction_pinned hg hm]
  exact pre_le hx.mu0.le (Real.exp_pos _).le (Real.exp_pos _).le (hV.fintPath hS rfl hx.tau.le hx.mu0 _ _)
    (hV.fintPath hS (y := x.swap) rfl hx.tau.le hx.muEx _ _)

/-- Without fixed angles the directions of the reverse path are those of the swapped site. -/
theorem Site.interactionPinned_nil (P F : Bidir) (δ : ℝ) (x : Site) : x.interactionPinned [] P F δ = x.interactionOf P F δ := by
  unfold Site.interactionPinned Site.interactionOf Site.FintDirs Site.FintOf Site.pinned
  simp

end

end RT1
