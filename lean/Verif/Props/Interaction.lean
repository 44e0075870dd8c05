import Verif.Lemmas.IntWit
import Verif.Lemmas.Unique
import Verif.Lemmas.IntRow

/-!
# The interaction contribution

Coefficients, closed forms, and the value of an observed interaction contribution.
`ObservesP c md x r` says that in some state reached by valid calls a successful
`interaction(...)` call returned `r` at an index where the getters report the values `x`; the
object has the settings `c` and the mode `md`.
-/

namespace RT1

noncomputable section
open Classical MeasureTheory

/-! ## C33, C34, C35: coefficients and closed forms -/

/-- The coefficients contain no cosine or sine of the intermediate direction, and they solve
the defining equation, for every value `ρ` of the symbols and every zenith angle `θ`. -/
theorem C33_fn_coefficients {V SRF : Scatter} {g : Geom4} {fs : List P}
    (h : fnCoefs V SRF g = .ok fs) :
    (∀ p ∈ fs, ∃ k : K, p = MvPolynomial.C k) ∧
    ∀ (ρ : String → ℝ) (θ : ℝ),
      ∑ n ∈ Finset.range fs.length, (fs.getD n 0).coeff 0 ρ * Real.cos θ ^ n =
        ∫ φ in (0 : ℝ)..(2 * Real.pi), V.expVal ρ (Real.pi - g.t0.val ρ) θ (g.p0.val ρ) φ
          * SRF.expVal ρ θ (g.tex.val ρ) φ (g.pex.val ρ + Real.pi) := by
  obtain ⟨nS, nV, c, -, -, rfl, -, s, v, hs, hv, hint⟩ := fnCoefs_spec h
  refine ⟨fun p hp => ?_, fun ρ θ => ?_⟩
  · obtain ⟨n, -, rfl⟩ := List.mem_map.mp hp
    exact ⟨_, rfl⟩
  · rw [List.length_map, List.length_range]
    rw [intervalIntegral.integral_congr (g := fun φ => evP ρ θ φ v * evP ρ θ φ s) (fun φ _ => by
      rw [Scatter.expVal_of_ok (vol_value hv ρ θ φ), Scatter.expVal_of_ok (srf_value hs ρ θ φ)]),
      ← hint]
    refine Finset.sum_congr rfl fun n hn => ?_
    have hn' : n < nFn nS nV := Finset.mem_range.mp hn
    have hl : n < ((List.range (nFn nS nV)).map fun n => (MvPolynomial.C (c n) : P)).length := by
      simpa using hn'
    rw [List.getD, List.getElem?_eq_getElem hl, List.getElem_map, List.getElem_range]
    simp

/-- The same for the coefficients `R.fn` of an object, in every state reached by valid calls. -/
theorem C33_fn_getter {w : World} (hw : ReachableP w) {id : ℕ} {o : Obj} (ho : w.objs id = some o)
    {fs : List P} (h : (Self.fn id w).1 = .ok (some fs)) (ρ : String → ℝ) (θ : ℝ) :
    ∑ n ∈ Finset.range fs.length, (fs.getD n 0).coeff 0 ρ * Real.cos θ ^ n =
        ∫ φ in (0 : ℝ)..(2 * Real.pi),
          o.V.expVal ρ (Real.pi - o.geom.t0.val ρ) θ (o.geom.p0.val ρ) φ
          * o.SRF.expVal ρ θ (o.geom.tex.val ρ) φ (o.geom.pex.val ρ + Real.pi) := by
  have hinv := hw.reachable.inv
  have hd : DuringE true _ id o _ := During.init hinv ho trivial
  rw [(Refines.fn _ hd).1] at h
  rcases Fresh.fn_source (hinv.obj rfl _ _ ho) h with h | ⟨-, h⟩
  · rw [(hw.geomOK ho).fnI] at h; cases h
  · exact (C33_fn_coefficients h).2 ρ θ

example (t s : ℝ) (g : Geom4) : ∃ fs, fnCoefs (hgV t) (hgS s) g = .ok fs := hg_fnCoefs t s g

/-- `_cosintegral(i)` is the mean of `cos^i` over a full period. -/
theorem C34_cosine_powers (i : ℕ) :
    cosintegral i = 1 / (2 * Real.pi) * ∫ φ in (0 : ℝ)..(2 * Real.pi), Real.cos φ ^ i := by
  have := Real.pi_ne_zero
  rw [integral_cos_pow_period]
  field_simp

theorem polar_theta {μ τ : ℝ} (hμ : 0 < μ) (hτ : 0 ≤ τ) (n : ℕ) :
    polar μ τ n = ∫ θ in (0 : ℝ)..(Real.pi / 2), Real.cos θ / (μ - Real.cos θ)
      * (Real.exp (-τ / μ) - Real.exp (-τ / Real.cos θ)) * Real.cos θ ^ n * Real.sin θ := by
  have hπ := Real.pi_pos
  have h := hemi_eq (q := fun θ _ => 1 / (2 * Real.pi) * Real.cos θ ^ n) (L := n + 1)
    (c := fun m => if m = n then 1 else 0) hμ hτ (fun θ => by
      rw [Finset.sum_eq_single n (fun m _ hm => by simp [hm]) (fun h => absurd (by simp) h),
        intervalIntegral.integral_const]
      simp
      field_simp)
  rw [Finset.sum_eq_single n (fun m _ hm => by simp [hm]) (fun h => absurd (by simp) h)] at h
  simp only [if_true, one_mul] at h
  rw [← h]
  unfold hemi
  refine intervalIntegral.integral_congr fun θ _ => ?_
  simp only
  rw [intervalIntegral.integral_const]
  simp only [sub_zero, smul_eq_mul]
  field_simp

/-- The product of the cosine powers and the S2-functions is the polar integral, for every
power, every optical depth and every direction between nadir and horizon. -/
theorem C35_polar_integral {N : ℕ} {mu tau mx s2 z : Arr} (h1 : Acc.muPowers N mu = .ok mx)
    (h2 : Acc.S2mu N mu tau = .ok s2) (h3 : Arr.mul mx s2 = .ok z)
    (ht : tau.shape.length ≤ mu.shape.length) {idx : List ℕ} (hidx : idx.length = mu.shape.length)
    {n : ℕ} (hn : n < N) {μ τ : ℝ} (e1 : mu.at' idx = XR.fin μ) (e2 : tau.at' idx = XR.fin τ)
    (h0 : 0 < μ) (hlt : μ < 1) (hτ : 0 < τ) :
    z.at' (idx ++ [n]) = XR.fin (∫ θ in (0 : ℝ)..(Real.pi / 2), Real.cos θ / (μ - Real.cos θ)
      * (Real.exp (-τ / μ) - Real.exp (-τ / Real.cos θ)) * Real.cos θ ^ n * Real.sin θ) := by
  have hN : 1 ≤ N := by omega
  obtain ⟨-, hp⟩ := muPowers_at hN rfl h1
  obtain ⟨-, hs⟩ := S2mu_at hN rfl ht h2
  have := PW.map2 (f := XR.mul) (a := mx) (b := s2) (idx := idx ++ [n]) (hp idx n hidx (.inr hn))
    (hs idx n hidx (.inr hn)) z h3
  rw [this, e1, e2, ← polar_theta h0 hτ.le, polar_closed h0 hlt hτ, ← s2X_fin h0 hlt hτ]
  have hn0 : (if N = 1 then 0 else n) = n := by
    by_cases h : N = 1
    · rw [if_pos h]; omega
    · rw [if_neg h]
  rw [hn0]
  rfl

example : ∃ mx s2 z, Acc.muPowers 3 (Arr.lit (1/2)) = .ok mx ∧
    Acc.S2mu 3 (Arr.lit (1/2)) (Arr.lit 1) = .ok s2 ∧ Arr.mul mx s2 = .ok z := ⟨_, _, _, rfl, rfl, rfl⟩

/-! ## C36: the value of the interaction contribution -/

/-- Monostatic: the interaction contribution is the documented one, whatever happened before,
with or without fixed azimuth, in all units. -/
theorem C36_monostatic {c : Cfg} {md : Mode} {x : Site} {r : XR} (h : ObservesP c md x r)
    {nV nS : ℕ} (hV : c.V.ncoefs = .ok (nV + 1)) (hS : c.SRF.ncoefs = .ok (nS + 1))
    (hm : md.mono = true) (hx : x.Oblique) (hI : c.sig0 = true → x.I0 ≠ 0) :
    r = x.inUnits c.sig0 c.dB (x.NormBRDF * (1 - x.bsf) * x.I0 * Real.cos x.t0 * x.omega
      * (Real.exp (-x.tau / Real.cos x.tex) * x.Fint c.V c.SRF
        + Real.exp (-x.tau / Real.cos x.t0) * x.swap.Fint c.V c.SRF)) := by
  obtain ⟨g, hg, rfl⟩ := h.geom hV hS hx hI
  rw [geomInteraction_mono hg hm]
  rfl

/-- Bistatic without fixed angles: the contribution is the one with the exit azimuth of the
surface expansion shifted by pi, hence the documented one if the surface expansion does not
change when its exit azimuth is shifted by pi.  (The full claim C36 asks for the documented
contribution for every surface function; that is false, see `C36_bistatic_counterexample`.
Bistatic modes with fixed angles are treated in C32.) -/
theorem C36_bistatic_partial {c : Cfg} {md : Mode} {x : Site} {r : XR} (h : ObservesP c md x r)
    {nV nS : ℕ} (hV : c.V.ncoefs = .ok (nV + 1)) (hS : c.SRF.ncoefs = .ok (nS + 1))
    (hm : md.mono = false) (hf : md.fixed = []) (hx : x.Oblique) (hI : c.sig0 = true → x.I0 ≠ 0) :
    r = x.inUnits c.sig0 c.dB (x.interactionAz c.V c.SRF Real.pi) ∧
    ((∀ ρ a b p q, c.SRF.expVal ρ a b p (q + Real.pi) = c.SRF.expVal ρ a b p q) →
      r = x.inUnits c.sig0 c.dB (x.interaction c.V c.SRF)) := by
  obtain ⟨g, hg, rfl⟩ := h.geom hV hS hx hI
  rw [geomInteraction_bi hg hm hf]
  refine ⟨rfl, fun hper => ?_⟩
  have e : ∀ y : Site, y.FintAz c.V c.SRF Real.pi = y.Fint c.V c.SRF := by
    intro y
    unfold Site.FintAz Site.Fint
    exact hemi_congr fun θ φ => by rw [hper]
  unfold Site.interactionAz Site.interaction
  rw [e, e]

/-! ### witnesses -/

/-- A site whose parameters are given by name. -/
def witSite (t0 tex p0 pex : ℝ) : Site where
  t0 := t0
  tex := tex
  p0 := p0
  pex := pex
  I0 := 1
  tau := 1
  omega := 1 / 2
  NormBRDF := 1
  bsf := 0
  ρ := fun s => if s = "tau" then 1 else if s = "omega" then 1 / 2 else if s = "NormBRDF" then 1 else 0

theorem witSite_reports (t0 tex p0 pex : ℝ) : (witSite t0 tex p0 pex).Reports [] := by
  refine ⟨?_, ?_, ?_, ?_, by simp⟩ <;> simp [witSite]

theorem cos_third : Real.cos (Real.pi / 3) = 1 / 2 := Real.cos_pi_div_three

theorem witSite_oblique {t0 tex p0 pex : ℝ} (h0 : 0 < t0) (h0' : t0 < Real.pi / 2) (h1 : 0 < tex)
    (h1' : tex < Real.pi / 2) : (witSite t0 tex p0 pex).Oblique := by
  have hπ := Real.pi_pos
  have lt1 : ∀ t, 0 < t → t < Real.pi / 2 → Real.cos t < 1 := fun t a b => by
    rw [← Real.cos_zero]
    exact Real.cos_lt_cos_of_nonneg_of_le_pi_div_two le_rfl b.le a
  exact ⟨Real.cos_pos_of_mem_Ioo ⟨by show -(Real.pi / 2) < t0; linarith, h0'⟩, lt1 _ h0 h0',
    Real.cos_pos_of_mem_Ioo ⟨by show -(Real.pi / 2) < tex; linarith, h1'⟩, lt1 _ h1 h1', by simp [witSite]⟩

/-- `interaction()` returns a value at every witness site, monostatic or bistatic. -/
theorem wit_observed (b : Backend) (t s : ℝ) (sg d : Bool) {mono : Bool} (fx : AngN → Bool)
    {t0 tex p0 pex : ℝ} (hm : mono = true → tex = t0 ∧ pex = p0 + Real.pi) :
    ∃ r F, (∀ n, n ∈ F ↔ fx n = true ∧ (mono = true → n = .p0)) ∧
      ((∀ n, fx n = false) → F = []) ∧
      (mono = true → fx .p0 = true → F = [.p0]) ∧
      ObservesP ⟨hgV t, hgS s, true, sg, d⟩ ⟨mono, F⟩ (witSite t0 tex p0 pex) r :=
  scalar_interaction b sg d fx (l := []) hm (witSite_reports t0 tex p0 pex)
    (fun k hk => by simpa using hgV_free t k hk) (fun k hk => by simpa using hgS_free s k hk)
    (hg_fnCoefs t s) ⟨1, hgV_ncoefs t⟩ ⟨1, hgS_ncoefs s⟩

example : ∃ r, ObservesP ⟨hgV (1/4), hgS (1/3), true, true, true⟩ ⟨true, []⟩
      (witSite (Real.pi / 3) (Real.pi / 3) 0 Real.pi) r ∧
    (witSite (Real.pi / 3) (Real.pi / 3) 0 Real.pi).Oblique := by
  obtain ⟨r, F, -, h2, -, h⟩ := wit_observed .sympy (1/4) (1/3) true true (mono := true) (fun _ => false)
    (t0 := Real.pi / 3) (tex := Real.pi / 3) (p0 := 0) (pex := Real.pi) fun _ => ⟨rfl, by simp⟩
  rw [h2 fun _ => rfl] at h
  have := Real.pi_pos
  exact ⟨r, h, witSite_oblique (by positivity) (by linarith) (by positivity) (by linarith)⟩

theorem hg_FintAz (t s δ : ℝ) {y : Site} (h0 : 0 < y.mu0) (h1 : 0 ≤ y.tau) :
    y.FintAz (hgV t) (hgS s) δ = 1 / (4 * Real.pi) * (
        (2 + 9 * t * s * (Real.sin y.t0 * Real.sin y.tex * Real.cos (y.p0 - (y.pex + δ)))) * polar y.mu0 y.tau 0
        + 6 * (t * Real.cos y.t0 + s * Real.cos y.tex) * polar y.mu0 y.tau 1
        + (18 * t * s * (Real.cos y.t0 * Real.cos y.tex)
          - 9 * t * s * (Real.sin y.t0 * Real.sin y.tex * Real.cos (y.p0 - (y.pex + δ)))) * polar y.mu0 y.tau 2) :=
  hg_hemi h0 h1 y.env y.t0 y.tex y.p0 (y.pex + δ)

/-- The interaction of the backscattering direction with the shifted exit azimuth differs from
the documented one. -/
theorem wit_shift {t s : ℝ} (ht : 0 < t) (hs : 0 < s) :
    (witSite (Real.pi / 3) (Real.pi / 3) 0 Real.pi).interactionAz (hgV t) (hgS s) Real.pi
      > (witSite (Real.pi / 3) (Real.pi / 3) 0 Real.pi).interaction (hgV t) (hgS s) := by
  have hπ := Real.pi_pos
  set x := witSite (Real.pi / 3) (Real.pi / 3) 0 Real.pi with hx
  have m0 : x.mu0 = 1 / 2 := cos_third
  have m1 : x.muEx = 1 / 2 := cos_third
  have hp := polar_lt (μ := 1 / 2) (τ := 1) (by norm_num) one_pos
  have hs2 : Real.sin (Real.pi / 3) * Real.sin (Real.pi / 3) = 3 / 4 := by
    have := Real.sin_sq_add_cos_sq (Real.pi / 3)
    rw [cos_third] at this
    linarith
  have c1 : Real.cos (0 - (Real.pi + Real.pi)) = 1 := by
    rw [show (0 - (Real.pi + Real.pi)) = -(2 * Real.pi) by ring, Real.cos_neg, Real.cos_two_pi]
  have c2 : Real.cos (Real.pi - (0 + Real.pi)) = 1 := by simp
  have c3 : Real.cos (0 - (Real.pi + 0)) = -1 := by simp
  have c4 : Real.cos (Real.pi - (0 + 0)) = -1 := by simp
  rw [← Site.interactionAz_zero, gt_iff_lt]
  have f : ∀ δ, x.FintAz (hgV t) (hgS s) δ = 1 / (4 * Real.pi) * (
        (2 + 9 * t * s * (3 / 4 * Real.cos (0 - (Real.pi + δ)))) * polar (1 / 2) 1 0
        + 6 * (t * (1 / 2) + s * (1 / 2)) * polar (1 / 2) 1 1
        + (18 * t * s * (1 / 2 * (1 / 2)) - 9 * t * s * (3 / 4 * Real.cos (0 - (Real.pi + δ)))) * polar (1 / 2) 1 2) := by
    intro δ
    rw [hg_FintAz t s δ (by rw [m0]; norm_num) (by simp [hx, witSite]), m0]
    simp only [hx, witSite]
    rw [hs2, cos_third]
  have f' : ∀ δ, x.swap.FintAz (hgV t) (hgS s) δ = 1 / (4 * Real.pi) * (
        (2 + 9 * t * s * (3 / 4 * Real.cos (Real.pi - (0 + δ)))) * polar (1 / 2) 1 0
        + 6 * (t * (1 / 2) + s * (1 / 2)) * polar (1 / 2) 1 1
        + (18 * t * s * (1 / 2 * (1 / 2)) - 9 * t * s * (3 / 4 * Real.cos (Real.pi - (0 + δ)))) * polar (1 / 2) 1 2) := by
    intro δ
    have e : x.swap.mu0 = 1 / 2 := cos_third
    rw [hg_FintAz t s δ (by rw [e]; norm_num) (by simp [hx, witSite, Site.swap]), e]
    simp only [hx, witSite, Site.swap]
    rw [hs2, cos_third]
  unfold Site.interactionAz
  rw [f, f, f', f', m0, m1, c1, c2, c3, c4]
  have hE := Real.exp_pos (-x.tau / (1 / 2))
  have hts : 0 < t * s := mul_pos ht hs
  have hA : x.NormBRDF * (1 - x.bsf) * x.I0 * (1 / 2) * x.omega = 1 / 4 := by
    simp [hx, witSite]; norm_num
  rw [hA]
  have : 0 < 1 / (4 * Real.pi) := by positivity
  nlinarith [mul_pos (mul_pos (mul_pos hts this) hE) (sub_pos.mpr hp)]

/-- C36 is false for bistatic objects: in the backscattering direction the returned value is
not the documented one. -/
theorem C36_bistatic_counterexample : ∃ c x r, ObservesP c ⟨false, []⟩ x r ∧ x.Oblique ∧
    c.sig0 = false ∧ c.dB = false ∧ r ≠ XR.fin (x.interaction c.V c.SRF) := by
  obtain ⟨r, F, -, h2, -, h⟩ := wit_observed .sympy (1/4) (1/3) false false (mono := false) (fun _ => false)
    (t0 := Real.pi / 3) (tex := Real.pi / 3) (p0 := 0) (pex := Real.pi) fun h => Bool.noConfusion h
  rw [h2 fun _ => rfl] at h
  have hπ := Real.pi_pos
  have hx : (witSite (Real.pi / 3) (Real.pi / 3) 0 Real.pi).Oblique :=
    witSite_oblique (by positivity) (by linarith) (by positivity) (by linarith)
  refine ⟨_, _, r, h, hx, rfl, rfl, ?_⟩
  rw [(C36_bistatic_partial h (hgV_ncoefs _) (hgS_ncoefs _) rfl rfl hx (fun h => Bool.noConfusion h)).1]
  intro e
  simp only [Site.inUnits, Bool.false_eq_true, if_false] at e
  exact absurd (XR.fin.inj e) (wit_shift (by norm_num) (by norm_num)).ne'

/-! ## C31: monostatic as special case of bistatic -/

/-- Surface and volume do not depend on the mode: two objects (or one object at two times) that
report the same angles, parameters and intensity and have the same settings return the same
value, whatever their modes.  (The full claim C31 includes the interaction contribution, for
which it is false, see `C31_interaction_counterexample`.) -/
theorem C31_mono_bistatic_partial {c : Cfg} {md md' : Mode} {x : Site} {r r' : XR} :
    (ObservesM surface c md x r → ObservesM surface c md' x r' → r = r') ∧
    (ObservesM volume c md x r → ObservesM volume c md' x r' → r = r') :=
  ⟨fun h h' => h.observes.surface_unique h'.observes, fun h h' => h.observes.volume_unique h'.observes⟩

example : ∃ r r', ObservesM surface ⟨hgV (1/4), hgS (1/3), true, true, true⟩ ⟨true, []⟩
      (witSite (Real.pi / 3) (Real.pi / 3) 0 Real.pi) r ∧
    ObservesM surface ⟨hgV (1/4), hgS (1/3), true, true, true⟩ ⟨false, []⟩
      (witSite (Real.pi / 3) (Real.pi / 3) 0 Real.pi) r' := by
  obtain ⟨F, -, h2, -, ⟨r, h⟩, -⟩ := scalar_surface_volume .sympy (V := hgV (1/4)) (SRF := hgS (1/3)) true true true
    (mono := true) (fun _ => false) (l := []) (fun _ => ⟨rfl, by simp [witSite]⟩)
    (witSite_reports (Real.pi / 3) (Real.pi / 3) 0 Real.pi)
    (fun k hk => by simpa using hgV_free _ k hk) (fun k hk => by simpa using hgS_free _ k hk)
  obtain ⟨F', -, h2', -, ⟨r', h'⟩, -⟩ := scalar_surface_volume .sympy (V := hgV (1/4)) (SRF := hgS (1/3)) true true true
    (mono := false) (fun _ => false) (l := []) (fun h => Bool.noConfusion h)
    (witSite_reports (Real.pi / 3) (Real.pi / 3) 0 Real.pi)
    (fun k hk => by simpa using hgV_free _ k hk) (fun k hk => by simpa using hgS_free _ k hk)
  rw [h2 fun _ => rfl] at h
  rw [h2' fun _ => rfl] at h'
  exact ⟨r, r', h, h'⟩

/-- If the surface expansion does not change when its exit azimuth is shifted by pi, the
interaction contribution is the same in both modes, too. -/
theorem C31_interaction_partial {c : Cfg} {md md' : Mode} {x : Site} {r r' : XR} {nV nS : ℕ}
    (hV : c.V.ncoefs = .ok (nV + 1)) (hS : c.SRF.ncoefs = .ok (nS + 1))
    (hx : x.Oblique) (hI : c.sig0 = true → x.I0 ≠ 0)
    (hper : ∀ ρ a b p q, c.SRF.expVal ρ a b p (q + Real.pi) = c.SRF.expVal ρ a b p q)
    (hm : md.mono = true) (hm' : md'.mono = false) (hf : md'.fixed = [])
    (h : ObservesP c md x r) (h' : ObservesP c md' x r') : r = r' := by
  rw [(C36_bistatic_partial h' hV hS hm' hf hx hI).2 hper, C36_monostatic h hV hS hm hx hI]
  rfl

/-- Interaction: the monostatic and the bistatic object report the same angles and parameters
but return different values. -/
theorem C31_interaction_counterexample : ∃ c x r r', ObservesP c ⟨true, []⟩ x r ∧
    ObservesP c ⟨false, []⟩ x r' ∧ x.Oblique ∧ r ≠ r' := by
  obtain ⟨r', F', -, h2', -, h'⟩ := wit_observed .sympy (1/4) (1/3) false false (mono := false) (fun _ => false)
    (t0 := Real.pi / 3) (tex := Real.pi / 3) (p0 := 0) (pex := Real.pi) fun h => Bool.noConfusion h
  rw [h2' fun _ => rfl] at h'
  obtain ⟨r, F, -, h2, -, h⟩ := wit_observed .sympy (1/4) (1/3) false false (mono := true) (fun _ => false)
    (t0 := Real.pi / 3) (tex := Real.pi / 3) (p0 := 0) (pex := Real.pi) fun _ => ⟨rfl, by simp⟩
  rw [h2 fun _ => rfl] at h
  have hπ := Real.pi_pos
  have hx : (witSite (Real.pi / 3) (Real.pi / 3) 0 Real.pi).Oblique :=
    witSite_oblique (by positivity) (by linarith) (by positivity) (by linarith)
  refine ⟨_, _, r, r', h, h', hx, ?_⟩
  rw [(C36_bistatic_partial h' (hgV_ncoefs _) (hgS_ncoefs _) rfl rfl hx (fun h => Bool.noConfusion h)).1,
    C36_monostatic h (hgV_ncoefs _) (hgS_ncoefs _) rfl hx (fun h => Bool.noConfusion h)]
  intro e
  simp only [Site.inUnits, Bool.false_eq_true, if_false] at e
  exact absurd (XR.fin.inj e) (wit_shift (by norm_num) (by norm_num)).ne

/-! ## C32: fixed angles -/

/-- Surface and volume do not depend on which angles are fixed; the interaction contribution of
a monostatic object does not depend on whether the azimuth is fixed.  (The full claim C32
includes bistatic objects, for which it is false, see `C32_bistatic_counterexample`.) -/
theorem C32_fixed_angles_partial {c : Cfg} {x : Site} {r r' : XR} {F F' : List AngN} {m : Bool} :
    (ObservesM surface c ⟨m, F⟩ x r → ObservesM surface c ⟨m, F'⟩ x r' → r = r') ∧
    (ObservesM volume c ⟨m, F⟩ x r → ObservesM volume c ⟨m, F'⟩ x r' → r = r') ∧
    (m = true → (∃ n, c.V.ncoefs = .ok (n + 1)) → (∃ n, c.SRF.ncoefs = .ok (n + 1)) → x.Oblique →
      (c.sig0 = true → x.I0 ≠ 0) → ObservesP c ⟨m, F⟩ x r → ObservesP c ⟨m, F'⟩ x r' → r = r') := by
  refine ⟨fun h h' => h.observes.surface_unique h'.observes,
    fun h h' => h.observes.volume_unique h'.observes, ?_⟩
  rintro rfl ⟨nV, hV⟩ ⟨nS, hS⟩ hx hI h h'
  rw [C36_monostatic h hV hS rfl hx hI, C36_monostatic h' hV hS rfl hx hI]

example : ∃ r r', ObservesP ⟨hgV (1/4), hgS (1/3), true, true, true⟩ ⟨true, []⟩
      (witSite (Real.pi / 3) (Real.pi / 3) 1 (1 + Real.pi)) r ∧
    ObservesP ⟨hgV (1/4), hgS (1/3), true, true, true⟩ ⟨true, [.p0]⟩
      (witSite (Real.pi / 3) (Real.pi / 3) 1 (1 + Real.pi)) r' := by
  obtain ⟨r, F, -, h2, -, h⟩ := wit_observed .sympy (1/4) (1/3) true true (mono := true) (fun _ => false)
    (t0 := Real.pi / 3) (tex := Real.pi / 3) (p0 := 1) (pex := 1 + Real.pi) fun _ => ⟨rfl, rfl⟩
  obtain ⟨r', F', -, -, h3, h'⟩ := wit_observed .sympy (1/4) (1/3) true true (mono := true) (fun _ => true)
    (t0 := Real.pi / 3) (tex := Real.pi / 3) (p0 := 1) (pex := 1 + Real.pi) fun _ => ⟨rfl, rfl⟩
  rw [h2 fun _ => rfl] at h
  rw [h3 rfl rfl] at h'
  exact ⟨r, r', h, h'⟩

/-- The double integral of the exchanged directions when the incidence zenith angle is fixed. -/
theorem wit_fixed {t s : ℝ} (ht : 0 < t) (hs : 0 < s) {g : Geom4} {F : List AngN}
    (hF : ∀ n, n ∈ F ↔ n = .t0)
    (hg : GeomAt ⟨false, F⟩ g (witSite (Real.pi / 3) (Real.pi / 4) 0 (Real.pi / 2))) :
    geomInteraction (hgV t) (hgS s) g (witSite (Real.pi / 3) (Real.pi / 4) 0 (Real.pi / 2)) ≠
      (witSite (Real.pi / 3) (Real.pi / 4) 0 (Real.pi / 2)).interactionAz (hgV t) (hgS s) Real.pi := by
  have hπ := Real.pi_pos
  set x := witSite (Real.pi / 3) (Real.pi / 4) 0 (Real.pi / 2) with hx
  have hb := hg.bi rfl
  simp only [hF] at hb
  have b1 : g.t0 = .num (Real.pi / 3) := by simpa [Geom4.entry, AngN.symName, Site.angle, hx, witSite] using hb .t0
  have b2 : g.tex = .sym "theta_ex" := by simpa [Geom4.entry, AngN.symName] using hb .tex
  have b3 : g.p0 = .sym "phi_0" := by simpa [Geom4.entry, AngN.symName] using hb .p0
  have b4 : g.pex = .sym "phi_ex" := by simpa [Geom4.entry, AngN.symName] using hb .pex
  have m1 : 0 < x.muEx := Real.cos_pos_of_mem_Ioo ⟨by show -(Real.pi / 2) < Real.pi / 4; linarith,
    by show Real.pi / 4 < Real.pi / 2; linarith⟩
  have hlt : Real.cos (Real.pi / 3) < Real.cos (Real.pi / 4) :=
    Real.cos_lt_cos_of_nonneg_of_le_pi_div_two (by positivity) (by linarith) (by linarith)
  have key : ∀ (ρ : String → ℝ) (μ : ℝ), 0 < μ → ∀ q, geomFint (hgV t) (hgS s) g μ 1 ρ = q →
      q = 1 / (4 * Real.pi) * (
        (2 + 9 * t * s * (Real.sin (Real.pi / 3) * Real.sin (ρ "theta_ex") * Real.cos (ρ "phi_0" - (ρ "phi_ex" + Real.pi)))) * polar μ 1 0
        + 6 * (t * Real.cos (Real.pi / 3) + s * Real.cos (ρ "theta_ex")) * polar μ 1 1
        + (18 * t * s * (Real.cos (Real.pi / 3) * Real.cos (ρ "theta_ex"))
          - 9 * t * s * (Real.sin (Real.pi / 3) * Real.sin (ρ "theta_ex") * Real.cos (ρ "phi_0" - (ρ "phi_ex" + Real.pi)))) * polar μ 1 2) := by
    rintro ρ μ hμ q rfl
    rw [← hg_hemi hμ zero_le_one ρ (Real.pi / 3) (ρ "theta_ex") (ρ "phi_0") (ρ "phi_ex" + Real.pi)]
    unfold geomFint
    refine hemi_congr fun θ φ => ?_
    rw [b1, b2, b3, b4, expVal_updown]
    rfl
  have g1 := key x.env x.mu0 (by show 0 < Real.cos (Real.pi / 3); rw [cos_third]; norm_num) _ rfl
  have g2 := key x.swap.env x.muEx m1 _ rfl
  have f1 := hg_FintAz t s Real.pi (y := x) (by show 0 < Real.cos (Real.pi / 3); rw [cos_third]; norm_num)
    (by simp [hx, witSite])
  have f2 := hg_FintAz t s Real.pi (y := x.swap) m1 (by simp [hx, witSite, Site.swap])
  have e1 : geomFint (hgV t) (hgS s) g x.mu0 x.tau x.env = x.FintAz (hgV t) (hgS s) Real.pi := by
    rw [f1]
    exact g1.trans (by rw [x.env_tex, x.env_p0, x.env_pex]; rfl)
  have c0 : Real.cos (Real.pi / 2 - (0 + Real.pi)) = 0 := by
    rw [show Real.pi / 2 - (0 + Real.pi) = -(Real.pi / 2) by ring, Real.cos_neg, Real.cos_pi_div_two]
  have e2 : geomFint (hgV t) (hgS s) g x.muEx x.tau x.swap.env =
      1 / (4 * Real.pi) * (2 * polar x.muEx 1 0
        + 6 * (t * Real.cos (Real.pi / 3) + s * Real.cos (Real.pi / 3)) * polar x.muEx 1 1
        + 18 * t * s * (Real.cos (Real.pi / 3) * Real.cos (Real.pi / 3)) * polar x.muEx 1 2) := by
    refine g2.trans ?_
    rw [x.swap.env_tex, x.swap.env_p0, x.swap.env_pex]
    simp only [hx, witSite, Site.swap]
    rw [c0]
    ring
  have e3 : x.swap.FintAz (hgV t) (hgS s) Real.pi =
      1 / (4 * Real.pi) * (2 * polar x.muEx 1 0
        + 6 * (t * Real.cos (Real.pi / 4) + s * Real.cos (Real.pi / 3)) * polar x.muEx 1 1
        + 18 * t * s * (Real.cos (Real.pi / 4) * Real.cos (Real.pi / 3)) * polar x.muEx 1 2) := by
    refine f2.trans ?_
    simp only [hx, witSite, Site.swap, Site.mu0, Site.muEx]
    rw [c0]
    ring
  have lt : geomFint (hgV t) (hgS s) g x.muEx x.tau x.swap.env < x.swap.FintAz (hgV t) (hgS s) Real.pi := by
    rw [e2, e3]
    have p1 := polar_pos m1 one_pos 1
    have p2 := polar_pos m1 one_pos 2
    have hc : 0 < Real.cos (Real.pi / 3) := by rw [cos_third]; norm_num
    have : 0 < 1 / (4 * Real.pi) := by positivity
    gcongr
  unfold geomInteraction Site.interactionAz
  rw [e1]
  intro e
  have hA : 0 < x.NormBRDF * (1 - x.bsf) * x.I0 * x.mu0 * x.omega := by
    have : x.mu0 = 1 / 2 := cos_third
    rw [this]; simp [hx, witSite]
  have hE := Real.exp_pos (-x.tau / x.mu0)
  nlinarith [mul_pos (mul_pos hA hE) (sub_pos.mpr lt)]

/-- C32 is false for bistatic objects: with `t_0` fixed by `set_bistatic` the interaction
contribution differs from the one with the same `t_0` set by `set_geometry`. -/
theorem C32_bistatic_counterexample : ∃ c x r r' F, (∀ n, n ∈ F ↔ n = .t0) ∧
    ObservesP c ⟨false, F⟩ x r ∧ ObservesP c ⟨false, []⟩ x r' ∧ x.Oblique ∧ r ≠ r' := by
  obtain ⟨r', F', -, h2', -, h'⟩ := wit_observed .sympy (1/4) (1/3) false false (mono := false) (fun _ => false)
    (t0 := Real.pi / 3) (tex := Real.pi / 4) (p0 := 0) (pex := Real.pi / 2) fun h => Bool.noConfusion h
  rw [h2' fun _ => rfl] at h'
  obtain ⟨r, F, h1, -, -, h⟩ := wit_observed .sympy (1/4) (1/3) false false (mono := false)
    (fun n => decide (n = .t0))
    (t0 := Real.pi / 3) (tex := Real.pi / 4) (p0 := 0) (pex := Real.pi / 2) fun h => Bool.noConfusion h
  have hπ := Real.pi_pos
  have hx : (witSite (Real.pi / 3) (Real.pi / 4) 0 (Real.pi / 2)).Oblique :=
    witSite_oblique (by positivity) (by linarith) (by positivity) (by linarith)
  have hF : ∀ n, n ∈ F ↔ n = .t0 := by
    intro n
    rw [h1 n]
    simp
  refine ⟨_, _, r, r', F, hF, h, h', hx, ?_⟩
  obtain ⟨g, hg, rfl⟩ := h.geom (hgV_ncoefs _) (hgS_ncoefs _) hx (fun h => Bool.noConfusion h)
  rw [(C36_bistatic_partial h' (hgV_ncoefs _) (hgS_ncoefs _) rfl rfl hx (fun h => Bool.noConfusion h)).1]
  intro e
  simp only [Site.inUnits, Bool.false_eq_true, if_false] at e
  exact wit_fixed (by norm_num) (by norm_num) hF hg (XR.fin.inj e)

/-! ## C37, C38: sign and finiteness -/

/-- Non-negative expansions give a non-negative interaction contribution, in every mode. -/
theorem C37_nonneg {c : Cfg} {md : Mode} {x : Site} {r : XR} (h : ObservesP c md x r)
    {nV nS : ℕ} (hV : c.V.ncoefs = .ok (nV + 1)) (hS : c.SRF.ncoefs = .ok (nS + 1))
    (hx : x.Oblique) (hp : x.Physical) (hs : c.sig0 = false) (hd : c.dB = false)
    (pV : ∀ ρ a b p q, 0 ≤ c.V.expVal ρ a b p q) (pS : ∀ ρ a b p q, 0 ≤ c.SRF.expVal ρ a b p q) :
    ∃ v, r = XR.fin v ∧ 0 ≤ v := by
  obtain ⟨g, hg, rfl⟩ := h.geom hV hS hx (by simp [hs])
  refine ⟨geomInteraction c.V c.SRF g x, ?_, geomInteraction_nonneg hp hx.mu0 hx.muEx pV pS⟩
  simp [Site.inUnits, hs, hd]

theorem angle_bound (a d : ℝ) (t0 tex : ℝ) (h : |d| ≤ 1) (ha : a = 1 ∨ a = -1) :
    |a * Real.cos t0 * Real.cos tex + Real.sin t0 * Real.sin tex * d| ≤ 1 := by
  have h0 := Real.sin_sq_add_cos_sq t0
  have h1 := Real.sin_sq_add_cos_sq tex
  have e : (a * Real.cos t0 * Real.cos tex + Real.sin t0 * Real.sin tex * d) ^ 2 ≤ 1 := by
    have hd : d ^ 2 ≤ 1 := by rw [← sq_abs]; nlinarith [abs_nonneg d]
    have ha2 : a ^ 2 = 1 := by rcases ha with rfl | rfl <;> norm_num
    have := sq_nonneg (a * Real.cos t0 * (Real.sin tex * d) - Real.sin t0 * Real.cos tex)
    have key : (a * Real.cos t0 * Real.cos tex + Real.sin t0 * Real.sin tex * d) ^ 2 =
        (a ^ 2 * Real.cos t0 ^ 2 + Real.sin t0 ^ 2) * (Real.cos tex ^ 2 + Real.sin tex ^ 2 * d ^ 2)
        - (a * Real.cos t0 * (Real.sin tex * d) - Real.sin t0 * Real.cos tex) ^ 2 := by ring
    rw [key, ha2, one_mul, add_comm (Real.cos t0 ^ 2), h0]
    nlinarith [mul_nonneg (sq_nonneg (Real.sin tex)) (sub_nonneg.mpr hd)]
  exact abs_le_one_iff_mul_self_le_one.mpr (by nlinarith)

example : ∃ r, ObservesP ⟨hgV (1/4), hgS (1/3), true, false, false⟩ ⟨true, []⟩
      (witSite (Real.pi / 3) (Real.pi / 3) 0 Real.pi) r ∧
    (witSite (Real.pi / 3) (Real.pi / 3) 0 Real.pi).Physical ∧
    (∀ ρ a b p q, 0 ≤ (hgV (1/4)).expVal ρ a b p q) ∧ ∀ ρ a b p q, 0 ≤ (hgS (1/3)).expVal ρ a b p q := by
  obtain ⟨r, F, -, h2, -, h⟩ := wit_observed .sympy (1/4) (1/3) false false (mono := true) (fun _ => false)
    (t0 := Real.pi / 3) (tex := Real.pi / 3) (p0 := 0) (pex := Real.pi) fun _ => ⟨rfl, by simp⟩
  rw [h2 fun _ => rfl] at h
  have hπ := Real.pi_pos
  have hx := witSite_oblique (t0 := Real.pi / 3) (tex := Real.pi / 3) (p0 := 0) (pex := Real.pi)
    (by positivity) (by linarith) (by positivity) (by linarith)
  refine ⟨r, h, ⟨?_, ?_, ?_, ?_, ?_, ?_, hx.mu0, hx.muEx⟩, fun ρ a b p q => ?_, fun ρ a b p q => ?_⟩ <;>
    try (simp [witSite]; done)
  · rw [hgV_val]
    have := abs_le.mp (angle_bound (-1) (Real.cos (p - q)) a b (Real.abs_cos_le_one _) (.inr rfl))
    have e : 0 ≤ 1 + 3 * (1 / 4) * (-Real.cos a * Real.cos b + Real.sin a * Real.sin b * Real.cos (p - q)) := by
      nlinarith [this.1]
    positivity
  · rw [hgS_val]
    have := abs_le.mp (angle_bound 1 (Real.cos (p - q)) a b (Real.abs_cos_le_one _) (.inl rfl))
    have e : 0 ≤ 1 + 3 * (1 / 3) * (Real.cos a * Real.cos b + Real.sin a * Real.sin b * Real.cos (p - q)) := by
      nlinarith [this.1]
    positivity

/-- Directions strictly between nadir and horizon: every linear contribution is a finite number
(surface and volume also at nadir).  (The full claim C38 includes the interaction contribution
at nadir, where it is nan, see `C38_nadir_counterexample`.) -/
theorem C38_finite_partial {c : Cfg} {x : Site} {r : XR} (hd : c.dB = false)
    (h0 : 0 < x.mu0) (h1 : 0 < x.muEx) (hI : c.sig0 = true → x.I0 ≠ 0) :
    (∀ f, c.SRF.ValueAt x f → Observes surface c x r → ∃ v, r = XR.fin v) ∧
    (∀ p, c.V.ValueAt x p → Observes volume c x r → ∃ v, r = XR.fin v) ∧
    (∀ md nV nS, c.V.ncoefs = .ok (nV + 1) → c.SRF.ncoefs = .ok (nS + 1) → x.mu0 < 1 → x.muEx < 1 →
      0 < x.tau → ObservesP c md x r → ∃ v, r = XR.fin v) := by
  have lin : ∀ v, ∃ u, x.inUnits c.sig0 c.dB v = XR.fin u := by
    intro v
    rw [hd]
    exact ⟨_, rfl⟩
  refine ⟨fun f hf h => ?_, fun p hf h => ?_, fun md nV nS hV hS h2 h3 h4 h => ?_⟩
  · rw [h.surface_val hf h0.ne' h1.ne' hI]; exact lin _
  · rw [h.volume_val hf ⟨h0.ne', h1.ne', by positivity, hI⟩]; exact lin _
  · obtain ⟨g, -, rfl⟩ := h.geom hV hS ⟨h0, h2, h1, h3, h4⟩ hI
    exact lin _

/-- Nadir: the interaction contribution is nan, in all units and modes, for all functions with
at least one coefficient. -/
theorem C38_nadir_nan {c : Cfg} {md : Mode} {x : Site} {r : XR} (h : ObservesP c md x r)
    {nV nS : ℕ} (hV : c.V.ncoefs = .ok (nV + 1)) (hS : c.SRF.ncoefs = .ok (nS + 1))
    (h0 : 0 < x.mu0) (h1 : 0 < x.muEx) (ht : 0 ≤ x.tau) (hn : x.mu0 = 1 ∨ x.muEx = 1) : r = XR.nan :=
  h.nan hV hS ⟨h0, h1, ht, by tauto⟩

/-- C38 is false: a monostatic object at nadir with physical parameters returns nan. -/
theorem C38_nadir_counterexample : ∃ c x r, ObservesP c ⟨true, []⟩ x r ∧ x.Physical ∧ 0 < x.tau ∧
    x.t0 = 0 ∧ c.dB = false ∧ r = XR.nan := by
  obtain ⟨r, F, -, h2, -, h⟩ := wit_observed .sympy (1/4) (1/3) false false (mono := true) (fun _ => false)
    (t0 := 0) (tex := 0) (p0 := 0) (pex := Real.pi) fun _ => ⟨rfl, by simp⟩
  rw [h2 fun _ => rfl] at h
  refine ⟨_, _, r, h, ⟨?_, ?_, ?_, ?_, ?_, ?_, ?_, ?_⟩, ?_, rfl, rfl,
    C38_nadir_nan h (hgV_ncoefs _) (hgS_ncoefs _) ?_ ?_ ?_ ?_⟩ <;>
    simp [witSite, Site.mu0, Site.muEx]

/-! ## C11, C56: every parameter by its own value, element by element -/

/-- The interaction contribution depends only on the settings, the mode, the reported angles and
the reported value of each parameter: objects with different histories (order of parameter
updates, evaluations in between, backends, arrays instead of numbers) return the same value. -/
theorem C11_own_values {c : Cfg} {md : Mode} {x : Site} {r r' : XR} {nV nS : ℕ}
    (hV : c.V.ncoefs = .ok (nV + 1)) (hS : c.SRF.ncoefs = .ok (nS + 1))
    (hx : x.Oblique) (hI : c.sig0 = true → x.I0 ≠ 0)
    (h : ObservesP c md x r) (h' : ObservesP c md x r') : r = r' := by
  obtain ⟨g, hg, rfl⟩ := h.geom hV hS hx hI
  obtain ⟨g', hg', rfl⟩ := h'.geom hV hS hx hI
  rw [hg.unique hg']

/-- Which values these are: every symbol of the expansions that is not an angle has the value the
parameter dictionary reports under its name (`x.ρ`). -/
theorem C11_value {c : Cfg} {md : Mode} {x : Site} {r : XR} {nV nS : ℕ}
    (hV : c.V.ncoefs = .ok (nV + 1)) (hS : c.SRF.ncoefs = .ok (nS + 1))
    (hm : md.mono = true) (hx : x.Oblique) (hI : c.sig0 = true → x.I0 ≠ 0)
    (h : ObservesP c md x r) {ρ : String → ℝ}
    (hρ : ρ = fun s => if s = "theta_0" then x.t0 else if s = "theta_ex" then x.tex
      else if s = "phi_0" then x.p0 else if s = "phi_ex" then x.pex else x.ρ s)
    {ρ' : String → ℝ} (hρ' : ρ' = fun s => if s = "theta_0" then x.tex else if s = "theta_ex" then x.t0
      else if s = "phi_0" then x.pex else if s = "phi_ex" then x.p0 else x.ρ s) :
    r = x.inUnits c.sig0 c.dB (x.NormBRDF * (1 - x.bsf) * x.I0 * Real.cos x.t0 * x.omega
      * (Real.exp (-x.tau / Real.cos x.tex) * hemi (Real.cos x.t0) x.tau (fun θ φ =>
          c.V.expVal ρ x.t0 (Real.pi - θ) x.p0 φ * c.SRF.expVal ρ θ x.tex φ x.pex)
        + Real.exp (-x.tau / Real.cos x.t0) * hemi (Real.cos x.tex) x.tau (fun θ φ =>
          c.V.expVal ρ' x.tex (Real.pi - θ) x.pex φ * c.SRF.expVal ρ' θ x.t0 φ x.p0))) := by
  subst hρ hρ'
  exact C36_monostatic h hV hS hm hx hI

/-- Two observations with the same parameter values exist: the two backends. -/
example : ∃ r r', ObservesP ⟨hgV (1/4), hgS (1/3), true, true, true⟩ ⟨false, []⟩
      (witSite (Real.pi / 3) (Real.pi / 4) 1 2) r ∧
    ObservesP ⟨hgV (1/4), hgS (1/3), true, true, true⟩ ⟨false, []⟩
      (witSite (Real.pi / 3) (Real.pi / 4) 1 2) r' ∧ (witSite (Real.pi / 3) (Real.pi / 4) 1 2).Oblique := by
  obtain ⟨r, F, -, h2, -, h⟩ := wit_observed .sympy (1/4) (1/3) true true (mono := false) (fun _ => false)
    (t0 := Real.pi / 3) (tex := Real.pi / 4) (p0 := 1) (pex := 2) (fun h => Bool.noConfusion h)
  obtain ⟨r', F', -, h2', -, h'⟩ := wit_observed .symengine (1/4) (1/3) true true (mono := false) (fun _ => false)
    (t0 := Real.pi / 3) (tex := Real.pi / 4) (p0 := 1) (pex := 2) (fun h => Bool.noConfusion h)
  rw [h2 fun _ => rfl] at h
  rw [h2' fun _ => rfl] at h'
  have := Real.pi_pos
  exact ⟨r, r', h, h', witSite_oblique (by positivity) (by linarith) (by positivity) (by linarith)⟩

end

end RT1
