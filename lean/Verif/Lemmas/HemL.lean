import Verif.Lemmas.Simpson
import Verif.Lemmas.ScatterL
import Verif.Lemmas.AnalyzeR
import Verif.Lemmas.Analyze3
import Verif.Lemmas.IntArr
import Verif.Spec.Sphere
import Mathlib.MeasureTheory.Integral.Prod

/-! Values of `hemreflect`. -/

namespace RT1

noncomputable section
open Classical

/-- The values given for the parameters are numbers. -/
def Dict.Numbers (pd : Dict) (ρ : String → ℝ) : Prop :=
  ∀ k a, Dict.get? pd k = some a → a = Arr.num (XR.fin (ρ k))

theorem Arr.fits_grid {S : List ℕ} {n : ℕ} (h1 : Arr.Fits [1, n] S) (h2 : Arr.Fits [n] S) (h3 : Arr.Fits S [n, n]) :
    S = [n, n] := by
  match S, h1, h2, h3 with
  | [x, y], h1, h2, h3 =>
    simp only [Arr.Fits, and_true] at h1 h2 h3
    simp only [List.cons.injEq, and_true]
    omega

theorem Arr.fits_col {S : List ℕ} {n : ℕ} (h1 : Arr.Fits [1, n] S) (h3 : Arr.Fits S [1, n]) : S = [1, n] :=
  Arr.Fits.antisymm h3 h1

/-- The names of the variables of a phase function are known. -/
def Scatter.Given (s : Scatter) (pd : Dict) : Prop :=
  ∀ n ∈ s.phase.free, n ∈ ["theta_0", "theta_ex", "phi_0", "phi_ex"] ++ pd.keys

theorem Scatter.calcVal_succ {b : Backend} {s : Scatter} {pd : Dict} (hg : s.Given pd) {a1 a2 a3 a4 : Arr} {S : List ℕ}
    (h1 : Arr.Fits a1.shape S) (h2 : Arr.Fits a2.shape S) (h3 : Arr.Fits a3.shape S) (h4 : Arr.Fits a4.shape S)
    (hp : ∀ k a, Dict.get? pd k = some a → Arr.Fits a.shape S) : Succ (s.calcVal b a1 a2 a3 a4 pd) S := by
  unfold Scatter.calcVal
  rw [Lam.compile_of_free hg]
  refine Lam.call_succ (Lam.compile_of_free hg) hg (by simp) ?_ hp ?_ ?_
  · intro a ha
    simp only [List.mem_cons, List.not_mem_nil, or_false] at ha
    rcases ha with rfl | rfl | rfl | rfl <;> assumption
  · intro k hk; simpa using hk
  · intro k hk; simpa using hk

/-- The result has the shape of the azimuth angles, if they are used. -/
theorem Scatter.calcVal_phi {b : Backend} {s : Scatter} {pd : Dict} {a1 a2 a3 a4 z : Arr}
    (h : s.calcVal b a1 a2 a3 a4 pd = .ok z) (hphi : b = .symengine ∨ "phi_ex" ∈ s.phase.free) :
    Arr.Fits a4.shape z.shape := by
  unfold Scatter.calcVal at h
  obtain ⟨f, hf, h⟩ := ok_bind h
  rw [Lam.compile_ok hf] at h
  unfold Lam.call at h
  obtain ⟨bnd, hb, h⟩ := ok_bind h
  obtain ⟨vals, -, rfl⟩ := Lam.bindArgs_ok hb
  have hm : ("phi_ex", a4) ∈ (["theta_0", "theta_ex", "phi_0", "phi_ex"] ++ pd.keys).zip ([a1, a2, a3, a4] ++ vals) := by
    simp
  cases b with
  | symengine =>
    simp only [Lam.evalBound] at h
    split at h
    · cases h
    · rename_i sh hs
      simp only [Except.ok.injEq] at h
      subst h
      exact Arr.bshapes_fits hs (List.mem_map.mpr ⟨_, hm, rfl⟩)
  | sympy =>
    simp only [Lam.evalBound] at h
    split_ifs at h
    split at h
    · cases h
    · rename_i sh hs
      simp only [Except.ok.injEq] at h
      subst h
      refine Arr.bshapes_fits hs (List.mem_map.mpr ⟨_, List.mem_filter.mpr ⟨hm, ?_⟩, rfl⟩)
      rcases hphi with h | h
      · cases h
      · simpa using h

/-- The result has the shape of the exit zenith angles, if they are used. -/
theorem Scatter.calcVal_theta {b : Backend} {s : Scatter} {pd : Dict} {a1 a2 a3 a4 z : Arr}
    (h : s.calcVal b a1 a2 a3 a4 pd = .ok z) (hphi : b = .symengine ∨ "theta_ex" ∈ s.phase.free) :
    Arr.Fits a2.shape z.shape := by
  unfold Scatter.calcVal at h
  obtain ⟨f, hf, h⟩ := ok_bind h
  rw [Lam.compile_ok hf] at h
  unfold Lam.call at h
  obtain ⟨bnd, hb, h⟩ := ok_bind h
  obtain ⟨vals, -, rfl⟩ := Lam.bindArgs_ok hb
  have hm : ("theta_ex", a2) ∈ (["theta_0", "theta_ex", "phi_0", "phi_ex"] ++ pd.keys).zip ([a1, a2, a3, a4] ++ vals) := by
    simp
  cases b with
  | symengine =>
    simp only [Lam.evalBound] at h
    split at h
    · cases h
    · rename_i sh hs
      simp only [Except.ok.injEq] at h
      subst h
      exact Arr.bshapes_fits hs (List.mem_map.mpr ⟨_, hm, rfl⟩)
  | sympy =>
    simp only [Lam.evalBound] at h
    split_ifs at h
    split at h
    · cases h
    · rename_i sh hs
      simp only [Except.ok.injEq] at h
      subst h
      refine Arr.bshapes_fits hs (List.mem_map.mpr ⟨_, List.mem_filter.mpr ⟨hm, ?_⟩, rfl⟩)
      rcases hphi with h | h
      · cases h
      · simpa using h

/-- sympy: without the azimuth angle the result does not have its shape. -/
theorem Scatter.calcVal_nophi {s : Scatter} {pd : Dict} {a1 a2 a3 a4 z : Arr} {S : List ℕ}
    (h : s.calcVal .sympy a1 a2 a3 a4 pd = .ok z) (hphi : "phi_ex" ∉ s.phase.free)
    (h1 : Arr.Fits a1.shape S) (h2 : Arr.Fits a2.shape S) (h3 : Arr.Fits a3.shape S)
    (hp : ∀ k a, Dict.get? pd k = some a → Arr.Fits a.shape S) : Arr.Fits z.shape S := by
  unfold Scatter.calcVal at h
  obtain ⟨f, hf, h⟩ := ok_bind h
  rw [Lam.compile_ok hf] at h
  unfold Lam.call at h
  obtain ⟨bnd, hb, h⟩ := ok_bind h
  obtain ⟨vals, hv, rfl⟩ := Lam.bindArgs_ok hb
  have hvals : ∀ a ∈ vals, Arr.Fits a.shape S := by
    intro a ha
    obtain ⟨k, -, hk⟩ := mapM_get_mem hv a ha
    exact hp k a hk
  simp only [Lam.evalBound] at h
  split_ifs at h
  split at h
  · cases h
  · rename_i sh hs
    simp only [Except.ok.injEq] at h
    subst h
    obtain ⟨v, hv', hf'⟩ := Arr.bshapes_of_fits (u := S) (l := (((["theta_0", "theta_ex", "phi_0", "phi_ex"] ++ pd.keys).zip
      ([a1, a2, a3, a4] ++ vals)).filter fun p => decide (p.1 ∈ s.phase.free)).map fun p => p.2.shape) (by
        intro t ht
        obtain ⟨p, hp', rfl⟩ := List.mem_map.mp ht
        obtain ⟨hp', hfr⟩ := List.mem_filter.mp hp'
        simp only [List.cons_append, List.nil_append, List.zip_cons_cons, List.mem_cons] at hp'
        rcases hp' with rfl | rfl | rfl | rfl | hp'
        · exact h1
        · exact h2
        · exact h3
        · simp [hphi] at hfr
        · exact hvals _ (List.of_mem_zip hp').2)
    have := hs.symm.trans hv'
    simp only [Option.some.injEq] at this
    show Arr.Fits sh S
    rw [this]
    exact hf'

/-- sympy: without the exit zenith angle the result does not have its shape. -/
theorem Scatter.calcVal_notheta {s : Scatter} {pd : Dict} {a1 a2 a3 a4 z : Arr} {S : List ℕ}
    (h : s.calcVal .sympy a1 a2 a3 a4 pd = .ok z) (hphi : "theta_ex" ∉ s.phase.free)
    (h1 : Arr.Fits a1.shape S) (h3 : Arr.Fits a3.shape S) (h4 : Arr.Fits a4.shape S)
    (hp : ∀ k a, Dict.get? pd k = some a → Arr.Fits a.shape S) : Arr.Fits z.shape S := by
  unfold Scatter.calcVal at h
  obtain ⟨f, hf, h⟩ := ok_bind h
  rw [Lam.compile_ok hf] at h
  unfold Lam.call at h
  obtain ⟨bnd, hb, h⟩ := ok_bind h
  obtain ⟨vals, hv, rfl⟩ := Lam.bindArgs_ok hb
  have hvals : ∀ a ∈ vals, Arr.Fits a.shape S := by
    intro a ha
    obtain ⟨k, -, hk⟩ := mapM_get_mem hv a ha
    exact hp k a hk
  simp only [Lam.evalBound] at h
  split_ifs at h
  split at h
  · cases h
  · rename_i sh hs
    simp only [Except.ok.injEq] at h
    subst h
    obtain ⟨v, hv', hf'⟩ := Arr.bshapes_of_fits (u := S) (l := (((["theta_0", "theta_ex", "phi_0", "phi_ex"] ++ pd.keys).zip
      ([a1, a2, a3, a4] ++ vals)).filter fun p => decide (p.1 ∈ s.phase.free)).map fun p => p.2.shape) (by
        intro t ht
        obtain ⟨p, hp', rfl⟩ := List.mem_map.mp ht
        obtain ⟨hp', hfr⟩ := List.mem_filter.mp hp'
        simp only [List.cons_append, List.nil_append, List.zip_cons_cons, List.mem_cons] at hp'
        rcases hp' with rfl | rfl | rfl | rfl | hp'
        · exact h1
        · simp [hphi] at hfr
        · exact h3
        · exact h4
        · exact hvals _ (List.of_mem_zip hp').2)
    have := hs.symm.trans hv'
    simp only [Option.some.injEq] at this
    show Arr.Fits sh S
    rw [this]
    exact hf'

theorem thetaGrid_at (n i j : ℕ) (hi : i < n) : (thetaGrid n).at' [j, i] = XR.fin (linspace 0 (Real.pi / 2) n i) := by
  unfold thetaGrid Arr.at' Arr.bidx
  by_cases h : n = 1
  · subst h
    have : i = 0 := by omega
    subst this
    simp [Arr.bidx]
  · simp [Arr.bidx, h]

theorem phiGrid_at (n i j : ℕ) (hj : j < n) : (phiGrid n).at' [j, i] = XR.fin (linspace 0 (2 * Real.pi) n j) := by
  unfold phiGrid Arr.at' Arr.bidx
  by_cases h : n = 1
  · subst h
    have : j = 0 := by omega
    subst this
    simp [Arr.bidx]
  · simp [Arr.bidx, h]

theorem Dict.Numbers.fits {pd : Dict} {ρ : String → ℝ} (h : pd.Numbers ρ) {S : List ℕ} (k : String) (a : Arr)
    (hk : Dict.get? pd k = some a) : Arr.Fits a.shape S := by
  rw [h k a hk]; trivial

/-- The phase function at given angles. -/
theorem Scatter.calcVal_at {b : Backend} {s : Scatter} {pd : Dict} {ρ : String → ℝ} (hp : pd.Numbers ρ)
    {a1 a2 a3 a4 z : Arr} (h : s.calcVal b a1 a2 a3 a4 pd = .ok z) {idx : List ℕ} {x : Dirs} (hρ : x.ρ = ρ)
    (h1 : a1.at' idx = XR.fin x.t0) (h2 : a2.at' idx = XR.fin x.tex) (h3 : a3.at' idx = XR.fin x.p0)
    (h4 : a4.at' idx = XR.fin x.pex) : z.at' idx = s.phase.evalX fun n => XR.fin (x.env n) := by
  refine PW.calcVal' s (fun n hn => ?_) z h
  unfold angEnv Dirs.env
  rw [h1, h2, h3, h4]
  split_ifs with n1 n2 n3 n4
  · rfl
  · rfl
  · rfl
  · rfl
  · have hk : n ∈ pd.keys := by
      rcases hn with hn | hn
      · simp [n1, n2, n3, n4] at hn
      · exact hn
    obtain ⟨a, ha⟩ := Dict.get?_of_mem hk
    unfold Dict.valAt
    rw [ha, hρ]
    show a.at' idx = _
    rw [hp n a ha]; rfl

theorem hemWeights (n : ℕ) : ∃ w, Arr.mul ((thetaGrid n).map XR.sin) ((thetaGrid n).map XR.cos) = .ok w ∧
    w.shape = [1, n] ∧ ∀ i j, i < n → w.at' [j, i] =
      XR.fin (Real.sin (linspace 0 (Real.pi / 2) n i) * Real.cos (linspace 0 (Real.pi / 2) n i)) := by
  have hs : Arr.bshape [1, n] [1, n] = some [1, n] := Arr.bshape_eq_of_fits (Arr.Fits.refl _)
  obtain ⟨w, hw⟩ : ∃ w, Arr.mul ((thetaGrid n).map XR.sin) ((thetaGrid n).map XR.cos) = .ok w := by
    have hs' : Arr.bshape ((thetaGrid n).map XR.sin).shape ((thetaGrid n).map XR.cos).shape = some [1, n] := hs
    unfold Arr.mul Arr.map2
    rw [hs']; exact ⟨_, rfl⟩
  refine ⟨w, hw, ?_, fun i j hi => ?_⟩
  · have := (Arr.shape_map2 hw).symm.trans hs
    simpa using this
  · rw [Arr.at'_map2 hw, Arr.at'_map, Arr.at'_map, thetaGrid_at n i j hi]
    rfl

/-- One pass of the loop computes Simpson's rule in two variables. -/
theorem hemAt_value (r : EvenRule) {b : Backend} {s : Scatter} {pd : Dict} {ρ : String → ℝ} (hp : pd.Numbers ρ)
    (hg : s.Given pd) (hphi : b = .symengine ∨ "phi_ex" ∈ s.phase.free) {n : ℕ} (hn : 0 < n) {p0 t0 : ℝ}
    {f : ℝ → ℝ → ℝ} (hf : ∀ t p, s.phase.evalX (fun k => XR.fin (Dirs.env ⟨t0, t, p0, p, ρ⟩ k)) = XR.fin (f t p)) :
    ∃ a, hemAt r b s pd n p0 t0 = .ok a ∧ a.shape = [] ∧ a.get [] =
      XR.fin (simps2R r (fun t p => Real.sin t * Real.cos t * f t p) (Real.pi / 2) (2 * Real.pi) n) := by
  obtain ⟨w, hw, hws, hwv⟩ := hemWeights n
  have f2 : Arr.Fits (thetaGrid n).shape [n, n] := ⟨Or.inl rfl, Or.inr rfl, trivial⟩
  have f4 : Arr.Fits (phiGrid n).shape [n, n] := ⟨Or.inr rfl, trivial⟩
  obtain ⟨y, hy, hyf⟩ := Scatter.calcVal_succ (b := b) (S := [n, n]) hg (a1 := Arr.lit t0) (a2 := thetaGrid n)
    (a3 := Arr.lit p0) (a4 := phiGrid n) trivial f2 trivial f4 hp.fits
  obtain ⟨S, hS, hSf⟩ := Arr.bshape_of_fits (s := w.shape) (t := y.shape) (u := [n, n]) (by rw [hws]; exact f2) hyf
  have hbs := Arr.bshape_fits hS
  have hSe : S = [n, n] := Arr.fits_grid (by rw [← hws]; exact hbs.1)
    ((Scatter.calcVal_phi hy hphi).trans hbs.2) hSf
  obtain ⟨z, hz⟩ : ∃ z, Arr.mul w y = .ok z := by
    unfold Arr.mul Arr.map2; rw [hS]; exact ⟨_, rfl⟩
  have hzs : z.shape = [n, n] := by
    have := (Arr.shape_map2 hz).symm.trans hS
    rw [hSe] at this
    simpa using this
  have hzv : ∀ i j, i < n → j < n → z.get [j, i] = XR.fin (Real.sin (linspace 0 (Real.pi / 2) n i) *
      Real.cos (linspace 0 (Real.pi / 2) n i) * f (linspace 0 (Real.pi / 2) n i) (linspace 0 (2 * Real.pi) n j)) := by
    intro i j hi hj
    have hv : Arr.Valid z.shape [j, i] := by rw [hzs]; exact .cons hj (.cons hi .nil)
    rw [← Arr.at'_valid hv, Arr.at'_map2 hz, hwv i j hi, Scatter.calcVal_at hp hy
      (x := ⟨t0, linspace 0 (Real.pi / 2) n i, p0, linspace 0 (2 * Real.pi) n j, ρ⟩) rfl rfl
      (thetaGrid_at n i j hi) rfl (phiGrid_at n i j hj), hf]
    rfl
  have hI : hemIntegrand b s pd n t0 p0 = .ok z := by
    unfold hemIntegrand
    simp only
    rw [hw]; simp only [okb]; rw [hy]; simp only [okb]; exact hz
  unfold hemAt
  rw [hI]
  simp only [okb]
  have hn' : n ≠ 0 := by omega
  have h1 : simpsArr r z n (stepOf 0 (2 * Real.pi) n) =
      .ok ⟨[n], fun i => simpsX r (fun j => z.get (j :: i)) (stepOf 0 (2 * Real.pi) n) n⟩ := by
    unfold simpsArr
    rw [hzs]
    simp [hn']
  rw [h1]
  simp only [okb]
  refine ⟨⟨[], fun i => simpsX r (fun k => simpsX r (fun j => z.get (j :: k :: i)) (stepOf 0 (2 * Real.pi) n) n)
    (stepOf 0 (Real.pi / 2) n) n⟩, by simp [simpsArr, hn'], rfl, ?_⟩
  refine simpsX_fin (fun k hk => ?_) hn r _
  exact simpsX_fin (fun j hj => hzv k j hk hj) hn r _

/-- sympy: without the azimuth angle in the phase function the integration fails. -/
theorem hemAt_nophi (r : EvenRule) {s : Scatter} {pd : Dict} {ρ : String → ℝ} (hp : pd.Numbers ρ)
    (hg : s.Given pd) (hphi : "phi_ex" ∉ s.phase.free) {n : ℕ} (hn : n ≠ 1) (p0 t0 : ℝ) :
    hemAt r .sympy s pd n p0 t0 = .error .valueError := by
  obtain ⟨w, hw, hws, hwv⟩ := hemWeights n
  have f2 : Arr.Fits (thetaGrid n).shape [n, n] := ⟨Or.inl rfl, Or.inr rfl, trivial⟩
  have f4 : Arr.Fits (phiGrid n).shape [n, n] := ⟨Or.inr rfl, trivial⟩
  obtain ⟨y, hy, -⟩ := Scatter.calcVal_succ (b := .sympy) (S := [n, n]) hg (a1 := Arr.lit t0) (a2 := thetaGrid n)
    (a3 := Arr.lit p0) (a4 := phiGrid n) trivial f2 trivial f4 hp.fits
  have hyf : Arr.Fits y.shape [1, n] := Scatter.calcVal_nophi hy hphi trivial (Arr.Fits.refl _) trivial hp.fits
  obtain ⟨S, hS, hSf⟩ := Arr.bshape_of_fits (s := w.shape) (t := y.shape) (u := [1, n])
    (by rw [hws]; exact Arr.Fits.refl _) hyf
  have hSe : S = [1, n] := Arr.fits_col (by rw [← hws]; exact (Arr.bshape_fits hS).1) hSf
  obtain ⟨z, hz⟩ : ∃ z, Arr.mul w y = .ok z := by
    unfold Arr.mul Arr.map2; rw [hS]; exact ⟨_, rfl⟩
  have hzs : z.shape = [1, n] := by
    have := (Arr.shape_map2 hz).symm.trans hS
    rw [hSe] at this
    simpa using this
  have hI : hemIntegrand .sympy s pd n t0 p0 = .ok z := by
    unfold hemIntegrand
    simp only
    rw [hw]; simp only [okb]; rw [hy]; simp only [okb]; exact hz
  unfold hemAt
  rw [hI]
  simp only [okb]
  have h1 : simpsArr r z n (stepOf 0 (2 * Real.pi) n) = .error .valueError := by
    unfold simpsArr
    rw [hzs]
    simp [Ne.symm hn]
  rw [h1]
  rfl

/-- The order of integration does not matter. -/
theorem hem_swap {f : ℝ → ℝ → ℝ} (hf : Continuous (Function.uncurry f)) :
    (∫ t in (0 : ℝ)..Real.pi / 2, ∫ p in (0 : ℝ)..2 * Real.pi, Real.sin t * Real.cos t * f t p) = hemReflectance f := by
  have hG : Continuous (Function.uncurry fun t p => Real.sin t * Real.cos t * f t p) :=
    ((Real.continuous_sin.comp continuous_fst).mul (Real.continuous_cos.comp continuous_fst)).mul hf
  rw [MeasureTheory.intervalIntegral_intervalIntegral_swap]
  · unfold hemReflectance
    refine intervalIntegral.integral_congr fun p _ => intervalIntegral.integral_congr fun t _ => ?_
    show Real.sin t * Real.cos t * f t p = f t p * Real.cos t * Real.sin t
    ring
  · exact (hG.continuousOn.integrableOn_compact (isCompact_uIcc.prod isCompact_uIcc)).mono_set
      (Set.prod_mono Set.uIoc_subset_uIcc Set.uIoc_subset_uIcc)

/-- Number of incidence angles. -/
def HemArgs.count (g : HemArgs) : ℕ := ⌈(g.tmax - g.tmin) / g.step⌉₊

/-- Incidence angle `k` in radians. -/
def HemArgs.angle (g : HemArgs) (k : ℕ) : ℝ := deg2rad (g.tmin + k * g.step)

theorem stack_scalars {l : List Arr} (h : ∀ a ∈ l, a.shape = []) : ∃ s, Arr.stack l = .ok s ∧ s.shape = [l.length] ∧
    ∀ (k : ℕ) (a : Arr), l[k]? = some a → s.get [k] = a.get [] := by
  cases l with
  | nil => exact ⟨_, rfl, rfl, by simp⟩
  | cons x l =>
    have hx := h x (by simp)
    unfold Arr.stack
    simp only
    rw [if_pos fun y hy => by rw [hx, h y (List.mem_cons_of_mem _ hy)]]
    refine ⟨_, rfl, by simp [hx], fun k a hk => ?_⟩
    simp only [List.getLastD_cons, List.getLastD_nil, List.dropLast_singleton]
    show (match (x :: l)[k]? with | some y => y.get [] | none => XR.nan) = _
    rw [hk]

theorem hemLoop_value (r : EvenRule) {b : Backend} {s : Scatter} {pd : Dict} {ρ : String → ℝ} (hp : pd.Numbers ρ)
    (hgv : s.Given pd) (hphi : b = .symengine ∨ "phi_ex" ∈ s.phase.free) {g : HemArgs} (hn : 0 < g.n) (hs : g.step ≠ 0)
    {f : ℝ → ℝ → ℝ → ℝ}
    (hf : ∀ t0 t p, s.phase.evalX (fun k => XR.fin (Dirs.env ⟨t0, t, g.phi0, p, ρ⟩ k)) = XR.fin (f t0 t p))
    {N : Arr} {Nv : ℕ → ℝ} (hN : Arr.Fits N.shape [g.count]) (hNv : ∀ k < g.count, N.at' [k] = XR.fin (Nv k)) :
    ∃ out, hemLoop r b s pd N g = .ok out ∧ out.sol.shape = [g.count] ∧
      (∀ k < g.count, out.sol.get [k] = XR.fin (simps2R r (fun t p => Real.sin t * Real.cos t * f (g.angle k) t p)
        (Real.pi / 2) (2 * Real.pi) g.n * Nv k)) ∧
      (out.warned ↔ ∃ k < g.count, 1 < simps2R r (fun t p => Real.sin t * Real.cos t * f (g.angle k) t p)
        (Real.pi / 2) (2 * Real.pi) g.n * Nv k) := by
  have hr : arange g.tmin g.tmax g.step = .ok ((List.range g.count).map fun (k : ℕ) => g.tmin + k * g.step) := by
    unfold arange; rw [if_neg hs]; rfl
  have hval := fun t0 => hemAt_value r hp hgv hphi hn (f := f t0) (hf t0)
  obtain ⟨l, hl⟩ := mapM_each (f := fun d => hemAt r b s pd g.n g.phi0 (deg2rad d))
    (l := (List.range g.count).map fun (k : ℕ) => g.tmin + k * g.step) fun d _ => by
      obtain ⟨a, ha, -⟩ := hval (deg2rad d)
      exact ⟨a, ha⟩
  have h2 := mapM_ok hl
  have hlen : l.length = g.count := by rw [← h2.length_eq]; simp
  have hk : ∀ k < g.count, ∃ a, l[k]? = some a ∧ hemAt r b s pd g.n g.phi0 (g.angle k) = .ok a := by
    intro k hk
    have h3 := (List.forall₂_iff_get.mp h2).2 k (by simpa using hk) (by omega)
    refine ⟨l[k]'(by omega), by simp [hlen, hk], ?_⟩
    simpa [HemArgs.angle] using h3
  have hget : ∀ k < g.count, ∃ a : Arr, l[k]? = some a ∧ a.shape = [] ∧ a.get [] = XR.fin (simps2R r
      (fun t p => Real.sin t * Real.cos t * f (g.angle k) t p) (Real.pi / 2) (2 * Real.pi) g.n) := by
    intro k hk'
    obtain ⟨a, ha, hv⟩ := hk k hk'
    obtain ⟨a', ha', h1, h2⟩ := hval (g.angle k)
    have : a' = a := by
      have := ha'.symm.trans hv
      simpa using this
    exact ⟨a, ha, this ▸ h1, this ▸ h2⟩
  obtain ⟨st, hst, hsh, hsv⟩ := stack_scalars (l := l) fun a ha => by
    obtain ⟨k, hk', rfl⟩ := List.mem_iff_getElem.mp ha
    obtain ⟨a', h1, h2, -⟩ := hget k (by omega)
    rw [List.getElem?_eq_getElem hk'] at h1
    simp only [Option.some.injEq] at h1
    rw [h1]; exact h2
  rw [hlen] at hsh
  have hbs : Arr.bshape st.shape N.shape = some [g.count] := by
    rw [hsh, Arr.bshape_comm]; exact Arr.bshape_eq_of_fits hN
  obtain ⟨sol, hsol⟩ : ∃ z, Arr.mul st N = .ok z := by
    unfold Arr.mul Arr.map2; rw [hbs]; exact ⟨_, rfl⟩
  have hss : sol.shape = [g.count] := by
    have := (Arr.shape_map2 hsol).symm.trans hbs
    simpa using this
  have hsv' : ∀ k < g.count, sol.get [k] = XR.fin (simps2R r (fun t p => Real.sin t * Real.cos t * f (g.angle k) t p)
        (Real.pi / 2) (2 * Real.pi) g.n * Nv k) := by
    intro k hk'
    obtain ⟨a, h1, h2, h3⟩ := hget k hk'
    have hv : Arr.Valid sol.shape [k] := by rw [hss]; exact .cons hk' .nil
    have hv' : Arr.Valid st.shape [k] := by rw [hsh]; exact .cons hk' .nil
    rw [← Arr.at'_valid hv, Arr.at'_map2 hsol, Arr.at'_valid hv', hsv k a h1, h3, hNv k hk']
    rfl
  refine ⟨⟨sol, ∃ i, Arr.Valid sol.shape i ∧ (sol.get i).gtOne⟩, ?_, hss, hsv', ?_⟩
  · unfold hemLoop
    rw [hr]; simp only [okb]; rw [hl]; simp only [okb]; rw [hst]; simp only [okb]; rw [hsol]; rfl
  · show (∃ i, Arr.Valid sol.shape i ∧ (sol.get i).gtOne) ↔ _
    rw [hss]
    constructor
    · rintro ⟨i, hi, h⟩
      cases hi with
      | cons hk' hi =>
        cases hi
        rw [hsv' _ hk'] at h
        exact ⟨_, hk', h⟩
    · rintro ⟨k, hk', h⟩
      exact ⟨[k], .cons hk' .nil, by rw [hsv' k hk']; exact h⟩

theorem hemLoop_nophi (r : EvenRule) {s : Scatter} {pd : Dict} {ρ : String → ℝ} (hp : pd.Numbers ρ)
    (hgv : s.Given pd) (hphi : "phi_ex" ∉ s.phase.free) {g : HemArgs} (hn : g.n ≠ 1) (hs : g.step ≠ 0)
    (hc : 0 < g.count) (N : Arr) : hemLoop r .sympy s pd N g = .error .valueError := by
  have hr : arange g.tmin g.tmax g.step = .ok ((List.range g.count).map fun (k : ℕ) => g.tmin + k * g.step) := by
    unfold arange; rw [if_neg hs]; rfl
  unfold hemLoop
  rw [hr]
  simp only [okb]
  have hne : ((List.range g.count).map fun (k : ℕ) => g.tmin + k * g.step) ≠ [] := by
    simp; omega
  cases hl : (List.range g.count).map fun (k : ℕ) => g.tmin + k * g.step with
  | nil => exact absurd hl hne
  | cons d l =>
    rw [List.mapM_cons, hemAt_nophi r hp hgv hphi hn]
    rfl

theorem tryCatch_retry (x : Py Arr) : (MonadExcept.tryCatch (x >>= fun _ => throw PyErr.attributeError) (fun _ => x) :
    Py Arr) = x := by
  cases x <;> rfl

/-- With an RT1 object, the value of its property NormBRDF is used. -/
theorem hemreflect_R (r : EvenRule) {full : Bool} {w : World} (hw : Inv full w) {id : ℕ} {o : Obj}
    (ho : w.objs id = some o) (pd : Dict) (g : HemArgs) : (hemreflect r (.R id) pd g w).1 =
      (Fresh.par w.backend o .NormBRDF >>= fun N => hemLoop r w.backend o.SRF pd N g) := by
  have hd : During full w id o (fun _ _ => True) w := During.init hw ho trivial
  refine (?_ : Refines (During full w id o (fun _ _ => True)) (hemreflect r (.R id) pd g) _) w hd |>.1
  unfold hemreflect hemNorm
  simp only
  have h1 : Refines (During full w id o (fun _ _ => True)) (MonadExcept.tryCatch
      (Self.evalParam id .NormBRDF >>= fun _ => throw .attributeError) (fun _ => Self.evalParam id .NormBRDF))
      (Fresh.par w.backend o .NormBRDF) := by
    rw [← tryCatch_retry (Fresh.par w.backend o .NormBRDF)]
    exact Refines.tryCatch (Refines.bind (Refines.evalParam _) fun _ _ => Refines.throw _)
      fun _ => Refines.evalParam _
  refine Refines.bind h1 fun N _ => Refines.getObj_bind fun o' hf => Refines.getW_bind fun w' hw' => ?_
  rw [hf.SRF, hw']
  exact Refines.lift _

end

end RT1
