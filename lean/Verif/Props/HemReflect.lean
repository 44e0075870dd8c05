import Verif.Lemmas.HemL
import Verif.Props.Norm

/-!
# The numerical hemispherical reflectance
-/

namespace RT1

noncomputable section
open Classical Filter

/-! ## C70 -/

/-- The surface function returns `f` at the incidence angle `t0`, the exit angles `t`, `p`, the
incidence azimuth `p0` and the parameters `ρ`. -/
def Scatter.Brdf (s : Scatter) (p0 : ℝ) (ρ : String → ℝ) (f : ℝ → ℝ → ℝ → ℝ) : Prop :=
  ∀ t0 t p, s.Returns ⟨t0, t, p0, p, ρ⟩ (XR.fin (f t0 t p))

/-- `hemreflect` with these arguments and `n` points. -/
def HemArgs.points (g : HemArgs) (n : ℕ) : HemArgs := { g with n := n }

/-- What `hemreflect` returned for `n` points: one number per incidence angle, and the warning exactly if
one of them exceeds 1. -/
def HemOut.Reports (out : HemOut) (m : ℕ) (v : ℕ → ℝ) : Prop :=
  out.sol.shape = [m] ∧ (∀ k < m, out.sol.get [k] = XR.fin (v k)) ∧ (out.warned ↔ ∃ k < m, 1 < v k)

theorem hem_limit (r : EvenRule) {f : ℝ → ℝ → ℝ} (hf : Continuous (Function.uncurry f)) (N : ℝ) :
    Tendsto (fun n => simps2R r (fun t p => Real.sin t * Real.cos t * f t p) (Real.pi / 2) (2 * Real.pi) n * N) atTop
      (nhds (N * hemReflectance f)) := by
  have hG : Continuous (Function.uncurry fun t p => Real.sin t * Real.cos t * f t p) :=
    ((Real.continuous_sin.comp continuous_fst).mul (Real.continuous_cos.comp continuous_fst)).mul hf
  have := (simps2R_tendsto r hG (A := Real.pi / 2) (B := 2 * Real.pi) (by positivity) (by positivity)).mul_const N
  rw [hem_swap hf, mul_comm _ N] at this
  exact this

/-- `hemreflect(SRF=s)` returns, for every incidence angle `tmin + k * step < tmax`, numbers that converge to
`NormBRDF` times the hemispherical reflectance of the surface function when the number of points grows; NormBRDF
is 1 unless it is given with the parameters. Both variants of Simpson's rule in scipy. The phase function is
continuous in the exit direction, and uses the azimuth unless the backend is symengine. -/
theorem C70_converges_partial (r : EvenRule) {w : World} {s : Scatter} {pd : Dict} {ρ : String → ℝ}
    (hp : pd.Numbers ρ) (hg : s.Given pd) (hphi : w.backend = .symengine ∨ "phi_ex" ∈ s.phase.free)
    {g : HemArgs} (hs : g.step ≠ 0) {f : ℝ → ℝ → ℝ → ℝ} (hf : s.Brdf g.phi0 ρ f)
    (hc : ∀ t0, Continuous (Function.uncurry (f t0))) {N : ℝ}
    (hN : N = if "NormBRDF" ∈ pd.keys then ρ "NormBRDF" else 1) :
    ∃ v : ℕ → ℕ → ℝ,
      (∀ n > 0, ∃ out, hemreflect r (.SRF s) pd (g.points n) w = (.ok out, w) ∧ out.Reports g.count (v n)) ∧
      ∀ k < g.count, Tendsto (fun n => v n k) atTop (nhds (N * hemReflectance (f (g.angle k)))) := by
  refine ⟨fun n k => simps2R r (fun t p => Real.sin t * Real.cos t * f (g.angle k) t p) (Real.pi / 2)
    (2 * Real.pi) n * N, fun n hn => ?_, fun k _ => hem_limit r (hc _) N⟩
  have hNa : (pd.get? "NormBRDF").getD (Arr.lit 1) = Arr.lit N := by
    cases hk : pd.get? "NormBRDF" with
    | some a =>
      rw [hN, if_pos (Lam.mem_of_get? hk), hp _ _ hk]; rfl
    | none =>
      rw [hN, if_neg fun hm => ?_]; · rfl
      obtain ⟨a, ha⟩ := Dict.get?_of_mem hm
      rw [hk] at ha; cases ha
  obtain ⟨out, ho, h1, h2, h3⟩ := hemLoop_value r hp hg hphi (g := g.points n) hn hs (f := f)
    (fun t0 t p => (hf t0 t p).eval.symm) (N := Arr.lit N) (Nv := fun _ => N) trivial fun _ _ => rfl
  refine ⟨out, ?_, h1, h2, h3⟩
  show (liftPy (hemLoop r w.backend s pd ((pd.get? "NormBRDF").getD (Arr.lit 1)) (g.points n)) : M HemOut) w = _
  rw [hNa, ho]; rfl

/-- `hemreflect(R=R)`: the same with the surface function of the object and the value of `R.NormBRDF`, a number
or one value per incidence angle. The other parameters are those given to `hemreflect`, not those of the
object. -/
theorem C70_object_partial (r : EvenRule) {w : World} (hw : Reachable w) {id : ℕ} {o : Obj}
    (ho : w.objs id = some o) {pd : Dict} {ρ : String → ℝ}
    (hp : pd.Numbers ρ) (hg : o.SRF.Given pd) (hphi : w.backend = .symengine ∨ "phi_ex" ∈ o.SRF.phase.free)
    {g : HemArgs} (hs : g.step ≠ 0) {f : ℝ → ℝ → ℝ → ℝ} (hf : o.SRF.Brdf g.phi0 ρ f)
    (hc : ∀ t0, Continuous (Function.uncurry (f t0))) {N : Arr} {Nv : ℕ → ℝ}
    (hN : (Self.evalParam id .NormBRDF w).1 = .ok N) (hNf : Arr.Fits N.shape [g.count])
    (hNv : ∀ k < g.count, N.at' [k] = XR.fin (Nv k)) :
    ∃ v : ℕ → ℕ → ℝ,
      (∀ n > 0, ∃ out, (hemreflect r (.R id) pd (g.points n) w).1 = .ok out ∧ out.Reports g.count (v n)) ∧
      ∀ k < g.count, Tendsto (fun n => v n k) atTop (nhds (Nv k * hemReflectance (f (g.angle k)))) := by
  refine ⟨fun n k => simps2R r (fun t p => Real.sin t * Real.cos t * f (g.angle k) t p) (Real.pi / 2)
    (2 * Real.pi) n * Nv k, fun n hn => ?_, fun k _ => hem_limit r (hc _) _⟩
  rw [evalParam_eq hw.inv ho] at hN
  obtain ⟨out, ho', h1, h2, h3⟩ := hemLoop_value r hp hg hphi (g := g.points n) hn hs (f := f)
    (fun t0 t p => (hf t0 t p).eval.symm) hNf hNv
  refine ⟨out, ?_, h1, h2, h3⟩
  rw [hemreflect_R r hw.inv ho, hN]
  exact ho'

/-- Simpson's rule for the integral of `g` from 0 to `L` with `m` intervals of equal length. -/
def simpson (g : ℝ → ℝ) (L : ℝ) (m : ℕ) : ℝ :=
  ∑ k ∈ Finset.range m, L / m / 6 * (g (k * (L / m)) + 4 * g ((k + 1 / 2) * (L / m)) + g ((k + 1) * (L / m)))

theorem simpsR_odd (r : EvenRule) (g : ℝ → ℝ) (L : ℝ) {m : ℕ} (hm : 0 < m) :
    simpsR r (fun i => g (linspace 0 L (2 * m + 1) i)) (stepOf 0 L (2 * m + 1)) (2 * m + 1) = simpson g L m := by
  have h2 : (2 * m + 1) % 2 = 1 := by omega
  have h3 : (2 * m + 1 - 1) / 2 = m := by omega
  have hm' : (m : ℝ) ≠ 0 := by exact_mod_cast hm.ne'
  unfold simpsR simpson panelsR
  rw [if_pos h2, h3]
  refine Finset.sum_congr rfl fun k _ => ?_
  have hst : stepOf 0 L (2 * m + 1) = L / m / 2 := by
    unfold stepOf; push_cast; field_simp; ring
  have hl : ∀ j : ℕ, linspace 0 L (2 * m + 1) j = j * (L / m / 2) := fun j => by
    rw [linspace_step, hst, zero_add]
  rw [hst]
  simp only [hl]
  push_cast
  have e1 : (0 + 2 * (k : ℝ)) * (L / m / 2) = k * (L / m) := by ring
  have e2 : (0 + 2 * (k : ℝ) + 1) * (L / m / 2) = (k + 1 / 2) * (L / m) := by ring
  have e3 : (0 + 2 * (k : ℝ) + 2) * (L / m / 2) = (k + 1) * (L / m) := by ring
  rw [e1, e2, e3]
  ring

/-- What `hemreflect` reports for `n` points. -/
theorem hem_points (r : EvenRule) {w : World} {s : Scatter} {pd : Dict} {ρ : String → ℝ}
    (hp : pd.Numbers ρ) (hg : s.Given pd) (hphi : w.backend = .symengine ∨ "phi_ex" ∈ s.phase.free)
    {g : HemArgs} (hs : g.step ≠ 0) {f : ℝ → ℝ → ℝ → ℝ} (hf : s.Brdf g.phi0 ρ f) {N : ℝ}
    (hN : N = if "NormBRDF" ∈ pd.keys then ρ "NormBRDF" else 1) {n : ℕ} (hn : 0 < n) :
    ∃ out, hemreflect r (.SRF s) pd (g.points n) w = (.ok out, w) ∧ out.Reports g.count fun k =>
      N * simps2R r (fun t p => f (g.angle k) t p * Real.cos t * Real.sin t) (Real.pi / 2) (2 * Real.pi) n := by
  have hNa : (pd.get? "NormBRDF").getD (Arr.lit 1) = Arr.lit N := by
    cases hk : pd.get? "NormBRDF" with
    | some a =>
      rw [hN, if_pos (Lam.mem_of_get? hk), hp _ _ hk]; rfl
    | none =>
      rw [hN, if_neg fun hm => ?_]; · rfl
      obtain ⟨a, ha⟩ := Dict.get?_of_mem hm
      rw [hk] at ha; cases ha
  obtain ⟨out, ho, h1, h2, h3⟩ := hemLoop_value r hp hg hphi (g := g.points n) hn hs (f := f)
    (fun t0 t p => (hf t0 t p).eval.symm) (N := Arr.lit N) (Nv := fun _ => N) trivial fun _ _ => rfl
  have he : ∀ k, simps2R r (fun t p => Real.sin t * Real.cos t * f (g.angle k) t p) (Real.pi / 2) (2 * Real.pi) n * N =
      N * simps2R r (fun t p => f (g.angle k) t p * Real.cos t * Real.sin t) (Real.pi / 2) (2 * Real.pi) n := by
    intro k
    rw [mul_comm _ N]
    congr 2
    funext t p
    ring
  refine ⟨out, ?_, h1, fun k hk => ?_, ?_⟩
  · show (liftPy (hemLoop r w.backend s pd ((pd.get? "NormBRDF").getD (Arr.lit 1)) (g.points n)) : M HemOut) w = _
    rw [hNa, ho]; rfl
  · simp only [← he]; exact h2 k hk
  · simp only [← he]; exact h3

/-- With `2 m + 1` points `hemreflect` computes Simpson's rule with `m` intervals in both angles. -/
theorem C70_simpson_partial (r : EvenRule) {w : World} {s : Scatter} {pd : Dict} {ρ : String → ℝ}
    (hp : pd.Numbers ρ) (hg : s.Given pd) (hphi : w.backend = .symengine ∨ "phi_ex" ∈ s.phase.free)
    {g : HemArgs} (hs : g.step ≠ 0) {f : ℝ → ℝ → ℝ → ℝ} (hf : s.Brdf g.phi0 ρ f) {N : ℝ}
    (hN : N = if "NormBRDF" ∈ pd.keys then ρ "NormBRDF" else 1) {m : ℕ} (hm : 0 < m) :
    ∃ out, hemreflect r (.SRF s) pd (g.points (2 * m + 1)) w = (.ok out, w) ∧ out.Reports g.count fun k =>
      N * simpson (fun t => simpson (fun p => f (g.angle k) t p * Real.cos t * Real.sin t) (2 * Real.pi) m)
        (Real.pi / 2) m := by
  obtain ⟨out, h1, h2⟩ := hem_points r hp hg hphi hs hf hN (n := 2 * m + 1) (Nat.succ_pos _)
  refine ⟨out, h1, ?_⟩
  have he : ∀ k, N * simps2R r (fun t p => f (g.angle k) t p * Real.cos t * Real.sin t) (Real.pi / 2) (2 * Real.pi)
      (2 * m + 1) = N * simpson (fun t => simpson (fun p => f (g.angle k) t p * Real.cos t * Real.sin t)
        (2 * Real.pi) m) (Real.pi / 2) m := by
    intro k
    unfold simps2R
    rw [← simpsR_odd r _ _ hm]
    simp only [← simpsR_odd r _ _ hm]
  simp only [← he]
  exact h2

/-- Integral over `h .. 2 h` of the parabola with values `a`, `b`, `c` at `0`, `h`, `2 h`. -/
def parabolaEnd (a b c h : ℝ) : ℝ :=
  ∫ x in h..(2 * h), (a * ((x - h) * (x - 2 * h)) / (2 * h ^ 2) - b * (x * (x - 2 * h)) / h ^ 2
    + c * (x * (x - h)) / (2 * h ^ 2))

theorem parabolaEnd_eq (a b c : ℝ) {h : ℝ} (hh : h ≠ 0) :
    parabolaEnd a b c h = 5 / 12 * h * c + 2 / 3 * h * b - 1 / 12 * h * a := by
  have hF : ∀ x : ℝ, HasDerivAt (fun x : ℝ => (a / (2 * h ^ 2) - b / h ^ 2 + c / (2 * h ^ 2)) * x ^ 3 / 3
      + (-3 * h * a / (2 * h ^ 2) + 2 * h * b / h ^ 2 - h * c / (2 * h ^ 2)) * x ^ 2 / 2 + a * x)
      (a * ((x - h) * (x - 2 * h)) / (2 * h ^ 2) - b * (x * (x - 2 * h)) / h ^ 2 + c * (x * (x - h)) / (2 * h ^ 2)) x := by
    intro x
    have h1 := (((hasDerivAt_pow 3 x).const_mul (a / (2 * h ^ 2) - b / h ^ 2 + c / (2 * h ^ 2))).div_const 3).add
      (((hasDerivAt_pow 2 x).const_mul (-3 * h * a / (2 * h ^ 2) + 2 * h * b / h ^ 2 - h * c / (2 * h ^ 2))).div_const 2)
    have h2 := h1.add ((hasDerivAt_id x).const_mul a)
    refine h2.congr_deriv ?_
    push_cast
    field_simp
    ring
  unfold parabolaEnd
  rw [intervalIntegral.integral_eq_sub_of_hasDerivAt (fun x _ => hF x) (by
    apply Continuous.intervalIntegrable; fun_prop)]
  field_simp
  ring

/-- Simpson's rule for `2 m + 2` equidistant points of `0 .. L`, i.e. an odd number `2 m + 1` of intervals. -/
def simpsonEven (r : EvenRule) (g : ℝ → ℝ) (L : ℝ) (m : ℕ) : ℝ :=
  let h := L / (2 * m + 1)
  match r with
  | .avg => ((simpson g (2 * m * h) m + h * (g (L - h) + g L) / 2)
      + (h * (g 0 + g h) / 2 + simpson (fun x => g (h + x)) (2 * m * h) m)) / 2
  | .correct => simpson g (2 * m * h) m + parabolaEnd (g (L - 2 * h)) (g (L - h)) (g L) h

theorem panelsR_simpson (g : ℝ → ℝ) (h : ℝ) (s : ℕ) {m : ℕ} (hm : 0 < m) :
    panelsR (fun i => g (i * h)) h s m = simpson (fun x => g (s * h + x)) (2 * m * h) m := by
  have hm' : (m : ℝ) ≠ 0 := by exact_mod_cast hm.ne'
  unfold panelsR simpson
  refine Finset.sum_congr rfl fun k _ => ?_
  have e : 2 * m * h / m = 2 * h := by field_simp
  rw [e]
  push_cast
  have e1 : ((s : ℝ) + 2 * k) * h = s * h + k * (2 * h) := by ring
  have e2 : ((s : ℝ) + 2 * k + 1) * h = s * h + (k + 1 / 2) * (2 * h) := by ring
  have e3 : ((s : ℝ) + 2 * k + 2) * h = s * h + (k + 1) * (2 * h) := by ring
  rw [e1, e2, e3]
  ring

theorem simpsR_even (r : EvenRule) (g : ℝ → ℝ) {L : ℝ} (hL : L ≠ 0) {m : ℕ} (hm : 0 < m) :
    simpsR r (fun i => g (linspace 0 L (2 * m + 2) i)) (stepOf 0 L (2 * m + 2)) (2 * m + 2) = simpsonEven r g L m := by
  have h2 : ¬ (2 * m + 2) % 2 = 1 := by omega
  have h3 : (2 * m + 2 - 2) / 2 = m := by omega
  have hd : (2 * (m : ℝ) + 1) ≠ 0 := by positivity
  have hst : stepOf 0 L (2 * m + 2) = L / (2 * m + 1) := by
    unfold stepOf; push_cast; congr 1 <;> ring
  have hl : (fun i => g (linspace 0 L (2 * m + 2) i)) = fun i : ℕ => g (i * (L / (2 * m + 1))) := by
    funext j
    rw [linspace_step, hst, zero_add]
  have a1 : (((2 * m + 1 : ℕ)) : ℝ) * (L / (2 * m + 1)) = L := by push_cast; field_simp
  have a2 : (((2 * m : ℕ)) : ℝ) * (L / (2 * m + 1)) = L - L / (2 * m + 1) := by push_cast; field_simp; ring
  have a3 : (((2 * m - 1 : ℕ)) : ℝ) * (L / (2 * m + 1)) = L - 2 * (L / (2 * m + 1)) := by
    rw [Nat.cast_sub (by omega)]; push_cast; field_simp; ring
  unfold simpsR simpsonEven
  rw [if_neg h2, h3, hst, hl]
  cases r with
  | avg =>
    simp only [trapR, panelsR_simpson _ _ _ hm]
    rw [show 2 * m + 2 - 2 = 2 * m by omega, a1, a2]
    simp only [Nat.cast_zero, zero_mul, zero_add, Nat.cast_one, one_mul]
    ring
  | correct =>
    simp only [panelsR_simpson _ _ _ hm]
    rw [if_neg (by omega), show 2 * m + 2 - 2 = 2 * m by omega, show 2 * m + 2 - 1 = 2 * m + 1 by omega,
      show 2 * m + 2 - 3 = 2 * m - 1 by omega, a1, a2, a3, parabolaEnd_eq _ _ _ (div_ne_zero hL hd)]
    simp only [Nat.cast_zero, zero_mul, zero_add]

/-- With `2 m + 2` points (the default is an even number) `hemreflect` computes the rule of the installed
scipy for an odd number of intervals in both angles: before 1.11 the mean of the two results with a trapezoid
at either end, from 1.11 on a parabola through the last three points in the last interval. -/
theorem C70_simpson_even_partial (r : EvenRule) {w : World} {s : Scatter} {pd : Dict} {ρ : String → ℝ}
    (hp : pd.Numbers ρ) (hg : s.Given pd) (hphi : w.backend = .symengine ∨ "phi_ex" ∈ s.phase.free)
    {g : HemArgs} (hs : g.step ≠ 0) {f : ℝ → ℝ → ℝ → ℝ} (hf : s.Brdf g.phi0 ρ f) {N : ℝ}
    (hN : N = if "NormBRDF" ∈ pd.keys then ρ "NormBRDF" else 1) {m : ℕ} (hm : 0 < m) :
    ∃ out, hemreflect r (.SRF s) pd (g.points (2 * m + 2)) w = (.ok out, w) ∧ out.Reports g.count fun k =>
      N * simpsonEven r (fun t => simpsonEven r (fun p => f (g.angle k) t p * Real.cos t * Real.sin t) (2 * Real.pi) m)
        (Real.pi / 2) m := by
  have hpi := Real.pi_ne_zero
  obtain ⟨out, h1, h2⟩ := hem_points r hp hg hphi hs hf hN (n := 2 * m + 2) (Nat.succ_pos _)
  refine ⟨out, h1, ?_⟩
  have he : ∀ k, N * simps2R r (fun t p => f (g.angle k) t p * Real.cos t * Real.sin t) (Real.pi / 2) (2 * Real.pi)
      (2 * m + 2) = N * simpsonEven r (fun t => simpsonEven r (fun p => f (g.angle k) t p * Real.cos t * Real.sin t)
        (2 * Real.pi) m) (Real.pi / 2) m := by
    intro k
    unfold simps2R
    rw [← simpsR_even r _ (by positivity) hm]
    simp only [← simpsR_even r _ (show (2 * Real.pi : ℝ) ≠ 0 by positivity) hm]
  simp only [← he]
  exact h2

/-- Numbers that converge are reported correctly: with enough points the warning is printed if a hemispherical
reflectance exceeds 1, and not printed if all are below 1. -/
theorem C70_warning {m : ℕ} {v : ℕ → ℕ → ℝ} {R : ℕ → ℝ} (hv : ∀ k < m, Tendsto (fun n => v n k) atTop (nhds (R k)))
    {out : ℕ → HemOut} (ho : ∀ n > 0, (out n).Reports m (v n)) :
    ((∃ k < m, 1 < R k) → ∀ᶠ n in atTop, (out n).warned) ∧
    ((∀ k < m, R k < 1) → ∀ᶠ n in atTop, ¬(out n).warned) := by
  constructor
  · rintro ⟨k, hk, h⟩
    filter_upwards [(hv k hk).eventually (lt_mem_nhds h), eventually_gt_atTop 0] with n h1 h2
    exact (ho n h2).2.2.mpr ⟨k, hk, h1⟩
  · intro h
    have : ∀ᶠ n in atTop, ∀ k ∈ Finset.range m, v n k < 1 := by
      rw [Filter.eventually_all_finset]
      intro k hk
      exact (hv k (Finset.mem_range.mp hk)).eventually (gt_mem_nhds (h k (Finset.mem_range.mp hk)))
    filter_upwards [this, eventually_gt_atTop 0] with n h1 h2
    rw [(ho n h2).2.2]
    rintro ⟨k, hk, h3⟩
    exact absurd (h1 k (Finset.mem_range.mpr hk)) (by linarith)

/-- sympy: if the surface function does not use the azimuth, `hemreflect` fails with ValueError, although the
surface function can be evaluated. -/
theorem C70_azimuth_negation (r : EvenRule) {w : World} (hb : w.backend = .sympy) {s : Scatter} {pd : Dict}
    {ρ : String → ℝ} (hp : pd.Numbers ρ) (hg : s.Given pd) (hphi : "phi_ex" ∉ s.phase.free)
    {g : HemArgs} (hs : g.step ≠ 0) (hc : 0 < g.count) (hn : g.n ≠ 1) :
    hemreflect r (.SRF s) pd g w = (.error .valueError, w) := by
  show (liftPy (hemLoop r w.backend s pd _ g) : M HemOut) w = _
  rw [hb, hemLoop_nophi r hp hg hphi hn hs hc]; rfl

theorem Kind.val_continuous (k : Kind) {a0 t : ℝ} (ht : |t| < 1) {x : ℝ × ℝ → ℝ} (hx : Continuous x)
    (h1 : ∀ q, |x q| ≤ 1) : Continuous fun q => k.val a0 t (x q) := by
  have hb : Continuous fun q => (1 + t ^ 2 - 2 * t * x q) ^ (3 / 2 : ℝ) :=
    (continuous_const.sub (continuous_const.mul hx)).rpow_const fun q => Or.inr (by norm_num)
  have hn : ∀ q, (1 + t ^ 2 - 2 * t * x q) ^ (3 / 2 : ℝ) ≠ 0 := fun q =>
    (Real.rpow_pos_of_pos (hg_base_pos ht (h1 q)) _).ne'
  have hhg : ∀ c, Continuous fun q => Phase.hg c t (x q) := fun c => by
    unfold Phase.hg
    exact continuous_const.mul (continuous_const.div hb hn)
  cases k with
  | volIsotropic => exact continuous_const
  | volRayleigh => simp only [Kind.val, Phase.rayleigh]; fun_prop
  | volHG te => exact hhg _
  | volHGRayleigh te =>
    simp only [Kind.val, Phase.hgRayleigh]
    exact continuous_const.mul (((continuous_const.add (hx.pow 2)).mul continuous_const).div hb hn)
  | srfIsotropic => exact continuous_const
  | srfCosineLobe i =>
    simp only [Kind.val, Phase.cosineLobe]
    exact continuous_const.mul ((hx.max continuous_const).pow i)
  | srfHG te => exact hhg _
  | srfHGnadirnorm te => exact continuous_const.mul (hhg _)

theorem cosTheta_continuous (a0 a1 a2 t0 p0 : ℝ) :
    Continuous fun q : ℝ × ℝ => Phase.cosTheta a0 a1 a2 t0 q.1 p0 q.2 := by
  unfold Phase.cosTheta
  fun_prop

/-- The values of the predefined functions. -/
theorem Kind.brdf {k : Kind} {a : A3} {nc : Option ℕ} {p0 a0 a1 a2 t : ℝ} {ρ : String → ℝ} {pd : Dict}
    (hg : (Scatter.prim k a nc).Given pd)
    (ha : ∀ t0 tex pex, a.Is (Dirs.env ⟨t0, tex, p0, pex, ρ⟩) a0 a1 a2)
    (hT : ∀ t0 tex pex, k.TIs (Dirs.env ⟨t0, tex, p0, pex, ρ⟩) t)
    (h0 : |a0| ≤ 1) (h1 : |a1| ≤ 1) (h2 : |a2| ≤ 1) (ht1 : |t| < 1) (hN : k.IsNadirnorm → a0 ≠ 0 ∧ t ≠ 0) :
    (Scatter.prim k a nc).Brdf p0 ρ fun t0 tex pex => k.val a0 t (Phase.cosTheta a0 a1 a2 t0 tex p0 pex) := by
  intro t0 tex pex
  have hr := Scatter.returns_of (s := Scatter.prim k a nc) ⟨t0, tex, p0, pex, ρ⟩ pd.keys hg
  have := hr.prim (ha t0 tex pex) (hT t0 tex pex)
    (hg_base_pos ht1 (Phase.cosTheta_abs_le h0 h1 h2 _ _ _ _)) (Kind.nadirOK h0 ht1 hN)
  rw [this] at hr
  exact hr

/-- The predefined surface functions with `|a[i]| ≤ 1` and `|t| < 1`: `hemreflect` converges to NormBRDF times the
hemispherical reflectance. Isotropic only with symengine (`C70_azimuth_negation`). The exponent of CosineLobe and
`t` are not 0, and `a[1]` or `a[2]` is not 0: sympy would drop the azimuth from the expression, which the model does
not represent. -/
theorem C70_predefined_partial (r : EvenRule) {w : World} {k : Kind} {te : Expr} {i : ℕ} {a : A3} {nc : Option ℕ}
    (hk : k = .srfCosineLobe (i + 1) ∨ k = .srfHG te ∨ k = .srfHGnadirnorm te ∨
      w.backend = .symengine ∧ k = .srfIsotropic) {pd : Dict} {ρ : String → ℝ}
    (hp : pd.Numbers ρ) (hg : (Scatter.prim k a nc).Given pd) {g : HemArgs} (hs : g.step ≠ 0) {a0 a1 a2 t : ℝ}
    (ha : ∀ t0 tex pex, a.Is (Dirs.env ⟨t0, tex, g.phi0, pex, ρ⟩) a0 a1 a2)
    (hT : ∀ t0 tex pex, k.TIs (Dirs.env ⟨t0, tex, g.phi0, pex, ρ⟩) t)
    (h0 : |a0| ≤ 1) (h1 : |a1| ≤ 1) (h2 : |a2| ≤ 1) (ht1 : |t| < 1) (ht0 : t ≠ 0) (_h12 : a1 ≠ 0 ∨ a2 ≠ 0)
    (hN0 : k.IsNadirnorm → a0 ≠ 0) {N : ℝ} (hN : N = if "NormBRDF" ∈ pd.keys then ρ "NormBRDF" else 1) :
    ∃ v : ℕ → ℕ → ℝ,
      (∀ n > 0, ∃ out, hemreflect r (.SRF (.prim k a nc)) pd (g.points n) w = (.ok out, w) ∧
        out.Reports g.count (v n)) ∧
      ∀ j < g.count, Tendsto (fun n => v n j) atTop (nhds (N * hemReflectance fun tex pex =>
        k.val a0 t (Phase.cosTheta a0 a1 a2 (g.angle j) tex g.phi0 pex))) := by
  refine C70_converges_partial r hp hg ?_ hs (Kind.brdf hg ha hT h0 h1 h2 ht1 fun h => ⟨hN0 h, ht0⟩) (fun t0 => ?_) hN
  · rcases hk with rfl | rfl | rfl | ⟨h, -⟩
    · right; simp [Scatter.phase, Scatter.primPhase, Scatter.angleExpr, Expr.free]
    · right; simp [Scatter.phase, Scatter.primPhase, Scatter.hgExpr, Scatter.angleExpr, Expr.free]
    · right; simp [Scatter.phase, Scatter.primPhase, Scatter.hgExpr, Scatter.angleExpr, Expr.free]
    · exact Or.inl h
  · exact k.val_continuous ht1 (cosTheta_continuous a0 a1 a2 t0 g.phi0) fun q =>
      Phase.cosTheta_abs_le h0 h1 h2 _ _ _ _

/-- CosineLobe with a positive exponent and default `a`: the first value of the default grid converges to
`2 / (i + 2)`. -/
theorem C70_nadir (r : EvenRule) (w : World) (i : ℕ) (nc : Option ℕ) :
    ∃ v : ℕ → ℕ → ℝ,
      (∀ n > 0, ∃ out, hemreflect r (.SRF (.prim (.srfCosineLobe (i + 1)) srfA nc)) [] { n := n } w = (.ok out, w) ∧
        out.Reports 18 (v n)) ∧
      Tendsto (fun n => v n 0) atTop (nhds (2 / ((i : ℝ) + 3))) := by
  have hg : (Scatter.prim (.srfCosineLobe (i + 1)) srfA nc).Given [] := by
    intro n hn
    simp [Scatter.phase, Scatter.primPhase, Scatter.angleExpr, srfA, Expr.free] at hn
    aesop
  have hp : Dict.Numbers [] fun _ => 0 := fun k a h => by cases h
  have hd : HemArgs.count {} = 18 := by
    unfold HemArgs.count
    norm_num
  obtain ⟨v, h1, h2⟩ := C70_predefined_partial r (w := w) (te := .num (1 / 2)) (i := i) (Or.inl rfl) hp hg
    (g := {}) (by norm_num) (t := 1 / 2) (fun _ _ _ => srfA_is _) (fun _ _ _ => trivial) (by simp) (by simp) (by simp)
    (by rw [abs_of_pos] <;> norm_num) (by norm_num) (Or.inl one_ne_zero) (fun h => h.elim) (N := 1) (by simp [Dict.keys])
  rw [hd] at h1 h2
  refine ⟨v, h1, ?_⟩
  have h3 := h2 0 (by norm_num)
  have hb := Kind.brdf (p0 := 0) (t := 1 / 2) (ρ := fun _ => 0) hg (fun _ _ _ => srfA_is _) (fun _ _ _ => trivial) (by simp)
    (by simp) (by simp) (by rw [abs_of_pos] <;> norm_num) (fun h => h.elim)
  have ha : HemArgs.angle {} 0 = 0 := by simp [HemArgs.angle, deg2rad]
  rw [ha, C40_cosineLobe (i := i + 1) (fun tex pex => hb 0 tex pex)] at h3
  convert h3 using 2
  push_cast
  ring

/-- CosineLobe with a positive exponent and the default arguments (1000 points), and with 999 points. -/
example (r : EvenRule) (w : World) (i : ℕ) (nc : Option ℕ) :
    (∃ out, hemreflect r (.SRF (.prim (.srfCosineLobe (i + 1)) srfA nc)) [] {} w = (.ok out, w) ∧
      out.Reports 18 fun k => 1 * simpsonEven r (fun t => simpsonEven r (fun p => (Kind.srfCosineLobe (i + 1)).val 1 (1 / 2)
        (Phase.cosTheta 1 1 1 (HemArgs.angle {} k) t 0 p) * Real.cos t * Real.sin t) (2 * Real.pi) 499) (Real.pi / 2) 499) ∧
    ∃ out, hemreflect r (.SRF (.prim (.srfCosineLobe (i + 1)) srfA nc)) [] { n := 999 } w = (.ok out, w) ∧
      out.Reports 18 fun k => 1 * simpson (fun t => simpson (fun p => (Kind.srfCosineLobe (i + 1)).val 1 (1 / 2)
        (Phase.cosTheta 1 1 1 (HemArgs.angle {} k) t 0 p) * Real.cos t * Real.sin t) (2 * Real.pi) 499) (Real.pi / 2) 499 := by
  have hg : (Scatter.prim (.srfCosineLobe (i + 1)) srfA nc).Given [] := by
    intro n hn
    simp [Scatter.phase, Scatter.primPhase, Scatter.angleExpr, srfA, Expr.free] at hn
    aesop
  have hp : Dict.Numbers [] fun _ => 0 := fun k a h => by cases h
  have hd : HemArgs.count {} = 18 := by
    unfold HemArgs.count
    norm_num
  have hb := Kind.brdf (p0 := 0) (t := 1 / 2) (ρ := fun _ => 0) hg (fun _ _ _ => srfA_is _) (fun _ _ _ => trivial) (by simp)
    (by simp) (by simp) (by rw [abs_of_pos] <;> norm_num) (fun h => h.elim)
  have hphi : w.backend = .symengine ∨ "phi_ex" ∈ (Scatter.prim (.srfCosineLobe (i + 1)) srfA nc).phase.free := by
    right; simp [Scatter.phase, Scatter.primPhase, Scatter.angleExpr, Expr.free]
  rw [← hd]
  exact ⟨C70_simpson_even_partial r hp hg hphi (g := {}) (by norm_num) hb (by simp [Dict.keys]) (m := 499) (by norm_num),
    C70_simpson_partial r hp hg hphi (g := {}) (by norm_num) hb (by simp [Dict.keys]) (m := 499) (by norm_num)⟩

/-- Isotropic with the default arguments and sympy: ValueError. -/
theorem C70_azimuth_counterexample (r : EvenRule) (w : World) (hb : w.backend = .sympy) (nc : Option ℕ) :
    hemreflect r (.SRF (.prim .srfIsotropic srfA nc)) [] {} w = (.error .valueError, w) := by
  refine C70_azimuth_negation r hb (ρ := fun _ => 0) (fun k a h => by cases h) ?_ ?_ ?_ ?_ ?_
  · intro n hn
    simp [Scatter.phase, Scatter.primPhase, Expr.free] at hn
  · simp [Scatter.phase, Scatter.primPhase, Expr.free]
  · norm_num
  · unfold HemArgs.count; norm_num
  · norm_num

/-- `HG_nadirnorm(t="t")` with `t = 0.3` and `NormBRDF = 0.5` meets the hypotheses. -/
example (r : EvenRule) (w : World) : ∃ v : ℕ → ℕ → ℝ,
    (∀ n > 0, ∃ out, hemreflect r (.SRF (.prim (.srfHGnadirnorm (.sym "t")) srfA (some 8)))
      [("t", Arr.num (XR.fin 0.3)), ("NormBRDF", Arr.num (XR.fin 0.5))] { n := n } w = (.ok out, w) ∧
      out.Reports 18 (v n)) ∧ Tendsto (fun n => v n 0) atTop (nhds 0.5) := by
  have h1 : |(0.3 : ℝ)| < 1 := by rw [abs_of_pos] <;> norm_num
  have hg : (Scatter.prim (.srfHGnadirnorm (.sym "t")) srfA (some 8)).Given
      [("t", Arr.num (XR.fin 0.3)), ("NormBRDF", Arr.num (XR.fin 0.5))] := by
    intro n hn
    simp [Scatter.phase, Scatter.primPhase, Scatter.hgExpr, Scatter.nadirHemreflect, Scatter.angleExpr, srfA, Expr.free]
      at hn
    simp only [Dict.keys, List.map_cons, List.map_nil]
    aesop
  have hp : Dict.Numbers [("t", Arr.num (XR.fin 0.3)), ("NormBRDF", Arr.num (XR.fin 0.5))]
      fun k => if k = "t" then 0.3 else 0.5 := by
    intro k a h
    simp only [Dict.get?, List.find?_cons, List.find?_nil] at h
    by_cases hk : "t" = k
    · subst hk; simp at h; simp [← h]
    · by_cases hk' : "NormBRDF" = k
      · subst hk'; simp at h; simp [← h]
      · simp [hk, hk'] at h
  have hT : ∀ t0 tex pex, (Kind.srfHGnadirnorm (.sym "t")).TIs
      (Dirs.env ⟨t0, tex, 0, pex, fun k => if k = "t" then 0.3 else 0.5⟩) 0.3 := fun t0 tex pex =>
    ⟨trivial, by simp [Expr.evalR, Dirs.env]⟩
  have hd : HemArgs.count {} = 18 := by
    unfold HemArgs.count
    norm_num
  obtain ⟨v, h3, h4⟩ := C70_predefined_partial r (w := w) (te := .sym "t") (i := 0) (Or.inr (Or.inr (Or.inl rfl))) hp hg
    (g := {}) (by norm_num) (t := 0.3) (fun _ _ _ => srfA_is _) hT (by simp) (by simp) (by simp)
    h1 (by norm_num) (Or.inl one_ne_zero) (fun _ => one_ne_zero) (N := 0.5) (by simp [Dict.keys])
  rw [hd] at h3 h4
  refine ⟨v, h3, ?_⟩
  have h5 := h4 0 (by norm_num)
  have hb := Kind.brdf (p0 := 0) (t := 0.3) hg (fun _ _ _ => srfA_is _) hT (by simp)
    (by simp) (by simp) h1 (fun h => ⟨one_ne_zero, by norm_num⟩)
  have ha : HemArgs.angle {} 0 = 0 := by simp [HemArgs.angle, deg2rad]
  rw [ha, C40_nadirnorm_partial (te := .sym "t") (a := srfA) (fun tex pex => srfA_is _) (fun tex pex => hT 0 tex pex)
    one_ne_zero (by simp) (by norm_num) h1 (fun tex pex => hb 0 tex pex), mul_one] at h5
  exact h5

end

end RT1
