import Verif.Lemmas.HgSeries
import Verif.Lemmas.LobeSeries

/-!
# Legendre expansions converge to the phase functions
-/

namespace RT1

noncomputable section
open Classical Filter Topology

theorem Kind.converges {k : Kind} (hk : k.IsHG) {a : A3} {x : Dirs} {a0 a1 a2 t : ℝ} (h : a.Is x.env a0 a1 a2)
    (h0 : |a0| ≤ 1) (h1 : |a1| ≤ 1) (h2 : |a2| ≤ 1) (ht : k.TIs x.env t) (ht1 : |t| < 1)
    (hn : k.IsNadirnorm → a0 ≠ 0 ∧ t ≠ 0) :
    ∃ v, (∀ nc r, (Scatter.prim k a nc).Returns x r → r = XR.fin v) ∧
      ∃ e : ℕ → ℝ, (∀ N, 0 < N →
        (Scatter.prim k a (some N)).expansionAt x.env x.t0 x.tex x.p0 x.pex = .ok (e N)) ∧
        Tendsto e atTop (𝓝 v) := by
  have hb := Phase.cosTheta_abs_le h0 h1 h2 x.t0 x.tex x.p0 x.pex
  have hn' := Kind.nadirOK h0 ht1 hn
  refine ⟨k.val a0 t (x.cosTheta a0 a1 a2), fun nc r hr => hr.prim h ht (hg_base_pos ht1 hb) hn',
    fun N => ∑ n ∈ Finset.range N, k.coefVal a0 t n * legP n (x.cosTheta a0 a1 a2), fun N hN => ?_,
    (Kind.hasSum hk ht1 hb).tendsto_sum_nat⟩
  have hnc : (Scatter.prim k a (some N)).ncoefs = .ok N := by
    cases k <;> first | exact hk.elim | simp [Scatter.ncoefs]
  unfold Scatter.expansionAt Scatter.legExpansion
  simp only [hnc, okb]
  rw [if_pos hN, angleR_val h, legSum_real]
  congr 1
  refine Finset.sum_congr rfl fun n _ => ?_
  rw [Kind.coef_evalR hk h ht hn']
  rfl

/-- HenyeyGreenstein (volume and surface) and HGRayleigh: for every `|t| < 1`, every `|a_i| ≤ 1` and
all directions, the expansion with `N` coefficients tends to the value returned by `calc`. -/
theorem C42_converges {te : Expr} {k : Kind} (hk : k = .volHG te ∨ k = .srfHG te ∨ k = .volHGRayleigh te)
    {a : A3} {x : Dirs} {a0 a1 a2 t : ℝ} (h : a.Is x.env a0 a1 a2)
    (h0 : |a0| ≤ 1) (h1 : |a1| ≤ 1) (h2 : |a2| ≤ 1) (ht : te.Is x.env t) (ht1 : |t| < 1) :
    ∃ v, (∀ nc r, (Scatter.prim k a nc).Returns x r → r = XR.fin v) ∧
      ∃ e : ℕ → ℝ, (∀ N, 0 < N →
        (Scatter.prim k a (some N)).expansionAt x.env x.t0 x.tex x.p0 x.pex = .ok (e N)) ∧
        Tendsto e atTop (𝓝 v) := by
  rcases hk with rfl | rfl | rfl
  · exact Kind.converges (k := .volHG te) trivial h h0 h1 h2 ht ht1 (fun hn => hn.elim)
  · exact Kind.converges (k := .srfHG te) trivial h h0 h1 h2 ht ht1 (fun hn => hn.elim)
  · exact Kind.converges (k := .volHGRayleigh te) trivial h h0 h1 h2 ht ht1 (fun hn => hn.elim)

/-- HG_nadirnorm: the same for `t ≠ 0` and `a[0] ≠ 0` (otherwise `calc` returns nan,
`C44_nadirnorm_nan`). -/
theorem C42_nadirnorm_partial {te : Expr} {a : A3} {x : Dirs} {a0 a1 a2 t : ℝ} (h : a.Is x.env a0 a1 a2)
    (h0 : |a0| ≤ 1) (h1 : |a1| ≤ 1) (h2 : |a2| ≤ 1) (ht : te.Is x.env t) (ht1 : |t| < 1)
    (ha : a0 ≠ 0) (ht0 : t ≠ 0) :
    ∃ v, (∀ nc r, (Scatter.prim (.srfHGnadirnorm te) a nc).Returns x r → r = XR.fin v) ∧
      ∃ e : ℕ → ℝ, (∀ N, 0 < N →
        (Scatter.prim (.srfHGnadirnorm te) a (some N)).expansionAt x.env x.t0 x.tex x.p0 x.pex = .ok (e N)) ∧
        Tendsto e atTop (𝓝 v) :=
  Kind.converges (k := .srfHGnadirnorm te) trivial h h0 h1 h2 ht ht1 (fun _ => ⟨ha, ht0⟩)

example (x : Dirs) : volA.Is x.env (-1) 1 1 ∧ (Expr.num (1 / 2)).Is x.env (1 / 2) ∧ |(1 / 2 : ℝ)| < 1 :=
  ⟨volA_is _, .num _, by rw [abs_of_pos] <;> norm_num⟩

theorem lobe_expansion {i : ℕ} {a : A3} {x : Dirs} {a0 a1 a2 : ℝ} (h : a.Is x.env a0 a1 a2) {N : ℕ} (hN : 0 < N) :
    (Scatter.prim (.srfCosineLobe i) a (some N)).expansionAt x.env x.t0 x.tex x.p0 x.pex
      = .ok (∑ n ∈ Finset.range N, lobeCoef i n * legP n (x.cosTheta a0 a1 a2)) := by
  have hnc : (Scatter.prim (.srfCosineLobe i) a (some N)).ncoefs = .ok N := by simp [Scatter.ncoefs]
  unfold Scatter.expansionAt Scatter.legExpansion
  simp only [hnc, okb]
  rw [if_pos hN, angleR_val h, legSum_real]
  congr 1
  refine Finset.sum_congr rfl fun n _ => ?_
  rw [lobe_coef]
  rfl

/-- CosineLobe(i) with `i ≥ 1`: for all `|a_i| ≤ 1` and all directions (also where the lobe is cut off),
the expansion with `N` coefficients tends to the value returned by `calc`. -/
theorem C42_cosine_lobe {i : ℕ} (hi : i ≠ 0) {a : A3} {x : Dirs} {a0 a1 a2 : ℝ} (h : a.Is x.env a0 a1 a2)
    (h0 : |a0| ≤ 1) (h1 : |a1| ≤ 1) (h2 : |a2| ≤ 1) :
    ∃ v, (∀ nc r, (Scatter.prim (.srfCosineLobe i) a nc).Returns x r → r = XR.fin v) ∧
      ∃ e : ℕ → ℝ, (∀ N, 0 < N →
        (Scatter.prim (.srfCosineLobe i) a (some N)).expansionAt x.env x.t0 x.tex x.p0 x.pex = .ok (e N)) ∧
        Tendsto e atTop (𝓝 v) :=
  ⟨_, fun nc r hr => by rw [hr.eval]; exact (cosineLobe_is h i).evalX, _, fun N hN => lobe_expansion h hN,
    (lobe_hasSum hi (Phase.cosTheta_abs_le h0 h1 h2 x.t0 x.tex x.p0 x.pex)).tendsto_sum_nat⟩

/-- For the admissible power 0 the limit is wrong where the scattering angle is 90 degrees: `calc` returns
`1/pi`, but the expansion is `1/(2 pi)` for every number of coefficients. -/
theorem C42_cosine_lobe_zero_counterexample {a : A3} {x : Dirs} {a0 a1 a2 : ℝ} (h : a.Is x.env a0 a1 a2)
    (hx : x.cosTheta a0 a1 a2 = 0) :
    (∀ nc r, (Scatter.prim (.srfCosineLobe 0) a nc).Returns x r → r = XR.fin (1 / Real.pi)) ∧
    ∀ N, 0 < N → (Scatter.prim (.srfCosineLobe 0) a (some N)).expansionAt x.env x.t0 x.tex x.p0 x.pex
      = .ok (1 / (2 * Real.pi)) := by
  refine ⟨fun nc r hr => ?_, fun N hN => ?_⟩
  · rw [hr.eval]; refine (cosineLobe_is h 0).evalX.trans ?_; simp [Phase.cosineLobe]
  · obtain ⟨N, rfl⟩ := Nat.exists_eq_succ_of_ne_zero hN.ne'
    rw [lobe_expansion h hN, hx, Finset.sum_range_succ', Finset.sum_eq_zero (fun n _ => lobe_zero_term n), zero_add,
      legP_zero, lobeCoef, momentG_zero]
    simp

example : ∃ x : Dirs, srfA.Is x.env 1 1 1 ∧ x.cosTheta 1 1 1 = 0 :=
  ⟨⟨Real.pi / 2, 0, 0, 0, fun _ => 0⟩, srfA_is _, by simp [Dirs.cosTheta, Phase.cosTheta]⟩

/-- CosineLobe(i) with `i ≥ 1`: `calc` returns a function `f` of the scattering angle, and the
coefficients are its Legendre projections, for every `n`. -/
theorem C43_projection_partial {i : ℕ} (hi : i ≠ 0) : ∃ f : ℝ → ℝ,
    (∀ (a : A3) (x : Dirs) a0 a1 a2, a.Is x.env a0 a1 a2 → ∀ nc r,
      (Scatter.prim (.srfCosineLobe i) a nc).Returns x r → r = XR.fin (f (x.cosTheta a0 a1 a2))) ∧
    ∀ (a : A3) nc, ∃ c, (Scatter.prim (.srfCosineLobe i) a nc).legCoef = .ok c ∧
      ∀ n (ρ : String → ℝ), (c n).Is ρ ((2 * n + 1) / 2 * ∫ y in (-1 : ℝ)..1, f y * (legendre n).eval y) := by
  refine ⟨Phase.cosineLobe i, fun a x a0 a1 a2 h nc r hr => ?_, fun a nc => ⟨_, rfl, fun n ρ => ?_⟩⟩
  · rw [hr.eval]; exact (cosineLobe_is h i).evalX
  · refine ⟨trivial, ?_⟩
    rw [lobe_coef, ← moment_eq]
    have := lobe_integral hi n
    unfold legP at this
    rw [this]
    ring

/-- The full statement of C43 fails for the admissible power 0: `calc` returns `1/pi` in every
direction, so the projection coefficient of index 0 is `1/pi`, but the code uses `1/(2 pi)`. -/
theorem C43_zero_counterexample (a : A3) (nc : Option ℕ) :
    (∀ (x : Dirs) a0 a1 a2, a.Is x.env a0 a1 a2 → ∀ r,
      (Scatter.prim (.srfCosineLobe 0) a nc).Returns x r → r = XR.fin (1 / Real.pi)) ∧
    (2 * (0 : ℕ) + 1) / 2 * (∫ y in (-1 : ℝ)..1, 1 / Real.pi * (legendre 0).eval y) = 1 / Real.pi ∧
    ∃ c, (Scatter.prim (.srfCosineLobe 0) a nc).legCoef = .ok c ∧
      ∀ ρ : String → ℝ, (c 0).Is ρ (1 / (2 * Real.pi)) := by
  refine ⟨fun x a0 a1 a2 h r hr => ?_, ?_, _, rfl, fun ρ => ⟨trivial, ?_⟩⟩
  · rw [hr.eval]; refine (cosineLobe_is h 0).evalX.trans ?_; simp [Phase.cosineLobe]
  · simp [legendre]; ring
  · rw [lobe_coef, momentG_zero]; simp

example (x : Dirs) : ∃ r, (Scatter.prim (.srfCosineLobe 5) srfA (some 10)).Returns x r :=
  ⟨_, Scatter.returns_of x [] (by
    intro n hn
    simp [Scatter.phase, Scatter.primPhase, Scatter.angleExpr, srfA, Expr.free] at hn
    aesop)⟩

end

end RT1
