import Verif.Lemmas.IntPW
import Verif.Lemmas.ExpansionL
import Verif.Lemmas.ParL

/-! Real values of the interaction contribution. -/

namespace RT1

noncomputable section
open Classical MeasureTheory Set

theorem innerX_fin {μ τ : ℝ} (hμ : 0 < μ) (hτ : 0 < τ) (k : ℕ) :
    innerX (XR.fin μ) (XR.fin τ) (k + 1) =
      XR.fin (1 / μ ^ (k + 1) * (expInt (k + 2) τ - Real.exp (-τ / μ) / ((k + 1 : ℕ) : ℝ))) := by
  unfold innerX
  have hk : ((k + 1 : ℕ) : ℝ) ≠ 0 := by positivity
  have hp : μ ^ (k + 1) ≠ 0 := by positivity
  rw [XR.npow_fin, XR.fin_div _ _ hp, XR.fin_neg, XR.fin_div _ _ hμ.ne', XR.exp_fin, XR.fin_div _ _ hk]
  have : XR.expn (k + 1 + 1) (XR.fin τ) = XR.fin (expInt (k + 2) τ) := by
    simp [XR.expn, not_lt.mpr hτ.le]
  rw [this, XR.fin_sub, XR.fin_mul]

theorem innerSumX_fin {μ τ : ℝ} (hμ : 0 < μ) (hτ : 0 < τ) (n : ℕ) :
    innerSumX (XR.fin μ) (XR.fin τ) n =
      XR.fin (∑ k ∈ Finset.range (n + 1),
        1 / μ ^ (k + 1) * (expInt (k + 2) τ - Real.exp (-τ / μ) / ((k + 1 : ℕ) : ℝ))) := by
  induction n with
  | zero =>
    unfold innerSumX
    rw [innerX_fin hμ hτ 0, XR.fin_add, zero_add]
    simp
  | succ n ih =>
    unfold innerSumX
    rw [ih, innerX_fin hμ hτ (n + 1), XR.fin_add, Finset.sum_range_succ _ (n + 1)]

theorem hlpX_fin {μ τ : ℝ} (hμ : 0 < μ) (hμ1 : μ < 1) (hτ : 0 < τ) :
    hlpX (XR.fin μ) (XR.fin τ) =
      XR.fin (Real.exp (-τ / μ) * Real.log (μ / (1 - μ)) - Ei (-τ)
        + Real.exp (-τ / μ) * Ei (τ / μ - τ)) := by
  unfold hlpX
  have h1 : (1 - μ) ≠ 0 := by linarith
  have h2 : 0 < μ / (1 - μ) := div_pos hμ (by linarith)
  have h3 : τ / μ - τ ≠ 0 := by
    have : τ < τ / μ := by rw [lt_div_iff₀ hμ]; nlinarith
    linarith
  have e1 : XR.log (XR.fin (μ / (1 - μ))) = XR.fin (Real.log (μ / (1 - μ))) := by
    simp [XR.log, h2]
  have e2 : XR.expi (XR.fin (-τ)) = XR.fin (Ei (-τ)) := by
    simp [XR.expi, hτ.ne']
  have e3 : XR.expi (XR.fin (τ / μ - τ)) = XR.fin (Ei (τ / μ - τ)) := by
    simp [XR.expi, h3]
  rw [XR.fin_neg, XR.fin_div _ _ hμ.ne', XR.exp_fin, XR.fin_sub, XR.fin_div _ _ h1, e1, e2,
    XR.fin_div _ _ hμ.ne', XR.fin_sub, e3, XR.fin_mul, XR.fin_mul, XR.fin_sub, XR.fin_add]

theorem s2X_fin {μ τ : ℝ} (hμ : 0 < μ) (hμ1 : μ < 1) (hτ : 0 < τ) (n : ℕ) :
    s2X (XR.fin μ) (XR.fin τ) n = XR.fin (polarClosed μ τ n) := by
  unfold s2X polarClosed
  rw [innerSumX_fin hμ hτ, hlpX_fin hμ hμ1 hτ, XR.npow_fin, XR.fin_add, XR.fin_mul]
  congr 1
  ring

theorem cos_image : Real.cos '' Ioo 0 (Real.pi / 2) = Ioo 0 1 := by
  ext x
  constructor
  · rintro ⟨θ, hθ, rfl⟩
    refine ⟨Real.cos_pos_of_mem_Ioo ⟨by linarith [hθ.1, Real.pi_pos], hθ.2⟩, ?_⟩
    rw [← Real.cos_zero]
    exact Real.cos_lt_cos_of_nonneg_of_le_pi_div_two le_rfl hθ.2.le hθ.1
  · rintro ⟨h0, h1⟩
    refine ⟨Real.arccos x, ⟨Real.arccos_pos.mpr h1, ?_⟩, Real.cos_arccos (by linarith) h1.le⟩
    exact Real.arccos_lt_pi_div_two.mpr h0

theorem polar_integrand_integrable {μ τ : ℝ} (hμ : 0 < μ) (hτ : 0 ≤ τ) (n : ℕ) :
    IntegrableOn (fun x => x / (μ - x) * (Real.exp (-τ / μ) - Real.exp (-τ / x)) * x ^ n) (Ioo 0 1) := by
  have hi : IntegrableOn (fun x => Real.exp (-τ / μ) * (x ^ (n + 1) * kern μ τ x)) (Ioo 0 1) :=
    (psi_integrable hμ hτ (n + 1)).const_mul (Real.exp (-τ / μ))
  refine hi.congr_fun (fun x hx => ?_) measurableSet_Ioo
  have e : Real.exp (-τ / x) = Real.exp (-τ / μ) * Real.exp (τ / μ - τ / x) := by
    rw [← Real.exp_add]; congr 1; ring
  show Real.exp (-τ / μ) * (x ^ (n + 1) * kern μ τ x) = _
  unfold kern
  rw [e]
  ring

/-- The double integral of a function whose azimuthal integral is a polynomial in cos(theta). -/
theorem hemi_eq {μ τ : ℝ} (hμ : 0 < μ) (hτ : 0 ≤ τ) {q : ℝ → ℝ → ℝ} {L : ℕ} {c : ℕ → ℝ}
    (h : ∀ θ, ∑ n ∈ Finset.range L, c n * Real.cos θ ^ n = ∫ φ in (0 : ℝ)..(2 * Real.pi), q θ φ) :
    hemi μ τ q = ∑ n ∈ Finset.range L, c n * polar μ τ n := by
  have e1 : ∑ n ∈ Finset.range L, c n * polar μ τ n =
      ∫ x in Ioo (0 : ℝ) 1, x / (μ - x) * (Real.exp (-τ / μ) - Real.exp (-τ / x))
        * ∑ n ∈ Finset.range L, c n * x ^ n := by
    have : ∀ n, c n * polar μ τ n = ∫ x in Ioo (0 : ℝ) 1,
        c n * (x / (μ - x) * (Real.exp (-τ / μ) - Real.exp (-τ / x)) * x ^ n) := by
      intro n
      unfold polar
      rw [intervalIntegral.integral_of_le zero_le_one, integral_Ioc_eq_integral_Ioo,
        integral_const_mul]
    simp only [this]
    rw [← integral_finsetSum _ fun n _ => (polar_integrand_integrable hμ hτ n).const_mul (c n)]
    refine setIntegral_congr_fun measurableSet_Ioo fun x _ => ?_
    simp only [Finset.mul_sum]
    refine Finset.sum_congr rfl fun n _ => ?_
    ring
  rw [e1, ← cos_image, integral_image_eq_integral_abs_deriv_smul (f' := fun θ => -Real.sin θ)
    measurableSet_Ioo (fun θ _ => (Real.hasDerivAt_cos θ).hasDerivWithinAt)
    (Real.injOn_cos.mono fun θ (hθ : θ ∈ Ioo 0 (Real.pi / 2)) =>
      (⟨hθ.1.le, by linarith [hθ.2, Real.pi_pos]⟩ : θ ∈ Icc 0 Real.pi))]
  unfold hemi
  rw [intervalIntegral.integral_of_le (by positivity), integral_Ioc_eq_integral_Ioo]
  refine setIntegral_congr_fun measurableSet_Ioo fun θ hθ => ?_
  have hs : 0 ≤ Real.sin θ := Real.sin_nonneg_of_nonneg_of_le_pi hθ.1.le (by linarith [hθ.2, Real.pi_pos])
  simp only [smul_eq_mul, abs_neg, abs_of_nonneg hs, h θ]
  rw [← intervalIntegral.integral_const_mul, ← intervalIntegral.integral_const_mul]
  refine intervalIntegral.integral_congr fun φ _ => ?_
  ring

/-- F_int as computed for the geometry `g`: the angles of the expansions are the entries of `g`. -/
def geomFint (V S : Scatter) (g : Geom4) (μ τ : ℝ) (ρ : String → ℝ) : ℝ :=
  hemi μ τ fun θ φ =>
    V.expVal ρ (Real.pi - g.t0.val ρ) θ (g.p0.val ρ) φ
      * S.expVal ρ θ (g.tex.val ρ) φ (g.pex.val ρ + Real.pi)

/-- The symbols of a geometry are the names of the angles. -/
def Geom4.Named (g : Geom4) : Prop :=
  ∀ e ∈ [g.t0, g.tex, g.p0, g.pex], ∀ s, e = AngS.sym s →
    s ∈ ["theta_0", "phi_0", "theta_ex", "phi_ex"]

theorem AngS.val_congr {e : AngS} {ρ ρ' : String → ℝ} (h : ∀ s, e = AngS.sym s → ρ s = ρ' s) :
    e.val ρ = e.val ρ' := by
  cases e with
  | sym s => exact h s rfl
  | num r => rfl

/-- The coefficients in use are the computed ones. -/
theorem fnevals_source {b c : Backend} {o : Obj} (hok : ObjOK c o) (h1 : o.fnInput = none)
    (h2 : o.fnevalsInput = none) {f : Option FnLam} (h : Fresh.fnevals b o = .ok f)
    (hf : f ≠ none) : ∃ ks fs, ks <+: o.params.keys ∧ fnCoefs o.V o.SRF o.geom = .ok fs ∧
      f = some ⟨["theta_0", "phi_0", "theta_ex", "phi_ex"] ++ ks,
          o.V.phase.free ++ o.SRF.phase.free, fs⟩ := by
  unfold Fresh.fnevals at h
  cases h3 : o.fnevals_ with
  | some l =>
    rw [h3] at h
    cases h
    obtain ⟨-, ks, fs, hks, rfl, hfs, -⟩ := hok.fnevals l h3
    refine ⟨ks, fs, hks, ?_, rfl⟩
    rcases hfs with hfs | hfs
    · rw [h1] at hfs; cases hfs
    · exact hfs.2
  | none =>
    simp only [h3, h2] at h
    by_cases hq : o.intQ = true
    · rw [if_pos hq] at h
      obtain ⟨g, hg, h⟩ := ok_bind h
      cases g with
      | none => cases h
      | some g =>
        obtain ⟨lam, hlam, h⟩ := ok_bind h
        cases h
        unfold Fresh.fnCompile at hlam
        simp only at hlam
        split_ifs at hlam with hs
        cases hlam
        refine ⟨o.params.keys, g, List.prefix_refl _, ?_, rfl⟩
        rcases Fresh.fn_source hok hg with hfs | hfs
        · rw [h1] at hfs; cases hfs
        · exact hfs.2
    · rw [if_neg hq] at h
      cases h
      exact absurd rfl hf

/-- The value of F_int for finite angles, parameters and a canopy. -/
theorem fint_val {b c : Backend} {o : Obj} {dv ds : String → Py Lam} {ang : Py (List Arr)}
    {mux mu : Py Arr} {z a1 a2 a3 a4 m tau : Arr} {N r nS nV : ℕ} {idx : List ℕ} {y : Site}
    (hok : ObjOK c o) (hi1 : o.fnInput = none) (hi2 : o.fnevalsInput = none) (hg : o.geom.Named)
    (h : (Fresh.acc b o dv ds).fint ang mux mu = .ok z)
    (hang : ang = .ok [a1, a2, a3, a4]) (hmu : mu = .ok m) (hN : Fresh.nmax o = .ok N)
    (hmux : mux = Acc.muPowers N m) (htau : Fresh.par b o .tau = .ok tau)
    (hV : o.V.ncoefs = .ok (nV + 1)) (hS : o.SRF.ncoefs = .ok (nS + 1))
    (hpos : 1 ≤ r) (hm : m.shape.length = r) (ht : tau.shape.length ≤ r)
    (hargs : ∀ a ∈ [a1, a2, a3, a4] ++ o.params.map Prod.snd, a.shape.length ≤ r)
    (ha1 : a1.shape.length = r)
    (hconst : r = 1 ∨ b = .symengine ∨ ∃ fs, fnCoefs o.V o.SRF o.geom = .ok fs ∧
      ∃ p ∈ fs, ¬ isConstFn p)
    (hidx : r ≤ idx.length)
    (e1 : a1.at' idx = XR.fin y.t0) (e2 : a2.at' idx = XR.fin y.p0) (e3 : a3.at' idx = XR.fin y.tex)
    (e4 : a4.at' idx = XR.fin y.pex)
    (hpar : ∀ k a, o.params.get? k = some a → a.at' idx = XR.fin (y.ρ k))
    (em : m.at' idx = XR.fin y.mu0) (et : tau.at' idx = XR.fin y.tau) (h0 : 0 < y.mu0)
    (h1 : y.mu0 < 1) (htp : 0 < y.tau) :
    z.at' idx = XR.fin (geomFint o.V o.SRF o.geom y.mu0 y.tau y.env) := by
  -- the compiled coefficients
  obtain ⟨f, hf, hfn⟩ : ∃ f, Fresh.fnevals b o = .ok f ∧ f ≠ none := by
    subst hang
    obtain ⟨a, ha, h⟩ := ok_bind h
    obtain ⟨pd, hpd, h⟩ := ok_bind h
    obtain ⟨args, hargs, h⟩ := ok_bind h
    obtain ⟨f, hf, h⟩ := ok_bind h
    refine ⟨f, hf, ?_⟩
    rintro rfl
    obtain ⟨outs, houts, h⟩ := ok_bind h
    cases houts
  obtain ⟨ks, fs, hks, hfs, rfl⟩ := fnevals_source hok hi1 hi2 hf hfn
  obtain ⟨nS', nV', c, hS', hV', hfs', hc0, s, v, hs, hv, hint⟩ := fnCoefs_spec hfs
  rw [hS] at hS'; cases hS'
  rw [hV] at hV'; cases hV'
  have hN' : N = nS + nV + 1 := by
    unfold Fresh.nmax at hN
    rw [hS, hV] at hN
    simp only [okb] at hN
    cases hN
    omega
  have hL : nFn (nS + 1) (nV + 1) = 2 + (N - 2) := by unfold nFn; omega
  have henv : ∀ s ∈ ["theta_0", "phi_0", "theta_ex", "phi_ex"] ++ o.params.keys,
      angEnv (a1.at' idx) (a3.at' idx) (a2.at' idx) (a4.at' idx) (o.params.valAt idx) s =
        XR.fin (y.env s) := by
    intro s hs
    unfold angEnv Site.env
    rw [e1, e2, e3, e4]
    by_cases c1 : s = "theta_0"
    · rw [if_pos c1, if_pos c1]
    by_cases c2 : s = "theta_ex"
    · rw [if_neg c1, if_neg c1, if_pos c2, if_pos c2]
    by_cases c3 : s = "phi_0"
    · rw [if_neg c1, if_neg c1, if_neg c2, if_neg c2, if_pos c3, if_pos c3]
    by_cases c4 : s = "phi_ex"
    · rw [if_neg c1, if_neg c1, if_neg c2, if_neg c2, if_neg c3, if_neg c3, if_pos c4, if_pos c4]
    rw [if_neg c1, if_neg c1, if_neg c2, if_neg c2, if_neg c3, if_neg c3, if_neg c4, if_neg c4]
    have hk : s ∈ o.params.keys := by
      rcases List.mem_append.mp hs with hs | hs
      · simp [c1, c2, c3, c4] at hs
      · exact hs
    obtain ⟨a, ha⟩ := Dict.get?_of_mem hk
    unfold Dict.valAt
    rw [ha]
    exact hpar s a ha
  have hcst : b = .sympy → (∀ n, n < nFn (nS + 1) (nV + 1) → ∀ ρ ρ', c n ρ = c n ρ') → r = 1 := by
    intro hb hcc
    rcases hconst with hr | hr | ⟨fs', hfs2, p, hp, hpc⟩
    · exact hr
    · rw [hr] at hb; cases hb
    · rw [hfs] at hfs2
      cases hfs2
      rw [hfs'] at hp
      obtain ⟨n, hn, rfl⟩ := List.mem_map.mp hp
      exact absurd (fun ρ ρ' => by
        rw [show MvPolynomial.coeff 0 (MvPolynomial.C (c n) : P) = c n by simp]
        exact hcc n (List.mem_range.mp hn) ρ ρ') hpc
  obtain ⟨hfree, hz⟩ := fint_at h hang hmu hN (by omega) hmux htau hf rfl hks hfs' hL
    ⟨hpos, hm, ht, hargs, ⟨a1, by simp, ha1⟩, hcst⟩ hidx fun s hs => by rw [henv s hs]; rfl
  rw [hz, em, et]
  set ρ' : String → ℝ := fun s => (angEnv (a1.at' idx) (a3.at' idx) (a2.at' idx) (a4.at' idx)
    (o.params.valAt idx) s).toReal with hρ'
  have hagree : ∀ s ∈ ["theta_0", "phi_0", "theta_ex", "phi_ex"] ++ o.params.keys,
      ρ' s = y.env s := fun s hs => by rw [hρ']; simp only [henv s hs]; rfl
  have hS2 : ∀ n, s2X (XR.fin y.mu0) (XR.fin y.tau) n = XR.fin (polar y.mu0 y.tau n) := by
    intro n; rw [s2X_fin h0 h1 htp, polar_closed h0 h1 htp]
  simp only [hS2, XR.fin_mul]
  rw [Arr.sumX_fin]
  congr 1
  have hsum : ∑ n ∈ Finset.range (nFn (nS + 1) (nV + 1)),
        c n ρ' * polar y.mu0 y.tau (if N = 1 then 0 else n) =
      ∑ n ∈ Finset.range (nFn (nS + 1) (nV + 1)), c n ρ' * polar y.mu0 y.tau n := by
    refine Finset.sum_congr rfl fun n hn => ?_
    by_cases hN1 : N = 1
    · rw [if_pos hN1]
      rcases Nat.eq_zero_or_pos n with rfl | hn0
      · rfl
      · have : c n = 0 := (hc0 n (by omega)).resolve_right hn0.ne'
        rw [this]; simp
    · rw [if_neg hN1]
  have hgeom : ∀ e ∈ [o.geom.t0, o.geom.tex, o.geom.p0, o.geom.pex], e.val ρ' = e.val y.env :=
    fun e he => AngS.val_congr fun s hs => hagree s (List.mem_append_left _ (hg e he s hs))
  have hval : ∀ θ φ, evP ρ' θ φ v * evP ρ' θ φ s =
      o.V.expVal y.env (Real.pi - o.geom.t0.val y.env) θ (o.geom.p0.val y.env) φ *
      o.SRF.expVal y.env θ (o.geom.tex.val y.env) φ (o.geom.pex.val y.env + Real.pi) := by
    intro θ φ
    have hv1 := vol_value hv ρ' θ φ
    have hs1 := srf_value hs ρ' θ φ
    rw [hgeom _ (by simp), hgeom _ (by simp)] at hv1 hs1
    have hv2 := Scatter.expansion_congr (ρ' := y.env)
      (fun s hs => hagree s (hfree s (List.mem_append_left _ hs))) hv1
    have hs2 := Scatter.expansion_congr (ρ' := y.env)
      (fun s hs => hagree s (hfree s (List.mem_append_right _ hs))) hs1
    rw [Scatter.expVal_of_ok hv2, Scatter.expVal_of_ok hs2]
  have e : ((List.range (nFn (nS + 1) (nV + 1))).map fun n =>
      c n ρ' * polar y.mu0 y.tau (if N = 1 then 0 else n)).sum =
      ∑ n ∈ Finset.range (nFn (nS + 1) (nV + 1)), c n ρ' * polar y.mu0 y.tau n := by
    rw [← hsum]; rfl
  rw [e]
  unfold geomFint
  refine (hemi_eq h0 htp.le fun θ => ?_).symm
  rw [hint]
  exact intervalIntegral.integral_congr fun φ _ => hval θ φ

/-- The interaction contribution (linear) for the angles of the geometry `g`. -/
def geomInteraction (V S : Scatter) (g : Geom4) (x : Site) : ℝ :=
  x.NormBRDF * (1 - x.bsf) * (x.I0 * x.mu0 * x.omega
    * (Real.exp (-x.tau / x.muEx) * geomFint V S g x.mu0 x.tau x.env
      + Real.exp (-x.tau / x.mu0) * geomFint V S g x.muEx x.tau x.swap.env))

theorem HasVal.obtain {x : Py Arr} {idx : List ℕ} {v : ℝ} (h : HasVal x idx v) :
    ∃ a, x = .ok a ∧ a.at' idx = XR.fin v := h

theorem interaction_F {b : Backend} {o : Obj} {dv ds : String → Py Lam} {z : Arr}
    (h : (Fresh.acc b o dv ds).interaction = .ok z) :
    ∃ F1 F2, (Fresh.acc b o dv ds).fint1 = .ok F1 ∧ (Fresh.acc b o dv ds).fint2 = .ok F2 ∧
      ∃ I, ((Fresh.acc b o dv ds).I0 *. (Fresh.acc b o dv ds).mu0 *. (Fresh.acc b o dv ds).par .omega
        *. (expM (negM ((Fresh.acc b o dv ds).par .tau) /. (Fresh.acc b o dv ds).muEx) *. pure F1
        +. expM (negM ((Fresh.acc b o dv ds).par .tau) /. (Fresh.acc b o dv ds).mu0) *. pure F2)) = .ok I ∧
      ((Fresh.acc b o dv ds).par .NormBRDF *. (litM 1 -. (Fresh.acc b o dv ds).par .bsf) *. pure I)
        = .ok z := by
  obtain ⟨F1, h1, h⟩ := ok_bind h
  obtain ⟨F2, h2, h⟩ := ok_bind h
  obtain ⟨I, h3, h⟩ := ok_bind h
  exact ⟨F1, F2, h1, h2, I, h3, h⟩

theorem ang_ok {o : Obj} {n : AngN} {a : Arr} (h : Fresh.ang o n = .ok a) : o.ang n = some a := by
  unfold Fresh.ang at h
  cases ha : o.ang n with
  | none => rw [ha] at h; cases h
  | some c => rw [ha] at h; cases h; rfl

theorem Arr.map2_length {f : XR → XR → XR} {a b z : Arr} (h : Arr.map2 f a b = .ok z) :
    z.shape.length = max a.shape.length b.shape.length := by
  unfold Arr.map2 at h
  cases hb : Arr.bshape a.shape b.shape with
  | none => rw [hb] at h; cases h
  | some u => rw [hb] at h; cases h; exact Arr.bshape_length hb

/-- The interaction contribution of an object at an index. -/
theorem interaction_at {b c : Backend} {o : Obj} {dv ds : String → Py Lam} {z : Arr} {r nS nV : ℕ}
    {idx : List ℕ} {x : Site}
    (hok : ObjOK c o) (hi1 : o.fnInput = none) (hi2 : o.fnevalsInput = none) (hg : o.geom.Named)
    (h : (Fresh.acc b o dv ds).interaction = .ok z)
    (hV : o.V.ncoefs = .ok (nV + 1)) (hS : o.SRF.ncoefs = .ok (nS + 1))
    (hal : Aligned b o r) (hidx : r ≤ idx.length) (hs : FSite b o idx x) (hx : x.Oblique) :
    z.at' idx = XR.fin (geomInteraction o.V o.SRF o.geom x) := by
  obtain ⟨F1, F2, h1, h2, I, h3, h4⟩ := interaction_F h
  obtain ⟨a1, ha1, e1⟩ := hs.t0.obtain
  obtain ⟨a3, ha3, e3⟩ := hs.tex.obtain
  obtain ⟨a2, ha2, e2⟩ := hs.p0.obtain
  obtain ⟨a4, ha4, e4⟩ := hs.pex.obtain
  obtain ⟨tau, htau, et⟩ := hs.tau.obtain
  have hN : Fresh.nmax o = .ok (nV + 1 + (nS + 1) - 1) := by
    unfold Fresh.nmax
    rw [hS, hV]
    rfl
  have l1 : a1.shape.length = r := hal.t0 a1 (ang_ok ha1)
  have l2 : a2.shape.length ≤ r := hal.p0 a2 (ang_ok ha2)
  have l3 : a3.shape.length = r := by
    unfold Fresh.tex at ha3
    by_cases hm : o.mono = true
    · rw [if_pos hm, ha1] at ha3; cases ha3; exact l1
    · rw [if_neg hm] at ha3
      exact hal.tex (by simpa using hm) a3 (ang_ok ha3)
  have l4 : a4.shape.length ≤ r := by
    unfold Fresh.pex at ha4
    by_cases hm : o.mono = true
    · rw [if_pos hm, ha2] at ha4
      have h' : Arr.add a2 (Arr.lit Real.pi) = .ok a4 := ha4
      have := Arr.map2_length h'
      rw [this]
      exact max_le l2 (Nat.zero_le _)
    · rw [if_neg hm] at ha4
      exact hal.pex (by simpa using hm) a4 (ang_ok ha4)
  have lp : ∀ a ∈ o.params.map Prod.snd, a.shape.length ≤ r := by
    intro a ha
    obtain ⟨p, hp, rfl⟩ := List.mem_map.mp ha
    exact hal.params p hp
  have hm0 : Fresh.mu0 o = .ok (Arr.cos a1) := by unfold Fresh.mu0; rw [ha1]; rfl
  have hme : Fresh.muEx o = .ok (Arr.cos a3) := by unfold Fresh.muEx; rw [ha3]; rfl
  have v1 : F1.at' idx = XR.fin (geomFint o.V o.SRF o.geom x.mu0 x.tau x.env) := by
    refine fint_val (y := x) (a1 := a1) (a2 := a2) (a3 := a3) (a4 := a4) (m := Arr.cos a1) (tau := tau)
      hok hi1 hi2 hg h1 ?_ hm0 hN ?_ htau hV hS hal.pos l1 (hal.tau tau htau) ?_ l1 hal.const hidx
      e1 e2 e3 e4 hs.params ?_ et hx.mu0 hx.mu0' hx.tau
    · show (do
        let a ← Fresh.ang o .t0
        let b ← Fresh.ang o .p0
        let c ← Fresh.tex o
        let d ← Fresh.pex o
        pure [a, b, c, d] : Py (List Arr)) = _
      rw [ha1, ha2, ha3, ha4]; rfl
    · show Fresh.mu0x o = _
      unfold Fresh.mu0x
      rw [hN, hm0]; rfl
    · intro a ha
      rcases List.mem_append.mp ha with ha | ha
      · simp only [List.mem_cons, List.not_mem_nil, or_false] at ha
        rcases ha with rfl | rfl | rfl | rfl
        · exact l1.le
        · exact l2
        · exact l3.le
        · exact l4
      · exact lp a ha
    · show XR.cos (a1.at' idx) = _
      rw [e1]; rfl
  have v2 : F2.at' idx = XR.fin (geomFint o.V o.SRF o.geom x.muEx x.tau x.swap.env) := by
    refine fint_val (y := x.swap) (a1 := a3) (a2 := a4) (a3 := a1) (a4 := a2) (m := Arr.cos a3)
      (tau := tau) hok hi1 hi2 hg h2 ?_ hme hN ?_ htau hV hS hal.pos l3 (hal.tau tau htau) ?_ l3
      hal.const hidx e3 e4 e1 e2 hs.params ?_ et hx.muEx hx.muEx' hx.tau
    · show (do
        let a ← Fresh.tex o
        let b ← Fresh.pex o
        let c ← Fresh.ang o .t0
        let d ← Fresh.ang o .p0
        pure [a, b, c, d] : Py (List Arr)) = _
      rw [ha1, ha2, ha3, ha4]; rfl
    · show Fresh.muExx o = _
      unfold Fresh.muExx
      rw [hN, hme]; rfl
    · intro a ha
      rcases List.mem_append.mp ha with ha | ha
      · simp only [List.mem_cons, List.not_mem_nil, or_false] at ha
        rcases ha with rfl | rfl | rfl | rfl
        · exact l3.le
        · exact l4
        · exact l1.le
        · exact l2
      · exact lp a ha
    · show XR.cos (a3.at' idx) = _
      rw [e3]; rfl
  have w3 := PW.mulM (PW.mulM (PW.mulM (PW.I0 (b := b) (o := o) (dv := dv) (ds := ds) (idx := idx)) PW.mu0)
    (PW.par .omega))
    (PW.addM (PW.mulM (PW.expM (PW.divM (PW.negM (PW.par .tau)) PW.muEx)) (PW.pure v1))
      (PW.mulM (PW.expM (PW.divM (PW.negM (PW.par .tau)) PW.mu0)) (PW.pure v2))) I h3
  have w4 := PW.mulM (PW.mulM (PW.par (b := b) (o := o) (dv := dv) (ds := ds) (idx := idx) .NormBRDF)
    (PW.subM (PW.lit 1) (PW.par .bsf))) (PW.pure w3) z h4
  rw [w4, hs.x_I0, hs.x_mu0, hs.x_muEx, hs.x_par, hs.x_par, hs.x_par, hs.x_par]
  simp only [XR.fin_neg, XR.fin_div _ _ hx.mu0.ne', XR.fin_div _ _ hx.muEx.ne', XR.exp_fin, XR.fin_mul,
    XR.fin_add, XR.fin_sub, Site.par]
  rfl

end

end RT1
