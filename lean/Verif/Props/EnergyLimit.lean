import Verif.Lemmas.EnergyTrunc
import Verif.Props.Trunc

/-!
# C74: energy balance with truncated expansions in the interaction term

The interaction term is computed from truncated expansions.  The energies are balanced up to the error
of the truncation, and the limits for a growing number of coefficients are balanced.
-/

namespace RT1

noncomputable section
open Filter Topology

theorem toward_oblique {x : Site} {R : ℝ} (hx : x.Passive R) (ht0 : 0 < x.t0) (hτ : 0 < x.tau) {t : ℝ} (ht : t ∈ Set.Ioo 0 (Real.pi / 2))
    (p : ℝ) : (x.toward t p).Oblique := by
  have lt1 : ∀ s, 0 < s → s < Real.pi / 2 → Real.cos s < 1 := fun s h1 h2 => by
    have := Real.cos_lt_cos_of_nonneg_of_le_pi le_rfl (show s ≤ Real.pi by linarith [Real.pi_pos]) h1
    rwa [Real.cos_zero] at this
  have hc : 0 < Real.cos t := Real.cos_pos_of_mem_Ioo ⟨by linarith [ht.1, Real.pi_pos], ht.2⟩
  exact ⟨hx.ok.mu0, lt1 _ ht0 hx.t0', hc, lt1 _ ht.1 ht.2, hτ⟩

theorem interactionOf_toward (x : Site) (P F : Bidir) (t p : ℝ) :
    (x.toward t p).interactionOf P F Real.pi = x.setting.inter P F.shift t p := rfl

theorem toward_unit (x : Site) (s : Bool) (t p : ℝ) : (x.toward t p).unit s = x.unit s := rfl

theorem coupling_le {x : Site} (h0 : 0 < x.mu0) (h1 : 0 < x.muEx) (hτ : 0 ≤ x.tau) :
    x.coupling ≤ |x.NormBRDF * (1 - x.bsf) * x.I0 * x.omega| * x.mu0 * (2 * Real.pi) := by
  have e : ∀ {μ : ℝ}, 0 < μ → 0 ≤ Real.exp (-x.tau / μ) ∧ Real.exp (-x.tau / μ) ≤ 1 := fun {μ} hμ =>
    ⟨(Real.exp_pos _).le, Real.exp_le_one_iff.mpr (div_nonpos_of_nonpos_of_nonneg (by linarith) hμ.le)⟩
  unfold Site.coupling
  refine mul_le_of_le_one_right (by have := Real.pi_pos; positivity) ?_
  obtain ⟨a0, a1⟩ := e h0
  obtain ⟨b0, b1⟩ := e h1
  nlinarith [mul_nonneg (sub_nonneg.mpr a1) (sub_nonneg.mpr b1), mul_nonneg a0 b0]

/-- The limits of the totals for a growing number of coefficients exist for all directions of the
upper hemisphere (`J` is the intensity they stand for); summed over the hemisphere they are at most the
incoming energy.  Bistatic objects without fixed angles, linear units. -/
theorem C74_limit_partial {x : Site} {V S : ℕ → Scatter} {P F : Bidir} (hV : Family x V P) (hS : Family x S F) {R : ℝ}
    (hb : Balanced P F R) (hF : F.Turns) (hx : x.Passive R) (ht0 : 0 < x.t0) (hτ : 0 < x.tau) {s : Bool} (hI : s = true → x.I0 ≠ 0)
    {r : ℕ → ℝ → ℝ → XR}
    (h : AllDirs fun t p => ∀ N, ObservesRowP 0 ⟨V N, S N, true, s, false⟩ ⟨false, []⟩ (x.toward t p) (r N t p)) :
    ∃ J : ℝ → ℝ → ℝ, (AllDirs fun t p => Approach (fun N => r N t p) (J t p * x.unit s)) ∧ AtMost J (x.I0 * Real.cos x.t0) := by
  refine ⟨fun t p => x.setting.srf F t p + x.setting.vol P t p + x.setting.inter P F.shift t p, fun t ht p hp => ?_,
    Energy.balance_shift hb hF hx.ok fun t _ p _ => rfl⟩
  refine C75_total_bistatic_partial (hV.move (y := x.toward t p) rfl) (hS.move (y := x.toward t p) rfl) (toward_oblique hx ht0 hτ ht p) hI
    (h t ht p hp) ?_
  rw [inUnits_linear]
  rfl

/-- The totals for given numbers of coefficients, summed over the hemisphere, exceed the incoming energy
(or fall below zero) at most by the error of the truncation. -/
theorem C74_truncated_partial {x : Site} {N M : ℕ} {V S : Scatter} {P F : Bidir} {eV MV eS MS : ℝ} (hV : Truncated x N V P eV MV)
    (hS : Truncated x M S F eS MS) {R : ℝ} (hb : Balanced P F R) (hF : F.Turns) (hx : x.Passive R) (ht0 : 0 < x.t0) (hτ : 0 < x.tau)
    {s : Bool} (hI : s = true → x.I0 ≠ 0) {J : ℝ → ℝ → ℝ}
    (h : AllDirs fun t p => ObservesRowP 0 ⟨V, S, true, s, false⟩ ⟨false, []⟩ (x.toward t p) (x.inUnits s false (J t p))) :
    MeasureTheory.IntegrableOn (fun z : ℝ × ℝ => J z.1 z.2 * Real.cos z.1 * Real.sin z.1)
      (Set.Ioc 0 (Real.pi / 2) ×ˢ Set.Ioc 0 (2 * Real.pi)) ∧
    -x.energyError eV MV eS MS ≤ hemReflectance J ∧ hemReflectance J ≤ x.I0 * Real.cos x.t0 + x.energyError eV MV eS MS := by
  obtain ⟨b1, b2, b3⟩ := Energy.balance_shift hb hF hx.ok
    (g := fun t p => x.setting.srf F t p + x.setting.vol P t p + x.setting.inter P F.shift t p) fun t _ p _ => rfl
  have eJ : ∀ t ∈ Set.Ioo 0 (Real.pi / 2), ∀ p ∈ Set.Ioo 0 (2 * Real.pi), J t p = x.setting.srf F t p + x.setting.vol P t p +
      (x.toward t p).interactionAz V S Real.pi := fun t ht p hp => by
    obtain ⟨g, hg, e⟩ := total_geom (hV.move (y := x.toward t p) rfl) (hS.move (y := x.toward t p) rfl) (toward_oblique hx ht0 hτ ht p) hI
      (h t ht p hp)
    rw [geomInteraction_bi hg rfl rfl, inUnits_linear, inUnits_linear, toward_unit] at e
    have hu : x.unit s ≠ 0 := by
      unfold Site.unit
      split_ifs with h1
      · exact (x.signorm_pos hx (hI h1)).ne'
      · exact one_ne_zero
    exact mul_right_cancel₀ hu (XR.fin.inj e)
  have ei : ∀ t p, (x.toward t p).interactionAz V S Real.pi = x.setting.inter (V.expVal x.env) (Bidir.shift (S.expVal x.env)) t p := fun t p => by
    unfold Site.interactionAz Site.FintAz
    rw [hV.same (y := x.toward t p) rfl, hS.same (y := x.toward t p) rfl, hV.same (y := (x.toward t p).swap) rfl,
      hS.same (y := (x.toward t p).swap) rfl]
    rfl
  have cS : Bidir.Cont (Bidir.shift (S.expVal x.env)) :=
    Bidir.Cont.comp (hS.near.contE x rfl) (by fun_prop) (by fun_prop) (by fun_prop) (by fun_prop)
  obtain ⟨j, hj, hij⟩ := Energy.inter_meas_bounded (hV.near.contE x rfl) cS
    (hV.near.exp_le rfl) (fun _ _ _ _ => hS.near.exp_le rfl _ _ _ _) (x := x.setting) hx.tau hx.ok.mu0
  have mF : Measurable fun z : ℝ × ℝ => F x.t0 z.1 x.p0 z.2 :=
    (hb.contF.comp (by fun_prop) (by fun_prop) (by fun_prop) (by fun_prop)).measurable
  have mP : Measurable fun z : ℝ × ℝ => P x.t0 z.1 x.p0 z.2 :=
    (hb.contP.comp (by fun_prop) (by fun_prop) (by fun_prop) (by fun_prop)).measurable
  have hm : Measurable fun z : ℝ × ℝ => x.setting.srf F z.1 z.2 + x.setting.vol P z.1 z.2 + j z := by
    unfold Energy.Setting.srf Energy.Setting.vol
    simp only [Site.setting]
    fun_prop
  have hc : ∀ t ∈ Set.Ioo 0 (Real.pi / 2), 0 < Real.cos t := fun t ht => Real.cos_pos_of_mem_Ioo ⟨by linarith [ht.1, Real.pi_pos], ht.2⟩
  obtain ⟨c1, c2⟩ := Energy.hem_close (g := J)
    (j := fun t p => x.setting.srf F t p + x.setting.vol P t p + x.setting.inter P F.shift t p) hm (fun t ht p hp => by rw [eJ t ht p hp, ei, hij t (hc t ht) p]) b1
    (K := |x.NormBRDF * (1 - x.bsf) * x.I0 * x.omega| * x.mu0 * (2 * Real.pi) * (eV * (MS + eS) + MV * eS)) fun t ht p hp => by
      rw [eJ t ht p hp, add_sub_add_left_eq_sub, ← interactionOf_toward]
      refine (((hV.move (y := x.toward t p) rfl).near).interaction ((hS.move (y := x.toward t p) rfl).near)
        (toward_oblique hx ht0 hτ ht p) Real.pi).trans ?_
      refine mul_le_mul_of_nonneg_right (coupling_le (x := x.toward t p) hx.ok.mu0 (hc t ht) hx.tau) ?_
      obtain ⟨n1, n2⟩ := hV.near.nonneg
      obtain ⟨n3, n4⟩ := hS.near.nonneg
      positivity
  refine ⟨c1, ?_⟩
  have e : Real.pi * (|x.NormBRDF * (1 - x.bsf) * x.I0 * x.omega| * x.mu0 * (2 * Real.pi) * (eV * (MS + eS) + MV * eS)) =
      x.energyError eV MV eS MS := by unfold Site.energyError; ring
  rw [e] at c2
  obtain ⟨c3, c4⟩ := abs_le.mp c2
  have b3' : _ ≤ x.I0 * Real.cos x.t0 := b3
  constructor <;> linarith

/-! ### the predefined functions -/

theorem Kind.bidir_turns (k : Kind) (a0 t : ℝ) : (k.bidir a0 t).Turns where
  full := fun a b u v => by
    unfold bidir Phase.cosTheta
    rw [Real.cos_add_two_pi, Real.sin_add_two_pi]
  half := fun a b u v => by
    unfold bidir Phase.cosTheta
    simp only [Real.cos_add_pi, Real.sin_add_pi, mul_neg, neg_mul, neg_neg]

/-- Any predefined volume function with default `a` above an Isotropic, CosineLobe or HenyeyGreenstein
surface with default `a`: the limits are balanced (`Kind.reflMax` is 1, or 4 for HenyeyGreenstein). -/
theorem C74_predefined_limit_partial {x : Site} {kV kS : Kind} (hV : kV.IsVol)
    (hS : kS = .srfIsotropic ∨ (∃ i, i ≠ 0 ∧ kS = .srfCosineLobe i) ∨ ∃ te, kS = .srfHG te) {tV tS : ℝ}
    (eV : ∀ y : Site, y.ρ = x.ρ → kV.TIs y.env tV) (eS : ∀ y : Site, y.ρ = x.ρ → kS.TIs y.env tS) (h1 : |tV| < 1) (h2 : |tS| < 1)
    (hx : x.Passive kS.reflMax) (ht0 : 0 < x.t0) (hτ : 0 < x.tau) {s : Bool} (hI : s = true → x.I0 ≠ 0) {r : ℕ → ℝ → ℝ → XR}
    (h : AllDirs fun t p => ∀ N, ObservesRowP 0 ⟨.prim kV volA (kV.order N), .prim kS srfA (kS.order N), true, s, false⟩ ⟨false, []⟩
      (x.toward t p) (r N t p)) :
    ∃ J : ℝ → ℝ → ℝ, (AllDirs fun t p => Approach (fun N => r N t p) (J t p * x.unit s)) ∧ AtMost J (x.I0 * Real.cos x.t0) := by
  have hS' : kS = .srfIsotropic ∨ (∃ i, kS = .srfCosineLobe i) ∨ ∃ te, kS = .srfHG te := by
    rcases hS with h | ⟨i, -, h⟩ | h
    · exact .inl h
    · exact .inr (.inl ⟨i, h⟩)
    · exact .inr (.inr h)
  have fV : Family x (fun N => .prim kV volA (kV.order N)) (kV.bidir (-1) tV) :=
    .prim (k := kV) ⟨fun y _ => volA_is _, by simp, by simp, by simp, eV, h1, by cases kV <;> simp_all [Kind.IsVol, Kind.IsNadirnorm],
      by cases kV <;> simp_all [Kind.IsVol]⟩
  have fS : Family x (fun N => .prim kS srfA (kS.order N)) (kS.bidir 1 tS) :=
    .prim (k := kS) ⟨fun y _ => srfA_is _, by simp, by simp, by simp, eS, h2,
      by rcases hS with rfl | ⟨i, -, rfl⟩ | ⟨te, rfl⟩ <;> exact fun h => h.elim,
      by rcases hS with rfl | ⟨i, hi, rfl⟩ | ⟨te, rfl⟩ <;> simp_all⟩
  exact C74_limit_partial fV fS (Kind.balanced hV hS' h1 h2) (kS.bidir_turns 1 tS) hx ht0 hτ hI h

/-! ### witnesses -/

/-- Totals with interaction term of bistatic objects for all directions. -/
theorem toward_observed {x : Site} {V S : Scatter} (pV : V.Plain) (pS : S.Plain) (sV : V.Simple) (sS : S.Simple) (s d : Bool) (hr : x.Reports []) :
    ∃ r : ℝ → ℝ → XR, AllDirs fun t p => ObservesRowP 0 ⟨V, S, true, s, d⟩ ⟨false, []⟩ (x.toward t p) (r t p) := by
  have key : ∀ t p, ∃ r, ObservesRowP 0 ⟨V, S, true, s, d⟩ ⟨false, []⟩ (x.toward t p) r := fun t p =>
    scalar_total .sympy true s d (Site.toward_reports hr t p) pV pS (fun _ => Scatter.Simple.fnCoefs sV sS) (fun _ => sV.ncoefs)
      (fun _ => sS.ncoefs)
  choose r hr using key
  exact ⟨r, fun t _ p _ => hr t p⟩

/-- Henyey-Greenstein layer above a cosine lobe. -/
example : ∃ J : ℝ → ℝ → ℝ, ∃ r : ℕ → ℝ → ℝ → XR,
    (AllDirs fun t p => ∀ N, ObservesRowP 0 ⟨growV (1/4) N, growS 5 N, true, true, false⟩ ⟨false, []⟩
      ((witSite (Real.pi / 3) 0 0 0).toward t p) (r N t p)) ∧
    (AllDirs fun t p => Approach (fun N => r N t p) (J t p * (witSite (Real.pi / 3) 0 0 0).unit true)) ∧
    AtMost J (1 * Real.cos (Real.pi / 3)) := by
  have hπ := Real.pi_pos
  have ht : |(1/4 : ℝ)| < 1 := by rw [abs_of_pos] <;> norm_num
  have hV := growV_family ht (witSite (Real.pi / 3) 0 0 0)
  have hS := growS_family (i := 5) (by norm_num) (witSite (Real.pi / 3) 0 0 0)
  choose r h using fun N => toward_observed (x := witSite (Real.pi / 3) 0 0 0) (growV_plain (1/4) N) (growS_plain 5 N) (hV.simple N) (hS.simple N)
    true false (witSite_reports _ _ _ _)
  have hr : AllDirs fun t p => ∀ N, ObservesRowP 0 ⟨growV (1/4) N, growS 5 N, true, true, false⟩ ⟨false, []⟩
      ((witSite (Real.pi / 3) 0 0 0).toward t p) (r N t p) := fun t ht p hp N => h N t ht p hp
  obtain ⟨J, h1, h2⟩ := C74_predefined_limit_partial (kV := .volHG (.num (1/4))) (kS := .srfCosineLobe 5) (tV := 1/4) (tS := 0) trivial
    (.inr (.inl ⟨5, by norm_num, rfl⟩)) (fun _ _ => Expr.Is.num _) (fun _ _ => trivial) ht (by simp)
    (witSite_passive (t0 := Real.pi / 3) (by positivity) (by linarith) 0) (by simp [witSite]; positivity) (by simp [witSite]) (by simp [witSite]) hr
  exact ⟨J, r, hr, h1, h2⟩

/-- The same layer with ten coefficients above an isotropic surface. -/
example : ∃ J : ℝ → ℝ → ℝ,
    (AllDirs fun t p => ObservesRowP 0 ⟨growV (1/4) 9, isoS, true, true, false⟩ ⟨false, []⟩ ((witSite (Real.pi / 3) 0 0 0).toward t p)
      ((witSite (Real.pi / 3) 0 0 0).inUnits true false (J t p))) ∧
    hemReflectance J ≤ 1 * Real.cos (Real.pi / 3) + (witSite (Real.pi / 3) 0 0 0).energyError
      (1 / (4 * Real.pi) * ((1 + |1 / 4|) / (1 - |1 / 4|) ^ 2) * ((2 * (9 + 1 : ℕ) + 1) * |1 / 4| ^ (9 + 1)))
      (1 / (4 * Real.pi) * ((1 + |1 / 4|) / (1 - |1 / 4|) ^ 2)) 0 (1 / Real.pi) := by
  have hπ := Real.pi_pos
  have ht : |(1/4 : ℝ)| < 1 := by rw [abs_of_pos] <;> norm_num
  have hV := hgV_trunc ht (witSite (Real.pi / 3) 0 0 0) (N := 9) (by norm_num)
  have hS := isoS_trunc (witSite (Real.pi / 3) 0 0 0)
  obtain ⟨r, h⟩ := toward_observed (x := witSite (Real.pi / 3) 0 0 0) (growV_plain (1/4) 9) isoS_plain hV.simple hS.simple true false
    (witSite_reports _ _ _ _)
  have hx := witSite_passive (t0 := Real.pi / 3) (by positivity) (by linarith) 0
  have key : ∀ t p, ∃ v : ℝ, t ∈ Set.Ioo 0 (Real.pi / 2) → p ∈ Set.Ioo 0 (2 * Real.pi) →
      r t p = (witSite (Real.pi / 3) 0 0 0).inUnits true false v := fun t p => by
    by_cases ht : t ∈ Set.Ioo 0 (Real.pi / 2) ∧ p ∈ Set.Ioo 0 (2 * Real.pi)
    · obtain ⟨g, -, e⟩ := total_geom (hV.move (y := (witSite (Real.pi / 3) 0 0 0).toward t p) rfl)
        (hS.move (y := (witSite (Real.pi / 3) 0 0 0).toward t p) rfl)
        (toward_oblique hx (by simp [witSite]; positivity) (by simp [witSite]) ht.1 p) (fun _ => by simp [witSite, Site.toward]) (h t ht.1 p ht.2)
      exact ⟨_, fun _ _ => e⟩
    · exact ⟨0, fun h1 h2 => absurd ⟨h1, h2⟩ ht⟩
  choose J hJ using key
  have hr : AllDirs fun t p => ObservesRowP 0 ⟨growV (1/4) 9, isoS, true, true, false⟩ ⟨false, []⟩ ((witSite (Real.pi / 3) 0 0 0).toward t p)
      ((witSite (Real.pi / 3) 0 0 0).inUnits true false (J t p)) := fun t ht p hp => by
    have h1 := h t ht p hp
    dsimp only at h1 ⊢
    rw [hJ t p ht hp] at h1
    exact h1
  exact ⟨J, hr, (C74_truncated_partial hV hS (Kind.balanced (kV := .volHG (.num (1/4))) (kS := .srfIsotropic) (tV := 1/4) (tS := 0) trivial (.inl rfl) ht (by simp))
    (Kind.bidir_turns .srfIsotropic 1 0) hx (by simp [witSite]; positivity) (by simp [witSite]) (by simp [witSite]) hr).2.2⟩

end

end RT1
