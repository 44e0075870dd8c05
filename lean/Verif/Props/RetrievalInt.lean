import Verif.Lemmas.Continuity
import Verif.Lemmas.Trunc
import Verif.Props.Retrieval

/-!
# C76: bsf and tau with interaction term

With interaction term the total still changes with the bare soil fraction in one direction only, given by
the totals without and with bare soil alone.  For tau this is false: two canopies of different optical
depth with the same total.
-/

namespace RT1

noncomputable section
open Classical Filter Topology

theorem SameScatter.trans {c : Cfg} {x y z : Site} (h : SameScatter c x y) (h' : SameScatter c y z) : SameScatter c x z :=
  fun a b u v => ⟨(h' a b u v).1.trans (h a b u v).1, (h' a b u v).2.1.trans (h a b u v).2.1,
    (h' a b u v).2.2.1.trans (h a b u v).2.2.1, (h' a b u v).2.2.2.trans (h a b u v).2.2.2⟩

/-- Totals of sites that differ in the bare soil fraction: one straight line. -/
theorem totalP_bsf {c : Cfg} {md : Mode} {x : Site} (hx : x.Oblique) (hI : 0 < x.I0) (hq : c.intQ = true) {nV nS : ℕ}
    (hV : c.V.ncoefs = .ok (nV + 1)) (hS : c.SRF.ncoefs = .ok (nS + 1)) {f p : ℝ} {ρ₀ : String → ℝ} {r₀ : XR}
    (h₀ : ObservesRowP 0 c md (x.withBsf 0 ρ₀) r₀) (hf₀ : c.SRF.ValueAt (x.withBsf 0 ρ₀) f) (hp₀ : c.V.ValueAt (x.withBsf 0 ρ₀) p) :
    ∃ A k : ℝ, ∀ β ρ r, ObservesRowP 0 c md (x.withBsf β ρ) r → SameScatter c (x.withBsf 0 ρ₀) (x.withBsf β ρ) →
      c.SRF.ValueAt (x.withBsf β ρ) f → c.V.ValueAt (x.withBsf β ρ) p → r = x.inUnits c.sig0 c.dB (A + k * β) := by
  have ho : ∀ β ρ, (x.withBsf β ρ).Oblique := fun β ρ => ⟨hx.mu0, hx.mu0', hx.muEx, hx.muEx', hx.tau⟩
  obtain ⟨g, hg, -⟩ := h₀.total_val hq hf₀ hp₀ hV hS (ho 0 ρ₀) fun _ => hI.ne'
  set T := pathSum c.V c.SRF g (x.withBsf 0 ρ₀) with hT
  refine ⟨x.I0 * x.mu0 * (x.NormBRDF * f * x.atten x.tau + x.omega * p * (1 - x.atten x.tau) / (x.mu0 + x.muEx)
      + x.NormBRDF * x.omega * T), x.I0 * x.mu0 * (x.NormBRDF * f * (1 - x.atten x.tau)
      - x.omega * p * (1 - x.atten x.tau) / (x.mu0 + x.muEx) - x.NormBRDF * x.omega * T), fun β ρ r h hs hf hp => ?_⟩
  obtain ⟨g', hg', h1⟩ := h.total_val hq hf hp hV hS (ho β ρ) fun _ => hI.ne'
  rw [hg'.unique (hg.same rfl rfl rfl rfl), geomInteraction_eq, pathSum_congr (x := x.withBsf 0 ρ₀) (y := x.withBsf β ρ) hg rfl rfl rfl rfl rfl hs, ← hT, Site.total_eq] at h1
  rw [h1]
  show x.inUnits _ _ _ = x.inUnits _ _ _
  congr 1
  show x.I0 * x.mu0 * (x.NormBRDF * f * ((1 - β) * x.atten x.tau + β)
        + (1 - β) * x.omega * p * (1 - x.atten x.tau) / (x.mu0 + x.muEx))
      + x.NormBRDF * (1 - β) * (x.I0 * x.mu0 * x.omega * T) = _
  ring

/-- With interaction term: the total grows strictly with bsf if the bare soil (bsf = 1) gives more than the full
canopy (bsf = 0), falls strictly if it gives less, and does not depend on bsf if both are equal. -/
theorem C76_bsf_interaction {c : Cfg} {md : Mode} {x : Site} (hx : x.Oblique) (hI : 0 < x.I0) (hq : c.intQ = true) {nV nS : ℕ}
    (hV : c.V.ncoefs = .ok (nV + 1)) (hS : c.SRF.ncoefs = .ok (nS + 1)) {f p : ℝ} {β β' : ℝ} {ρ₀ ρ₁ ρ ρ' : String → ℝ} {l₀ l₁ l l' : ℝ}
    (hf : ∀ z ∈ [(0, ρ₀), (1, ρ₁), (β, ρ), (β', ρ')], c.SRF.ValueAt (x.withBsf z.1 z.2) f ∧ c.V.ValueAt (x.withBsf z.1 z.2) p ∧
      SameScatter c (x.withBsf 0 ρ₀) (x.withBsf z.1 z.2))
    (h₀ : ObservesRowP 0 c md (x.withBsf 0 ρ₀) (XR.fin l₀)) (h₁ : ObservesRowP 0 c md (x.withBsf 1 ρ₁) (XR.fin l₁))
    (h : ObservesRowP 0 c md (x.withBsf β ρ) (XR.fin l)) (h' : ObservesRowP 0 c md (x.withBsf β' ρ') (XR.fin l')) :
    (l₀ < l₁ → ((l < l' ↔ β < β') ∧ (l = l' → β = β'))) ∧ (l₁ < l₀ → ((l' < l ↔ β < β') ∧ (l = l' → β = β'))) ∧
      (l₀ = l₁ → l = l') := by
  simp only [List.mem_cons, List.not_mem_nil, or_false, forall_eq_or_imp, forall_eq] at hf
  obtain ⟨f0, f1, f2, f3⟩ := hf
  obtain ⟨A, k, hA⟩ := totalP_bsf hx hI hq hV hS h₀ f0.1 f0.2.1
  have e0 := (hA _ _ _ h₀ f0.2.2 f0.1 f0.2.1).symm
  have e1 := (hA _ _ _ h₁ f1.2.2 f1.1 f1.2.1).symm
  have e2 := (hA _ _ _ h f2.2.2 f2.1 f2.2.1).symm
  have e3 := (hA _ _ _ h' f3.2.2 f3.1 f3.2.1).symm
  have sp : c.sig0 = true → 0 < x.signorm := fun _ => Site.signorm_pos' hx.mu0 hI
  have c01 := inUnits_lt sp e0 e1
  have c10 := inUnits_lt sp e1 e0
  have c := inUnits_lt sp e2 e3
  have c' := inUnits_lt sp e3 e2
  rw [add_lt_add_iff_left, mul_zero, mul_one] at c01 c10
  rw [add_lt_add_iff_left] at c c'
  refine ⟨fun hl => ?_, fun hl => ?_, fun hl => ?_⟩
  · have hk : 0 < k := c01.mp hl
    rw [mul_lt_mul_iff_right₀ hk] at c c'
    exact ⟨c, eq_of_lt_iff c c'⟩
  · have hk : k < 0 := c10.mp hl
    rw [mul_lt_mul_left_of_neg hk] at c c'
    exact ⟨c', fun e => (eq_of_lt_iff c c' e).symm⟩
  · have hk : k = 0 := by
      rw [hl] at c01 c10
      exact le_antisymm (not_lt.mp fun h => lt_irrefl _ (c01.mpr h)) (not_lt.mp fun h => lt_irrefl _ (c10.mpr h))
    rw [hk] at c c'
    simp only [zero_mul, lt_self_iff_false, iff_false, not_lt] at c c'
    exact le_antisymm c' c

/-! ### tau -/

/-- The integral of isotropic functions as a function of tau. -/
def isoPath (τ : ℝ) : ℝ := Real.exp (-|τ| / (1 / 2)) * hemi (1 / 2) |τ| fun _ _ => 1 / (4 * Real.pi) * (1 / Real.pi)

theorem isoPath_zero : isoPath 0 = 0 := by
  unfold isoPath hemi
  simp

theorem isoPath_pos {τ : ℝ} (h : 0 < τ) : 0 < isoPath τ := by
  unfold isoPath
  rw [abs_of_pos h]
  refine mul_pos (Real.exp_pos _) ?_
  rw [hemi_eq (L := 1) (c := fun _ => 2 * Real.pi * (1 / (4 * Real.pi) * (1 / Real.pi))) (by norm_num) h.le]
  · rw [Finset.sum_range_one]
    have := polar_pos (μ := 1 / 2) (by norm_num) h 0
    have := Real.pi_pos
    positivity
  · intro θ
    simp
    field_simp

theorem isoPath_cont : Continuous isoPath := by
  have h : Continuous fun τ : ℝ => hemi (1 / 2) |τ| fun _ _ => 1 / (4 * Real.pi) * (1 / Real.pi) := by
    refine SeqContinuous.continuous fun τs τ hτ => ?_
    refine Energy.hemi_joint (K := |1 / (4 * Real.pi) * (1 / Real.pi)|) (τs := fun n => |τs n|) (μs := fun _ => 1 / 2) (fun n => abs_nonneg _)
      (fun _ => by norm_num) hτ.abs tendsto_const_nhds (by norm_num) (q := fun _ _ _ => 1 / (4 * Real.pi) * (1 / Real.pi))
      (fun _ => continuous_const) (fun _ _ _ => le_rfl) fun _ _ => tendsto_const_nhds
  unfold isoPath
  exact (by fun_prop : Continuous fun τ : ℝ => Real.exp (-|τ| / (1 / 2))).mul h

theorem isoPath_le {τ : ℝ} (hτ : 0 ≤ τ) : isoPath τ ≤ Real.exp (-τ) * (2 * Real.pi * |1 / (4 * Real.pi) * (1 / Real.pi)|) := by
  set K := |1 / (4 * Real.pi) * (1 / Real.pi)| with hK
  unfold isoPath
  rw [abs_of_nonneg hτ]
  have h1 := Energy.hemi_abs_le (τ := τ) (μ := 1 / 2) (K := K) hτ (by norm_num) (q := fun _ _ => 1 / (4 * Real.pi) * (1 / Real.pi))
    measurable_const fun _ _ => le_rfl
  have h2 : 2 * Real.pi * (1 - Real.exp (-τ / (1 / 2))) * K ≤ 2 * Real.pi * K := by
    have := Real.exp_pos (-τ / (1 / 2))
    have h3 : 0 ≤ 2 * Real.pi * K := mul_nonneg (by have := Real.pi_pos; positivity) (abs_nonneg _)
    nlinarith
  have h3 : Real.exp (-τ / (1 / 2)) ≤ Real.exp (-τ) := by
    rw [Real.exp_le_exp]
    rw [div_le_iff₀ (by norm_num)]
    linarith
  refine mul_le_mul h3 ((le_abs_self _).trans (h1.trans h2)) ?_ (Real.exp_pos _).le
  exact hemi_nonneg (by norm_num) hτ fun _ _ => by have := Real.pi_pos; positivity

theorem isoPath_small {e : ℝ} (he : 0 < e) : ∃ τ, 1 < τ ∧ isoPath τ < e := by
  set K := |1 / (4 * Real.pi) * (1 / Real.pi)| with hK
  have ht : Tendsto (fun τ : ℝ => Real.exp (-τ) * (2 * Real.pi * K)) atTop (𝓝 0) := by
    have := (Real.tendsto_exp_neg_atTop_nhds_zero).mul_const (2 * Real.pi * K)
    rwa [zero_mul] at this
  obtain ⟨τ, h1, h2⟩ := ((ht.eventually_lt_const he).and (eventually_gt_atTop 1)).exists
  exact ⟨τ, h2, (isoPath_le (by linarith)).trans_lt h1⟩

theorem isoPath_twice : ∃ τ τ', 0 < τ ∧ τ < τ' ∧ isoPath τ = isoPath τ' := by
  obtain ⟨τ', h1, h2⟩ := isoPath_small (isoPath_pos one_pos)
  have h3 := isoPath_pos (show 0 < τ' by linarith)
  obtain ⟨τ, hτ, e⟩ := intermediate_value_Icc zero_le_one isoPath_cont.continuousOn
    (show isoPath τ' ∈ Set.Icc (isoPath 0) (isoPath 1) by rw [isoPath_zero]; exact ⟨h3.le, h2.le⟩)
  refine ⟨τ, τ', lt_of_le_of_ne hτ.1 ?_, by linarith [hτ.2], e⟩
  rintro rfl
  rw [isoPath_zero] at e
  exact h3.ne e

/-- Isotropic functions, both directions at 60 degrees. -/
theorem iso_pathSum {g : Geom4} {x : Site} (h0 : x.mu0 = 1 / 2) (h1 : x.muEx = 1 / 2) (hτ : 0 ≤ x.tau) :
    pathSum isoV isoS g x = 2 * isoPath x.tau := by
  unfold pathSum geomFint isoPath
  simp only [isoV_val, isoS_val]
  rw [h0, h1, abs_of_nonneg hτ]
  ring

/-- With interaction term the total does not determine tau, in no units, although all parameters are physically
meaningful: two canopies of different optical depth give the same total. -/
theorem C76_tau_counterexample (s d : Bool) : ∃ (c : Cfg) (x : Site) (τ τ' : ℝ) (ρ ρ' : String → ℝ) (l : ℝ),
    c.intQ = true ∧ c.sig0 = s ∧ c.dB = d ∧ x.Oblique ∧ 0 < x.I0 ∧ 0 < x.omega ∧ x.omega < 1 ∧ 0 < x.NormBRDF ∧ x.NormBRDF < 1 ∧ x.bsf = 0 ∧
    0 < τ ∧ τ < τ' ∧ ObservesRowP 0 c ⟨false, []⟩ (x.withTau τ ρ) (XR.fin l) ∧
      ObservesRowP 0 c ⟨false, []⟩ (x.withTau τ' ρ') (XR.fin l) := by
  have hπ := Real.pi_pos
  obtain ⟨τ, τ', ht, htt, e⟩ := isoPath_twice
  have ho : (witSite (Real.pi / 3) (Real.pi / 3) 0 1).Oblique :=
    witSite_oblique (by positivity) (by linarith) (by positivity) (by linarith)
  set x := (witSite (Real.pi / 3) (Real.pi / 3) 0 1).withNorm (1/8) fun _ => 0 with hx
  have hox : x.Oblique := ⟨ho.mu0, ho.mu0', ho.muEx, ho.muEx', ho.tau⟩
  have m0 : x.mu0 = 1 / 2 := cos_third
  have m1 : x.muEx = 1 / 2 := cos_third
  set A : ℝ → ℝ := fun q => 1 / 16 * (1 / Real.pi) + 1 / 16 * q with hA
  have key : ∀ τ : ℝ, 0 < τ → ∃ ρ, ObservesRowP 0 ⟨isoV, isoS, true, s, d⟩ ⟨false, []⟩ (x.withTau τ ρ)
      (x.inUnits s d (A (isoPath τ))) := by
    intro τ hτ
    have hr : (x.withTau τ fun s => if s = "tau" then τ else if s = "omega" then 1 / 2 else if s = "NormBRDF" then 1 / 8 else 0).Reports [] := by
      refine ⟨?_, ?_, ?_, ?_, by simp⟩ <;> simp [hx, witSite, Site.withTau, Site.withNorm]
    obtain ⟨r, h⟩ := scalar_total .sympy true s d hr isoV_plain isoS_plain
        (fun _ => iso_fnCoefs) (fun _ => ⟨0, isoV_ncoefs⟩) (fun _ => ⟨0, isoS_ncoefs⟩)
    obtain ⟨g, hg, e⟩ := h.total_val (f := 1 / Real.pi) (p := 1 / (4 * Real.pi)) rfl rfl rfl isoV_ncoefs isoS_ncoefs
      (show (x.withTau τ _).Oblique from ⟨ho.mu0, ho.mu0', ho.muEx, ho.muEx', hτ⟩)
      (fun _ => by simp [hx, witSite, Site.withTau, Site.withNorm])
    rw [Site.total_eq, geomInteraction_eq, iso_pathSum (x := x.withTau τ _) m0 m1 hτ.le] at e
    have e2 : r = x.inUnits s d (A (isoPath τ)) := by
      rw [e]
      show x.inUnits s d _ = x.inUnits s d _
      congr 1
      show x.I0 * x.mu0 * (x.NormBRDF * (1 / Real.pi) * ((1 - x.bsf) * x.atten τ + x.bsf)
        + (1 - x.bsf) * x.omega * (1 / (4 * Real.pi)) * (1 - x.atten τ) / (x.mu0 + x.muEx))
        + x.NormBRDF * (1 - x.bsf) * (x.I0 * x.mu0 * x.omega * (2 * isoPath τ)) = _
      rw [m0, m1]
      show 1 * (1 / 2) * (1 / 8 * (1 / Real.pi) * ((1 - 0) * x.atten τ + 0) + (1 - 0) * (1 / 2) * (1 / (4 * Real.pi)) * (1 - x.atten τ) / (1 / 2 + 1 / 2))
        + 1 / 8 * (1 - 0) * (1 * (1 / 2) * (1 / 2) * (2 * isoPath τ)) = 1 / 16 * (1 / Real.pi) + 1 / 16 * isoPath τ
      field_simp
      ring
    rw [e2] at h
    exact ⟨_, h⟩
  obtain ⟨ρ, h⟩ := key τ ht
  obtain ⟨ρ', h'⟩ := key τ' (ht.trans htt)
  rw [← e] at h'
  have hp : 0 < A (isoPath τ) := by
    have := isoPath_pos ht
    simp only [hA]
    positivity
  have hI : 0 < x.I0 := by simp [hx, witSite, Site.withNorm]
  have sp := Site.signorm_pos' hox.mu0 hI
  have fin : ∃ l, x.inUnits s d (A (isoPath τ)) = XR.fin l := by
    unfold Site.inUnits
    cases d with
    | false => exact ⟨_, rfl⟩
    | true =>
      simp only [if_true]
      unfold dBValue
      refine ⟨_, if_pos ?_⟩
      cases s
      · exact hp
      · exact mul_pos hp sp
  obtain ⟨l, hl⟩ := fin
  rw [hl] at h h'
  refine ⟨⟨isoV, isoS, true, s, d⟩, x, τ, τ', ρ, ρ', l, rfl, rfl, rfl, hox, hI, ?_, ?_, ?_, ?_, rfl, ht, htt, h, h'⟩ <;>
    · simp [hx, witSite, Site.withNorm]
      try norm_num

/-- Totals for three bare soil fractions: the bare soil gives more, so that the total grows. -/
example : ∃ l₀ l l₁ : ℝ, ∃ ρ₀ ρ ρ₁, ObservesRowP 0 ⟨isoV, isoS, true, false, false⟩ ⟨false, []⟩
      ((witSite (Real.pi / 3) (Real.pi / 3) 0 1).withBsf 0 ρ₀) (XR.fin l₀) ∧
    ObservesRowP 0 ⟨isoV, isoS, true, false, false⟩ ⟨false, []⟩ ((witSite (Real.pi / 3) (Real.pi / 3) 0 1).withBsf (1/4) ρ) (XR.fin l) ∧
    ObservesRowP 0 ⟨isoV, isoS, true, false, false⟩ ⟨false, []⟩ ((witSite (Real.pi / 3) (Real.pi / 3) 0 1).withBsf 1 ρ₁) (XR.fin l₁) ∧
    l₀ < l₁ ∧ l₀ < l ∧ l < l₁ := by
  have hπ := Real.pi_pos
  set x := witSite (Real.pi / 3) (Real.pi / 3) 0 1 with hx
  have ho : x.Oblique := witSite_oblique (by positivity) (by linarith) (by positivity) (by linarith)
  have hI : 0 < x.I0 := by simp [hx, witSite]
  have m0 : x.mu0 = 1 / 2 := cos_third
  have m1 : x.muEx = 1 / 2 := cos_third
  have key : ∀ β : ℝ, ∃ ρ, ObservesRowP 0 ⟨isoV, isoS, true, false, false⟩ ⟨false, []⟩ (x.withBsf β ρ)
      (XR.fin (1 / 2 * (1 / Real.pi * ((1 - β) * x.atten 1 + β) + (1 - β) * (1 / (8 * Real.pi)) * (1 - x.atten 1))
        + (1 - β) * (1 / 2 * isoPath 1))) := by
    intro β
    have hr : (x.withBsf β
        fun s => if s = "tau" then 1 else if s = "omega" then 1 / 2 else if s = "NormBRDF" then 1 else if s = "bsf" then β else 0).Reports [] := by
      refine ⟨?_, ?_, ?_, ?_, by simp⟩ <;> simp [hx, witSite, Site.withBsf]
    obtain ⟨r, h⟩ := scalar_total .sympy true false false hr isoV_plain isoS_plain
        (fun _ => iso_fnCoefs) (fun _ => ⟨0, isoV_ncoefs⟩) (fun _ => ⟨0, isoS_ncoefs⟩)
    obtain ⟨g, hg, e⟩ := h.total_val (f := 1 / Real.pi) (p := 1 / (4 * Real.pi)) rfl rfl rfl isoV_ncoefs isoS_ncoefs
      (show (x.withBsf β _).Oblique from ⟨ho.mu0, ho.mu0', ho.muEx, ho.muEx', ho.tau⟩) (fun _ => hI.ne')
    rw [Site.total_eq, geomInteraction_eq, iso_pathSum (x := x.withBsf β _) m0 m1 ho.tau.le] at e
    have e2 : r = XR.fin (1 / 2 * (1 / Real.pi * ((1 - β) * x.atten 1 + β) + (1 - β) * (1 / (8 * Real.pi)) * (1 - x.atten 1))
        + (1 - β) * (1 / 2 * isoPath 1)) := by
      rw [e]
      show XR.fin _ = _
      congr 1
      show x.I0 * x.mu0 * (x.NormBRDF * (1 / Real.pi) * ((1 - β) * x.atten 1 + β)
        + (1 - β) * x.omega * (1 / (4 * Real.pi)) * (1 - x.atten 1) / (x.mu0 + x.muEx))
        + x.NormBRDF * (1 - β) * (x.I0 * x.mu0 * x.omega * (2 * isoPath 1)) = _
      rw [m0, m1]
      show 1 * (1 / 2) * (1 * (1 / Real.pi) * ((1 - β) * x.atten 1 + β) + (1 - β) * (1 / 2) * (1 / (4 * Real.pi)) * (1 - x.atten 1) / (1 / 2 + 1 / 2))
        + 1 * (1 - β) * (1 * (1 / 2) * (1 / 2) * (2 * isoPath 1)) = _
      field_simp
      ring
    rw [e2] at h
    exact ⟨_, h⟩
  obtain ⟨ρ₀, h₀⟩ := key 0
  obtain ⟨ρ, h⟩ := key (1/4)
  obtain ⟨ρ₁, h₁⟩ := key 1
  have hl : 1 / 2 * (1 / Real.pi * ((1 - 0) * x.atten 1 + 0) + (1 - 0) * (1 / (8 * Real.pi)) * (1 - x.atten 1)) + (1 - 0) * (1 / 2 * isoPath 1)
      < 1 / 2 * (1 / Real.pi * ((1 - 1) * x.atten 1 + 1) + (1 - 1) * (1 / (8 * Real.pi)) * (1 - x.atten 1)) + (1 - 1) * (1 / 2 * isoPath 1) := by
    have e1 : Real.exp (-1) ≤ 1 / 2 := by
      rw [Real.exp_neg, one_div]
      exact inv_anti₀ (by norm_num) (by linarith [Real.add_one_le_exp (1 : ℝ)])
    have h1 := isoPath_le zero_le_one
    rw [abs_of_pos (by positivity)] at h1
    have h2 : isoPath 1 ≤ 1 / 4 * (1 / Real.pi) := by
      refine h1.trans ((mul_le_mul_of_nonneg_right e1 (by positivity)).trans (le_of_eq ?_))
      field_simp
    have h3 : x.atten 1 ≤ 1 / 2 := by
      have : x.atten 1 = Real.exp (-1) * Real.exp (-1) * (Real.exp (-1) * Real.exp (-1)) := by
        unfold Site.atten
        rw [m0, m1, ← Real.exp_add]
        simp only [← Real.exp_add]
        norm_num
      rw [this]
      have e0 := Real.exp_pos (-1)
      have e3 : Real.exp (-1) * Real.exp (-1) ≤ 1 := by nlinarith
      have e4 : 0 < Real.exp (-1) * Real.exp (-1) := by positivity
      nlinarith
    have h4 := x.atten_pos 1
    have e5 : 1 / (8 * Real.pi) = 1 / 8 * (1 / Real.pi) := by field_simp
    rw [e5]
    have hq : 0 < 1 / Real.pi := by positivity
    generalize 1 / Real.pi = q at *
    nlinarith
  have hs : ∀ z ∈ [((0 : ℝ), ρ₀), (1, ρ₁), (0, ρ₀), (1/4, ρ)], isoS.ValueAt (x.withBsf z.1 z.2) (1 / Real.pi) ∧
      isoV.ValueAt (x.withBsf z.1 z.2) (1 / (4 * Real.pi)) ∧ SameScatter ⟨isoV, isoS, true, false, false⟩ (x.withBsf 0 ρ₀) (x.withBsf z.1 z.2) :=
    fun z _ => ⟨rfl, rfl, iso_same _ _ _ _ _⟩
  have hs' : ∀ z ∈ [((0 : ℝ), ρ₀), (1, ρ₁), (1/4, ρ), (1, ρ₁)], isoS.ValueAt (x.withBsf z.1 z.2) (1 / Real.pi) ∧
      isoV.ValueAt (x.withBsf z.1 z.2) (1 / (4 * Real.pi)) ∧ SameScatter ⟨isoV, isoS, true, false, false⟩ (x.withBsf 0 ρ₀) (x.withBsf z.1 z.2) :=
    fun z _ => ⟨rfl, rfl, iso_same _ _ _ _ _⟩
  have a := C76_bsf_interaction ho hI rfl isoV_ncoefs isoS_ncoefs hs h₀ h₁ h₀ h
  have b := C76_bsf_interaction ho hI rfl isoV_ncoefs isoS_ncoefs hs' h₀ h₁ h h₁
  exact ⟨_, _, _, ρ₀, ρ, ρ₁, h₀, h, h₁, hl, (a.1 hl).1.mpr (by norm_num), (b.1 hl).1.mpr (by norm_num)⟩

end

end RT1
