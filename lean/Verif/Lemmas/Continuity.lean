import Verif.Lemmas.Trunc
import Verif.Spec.Continuity

/-!
# Continuity of the contributions
-/

namespace RT1

noncomputable section
open Classical Filter Topology MeasureTheory

namespace Energy
open Real

theorem ae_off (c : ℝ) : ∀ᵐ z ∂ν, z.1 ≠ c := by
  unfold ν
  have h : ∀ᵐ s ∂(MeasureTheory.volume.restrict (Set.Ioc 0 (π / 2))), s ≠ c := by
    refine ae_restrict_of_ae ?_
    rw [ae_iff]
    simp
  exact Measure.quasiMeasurePreserving_fst.ae h

theorem weight_tendsto {τs μs : ℕ → ℝ} {τ μ c : ℝ} (hτ : Tendsto τs atTop (𝓝 τ)) (hμ : Tendsto μs atTop (𝓝 μ)) (h0 : μ ≠ 0)
    (hc : c ≠ μ) : Tendsto (fun n => weight (τs n) (μs n) c) atTop (𝓝 (weight τ μ c)) := by
  unfold weight
  refine (tendsto_const_nhds.div (hμ.sub_const c) (sub_ne_zero.mpr (Ne.symm hc))).mul (Tendsto.sub ?_ ?_)
  · exact (continuous_exp.tendsto _).comp (hτ.neg.div hμ h0)
  · exact (continuous_exp.tendsto _).comp (hτ.neg.div_const c)

/-- The double integral depends continuously on everything. -/
theorem hemi_joint {τs μs : ℕ → ℝ} {τ μ K : ℝ} (hτ : ∀ n, 0 ≤ τs n) (hμ : ∀ n, 0 < μs n) (lτ : Tendsto τs atTop (𝓝 τ))
    (lμ : Tendsto μs atTop (𝓝 μ)) (h0 : 0 < μ) {q : ℕ → ℝ → ℝ → ℝ} (hq : ∀ N, Continuous fun z : ℝ × ℝ => q N z.1 z.2) {q' : ℝ → ℝ → ℝ}
    (hK : ∀ N s φ, |q N s φ| ≤ K) (hl : ∀ s φ, Tendsto (fun N => q N s φ) atTop (𝓝 (q' s φ))) :
    Tendsto (fun N => hemi (μs N) (τs N) (q N)) atTop (𝓝 (hemi μ τ q')) := by
  have hm : Measurable fun z : ℝ × ℝ => q' z.1 z.2 :=
    measurable_of_tendsto_metrizable (fun N => (hq N).measurable) (tendsto_pi_nhds.mpr fun z => hl z.1 z.2)
  have hK' : ∀ s φ, |q' s φ| ≤ K := fun s φ =>
    le_of_tendsto ((hl s φ).abs) (Eventually.of_forall fun N => hK N s φ)
  have ht : 0 ≤ τ := ge_of_tendsto' lτ hτ
  rw [hemi_bounded ht h0 hm hK']
  have e : (fun N => hemi (μs N) (τs N) (q N)) = fun N => ∫ z, weight (τs N) (μs N) (cs z.1) * q N z.1 z.2 * sin z.1 ∂ν :=
    funext fun N => hemi_bounded (hτ N) (hμ N) (hq N).measurable (hK N)
  rw [e]
  refine tendsto_integral_of_dominated_convergence (fun _ => K)
    (fun N => (weight_q_meas (hq N).measurable (μs N)).aestronglyMeasurable) (integrable_const K)
    (fun N => Eventually.of_forall (weight_q_le (hτ N) (hμ N) (q := fun z => q N z.1 z.2) fun z => hK N _ _)) ?_
  filter_upwards [ae_mem, ae_off (arccos μ)] with z hz hne
  have hc : cs z.1 ≠ μ := by
    intro e
    rw [cs_eq ⟨hz.1.1.le, hz.1.2.le⟩] at e
    refine hne ?_
    rw [← e, arccos_cos hz.1.1.le (hz.1.2.le.trans (by linarith [pi_pos]))]
  exact ((weight_tendsto lτ lμ h0.ne' hc).mul (hl z.1 z.2)).mul_const _

end Energy

/-! ### expansions along a sequence of sites -/

/-- The expansion of a scattering object converges along a sequence of sites. -/
structure Smooth (o : Scatter) (xs : ℕ → Site) (x : Site) : Prop where
  lim : ∀ (ys : ℕ → Site) (y : Site), (∀ n, (ys n).ρ = (xs n).ρ) → y.ρ = x.ρ → ∀ {as bs us vs : ℕ → ℝ} {a b u v : ℝ},
    Tendsto as atTop (𝓝 a) → Tendsto bs atTop (𝓝 b) → Tendsto us atTop (𝓝 u) → Tendsto vs atTop (𝓝 v) →
    Tendsto (fun n => o.expVal (ys n).env (as n) (bs n) (us n) (vs n)) atTop (𝓝 (o.expVal y.env a b u v))
  bound : ∃ K, ∀ n, ∀ y : Site, y.ρ = (xs n).ρ → ∀ a b u v, |o.expVal y.env a b u v| ≤ K
  cont : ∀ n, ∀ y : Site, y.ρ = (xs n).ρ → Bidir.Cont (o.expVal y.env)

theorem cosTheta_tendsto {a0s a1s a2s as bs us vs : ℕ → ℝ} {a0 a1 a2 a b u v : ℝ} (l0 : Tendsto a0s atTop (𝓝 a0))
    (l1 : Tendsto a1s atTop (𝓝 a1)) (l2 : Tendsto a2s atTop (𝓝 a2)) (la : Tendsto as atTop (𝓝 a)) (lb : Tendsto bs atTop (𝓝 b))
    (lu : Tendsto us atTop (𝓝 u)) (lv : Tendsto vs atTop (𝓝 v)) :
    Tendsto (fun n => Phase.cosTheta (a0s n) (a1s n) (a2s n) (as n) (bs n) (us n) (vs n)) atTop (𝓝 (Phase.cosTheta a0 a1 a2 a b u v)) := by
  have hc : Continuous fun z : ℝ × ℝ × ℝ × ℝ × ℝ × ℝ × ℝ =>
      Phase.cosTheta z.1 z.2.1 z.2.2.1 z.2.2.2.1 z.2.2.2.2.1 z.2.2.2.2.2.1 z.2.2.2.2.2.2 := by
    unfold Phase.cosTheta; fun_prop
  exact (hc.tendsto (a0, a1, a2, a, b, u, v)).comp (l0.prodMk_nhds (l1.prodMk_nhds (l2.prodMk_nhds (la.prodMk_nhds (lb.prodMk_nhds
    (lu.prodMk_nhds lv))))))

/-! ### predefined functions -/

theorem hgBase_pos {t x : ℝ} (ht : |t| < 1) (hx : |x| ≤ 1) : 0 < 1 + t ^ 2 - 2 * t * x := by
  have h1 := abs_lt.mp ht
  have h2 : |t * x| ≤ |t| := by rw [abs_mul]; exact mul_le_of_le_one_right (abs_nonneg _) hx
  have h3 := le_abs_self (t * x)
  have h4 : 0 < (1 - |t|) ^ 2 := by have : 0 < 1 - |t| := by linarith
                                    positivity
  have h5 := sq_abs t
  nlinarith

theorem hgNadir_tendsto {a0s ts : ℕ → ℝ} {a0 t : ℝ} (l0 : Tendsto a0s atTop (𝓝 a0)) (lt : Tendsto ts atTop (𝓝 t)) (h0 : a0 ≠ 0)
    (ha : |a0| ≤ 1) (ht0 : t ≠ 0) (ht : |t| < 1) : Tendsto (fun n => Phase.hgNadir (a0s n) (ts n)) atTop (𝓝 (Phase.hgNadir a0 t)) := by
  have hb : 0 < 1 + t ^ 2 - 2 * a0 * t := by have := hgBase_pos ht ha; linarith
  unfold Phase.hgNadir
  have lb : Tendsto (fun n => 1 + ts n ^ 2 - 2 * a0s n * ts n) atTop (𝓝 (1 + t ^ 2 - 2 * a0 * t)) :=
    ((lt.pow 2).const_add 1).sub ((l0.const_mul 2).mul lt)
  refine Tendsto.const_mul 4 (Tendsto.div (Tendsto.mul ((lt.pow 2).const_sub 1) (Tendsto.sub ((lt.mul (lt.neg.add l0)).const_sub 1)
    (lb.mul ((lt.pow 2).const_add 1)).sqrt)) (((((l0.pow 2).const_mul 2).mul (lt.pow 2))).mul lb.sqrt) ?_)
  have := Real.sqrt_pos.mpr hb
  positivity

theorem Kind.coefAll_tendsto {k : Kind} {a : A3} {x : Site} {a0s ts : ℕ → ℝ} {a0 a1 a2 t : ℝ} (h : k.Admissible a x a0 a1 a2 t)
    (l0 : Tendsto a0s atTop (𝓝 a0)) (lt : Tendsto ts atTop (𝓝 t)) (m : ℕ) :
    Tendsto (fun n => k.coefAll (a0s n) (ts n) m) atTop (𝓝 (k.coefAll a0 t m)) := by
  cases k with
  | volIsotropic => exact tendsto_const_nhds
  | volRayleigh => exact tendsto_const_nhds
  | srfIsotropic => exact tendsto_const_nhds
  | srfCosineLobe i => exact tendsto_const_nhds
  | volHG te => exact ((lt.pow m).const_mul _).const_mul _
  | srfHG te => exact ((lt.pow m).const_mul _).const_mul _
  | srfHGnadirnorm te =>
    obtain ⟨h0, ht0⟩ := h.nadir trivial
    exact (tendsto_const_nhds.div (hgNadir_tendsto l0 lt h0 h.le0 ht0 h.lt) (Phase.hgNadir_pos h0 h.le0 ht0 h.lt).ne').mul
      (((lt.pow m).const_mul _).const_mul _)
  | volHGRayleigh te =>
    have h2 : (2 + t ^ 2) ≠ 0 := by positivity
    have hc : Continuous fun u => hgrCoef u m := by
      unfold hgrCoef
      split_ifs <;> fun_prop
    exact ((tendsto_const_nhds.div ((lt.pow 2).const_add 2) h2).const_mul _).mul ((hc.tendsto t).comp lt)

theorem hg_tendsto {c : ℝ} {ts us : ℕ → ℝ} {t u : ℝ} (lt : Tendsto ts atTop (𝓝 t)) (lu : Tendsto us atTop (𝓝 u)) (ht : |t| < 1)
    (hu : |u| ≤ 1) : Tendsto (fun n => Phase.hg c (ts n) (us n)) atTop (𝓝 (Phase.hg c t u)) := by
  have hb := hgBase_pos ht hu
  unfold Phase.hg
  exact (Tendsto.div ((lt.pow 2).const_sub 1) ((((lt.pow 2).const_add 1).sub ((lt.const_mul 2).mul lu)).rpow_const (.inl hb.ne'))
    (Real.rpow_pos_of_pos hb _).ne').const_mul _

theorem Kind.val_tendsto {k : Kind} {a : A3} {x : Site} {a0s ts us : ℕ → ℝ} {a0 a1 a2 t u : ℝ} (h : k.Admissible a x a0 a1 a2 t)
    (l0 : Tendsto a0s atTop (𝓝 a0)) (lt : Tendsto ts atTop (𝓝 t)) (lu : Tendsto us atTop (𝓝 u)) (hu : |u| ≤ 1) :
    Tendsto (fun n => k.val (a0s n) (ts n) (us n)) atTop (𝓝 (k.val a0 t u)) := by
  cases k with
  | volIsotropic => exact tendsto_const_nhds
  | volRayleigh =>
    have hc : Continuous Phase.rayleigh := by unfold Phase.rayleigh; fun_prop
    exact (hc.tendsto u).comp lu
  | srfIsotropic => exact tendsto_const_nhds
  | srfCosineLobe i =>
    have hc : Continuous (Phase.cosineLobe i) := by unfold Phase.cosineLobe; fun_prop
    exact (hc.tendsto u).comp lu
  | volHG te => exact hg_tendsto lt lu h.lt hu
  | srfHG te => exact hg_tendsto lt lu h.lt hu
  | srfHGnadirnorm te =>
    obtain ⟨h0, ht0⟩ := h.nadir trivial
    exact (tendsto_const_nhds.div (hgNadir_tendsto l0 lt h0 h.le0 ht0 h.lt) (Phase.hgNadir_pos h0 h.le0 ht0 h.lt).ne').mul
      (hg_tendsto lt lu h.lt hu)
  | volHGRayleigh te =>
    have h2 : (2 + t ^ 2) ≠ 0 := by positivity
    have hb := hgBase_pos h.lt hu
    refine Tendsto.mul (((tendsto_const_nhds.div ((lt.pow 2).const_add 2) h2)).const_mul _) ?_
    exact Tendsto.div (((lu.pow 2).const_add 1).mul ((lt.pow 2).const_sub 1))
      ((((lt.pow 2).const_add 1).sub ((lt.const_mul 2).mul lu)).rpow_const (.inl hb.ne')) (Real.rpow_pos_of_pos hb _).ne'

/-- A convergent sequence is bounded. -/
theorem tendsto_bounded {f : ℕ → ℝ} {v : ℝ} (h : Tendsto f atTop (𝓝 v)) : ∃ K, 0 ≤ K ∧ ∀ n, |f n| ≤ K := by
  obtain ⟨K, hK⟩ := (Metric.isBounded_range_of_tendsto f h).exists_norm_le
  exact ⟨K, (norm_nonneg _).trans (hK (f 0) ⟨0, rfl⟩), fun n => hK _ ⟨n, rfl⟩⟩

theorem smooth_prim {xs : ℕ → Site} {x : Site} {k : Kind} {a : A3} {a0s a1s a2s ts : ℕ → ℝ} {a0 a1 a2 t : ℝ} (N : ℕ)
    (hs : ∀ n, k.Admissible a (xs n) (a0s n) (a1s n) (a2s n) (ts n)) (h : k.Admissible a x a0 a1 a2 t)
    (l0 : Tendsto a0s atTop (𝓝 a0)) (l1 : Tendsto a1s atTop (𝓝 a1)) (l2 : Tendsto a2s atTop (𝓝 a2))
    (lt : Tendsto ts atTop (𝓝 t)) : Smooth (.prim k a (k.order N)) xs x where
  lim := fun ys y hys hy as bs us vs a' b u v la lb lu lv => by
    rw [h.expVal N hy]
    simp only [fun n => (hs n).expVal N (hys n)]
    exact tendsto_finsetSum _ fun m _ => (Kind.coefAll_tendsto h l0 lt m).mul
      (((legP_cont m).tendsto _).comp (cosTheta_tendsto l0 l1 l2 la lb lu lv))
  bound := by
    choose K hK0 hK using fun m => tendsto_bounded (Kind.coefAll_tendsto h l0 lt m)
    refine ⟨∑ m ∈ Finset.range (k.count N), K m, fun n y hy a' b u v => ?_⟩
    rw [(hs n).expVal N hy]
    refine (Finset.abs_sum_le_sum_abs _ _).trans (Finset.sum_le_sum fun m _ => ?_)
    rw [abs_mul]
    exact (mul_le_of_le_one_right (abs_nonneg _) (legP_abs_le ((hs n).cos_le _ _ _ _) m)).trans (hK m n)
  cont := fun n y hy => (hs n).growing.cont N y hy

/-! ### linear combinations -/

theorem list_sum_bounded {α ι : Type} {f : α → ι → ℝ} {p : ι → Prop} {l : List α} (h : ∀ q ∈ l, ∃ K, ∀ i, p i → |f q i| ≤ K) :
    ∃ K, ∀ i, p i → |(l.map fun q => f q i).sum| ≤ K := by
  induction l with
  | nil => exact ⟨0, by simp⟩
  | cons q l ih =>
    obtain ⟨K, hK⟩ := h q (by simp)
    obtain ⟨L, hL⟩ := ih fun q hq => h q (List.mem_cons_of_mem _ hq)
    refine ⟨K + L, fun i hi => ?_⟩
    simp only [List.map_cons, List.sum_cons]
    exact (abs_add_le _ _).trans (add_le_add (hK i hi) (hL i hi))

section
variable {xs : ℕ → Site} {x : Site} (l : List (Course xs x)) (a : A3) (N : ℕ)

theorem comb_at (n : ℕ) : comb (l.map fun s => s.at n) a N = comb (l.map Course.limit) a N := by
  unfold comb
  simp only [List.map_map]
  rfl

/-- The value of one summand of a group. -/
def pairVal (y : Site) (M : ℕ) (t0 tex p0 pex : ℝ) (q : Expr × Scatter) : ℝ :=
  q.1.evalR y.env * ∑ m ∈ Finset.range M, (q.2.coefOf m).evalR y.env * legP m
    (Scatter.angleR (fun e => e.evalR y.env) ⟨Real.cos t0, Real.sin t0⟩ ⟨Real.cos tex, Real.sin tex⟩
        ⟨Real.cos p0, Real.sin p0⟩ ⟨Real.cos pex, Real.sin pex⟩ q.2.a)

theorem comb_pairs {x : Site} (l : List (Summand x)) (a : A3) (N : ℕ) (y : Site) (t0 tex p0 pex : ℝ) :
    (comb l a N).expVal y.env t0 tex p0 pex =
      ((Scatter.aGroups (l.map (·.w)) (l.map fun s => Scatter.prim s.k s.a (s.k.order N))).map fun g =>
        (g.2.map (pairVal y (Scatter.maxN g.2) t0 tex p0 pex)).sum).sum := by
  rw [comb_expVal]
  congr 1
  refine List.map_congr_left fun g hg => ?_
  unfold Scatter.groupSum
  rw [Scatter.legSum_list]
  congr 1
  refine List.map_congr_left fun q hq => ?_
  obtain ⟨s, -, rfl, ha⟩ := (comb_groups l N hg).2 q hq
  unfold pairVal
  rw [legSum_real]
  have e : (s.pair N).2.a = g.1 := ha
  rw [e]

theorem Summand.pairVal {x : Site} (s : Summand x) {y : Site} (hy : y.ρ = x.ρ) (M : ℕ) (t0 tex p0 pex : ℝ) :
    pairVal y M t0 tex p0 pex (s.pair N) = s.c * ∑ m ∈ Finset.range M, s.k.coefAll s.a0 s.t m *
      legP m (Phase.cosTheta s.a0 s.a1 s.a2 t0 tex p0 pex) := by
  have e1 : (s.pair N).2.a = s.a := rfl
  have e2 : (s.pair N).1.evalR y.env = s.c := (s.weight y hy).2
  have e3 : ∀ m, ((s.pair N).2.coefOf m).evalR y.env = s.k.coefAll s.a0 s.t m := fun m =>
    Kind.coefAll_evalR (s.ok.aIs y hy) (s.ok.tIs y hy) s.ok.nadirOK m
  unfold RT1.pairVal
  rw [e1, e2, angleR_val (s.ok.aIs y hy)]
  simp only [e3]

theorem course_groups {g : A3 × List (Expr × Scatter)}
    (hg : g ∈ Scatter.aGroups ((l.map Course.limit).map (·.w)) ((l.map Course.limit).map fun s => Scatter.prim s.k s.a (s.k.order N)))
    {q : Expr × Scatter} (hq : q ∈ g.2) : ∃ s ∈ l, q = s.limit.pair N ∧ ∀ n, q = (s.at n).pair N := by
  obtain ⟨s, hs, rfl, -⟩ := (comb_groups _ N hg).2 q hq
  obtain ⟨c, hc, rfl⟩ := List.mem_map.mp hs
  exact ⟨c, hc, rfl, fun n => rfl⟩

theorem smooth_lin : Smooth (comb (l.map Course.limit) a N) xs x where
  lim := fun ys y hys hy as bs us vs a' b u v la lb lu lv => by
    simp only [comb_pairs]
    refine tendsto_list_sum _ fun g hg => tendsto_list_sum _ fun q hq => ?_
    obtain ⟨s, hs, rfl, hq'⟩ := course_groups l N hg hq
    have e : ∀ n, pairVal (ys n) (Scatter.maxN g.2) (as n) (bs n) (us n) (vs n) (s.limit.pair N) =
        s.cs n * ∑ m ∈ Finset.range (Scatter.maxN g.2), s.k.coefAll (s.a0s n) (s.ts n) m *
          legP m (Phase.cosTheta (s.a0s n) (s.a1s n) (s.a2s n) (as n) (bs n) (us n) (vs n)) := fun n =>
      (s.at n).pairVal N (hys n) _ _ _ _ _
    simp only [e]
    rw [s.limit.pairVal N hy]
    exact s.limC.mul (tendsto_finsetSum _ fun m _ => (Kind.coefAll_tendsto s.ok s.lim0 s.limT m).mul
      (((legP_cont m).tendsto _).comp (cosTheta_tendsto s.lim0 s.lim1 s.lim2 la lb lu lv)))
  bound := by
    have key : ∃ K, ∀ i : ℕ × Site × ℝ × ℝ × ℝ × ℝ, i.2.1.ρ = (xs i.1).ρ →
        |(comb (l.map Course.limit) a N).expVal i.2.1.env i.2.2.1 i.2.2.2.1 i.2.2.2.2.1 i.2.2.2.2.2| ≤ K := by
      simp only [comb_pairs]
      refine list_sum_bounded fun g hg => list_sum_bounded fun q hq => ?_
      obtain ⟨s, hs, rfl, hq'⟩ := course_groups l N hg hq
      choose K hK0 hK using fun m => tendsto_bounded (Kind.coefAll_tendsto s.ok s.lim0 s.limT m)
      obtain ⟨C, hC0, hC⟩ := tendsto_bounded s.limC
      refine ⟨C * ∑ m ∈ Finset.range (Scatter.maxN g.2), K m, fun i hi => ?_⟩
      rw [hq' i.1, (s.at i.1).pairVal N hi, abs_mul]
      refine mul_le_mul (hC _) ((Finset.abs_sum_le_sum_abs _ _).trans (Finset.sum_le_sum fun m _ => ?_)) (abs_nonneg _) hC0
      rw [abs_mul]
      exact (mul_le_of_le_one_right (abs_nonneg _) (legP_abs_le ((s.oks i.1).cos_le _ _ _ _) m)).trans (hK m i.1)
    obtain ⟨K, hK⟩ := key
    exact ⟨K, fun n y hy a' b u v => hK (n, y, a', b, u, v) hy⟩
  cont := fun n y _ => comb_cont _ a N y

theorem combDirs_tendsto {as bs us vs : ℕ → ℝ} {a b u v : ℝ} (la : Tendsto as atTop (𝓝 a)) (lb : Tendsto bs atTop (𝓝 b))
    (lu : Tendsto us atTop (𝓝 u)) (lv : Tendsto vs atTop (𝓝 v)) :
    Tendsto (fun n => combDirs (l.map fun s => s.at n) (as n) (bs n) (us n) (vs n)) atTop (𝓝 (combDirs (l.map Course.limit) a b u v)) := by
  unfold combDirs
  simp only [List.map_map]
  exact tendsto_list_sum _ fun s _ => s.limC.mul (Kind.val_tendsto s.ok s.lim0 s.limT
    (cosTheta_tendsto s.lim0 s.lim1 s.lim2 la lb lu lv) (s.ok.cos_le _ _ _ _))

end

/-! ### sites -/

theorem Settles.smooth {xs : ℕ → Site} {x : Site} {o : Scatter} {Ps : ℕ → Bidir} {P : Bidir} (h : Settles xs x o Ps P) : Smooth o xs x := by
  cases h with
  | prim N hs h l0 l1 l2 lt => exact smooth_prim N hs h l0 l1 l2 lt
  | lin l a N h => exact smooth_lin l a N

theorem Settles.dirs {xs : ℕ → Site} {x : Site} {o : Scatter} {Ps : ℕ → Bidir} {P : Bidir} (h : Settles xs x o Ps P)
    {as bs us vs : ℕ → ℝ} {a b u v : ℝ} (la : Tendsto as atTop (𝓝 a)) (lb : Tendsto bs atTop (𝓝 b))
    (lu : Tendsto us atTop (𝓝 u)) (lv : Tendsto vs atTop (𝓝 v)) :
    Tendsto (fun n => Ps n (as n) (bs n) (us n) (vs n)) atTop (𝓝 (P a b u v)) := by
  cases h with
  | prim N hs h l0 l1 l2 lt => exact Kind.val_tendsto h l0 lt (cosTheta_tendsto l0 l1 l2 la lb lu lv) (h.cos_le _ _ _ _)
  | lin l a N h => exact combDirs_tendsto l la lb lu lv

theorem Site.Tends.mu0 {xs : ℕ → Site} {x : Site} (h : Site.Tends xs x) : Tendsto (fun n => (xs n).mu0) atTop (𝓝 x.mu0) :=
  (Real.continuous_cos.tendsto _).comp h.t0

theorem Site.Tends.muEx {xs : ℕ → Site} {x : Site} (h : Site.Tends xs x) : Tendsto (fun n => (xs n).muEx) atTop (𝓝 x.muEx) :=
  (Real.continuous_cos.tendsto _).comp h.tex

theorem exp_neg_tendsto {τs μs : ℕ → ℝ} {τ μ : ℝ} (hτ : Tendsto τs atTop (𝓝 τ)) (hμ : Tendsto μs atTop (𝓝 μ)) (h0 : μ ≠ 0) :
    Tendsto (fun n => Real.exp (-τs n / μs n)) atTop (𝓝 (Real.exp (-τ / μ))) :=
  (Real.continuous_exp.tendsto _).comp (hτ.neg.div hμ h0)

/-- One term of the interaction contribution, with angles of the paths that converge. -/
theorem Smooth.hemi {V S : Scatter} {xs ys : ℕ → Site} {x y : Site} (hV : Smooth V xs x) (hS : Smooth S xs x)
    (hys : ∀ n, (ys n).ρ = (xs n).ρ) (hy : y.ρ = x.ρ) {μs τs as bs us vs : ℕ → ℝ} {μ τ a b u v : ℝ} (h0 : ∀ n, 0 < μs n)
    (hτ : ∀ n, 0 ≤ τs n) (h1 : 0 < μ) (lμ : Tendsto μs atTop (𝓝 μ)) (lτ : Tendsto τs atTop (𝓝 τ)) (la : Tendsto as atTop (𝓝 a))
    (lb : Tendsto bs atTop (𝓝 b)) (lu : Tendsto us atTop (𝓝 u)) (lv : Tendsto vs atTop (𝓝 v)) :
    Tendsto (fun n => hemi (μs n) (τs n) fun θ φ => V.expVal (ys n).env (as n) θ (us n) φ * S.expVal (ys n).env θ (bs n) φ (vs n)) atTop
      (𝓝 (RT1.hemi μ τ fun θ φ => V.expVal y.env a θ u φ * S.expVal y.env θ b φ v)) := by
  obtain ⟨K, hK⟩ := hV.bound
  obtain ⟨L, hL⟩ := hS.bound
  refine Energy.hemi_joint (K := K * L) hτ h0 lτ lμ h1 (fun n => ?_) (fun n s φ => ?_) fun s φ => ?_
  · exact ((hV.cont n _ (hys n)).comp (by fun_prop) (by fun_prop) (by fun_prop) (by fun_prop)).mul
      ((hS.cont n _ (hys n)).comp (by fun_prop) (by fun_prop) (by fun_prop) (by fun_prop))
  · rw [abs_mul]
    exact mul_le_mul (hK n _ (hys n) _ _ _ _) (hL n _ (hys n) _ _ _ _) (abs_nonneg _) ((abs_nonneg _).trans (hK n _ (hys n) 0 0 0 0))
  · exact (hV.lim _ _ hys hy la tendsto_const_nhds lu tendsto_const_nhds).mul
      (hS.lim _ _ hys hy tendsto_const_nhds lb tendsto_const_nhds lv)

end

end RT1
