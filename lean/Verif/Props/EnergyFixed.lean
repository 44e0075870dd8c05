import Verif.Props.Energy

/-!
# Energy conservation with fixed angles (C74)
-/

namespace RT1

noncomputable section
open Classical

theorem iso_series {n m : Option ℕ} {q s d : Bool} {x : Site} :
    ExactSeries ⟨.prim .volIsotropic volA n, .prim .srfIsotropic srfA m, q, s, d⟩ x (Kind.volIsotropic.bidir (-1) 0)
      (Kind.srfIsotropic.bidir 1 0) := by
  refine ⟨fun y _ a b u v => ?_, fun y _ a b u v => ?_⟩
  · refine Scatter.expVal_of_ok ?_
    unfold Scatter.expansionAt Scatter.legExpansion
    simp [Scatter.ncoefs, okb, Scatter.legSum, Scatter.primCoef, legendre, Kind.bidir, Kind.val]
  · refine Scatter.expVal_of_ok ?_
    unfold Scatter.expansionAt Scatter.legExpansion
    simp [Scatter.ncoefs, okb, Scatter.legSum, Scatter.primCoef, legendre, Kind.bidir, Kind.val]

/-- With interaction term, an Isotropic layer above an Isotropic surface, whichever angles are fixed (also if the
totals for the individual directions come from objects with different fixed angles): coefficients that do not depend on the
angles are not affected by fixing them. -/
theorem C74_fixed_partial {n m : Option ℕ} {s d : Bool} {x : Site} (hx : x.Passive 1) (ht0 : 0 < x.t0) (hτ : 0 < x.tau)
    (hI : s = true → x.I0 ≠ 0) {J : ℝ → ℝ → ℝ}
    (hJ : AllDirs fun t p => ∃ md, ObservesRowP 0 ⟨.prim .volIsotropic volA n, .prim .srfIsotropic srfA m, true, s, d⟩ md
      (x.toward t p) (x.inUnits s d (J t p))) :
    AtMost J (x.I0 * Real.cos x.t0) := by
  have h0' : |(0 : ℝ)| < 1 := by simp
  have hs := Kind.stands (kV := .volIsotropic) (kS := .srfIsotropic) (n := n) (m := m) (q := true) (s := s) (d := d) (x := x)
    trivial (.inl rfl) (fun y _ => trivial) (fun y _ => trivial) h0' h0'
  have hb := Kind.balanced (kV := .volIsotropic) (kS := .srfIsotropic) trivial (.inl rfl) h0' h0'
  have he := iso_series (n := n) (m := m) (q := true) (s := s) (d := d) (x := x)
  have hF : Bidir.Turns (Kind.srfIsotropic.bidir 1 0) := ⟨fun a b u v => rfl, fun a b u v => rfl⟩
  refine Energy.balance_shift hb hF hx.ok fun t ht p hp => ?_
  have lt1 : ∀ s, 0 < s → s < Real.pi / 2 → Real.cos s < 1 := fun s h1 h2 => by
    have := Real.cos_lt_cos_of_nonneg_of_le_pi le_rfl (show s ≤ Real.pi by linarith [Real.pi_pos]) h1
    rwa [Real.cos_zero] at this
  have hc : 0 < Real.cos t := Real.cos_pos_of_mem_Ioo ⟨by linarith [ht.1, Real.pi_pos], ht.2⟩
  have h0 : 0 < Real.cos x.t0 := hx.ok.mu0
  obtain ⟨md, hmd⟩ := hJ t ht p hp
  obtain ⟨g, -, e⟩ := hmd.total_val rfl (hs.SRF (x.toward t p) rfl) (hs.V (x.toward t p) rfl) (nV := 0) (nS := 0) rfl rfl
    ⟨h0, lt1 _ ht0 hx.t0', hc, lt1 _ ht.1 ht.2, hτ⟩ hI
  have ei : geomInteraction (.prim .volIsotropic volA n) (.prim .srfIsotropic srfA m) g (x.toward t p) =
      x.setting.inter (Kind.volIsotropic.bidir (-1) 0) (Bidir.shift (Kind.srfIsotropic.bidir 1 0)) t p := by
    have hF : ∀ y : Site, y.ρ = x.ρ → geomFint (.prim .volIsotropic volA n) (.prim .srfIsotropic srfA m) g y.mu0 y.tau y.env =
        hemi y.mu0 y.tau fun θ φ => Kind.volIsotropic.bidir (-1) 0 (Real.pi - y.t0) θ y.p0 φ *
          Bidir.shift (Kind.srfIsotropic.bidir 1 0) θ y.tex φ y.pex := fun y hy => by
      unfold geomFint
      refine hemi_congr fun θ φ => ?_
      rw [he.V y hy, he.SRF y hy]
      rfl
    unfold geomInteraction
    have e2 : geomFint (.prim .volIsotropic volA n) (.prim .srfIsotropic srfA m) g (x.toward t p).muEx (x.toward t p).tau
        (x.toward t p).swap.env = _ := hF (x.toward t p).swap rfl
    rw [hF (x.toward t p) rfl, e2]
    show _ = x.NormBRDF * (1 - x.bsf) * x.I0 * Real.cos x.t0 * x.omega * _
    rw [← mul_assoc, ← mul_assoc, ← mul_assoc]
    rfl
  rw [ei] at e
  have hn := energy_nonneg_shift hb hF hx ht p
  exact Site.inUnits_inj (x := x) (s := s) (d := d) (fun h => x.signorm_pos hx (hI h)) hn e

/-! ### example -/

/-- The first row of `calc()` of bistatic objects with fixed angles. -/
theorem scalar_total_fixed (b : Backend) {V SRF : Scatter} (q s d : Bool) {x : Site} (fx : AngN → Bool) (hr : x.Reports []) (hV : V.Plain)
    (hS : SRF.Plain) (hfn : q = true → ∀ g, ∃ fs, fnCoefs V SRF g = .ok fs) (hnV : q = true → ∃ n, V.ncoefs = .ok (n + 1))
    (hnS : q = true → ∃ n, SRF.ncoefs = .ok (n + 1)) :
    ∃ r fixed, (∀ n, n ∈ fixed ↔ fx n = true) ∧ ObservesRowP 0 ⟨V, SRF, q, s, d⟩ ⟨false, fixed⟩ x r := by
  have hsc := scalar_scalar (V := V) (SRF := SRF) q s d (mono := false) fx (l := [])
    (by simp) hr (fun k hk => List.mem_append_left _ (hV k hk)) (fun k hk => List.mem_append_left _ (hS k hk))
  have hg := scalar_geom V SRF q s d x false fx (scalarKw x [])
  have hw := scalarW_reachableP b V SRF q s d x false fx (scalarKw x [])
  have ho := scalarW_obj b V SRF q s d x false fx (scalarKw x [])
  have hb := scalarW_backend b V SRF q s d x false fx (scalarKw x [])
  have hc := scalar_cfg V SRF q s d x false fx (scalarKw x [])
  have hu := scalar_update V SRF q s d x false fx (scalarKw x [])
  generalize scalarObj V SRF q s d x false fx (scalarKw x []) = o at *
  have eV : o.V = V := by have := congrArg Cfg.V hc; exact this
  have eS : o.SRF = SRF := by have := congrArg Cfg.SRF hc; exact this
  have eq : o.intQ = q := by have := congrArg Cfg.intQ hc; exact this
  obtain ⟨arr, n, h1, h2, hn⟩ : ∃ arr n, Fresh.calcAll b o = .ok arr ∧ arr.shape = [1] ++ [n] ∧ 0 < n := by
    cases q with
    | false =>
      obtain ⟨arr, h1, h2⟩ := hsc.complete.calcAll_three b hsc.t0 rfl eq
      exact ⟨arr, 3, h1, h2, by norm_num⟩
    | true =>
      have hci : CompleteI b o [1] := hsc.completeI eq
        (ObjOK.none hg.fn_ hg.fnevals_) (hw.geomOK ho) (by rw [eV, eS]; exact hfn rfl _)
        (by rw [eV]; exact hnV rfl) (by rw [eS]; exact hnS rfl)
        (fun l hl => by rw [hg.fnevals_] at hl; cases hl)
      obtain ⟨arr, h1, h2⟩ := hci.calcAll hsc.t0 rfl
      exact ⟨arr, 4, h1, h2, by norm_num⟩
  have key := CalcP.of hw ho [] (arr := arr) (S := [1]) (r := 1) (site := fun _ => x) (by rw [hb, hu]; exact h1) h2
    (by rw [hb, hu]; exact hsc.aligned b) fun idx hv => by
      rw [hb, hu]
      obtain rfl : idx = [0] := by
        cases idx with
        | nil => simp [Arr.Valid] at hv
        | cons a l => cases l <;> simp [Arr.Valid] at hv ⊢; omega
      exact hsc.fsite b
  have hm : o.mode = ⟨false, o.fixed⟩ := by
    show Mode.mk o.mono o.fixed = _
    rw [hg.mono]
  rw [hc, hm] at key
  exact ⟨_, o.fixed, fun n => by rw [hg.fixed]; simp, key.row (idx := [0]) (k := 0) (by simp [Arr.Valid]) (by rw [h2]; simp [Arr.Valid, hn])⟩


/-- Incidence angle and azimuth are fixed. -/
example : ∃ (J : ℝ → ℝ → ℝ) (x : Site), x.Passive 1 ∧ 0 < x.t0 ∧ 0 < x.tau ∧ (AllDirs fun t p =>
    ∃ md : Mode, (md.mono = false ∧ ∀ n, n ∈ md.fixed ↔ n = .t0 ∨ n = .p0) ∧ ObservesRowP 0 ⟨isoV, isoS, true, false, false⟩ md
      (x.toward t p) (x.inUnits false false (J t p))) := by
  let x : Site := { nadirSite with t0 := 1 / 2 }
  have hp : x.Passive 1 := by
    have := Real.two_le_pi
    constructor <;> simp [x, nadirSite] <;> linarith
  have hτ : 0 < x.tau := by simp [x, nadirSite]
  have hpos : 0 < x.t0 := by simp [x]
  have hr : x.Reports [] := ⟨nadirSite_reports.bsf, nadirSite_reports.tau, nadirSite_reports.omega, nadirSite_reports.NormBRDF, by simp⟩
  have key : ∀ t p, ∃ v fixed, (∀ n, n ∈ fixed ↔ decide (n = .t0 ∨ n = .p0) = true) ∧
      ObservesRowP 0 ⟨isoV, isoS, true, false, false⟩ ⟨false, fixed⟩ (x.toward t p) v := fun t p =>
    scalar_total_fixed .sympy true false false (fun n => decide (n = .t0 ∨ n = .p0)) (Site.toward_reports hr t p) isoV_plain isoS_plain
      (fun _ => iso_fnCoefs) (fun _ => ⟨0, isoV_ncoefs⟩) (fun _ => ⟨0, isoS_ncoefs⟩)
  choose v fixed h1 h2 using key
  have hv : ∀ t p, ∃ j : ℝ, t ∈ Set.Ioo 0 (Real.pi / 2) → v t p = x.inUnits false false j := fun t p => by
    by_cases ht : t ∈ Set.Ioo 0 (Real.pi / 2)
    · have h0' : |(0 : ℝ)| < 1 := by simp
      have hs := Kind.stands (kV := .volIsotropic) (kS := .srfIsotropic) (n := none) (m := none) (q := true) (s := false) (d := false)
        (x := x) trivial (.inl rfl) (fun y _ => trivial) (fun y _ => trivial) h0' h0'
      have lt1 : ∀ s, 0 < s → s < Real.pi / 2 → Real.cos s < 1 := fun s h1 h2 => by
        have := Real.cos_lt_cos_of_nonneg_of_le_pi le_rfl (show s ≤ Real.pi by linarith [Real.pi_pos]) h1
        rwa [Real.cos_zero] at this
      have hc : 0 < Real.cos t := Real.cos_pos_of_mem_Ioo ⟨by linarith [ht.1, Real.pi_pos], ht.2⟩
      obtain ⟨g, -, e⟩ := (h2 t p).total_val rfl (hs.SRF (x.toward t p) rfl) (hs.V (x.toward t p) rfl) isoV_ncoefs isoS_ncoefs
        ⟨hp.ok.mu0, lt1 _ hpos hp.t0', hc, lt1 _ ht.1 ht.2, hτ⟩ (fun h => by cases h)
      exact ⟨_, fun _ => e⟩
    · exact ⟨0, fun h => absurd h ht⟩
  choose J hJ using hv
  refine ⟨J, x, hp, hpos, hτ, fun t ht p _ => ⟨⟨false, fixed t p⟩, ⟨rfl, fun n => ?_⟩, ?_⟩⟩
  · simpa using h1 t p n
  · rw [← hJ t p ht]; exact h2 t p

end

end RT1
