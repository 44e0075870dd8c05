import Verif.Lemmas.DemoInt

/-! The interaction contribution where the closed form of the polar integral degenerates: nadir
directions and zero optical depth. -/

namespace RT1

noncomputable section
open Classical

theorem XR.nan_add (x : XR) : XR.nan + x = XR.nan := by cases x <;> rfl
theorem XR.add_nan (x : XR) : x + XR.nan = XR.nan := by cases x <;> rfl
theorem XR.nan_mul (x : XR) : XR.nan * x = XR.nan := by cases x <;> rfl
theorem XR.mul_nan (x : XR) : x * XR.nan = XR.nan := by cases x <;> rfl

theorem Arr.sumX_nan {l : List XR} (h : XR.nan ∈ l) : Arr.sumX l = XR.nan := by
  induction l with
  | nil => cases h
  | cons x l ih =>
    rcases List.mem_cons.mp h with h | h
    · rw [← h]; exact XR.nan_add _
    · show x + Arr.sumX l = _
      rw [ih h]; exact XR.add_nan _

/-- Nadir or no canopy: inf - inf. -/
theorem hlpX_nan {μ τ : ℝ} (h0 : 0 < μ) (h1 : μ ≤ 1) (ht : 0 ≤ τ) (h : μ = 1 ∨ τ = 0) :
    hlpX (XR.fin μ) (XR.fin τ) = XR.nan := by
  unfold hlpX
  simp only [XR.fin_neg, XR.fin_sub, XR.fin_div _ _ h0.ne', XR.exp_fin]
  have he : 0 < Real.exp (-τ / μ) := Real.exp_pos _
  have hpd : ∀ a b : ℝ, XR.fin a * XR.ninf = XR.infOfSign
      ((if 0 < a then 1 else if a < 0 then -1 else 0) * (-1)) := fun a b => rfl
  have hpp : ∀ a : ℝ, XR.fin a * XR.pinf = XR.infOfSign
      ((if 0 < a then 1 else if a < 0 then -1 else 0) * 1) := fun a => rfl
  have hmn : XR.fin (Real.exp (-τ / μ)) * XR.ninf = XR.ninf := by
    rw [hpd _ 0, if_pos he]; norm_num [XR.infOfSign]
  have hmp : XR.fin (Real.exp (-τ / μ)) * XR.pinf = XR.pinf := by
    rw [hpp, if_pos he]; norm_num [XR.infOfSign]
  have hei : XR.expi (XR.fin (τ / μ - τ)) = XR.ninf := by
    have : τ / μ - τ = 0 := by rcases h with rfl | rfl <;> simp
    rw [this]; simp [XR.expi]
  rw [hei, hmn]
  by_cases h1' : μ = 1
  · subst h1'
    have hl : XR.log (XR.fin 1 / XR.fin (1 - 1)) = XR.pinf := by
      have : XR.fin 1 / XR.fin (1 - 1) = XR.pinf := by
        show XR.div (XR.fin 1) (XR.fin (1 - 1)) = _
        simp [XR.div, XR.infOfSign]
      rw [this]; rfl
    rw [hl, hmp]
    by_cases ht0 : τ = 0
    · subst ht0
      simp [XR.expi]
      rfl
    · simp [XR.expi, ht0]
      rfl
  · have ht0 : τ = 0 := h.resolve_left h1'
    subst ht0
    have hne : (1 : ℝ) - μ ≠ 0 := fun e => h1' (by linarith)
    rw [XR.fin_div _ _ hne, XR.log_fin _ (div_pos h0 (by
      have : μ < 1 := lt_of_le_of_ne h1 h1'
      linarith))]
    simp [XR.expi]
    rfl

theorem s2X_nan {μ τ : ℝ} (h0 : 0 < μ) (h1 : μ ≤ 1) (ht : 0 ≤ τ) (h : μ = 1 ∨ τ = 0) (n : ℕ) :
    s2X (XR.fin μ) (XR.fin τ) n = XR.nan := by
  unfold s2X
  rw [hlpX_nan h0 h1 ht h, XR.add_nan, XR.mul_nan]

/-- F_int is nan at nadir and without canopy. -/
theorem fint_nan {b : Backend} {o : Obj} {dv ds : String → Py Lam} {ang : Py (List Arr)}
    {mux mu : Py Arr} {z a1 a2 a3 a4 m tau : Arr} {N r nS nV : ℕ} {idx : List ℕ} {y : Site}
    (hok : ObjOK b o) (hi1 : o.fnInput = none) (hi2 : o.fnevalsInput = none)
    (h : (Fresh.acc b o dv ds).fint ang mux mu = .ok z)
    (hang : ang = .ok [a1, a2, a3, a4]) (hmu : mu = .ok m) (hN : Fresh.nmax o = .ok N)
    (hmux : mux = Acc.muPowers N m) (htau : Fresh.par b o .tau = .ok tau)
    (hV : o.V.ncoefs = .ok (nV + 1)) (hS : o.SRF.ncoefs = .ok (nS + 1))
    (hpos : 1 ≤ r) (hm : m.shape.length = r) (ht : tau.shape.length ≤ r)
    (hargs : ∀ a ∈ [a1, a2, a3, a4] ++ o.params.map Prod.snd, a.shape.length ≤ r)
    (ha1 : a1.shape.length = r)
    (hconst : r = 1 ∨ b = .symengine ∨ ∃ fs, fnCoefs o.V o.SRF o.geom = .ok fs ∧
      ∃ p ∈ fs, ¬ isConstFn p)
    (hidx : r ≤ idx.length)
    (e1 : a1.at' idx = XR.fin y.t0) (e2 : a2.at' idx = XR.fin y.p0) (e3 : a3.at' idx = XR.fin y.tex)
    (e4 : a4.at' idx = XR.fin y.pex)
    (hpar : ∀ k a, o.params.get? k = some a → a.at' idx = XR.fin (y.ρ k))
    (hnan : ∀ n, s2X (m.at' idx) (tau.at' idx) n = XR.nan) :
    z.at' idx = XR.nan := by
  -- the compiled coefficients
  obtain ⟨f, hf, hfn⟩ : ∃ f, Fresh.fnevals b o = .ok f ∧ f ≠ none := by
    subst hang
    obtain ⟨a, ha, h⟩ := ok_bind h
    obtain ⟨pd, hpd, h⟩ := ok_bind h
    obtain ⟨args, hargs, h⟩ := ok_bind h
    obtain ⟨f, hf, h⟩ := ok_bind h
    refine ⟨f, hf, ?_⟩
    rintro rfl
    obtain ⟨outs, houts, h⟩ := ok_bind h
    cases houts
  obtain ⟨ks, fs, hks, hfs, rfl⟩ := fnevals_source hok hi1 hi2 hf hfn
  obtain ⟨nS', nV', c, hS', hV', hfs', hc0, s, v, hs, hv, hint⟩ := fnCoefs_spec hfs
  rw [hS] at hS'; cases hS'
  rw [hV] at hV'; cases hV'
  have hN' : N = nS + nV + 1 := by
    unfold Fresh.nmax at hN
    rw [hS, hV] at hN
    simp only [okb] at hN
    cases hN
    omega
  have hL : nFn (nS + 1) (nV + 1) = 2 + (N - 2) := by unfold nFn; omega
  have henv : ∀ s ∈ ["theta_0", "phi_0", "theta_ex", "phi_ex"] ++ o.params.keys,
      angEnv (a1.at' idx) (a3.at' idx) (a2.at' idx) (a4.at' idx) (o.params.valAt idx) s =
        XR.fin (y.env s) := by
    intro s hs
    unfold angEnv Site.env
    rw [e1, e2, e3, e4]
    by_cases c1 : s = "theta_0"
    · rw [if_pos c1, if_pos c1]
    by_cases c2 : s = "theta_ex"
    · rw [if_neg c1, if_neg c1, if_pos c2, if_pos c2]
    by_cases c3 : s = "phi_0"
    · rw [if_neg c1, if_neg c1, if_neg c2, if_neg c2, if_pos c3, if_pos c3]
    by_cases c4 : s = "phi_ex"
    · rw [if_neg c1, if_neg c1, if_neg c2, if_neg c2, if_neg c3, if_neg c3, if_pos c4, if_pos c4]
    rw [if_neg c1, if_neg c1, if_neg c2, if_neg c2, if_neg c3, if_neg c3, if_neg c4, if_neg c4]
    have hk : s ∈ o.params.keys := by
      rcases List.mem_append.mp hs with hs | hs
      · simp [c1, c2, c3, c4] at hs
      · exact hs
    obtain ⟨a, ha⟩ := Dict.get?_of_mem hk
    unfold Dict.valAt
    rw [ha]
    exact hpar s a ha
  have hcst : b = .sympy → (∀ n, n < nFn (nS + 1) (nV + 1) → ∀ ρ ρ', c n ρ = c n ρ') → r = 1 := by
    intro hb hcc
    rcases hconst with hr | hr | ⟨fs', hfs2, p, hp, hpc⟩
    · exact hr
    · rw [hr] at hb; cases hb
    · rw [hfs] at hfs2
      cases hfs2
      rw [hfs'] at hp
      obtain ⟨n, hn, rfl⟩ := List.mem_map.mp hp
      exact absurd (fun ρ ρ' => by
        rw [show MvPolynomial.coeff 0 (MvPolynomial.C (c n) : P) = c n by simp]
        exact hcc n (List.mem_range.mp hn) ρ ρ') hpc
  obtain ⟨hfree, hz⟩ := fint_at h hang hmu hN (by omega) hmux htau hf rfl hks hfs' hL
    ⟨hpos, hm, ht, hargs, ⟨a1, by simp, ha1⟩, hcst⟩ hidx fun s hs => by rw [henv s hs]; rfl
  rw [hz]
  refine Arr.sumX_nan (List.mem_map.mpr ⟨0, List.mem_range.mpr (by omega), ?_⟩)
  rw [hnan, XR.mul_nan]

/-- Some direction is nadir, or there is no canopy. -/
structure Site.Degenerate (x : Site) : Prop where
  mu0 : 0 < x.mu0
  muEx : 0 < x.muEx
  tau : 0 ≤ x.tau
  cause : x.mu0 = 1 ∨ x.muEx = 1 ∨ x.tau = 0

/-- The interaction contribution is nan at nadir and without canopy. -/
theorem interaction_nan {b : Backend} {o : Obj} {dv ds : String → Py Lam} {z : Arr} {r nS nV : ℕ}
    {idx : List ℕ} {x : Site}
    (hok : ObjOK b o) (hi1 : o.fnInput = none) (hi2 : o.fnevalsInput = none)
    (h : (Fresh.acc b o dv ds).interaction = .ok z)
    (hV : o.V.ncoefs = .ok (nV + 1)) (hS : o.SRF.ncoefs = .ok (nS + 1))
    (hal : Aligned b o r) (hidx : r ≤ idx.length) (hs : FSite b o idx x) (hx : x.Degenerate) :
    z.at' idx = XR.nan := by
  obtain ⟨F1, F2, h1, h2, I, h3, h4⟩ := interaction_F h
  obtain ⟨a1, ha1, e1⟩ := hs.t0.obtain
  obtain ⟨a3, ha3, e3⟩ := hs.tex.obtain
  obtain ⟨a2, ha2, e2⟩ := hs.p0.obtain
  obtain ⟨a4, ha4, e4⟩ := hs.pex.obtain
  obtain ⟨tau, htau, et⟩ := hs.tau.obtain
  have hN : Fresh.nmax o = .ok (nV + 1 + (nS + 1) - 1) := by
    unfold Fresh.nmax
    rw [hS, hV]
    rfl
  have l1 : a1.shape.length = r := hal.t0 a1 (ang_ok ha1)
  have l2 : a2.shape.length ≤ r := hal.p0 a2 (ang_ok ha2)
  have l3 : a3.shape.length = r := by
    unfold Fresh.tex at ha3
    by_cases hm : o.mono = true
    · rw [if_pos hm, ha1] at ha3; cases ha3; exact l1
    · rw [if_neg hm] at ha3
      exact hal.tex (by simpa using hm) a3 (ang_ok ha3)
  have l4 : a4.shape.length ≤ r := by
    unfold Fresh.pex at ha4
    by_cases hm : o.mono = true
    · rw [if_pos hm, ha2] at ha4
      have h' : Arr.add a2 (Arr.lit Real.pi) = .ok a4 := ha4
      have := Arr.map2_length h'
      rw [this]
      exact max_le l2 (Nat.zero_le _)
    · rw [if_neg hm] at ha4
      exact hal.pex (by simpa using hm) a4 (ang_ok ha4)
  have lp : ∀ a ∈ o.params.map Prod.snd, a.shape.length ≤ r := by
    intro a ha
    obtain ⟨p, hp, rfl⟩ := List.mem_map.mp ha
    exact hal.params p hp
  have hm0 : Fresh.mu0 o = .ok (Arr.cos a1) := by unfold Fresh.mu0; rw [ha1]; rfl
  have hme : Fresh.muEx o = .ok (Arr.cos a3) := by unfold Fresh.muEx; rw [ha3]; rfl
  have v1 : x.mu0 = 1 ∨ x.tau = 0 → F1.at' idx = XR.nan := by
    intro hc
    refine fint_nan (y := x) (a1 := a1) (a2 := a2) (a3 := a3) (a4 := a4) (m := Arr.cos a1) (tau := tau)
      hok hi1 hi2 h1 ?_ hm0 hN ?_ htau hV hS hal.pos l1 (hal.tau tau htau) ?_ l1 hal.const hidx
      e1 e2 e3 e4 hs.params ?_
    · show (do
        let a ← Fresh.ang o .t0
        let b ← Fresh.ang o .p0
        let c ← Fresh.tex o
        let d ← Fresh.pex o
        pure [a, b, c, d] : Py (List Arr)) = _
      rw [ha1, ha2, ha3, ha4]; rfl
    · show Fresh.mu0x o = _
      unfold Fresh.mu0x
      rw [hN, hm0]; rfl
    · intro a ha
      rcases List.mem_append.mp ha with ha | ha
      · simp only [List.mem_cons, List.not_mem_nil, or_false] at ha
        rcases ha with rfl | rfl | rfl | rfl
        · exact l1.le
        · exact l2
        · exact l3.le
        · exact l4
      · exact lp a ha
    · intro n
      rw [show (Arr.cos a1).at' idx = XR.fin x.mu0 by show XR.cos (a1.at' idx) = _; rw [e1]; rfl, et]
      exact s2X_nan hx.mu0 (Real.cos_le_one _) hx.tau hc n
  have v2 : x.muEx = 1 ∨ x.tau = 0 → F2.at' idx = XR.nan := by
    intro hc
    refine fint_nan (y := x.swap) (a1 := a3) (a2 := a4) (a3 := a1) (a4 := a2) (m := Arr.cos a3)
      (tau := tau) hok hi1 hi2 h2 ?_ hme hN ?_ htau hV hS hal.pos l3 (hal.tau tau htau) ?_ l3
      hal.const hidx e3 e4 e1 e2 hs.params ?_
    · show (do
        let a ← Fresh.tex o
        let b ← Fresh.pex o
        let c ← Fresh.ang o .t0
        let d ← Fresh.ang o .p0
        pure [a, b, c, d] : Py (List Arr)) = _
      rw [ha1, ha2, ha3, ha4]; rfl
    · show Fresh.muExx o = _
      unfold Fresh.muExx
      rw [hN, hme]; rfl
    · intro a ha
      rcases List.mem_append.mp ha with ha | ha
      · simp only [List.mem_cons, List.not_mem_nil, or_false] at ha
        rcases ha with rfl | rfl | rfl | rfl
        · exact l3.le
        · exact l4
        · exact l1.le
        · exact l2
      · exact lp a ha
    · intro n
      rw [show (Arr.cos a3).at' idx = XR.fin x.muEx by show XR.cos (a3.at' idx) = _; rw [e3]; rfl, et]
      exact s2X_nan hx.muEx (Real.cos_le_one _) hx.tau hc n
  have w3 := PW.mulM (PW.mulM (PW.mulM (PW.I0 (b := b) (o := o) (dv := dv) (ds := ds) (idx := idx)) PW.mu0)
    (PW.par .omega))
    (PW.addM (PW.mulM (PW.expM (PW.divM (PW.negM (PW.par .tau)) PW.muEx)) (PW.pure rfl))
      (PW.mulM (PW.expM (PW.divM (PW.negM (PW.par .tau)) PW.mu0)) (PW.pure rfl))) I h3
  have w4 := PW.mulM (PW.mulM (PW.par (b := b) (o := o) (dv := dv) (ds := ds) (idx := idx) .NormBRDF)
    (PW.subM (PW.lit 1) (PW.par .bsf))) (PW.pure w3) z h4
  rw [w4]
  have hF : F1.at' idx = XR.nan ∨ F2.at' idx = XR.nan := by
    rcases hx.cause with hc | hc | hc
    · exact .inl (v1 (.inl hc))
    · exact .inr (v2 (.inl hc))
    · exact .inl (v1 (.inr hc))
  rcases hF with hF | hF <;> rw [hF]
  · rw [XR.mul_nan, XR.nan_add, XR.mul_nan, XR.mul_nan]
  · rw [XR.mul_nan, XR.add_nan, XR.mul_nan, XR.mul_nan]

theorem XSite.convert_nan (x : XSite) (s d : Bool) : x.convert s d XR.nan = XR.nan := by
  unfold XSite.convert
  rw [XR.nan_mul]
  cases d with
  | false => simp
  | true => exact XR.mul_nan _

/-- An observed interaction contribution is nan at nadir and without canopy. -/
theorem ObservesP.nan {c : Cfg} {md : Mode} {x : Site} {r : XR} (h : ObservesP c md x r)
    {nV nS : ℕ} (hV : c.V.ncoefs = .ok (nV + 1)) (hS : c.SRF.ncoefs = .ok (nS + 1))
    (hx : x.Degenerate) : r = XR.nan := by
  obtain ⟨w, id, kw, arr, w', idx, hw, hcall, hv, rfl, hs, o, ho, rfl, rfl, k, hal⟩ := h
  have hobs := obs_of (full := true) (F := Fresh.interaction) hw.reachable.inv hcall
    (fun _ _ _ h => interaction_none h _)
    (fun _ _ _ _ hw ho => interaction_eq hw ho _) (fun _ _ _ h => fresh_interaction_filled h) hs
    ho rfl (arr.get idx)
  have hw' : ReachableP w' := by
    have := hw.step (op := .interaction id kw) trivial
    have e : (RT1.step (.interaction id kw) w).2 = (interaction id kw w).2 := bind_pure_state _ _
    rw [e, hcall] at this
    exact this
  have hgeo := hw'.geomOK ho
  obtain ⟨z, hz, hz'⟩ := ok_bind hobs.ok
  obtain ⟨a1, ha1, e1⟩ := hobs.site.t0.obtain
  have hm0 : Fresh.mu0 o = .ok (Arr.cos a1) := by unfold Fresh.mu0; rw [ha1]; rfl
  have hl : k ≤ idx.length := by
    have h1 := (Below.convert (Below.interaction_mu0 hm0 z hz) arr hz').length
    rw [hv.length]
    have h2 : (Arr.cos a1).shape.length = k := hal.t0 a1 (ang_ok ha1)
    omega
  have hval := interaction_nan (hobs.objOK rfl) hgeo.fnI hgeo.fneI hz hV hS hal hl hobs.site hx
  have := PW.convert hval arr hz'
  rw [Arr.at'_valid hv, XSite.convert_nan] at this
  exact this

end

end RT1
