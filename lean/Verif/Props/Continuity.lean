import Verif.Lemmas.Continuity
import Verif.Props.IntRows
import Verif.Props.Trunc

/-!
# C80: small changes of the inputs
-/

namespace RT1

noncomputable section
open Filter Topology

/-! ### units -/

theorem Site.Tends.unit {xs : ℕ → Site} {x : Site} (h : Site.Tends xs x) {s : Bool} (hI : s = true → x.I0 ≠ 0) :
    Tendsto (fun n => (xs n).unit s) atTop (𝓝 (x.unit s)) := by
  cases s with
  | false => simpa [Site.unit] using tendsto_const_nhds
  | true =>
    have : Tendsto (fun n => 4 * Real.pi * (xs n).mu0 / (xs n).I0) atTop (𝓝 (4 * Real.pi * x.mu0 / x.I0)) :=
      (h.mu0.const_mul _).div h.I0 (hI rfl)
    simpa [Site.unit, Site.signorm] using this

theorem Site.Tends.approach {xs : ℕ → Site} {x : Site} (h : Site.Tends xs x) {s d : Bool} (hI : s = true → x.I0 ≠ 0) {u : ℕ → ℝ} {v l : ℝ}
    (hu : Tendsto u atTop (𝓝 v)) (hl : x.inUnits s d v = XR.fin l) : Approach (fun n => (xs n).inUnits s d (u n)) l := by
  have hw := hu.mul (h.unit hI)
  have e : ∀ (y : Site) v, y.inUnits s d v = if d = true then dBValue (v * y.unit s) else XR.fin (v * y.unit s) := fun y v => by
    unfold Site.inUnits Site.unit; cases s <;> simp
  simp only [e] at hl ⊢
  cases d with
  | false => exact ⟨_, Eventually.of_forall fun N => rfl, (XR.fin.inj hl) ▸ hw⟩
  | true =>
    obtain ⟨h1, rfl⟩ := dBValue_fin hl
    refine ⟨fun n => 10 * Real.logb 10 (u n * (xs n).unit s), ?_, (hw.logb h1.ne').const_mul 10⟩
    filter_upwards [hw.eventually (lt_mem_nhds h1)] with N hN
    exact if_pos hN

/-! ### geometries -/

theorem Site.Tends.swap {xs : ℕ → Site} {x : Site} (h : Site.Tends xs x) : Site.Tends (fun n => (xs n).swap) x.swap :=
  ⟨h.tex, h.t0, h.pex, h.p0, h.I0, h.tau, h.omega, h.NormBRDF, h.bsf⟩

theorem Site.Tends.env {xs : ℕ → Site} {x : Site} (h : Site.Tends xs x) (k : AngN) :
    Tendsto (fun n => (xs n).env k.symName) atTop (𝓝 (x.env k.symName)) := by
  cases k with
  | t0 => simpa [AngN.symName, Site.env] using h.t0
  | tex => simpa [AngN.symName, Site.env] using h.tex
  | p0 => simpa [AngN.symName, Site.env] using h.p0
  | pex => simpa [AngN.symName, Site.env] using h.pex

theorem Site.Tends.angle {xs : ℕ → Site} {x : Site} (h : Site.Tends xs x) (k : AngN) :
    Tendsto (fun n => (xs n).angle k) atTop (𝓝 (x.angle k)) := by
  cases k with
  | t0 => exact h.t0
  | tex => exact h.tex
  | p0 => exact h.p0
  | pex => exact h.pex

/-- The geometry entries at the limit site. -/
theorem GeomAt.limit {md : Mode} {gs : ℕ → Geom4} {xs : ℕ → Site} {x : Site} (hg : ∀ n, GeomAt md (gs n) (xs n)) (h : Site.Tends xs x) :
    ∃ g, GeomAt md g x := by
  by_cases hm : md.mono = true
  · have h1 : x.tex = x.t0 := tendsto_nhds_unique h.tex (h.t0.congr fun n => (((hg n).mono hm).1).symm)
    have h2 : x.pex = x.p0 + Real.pi :=
      tendsto_nhds_unique h.pex ((h.p0.add_const Real.pi).congr fun n => (((hg n).mono hm).2.1).symm)
    rcases ((hg 0).mono hm).2.2.2.2.2 with h3 | h3
    · exact ⟨⟨.sym "theta_0", .sym "theta_0", .sym "phi_0", .sym "phi_0"⟩,
        fun _ => ⟨h1, h2, rfl, rfl, rfl, .inl ⟨rfl, h3.2⟩⟩, fun h => absurd hm (by simp [h])⟩
    · exact ⟨⟨.sym "theta_0", .sym "theta_0", .num x.p0, .num x.p0⟩,
        fun _ => ⟨h1, h2, rfl, rfl, rfl, .inr ⟨rfl, h3.2⟩⟩, fun h => absurd hm (by simp [h])⟩
  · classical
    refine ⟨⟨if .t0 ∈ md.fixed then .num (x.angle .t0) else .sym (AngN.symName .t0),
      if .tex ∈ md.fixed then .num (x.angle .tex) else .sym (AngN.symName .tex),
      if .p0 ∈ md.fixed then .num (x.angle .p0) else .sym (AngN.symName .p0),
      if .pex ∈ md.fixed then .num (x.angle .pex) else .sym (AngN.symName .pex)⟩, fun h => absurd h hm, fun _ n => ?_⟩
    cases n <;> simp only [Geom4.entry] <;> congr

/-- The values of the geometry entries converge. -/
theorem GeomAt.entries {md : Mode} {gs : ℕ → Geom4} {g : Geom4} {xs : ℕ → Site} {x : Site} (hs : ∀ n, GeomAt md (gs n) (xs n))
    (hg : GeomAt md g x) (h : Site.Tends xs x) {ys : ℕ → Site} {y : Site} (hy : Site.Tends ys y) :
    Tendsto (fun n => (gs n).t0.val (ys n).env) atTop (𝓝 (g.t0.val y.env)) ∧
    Tendsto (fun n => (gs n).tex.val (ys n).env) atTop (𝓝 (g.tex.val y.env)) ∧
    Tendsto (fun n => (gs n).p0.val (ys n).env) atTop (𝓝 (g.p0.val y.env)) ∧
    Tendsto (fun n => (gs n).pex.val (ys n).env) atTop (𝓝 (g.pex.val y.env)) := by
  by_cases hm : md.mono = true
  · have e : ∀ n, (gs n).t0 = .sym "theta_0" ∧ (gs n).tex = .sym "theta_0" ∧ (gs n).pex = (gs n).p0 := fun n =>
      ⟨((hs n).mono hm).2.2.1, ((hs n).mono hm).2.2.2.1, ((hs n).mono hm).2.2.2.2.1⟩
    obtain ⟨-, -, e1, e2, e3, e4⟩ := hg.mono hm
    have hp : Tendsto (fun n => (gs n).p0.val (ys n).env) atTop (𝓝 (g.p0.val y.env)) := by
      rcases e4 with ⟨e4, f4⟩ | ⟨e4, f4⟩
      · have : ∀ n, (gs n).p0 = .sym "phi_0" := fun n => by
          rcases ((hs n).mono hm).2.2.2.2.2 with h | h
          · exact h.1
          · rw [f4] at h; exact absurd h.2 (by simp)
        simp only [this, e4]
        exact hy.env .p0
      · have : ∀ n, (gs n).p0 = .num (xs n).p0 := fun n => by
          rcases ((hs n).mono hm).2.2.2.2.2 with h | h
          · rw [f4] at h; exact absurd h.2 (by simp)
          · exact h.1
        simp only [this, e4]
        exact h.p0
    simp only [e, e1, e2, e3]
    exact ⟨hy.env .t0, hy.env .t0, hp, hp⟩
  · have hm : md.mono = false := by simpa using hm
    have key : ∀ k : AngN, Tendsto (fun n => ((gs n).entry k).val (ys n).env) atTop (𝓝 ((g.entry k).val y.env)) := fun k => by
      simp only [fun n => (hs n).bi hm k, hg.bi hm k]
      split_ifs with hk
      · exact h.angle k
      · exact hy.env k
    exact ⟨key .t0, key .tex, key .p0, key .pex⟩

/-- The interaction contribution is continuous, in every geometry mode. -/
theorem geomInteraction_tendsto {V S : Scatter} {md : Mode} {gs : ℕ → Geom4} {g : Geom4} {xs : ℕ → Site} {x : Site} (hV : Smooth V xs x)
    (hS : Smooth S xs x) (hs : ∀ n, GeomAt md (gs n) (xs n)) (hg : GeomAt md g x) (h : Site.Tends xs x)
    (hx : ∀ n, 0 < (xs n).mu0 ∧ 0 < (xs n).muEx ∧ 0 ≤ (xs n).tau) (h0 : 0 < x.mu0) (h1 : 0 < x.muEx) :
    Tendsto (fun n => geomInteraction V S (gs n) (xs n)) atTop (𝓝 (geomInteraction V S g x)) := by
  have key : ∀ {ys : ℕ → Site} {y : Site}, (∀ n, (ys n).ρ = (xs n).ρ) → y.ρ = x.ρ → Site.Tends ys y →
      (∀ n, 0 < (ys n).mu0) → (∀ n, 0 ≤ (ys n).tau) → 0 < y.mu0 →
      Tendsto (fun n => geomFint V S (gs n) (ys n).mu0 (ys n).tau (ys n).env) atTop (𝓝 (geomFint V S g y.mu0 y.tau y.env)) := by
    intro ys y e1 e2 hy h2 h3 h4
    obtain ⟨a, b, c, d⟩ := GeomAt.entries hs hg h hy
    exact hV.hemi hS e1 e2 h2 h3 h4 hy.mu0 hy.tau (a.const_sub _) b c (d.add_const _)
  have k1 := key (fun _ => rfl) rfl h (fun n => (hx n).1) (fun n => (hx n).2.2) h0
  have k2 := key (ys := fun n => (xs n).swap) (y := x.swap) (fun _ => rfl) rfl h.swap (fun n => (hx n).2.1) (fun n => (hx n).2.2) h1
  exact (h.NormBRDF.mul (h.bsf.const_sub 1)).mul (((h.I0.mul h.mu0).mul h.omega).mul
    (((exp_neg_tendsto h.tau h.muEx h1.ne').mul k1).add ((exp_neg_tendsto h.tau h.mu0 h0.ne').mul k2)))

theorem Site.Tends.surface {xs : ℕ → Site} {x : Site} (h : Site.Tends xs x) (h0 : x.mu0 ≠ 0) (h1 : x.muEx ≠ 0) {fs : ℕ → ℝ} {f : ℝ}
    (hf : Tendsto fs atTop (𝓝 f)) : Tendsto (fun n => (xs n).surface (fs n)) atTop (𝓝 (x.surface f)) :=
  ((((h.NormBRDF.mul (((h.bsf.const_sub 1).mul ((Real.continuous_exp.tendsto _).comp
    (((h.tau.div h.mu0 h0).neg).sub (h.tau.div h.muEx h1)))).add h.bsf)).mul h.I0).mul h.mu0).mul hf)

theorem Site.Tends.volume {xs : ℕ → Site} {x : Site} (h : Site.Tends xs x) (h0 : x.mu0 ≠ 0) (h1 : x.muEx ≠ 0) (h2 : x.mu0 + x.muEx ≠ 0)
    {ps : ℕ → ℝ} {p : ℝ} (hp : Tendsto ps atTop (𝓝 p)) : Tendsto (fun n => (xs n).volume (ps n)) atTop (𝓝 (x.volume p)) :=
  (((((h.bsf.const_sub 1).mul h.I0).mul h.omega).mul (h.mu0.div (h.mu0.add h.muEx) h2)).mul
    ((((Real.continuous_exp.tendsto _).comp (h.tau.div h.mu0 h0).neg).mul
      ((Real.continuous_exp.tendsto _).comp (h.tau.div h.muEx h1).neg)).const_sub 1)).mul hp

theorem Settles.simple {xs : ℕ → Site} {x : Site} {o : Scatter} {Ps : ℕ → Bidir} {P : Bidir} (h : Settles xs x o Ps P) : o.Simple := by
  cases h with
  | prim N hs h => exact .inl ⟨_, Kind.isPart _ _ N⟩
  | lin l a N hl => exact .inr ⟨_, _, _, rfl, by simpa using hl, comb_part _ N⟩

theorem Settles.valueAt {xs : ℕ → Site} {x : Site} {o : Scatter} {Ps : ℕ → Bidir} {P : Bidir} (h : Settles xs x o Ps P) :
    o.ValueAt x (P x.t0 x.tex x.p0 x.pex) := by
  cases h with
  | prim N hs h => exact (Family.prim h).valueAt N
  | lin l a N hl => exact (Family.lin _ a (by simpa using hl)).valueAt N

theorem Settles.valuesAt {xs : ℕ → Site} {x : Site} {o : Scatter} {Ps : ℕ → Bidir} {P : Bidir} (h : Settles xs x o Ps P) (n : ℕ) :
    o.ValueAt (xs n) (Ps n (xs n).t0 (xs n).tex (xs n).p0 (xs n).pex) := by
  cases h with
  | prim N hs h => exact (Family.prim (hs n)).valueAt N
  | lin l a N hl =>
    have := (Family.lin (l.map fun s => s.at n) a (by simpa using hl)).valueAt N
    rwa [comb_at] at this

/-! ### theorems -/

section
variable {xs : ℕ → Site} {x : Site}

/-- Surface contribution (call and row of `calc()`), any surface function with convergent values. -/
theorem C80_surface {c : Cfg} (ht : Site.Tends xs x) {fs : ℕ → ℝ} {f : ℝ} (hf : Tendsto fs atTop (𝓝 f))
    (hs : ∀ n, c.SRF.ValueAt (xs n) (fs n)) (h0 : 0 < x.mu0) (h1 : 0 < x.muEx) (hx : ∀ n, 0 < (xs n).mu0 ∧ 0 < (xs n).muEx)
    (hI : c.sig0 = true → x.I0 ≠ 0 ∧ ∀ n, (xs n).I0 ≠ 0) {r : ℕ → XR}
    (h : ∀ n, Observes surface c (xs n) (r n) ∨ ObservesRow 1 c (xs n) (r n)) {l : ℝ}
    (hl : x.inUnits c.sig0 c.dB (x.surface f) = XR.fin l) : Approach r l := by
  have e : r = fun n => (xs n).inUnits c.sig0 c.dB ((xs n).surface (fs n)) := funext fun n =>
    C18_surface (h n) (hs n) (hx n).1.ne' (hx n).2.ne' fun hc => (hI hc).2 n
  rw [e]
  exact ht.approach (fun hc => (hI hc).1) (ht.surface h0.ne' h1.ne' hf) hl

/-- Volume contribution (call and row of `calc()`), any phase function with convergent values. -/
theorem C80_volume {c : Cfg} (ht : Site.Tends xs x) {ps : ℕ → ℝ} {p : ℝ} (hp : Tendsto ps atTop (𝓝 p))
    (hs : ∀ n, c.V.ValueAt (xs n) (ps n)) (h0 : 0 < x.mu0) (h1 : 0 < x.muEx)
    (hx : ∀ n, 0 < (xs n).mu0 ∧ 0 < (xs n).muEx ∧ 0 ≤ (xs n).tau)
    (hI : c.sig0 = true → x.I0 ≠ 0 ∧ ∀ n, (xs n).I0 ≠ 0) {r : ℕ → XR}
    (h : ∀ n, Observes volume c (xs n) (r n) ∨ ObservesRow 2 c (xs n) (r n)) {l : ℝ}
    (hl : x.inUnits c.sig0 c.dB (x.volume p) = XR.fin l) : Approach r l := by
  have e : r = fun n => (xs n).inUnits c.sig0 c.dB ((xs n).volume (ps n)) := funext fun n =>
    C19_volume ((h n).imp id fun h => ⟨h, (hx n).2.2⟩) (hs n) (hx n).1.ne' (hx n).2.1.ne' (add_pos (hx n).1 (hx n).2.1).ne'
      fun hc => (hI hc).2 n
  rw [e]
  exact ht.approach (fun hc => (hI hc).1) (ht.volume h0.ne' h1.ne' (add_pos h0 h1).ne' hp) hl

/-- Total without interaction term; the limit may have no canopy. -/
theorem C80_first_order {c : Cfg} (hq : c.intQ = false) (ht : Site.Tends xs x) {fs ps : ℕ → ℝ} {f p : ℝ} (hf : Tendsto fs atTop (𝓝 f))
    (hp : Tendsto ps atTop (𝓝 p)) (hS : ∀ n, c.SRF.ValueAt (xs n) (fs n)) (hV : ∀ n, c.V.ValueAt (xs n) (ps n))
    (h0 : 0 < x.mu0) (h1 : 0 < x.muEx) (hx : ∀ n, 0 < (xs n).mu0 ∧ 0 < (xs n).muEx ∧ 0 ≤ (xs n).tau)
    (hI : c.sig0 = true → x.I0 ≠ 0 ∧ ∀ n, (xs n).I0 ≠ 0) {r : ℕ → XR} (h : ∀ n, ObservesRow 0 c (xs n) (r n)) {l : ℝ}
    (hl : x.inUnits c.sig0 c.dB (x.surface f + x.volume p) = XR.fin l) : Approach r l := by
  have e : r = fun n => (xs n).inUnits c.sig0 c.dB ((xs n).surface (fs n) + (xs n).volume (ps n)) := funext fun n =>
    (h n).total_val hq (hS n) (hV n) ⟨(hx n).1.ne', (hx n).2.1.ne', (add_pos (hx n).1 (hx n).2.1).ne', fun hc => (hI hc).2 n⟩ (hx n).2.2
  rw [e]
  exact ht.approach (fun hc => (hI hc).1) ((ht.surface h0.ne' h1.ne' hf).add (ht.volume h0.ne' h1.ne' (add_pos h0 h1).ne' hp)) hl

variable {V S : Scatter} {Ps Fs : ℕ → Bidir} {P F : Bidir}

/-- Values of the interaction contribution along a sequence of sites, in every geometry mode. -/
theorem int_course (hV : Settles xs x V Ps P) (hS : Settles xs x S Fs F) {q s d : Bool} {md : Mode} (ht : Site.Tends xs x)
    (hx : ∀ n, (xs n).Oblique) (h0 : 0 < x.mu0) (h1 : 0 < x.muEx) (hI : s = true → ∀ n, (xs n).I0 ≠ 0)
    {r : ℕ → XR} (h : ∀ n, ObservesAny ⟨V, S, q, s, d⟩ md (xs n) (r n)) :
    ∃ g u, GeomAt md g x ∧ Tendsto u atTop (𝓝 (geomInteraction V S g x)) ∧ r = fun n => (xs n).inUnits s d (u n) := by
  obtain ⟨nV, e1⟩ := hV.simple.ncoefs
  obtain ⟨nS, e2⟩ := hS.simple.ncoefs
  choose gs hgs hr using fun n => (h n).geom e1 e2 (hx n) fun hs => hI hs n
  obtain ⟨g, hg⟩ := GeomAt.limit hgs ht
  exact ⟨g, _, hg, geomInteraction_tendsto hV.smooth hS.smooth hgs hg ht (fun n => ⟨(hx n).mu0, (hx n).muEx, (hx n).tau.le⟩) h0 h1,
    funext hr⟩

/-- The same for the first row of `calc()`. -/
theorem total_course (hV : Settles xs x V Ps P) (hS : Settles xs x S Fs F) {s d : Bool} {md : Mode} (ht : Site.Tends xs x)
    (hx : ∀ n, (xs n).Oblique) (h0 : 0 < x.mu0) (h1 : 0 < x.muEx) (hI : s = true → ∀ n, (xs n).I0 ≠ 0)
    {r : ℕ → XR} (h : ∀ n, ObservesRowP 0 ⟨V, S, true, s, d⟩ md (xs n) (r n)) :
    ∃ g u, GeomAt md g x ∧ Tendsto u atTop (𝓝 (x.surface (F x.t0 x.tex x.p0 x.pex) + x.volume (P x.t0 x.tex x.p0 x.pex) +
      geomInteraction V S g x)) ∧ r = fun n => (xs n).inUnits s d (u n) := by
  obtain ⟨nV, e1⟩ := hV.simple.ncoefs
  obtain ⟨nS, e2⟩ := hS.simple.ncoefs
  choose gs hgs hr using fun n => (h n).total_val rfl (hS.valuesAt n) (hV.valuesAt n) e1 e2 (hx n) fun hs => hI hs n
  obtain ⟨g, hg⟩ := GeomAt.limit hgs ht
  exact ⟨g, _, hg, ((ht.surface h0.ne' h1.ne' (hS.dirs ht.t0 ht.tex ht.p0 ht.pex)).add
    (ht.volume h0.ne' h1.ne' (add_pos h0 h1).ne' (hV.dirs ht.t0 ht.tex ht.p0 ht.pex))).add
    (geomInteraction_tendsto hV.smooth hS.smooth hgs hg ht (fun n => ⟨(hx n).mu0, (hx n).muEx, (hx n).tau.le⟩) h0 h1), funext hr⟩

/-- The values returned by `interaction()` and in the fourth row of `calc()` converge to the value
returned at the limit, in every geometry mode and in all units. -/
theorem C80_interaction (hV : Settles xs x V Ps P) (hS : Settles xs x S Fs F) {q q' s d : Bool} {md : Mode} (ht : Site.Tends xs x)
    (hx : ∀ n, (xs n).Oblique) (hx' : x.Oblique) (hI : s = true → x.I0 ≠ 0 ∧ ∀ n, (xs n).I0 ≠ 0)
    {r : ℕ → XR} (h : ∀ n, ObservesAny ⟨V, S, q, s, d⟩ md (xs n) (r n)) {l : ℝ} (h' : ObservesAny ⟨V, S, q', s, d⟩ md x (XR.fin l)) :
    Approach r l := by
  obtain ⟨g, u, hg, hu, rfl⟩ := int_course hV hS ht hx hx'.mu0 hx'.muEx (fun hs => (hI hs).2) h
  obtain ⟨nV, e1⟩ := hV.simple.ncoefs
  obtain ⟨nS, e2⟩ := hS.simple.ncoefs
  obtain ⟨g', hg', hl⟩ := h'.geom e1 e2 hx' fun hs => (hI hs).1
  rw [hg'.unique hg] at hl
  exact ht.approach (fun hs => (hI hs).1) hu hl.symm

/-- The same for the first row of `calc()`. -/
theorem C80_total (hV : Settles xs x V Ps P) (hS : Settles xs x S Fs F) {s d : Bool} {md : Mode} (ht : Site.Tends xs x)
    (hx : ∀ n, (xs n).Oblique) (hx' : x.Oblique) (hI : s = true → x.I0 ≠ 0 ∧ ∀ n, (xs n).I0 ≠ 0)
    {r : ℕ → XR} (h : ∀ n, ObservesRowP 0 ⟨V, S, true, s, d⟩ md (xs n) (r n)) {l : ℝ}
    (h' : ObservesRowP 0 ⟨V, S, true, s, d⟩ md x (XR.fin l)) : Approach r l := by
  obtain ⟨g, u, hg, hu, rfl⟩ := total_course hV hS ht hx hx'.mu0 hx'.muEx (fun hs => (hI hs).2) h
  obtain ⟨nV, e1⟩ := hV.simple.ncoefs
  obtain ⟨nS, e2⟩ := hS.simple.ncoefs
  obtain ⟨g', hg', hl⟩ := h'.total_val rfl hS.valueAt hV.valueAt e1 e2 hx' fun hs => (hI hs).1
  rw [hg'.unique hg] at hl
  exact ht.approach (fun hs => (hI hs).1) hu hl.symm

/-- Monostatic, directions that approach nadir (where `interaction()` returns nan): the values converge to
the documented contribution at nadir. -/
theorem C80_nadir (hV : Settles xs x V Ps P) (hS : Settles xs x S Fs F) {q s d : Bool} {md : Mode} (hm : md.mono = true)
    (ht : Site.Tends xs x) (hx : ∀ n, (xs n).Oblique) (h0 : 0 < x.mu0) (hI : s = true → x.I0 ≠ 0 ∧ ∀ n, (xs n).I0 ≠ 0)
    {r : ℕ → XR} (h : ∀ n, ObservesAny ⟨V, S, q, s, d⟩ md (xs n) (r n)) {l : ℝ}
    (hl : x.inUnits s d (x.NormBRDF * (1 - x.bsf) * x.I0 * Real.cos x.t0 * x.omega
      * (Real.exp (-x.tau / Real.cos x.tex) * x.Fint V S + Real.exp (-x.tau / Real.cos x.t0) * x.swap.Fint V S)) = XR.fin l) :
    Approach r l := by
  have h1 : 0 < x.muEx := by
    obtain ⟨nV, e1⟩ := hV.simple.ncoefs
    obtain ⟨nS, e2⟩ := hS.simple.ncoefs
    choose gs hgs hr using fun n => (h n).geom e1 e2 (hx n) fun hs => (hI hs).2 n
    obtain ⟨g, hg⟩ := GeomAt.limit hgs ht
    have := (hg.mono hm).1
    unfold Site.muEx Site.mu0 at *
    rwa [this]
  obtain ⟨g, u, hg, hu, rfl⟩ := int_course hV hS ht hx h0 h1 (fun hs => (hI hs).2) h
  rw [geomInteraction_mono hg hm] at hu
  exact ht.approach (fun hs => (hI hs).1) hu hl

theorem geomInteraction_bare {V S : Scatter} {g : Geom4} (h : x.tau = 0) : geomInteraction V S g x = 0 := by
  have e : ∀ μ ρ, geomFint V S g μ 0 ρ = 0 := fun μ ρ => by
    unfold geomFint hemi
    simp
  unfold geomInteraction
  rw [h, e, e]
  simp

theorem surface_bare (h : x.tau = 0) (f : ℝ) : x.surface f = x.bare f := by
  unfold Site.surface Site.bare
  rw [h, zero_div, zero_div, neg_zero, sub_zero, Real.exp_zero]
  ring

theorem volume_bare (h : x.tau = 0) (p : ℝ) : x.volume p = 0 := by
  unfold Site.volume
  rw [h]
  simp

/-- As the canopy vanishes, the total converges to the signal of the bare soil, in every geometry mode
and in all units. -/
theorem C80_bare (hV : Settles xs x V Ps P) (hS : Settles xs x S Fs F) {s d : Bool} {md : Mode} (ht : Site.Tends xs x)
    (hτ : x.tau = 0) (hx : ∀ n, (xs n).Oblique) (h0 : 0 < x.mu0) (h1 : 0 < x.muEx) (hI : s = true → x.I0 ≠ 0 ∧ ∀ n, (xs n).I0 ≠ 0)
    {r : ℕ → XR} (h : ∀ n, ObservesRowP 0 ⟨V, S, true, s, d⟩ md (xs n) (r n)) {l : ℝ}
    (hl : x.inUnits s d (x.bare (F x.t0 x.tex x.p0 x.pex)) = XR.fin l) : Approach r l := by
  obtain ⟨g, u, hg, hu, rfl⟩ := total_course hV hS ht hx h0 h1 (fun hs => (hI hs).2) h
  rw [geomInteraction_bare hτ, volume_bare hτ, surface_bare hτ, add_zero, add_zero] at hu
  exact ht.approach (fun hs => (hI hs).1) hu hl

/-- The values `calc()` returns without canopy, where `interaction()` returns nan and `calc()` replaces it
by zero, are the limits of those it returns for thin canopies: there is no jump at tau = 0. -/
theorem C80_no_jump {T : List ℕ} {idx : List ℕ} {site : List ℕ → Site} (hV : Settles xs (site idx) V Ps P)
    (hS : Settles xs (site idx) S Fs F) {s d : Bool} {md md' : Mode} (ht : Site.Tends xs (site idx)) (hx : ∀ n, (xs n).Oblique)
    (hI : s = true → (site idx).I0 ≠ 0 ∧ ∀ n, (xs n).I0 ≠ 0)
    {r : ℕ → XR} (h : ∀ n, ObservesRowP 0 ⟨V, S, true, s, d⟩ md (xs n) (r n)) {arr : Arr} (h' : CalcP ⟨V, S, true, s, d⟩ md' arr T site)
    (hT : ∀ i, Arr.Valid T i → 0 < (site i).mu0 ∧ (site i).mu0 < 1 ∧ 0 < (site i).muEx ∧ (site i).muEx < 1 ∧ 0 ≤ (site i).tau)
    (hv : Arr.Valid T idx) (hτ : (site idx).tau = 0) {l : ℝ} (hl : arr.get (idx ++ [0]) = XR.fin l) : Approach r l := by
  obtain ⟨nV, e1⟩ := hV.simple.ncoefs
  obtain ⟨nS, e2⟩ := hS.simple.ncoefs
  have := h'.total rfl (idx := idx) hS.valueAt hV.valueAt e1 e2 hT hv hτ fun hs => (hI hs).1
  rw [surface_bare hτ, volume_bare hτ, add_zero, hl] at this
  exact C80_bare hV hS ht hτ hx (hT idx hv).1 (hT idx hv).2.2.1 hI h this.symm

end

/-! ### thin canopies -/

theorem Site.total_veil {x : Site} (h0 : 0 < x.mu0) (h1 : 0 < x.muEx) (ht : 0 ≤ x.tau) (f p : ℝ) {u K : ℝ} (hK : 0 ≤ K)
    (hu : |u| ≤ x.coupling * K) : |x.surface f + x.volume p + u - x.bare f| ≤ x.veil f p K := by
  set E := x.tau / x.mu0 + x.tau / x.muEx with hE
  have hE0 : 0 ≤ E := add_nonneg (div_nonneg ht h0.le) (div_nonneg ht h1.le)
  have hs := add_pos h0 h1
  have ex : ∀ z : ℝ, 0 ≤ z → 1 - Real.exp (-z) ≤ z ∧ 0 ≤ 1 - Real.exp (-z) := fun z hz =>
    ⟨by have := Real.add_one_le_exp (-z); linarith, by have := Real.exp_le_one_iff.mpr (neg_nonpos.mpr hz); linarith⟩
  have e1 : x.surface f + x.volume p - x.bare f =
      (1 - x.bsf) * x.I0 * x.mu0 * (x.omega / (x.mu0 + x.muEx) * p - x.NormBRDF * f) * (1 - Real.exp (-E)) := by
    unfold Site.surface Site.volume Site.bare
    rw [← Real.exp_add, hE, show -(x.tau / x.mu0 + x.tau / x.muEx) = -(x.tau / x.mu0) - x.tau / x.muEx by ring,
      show -(x.tau / x.mu0) + -(x.tau / x.muEx) = -(x.tau / x.mu0) - x.tau / x.muEx by ring]
    ring
  have b1 : |x.surface f + x.volume p - x.bare f| ≤
      |(1 - x.bsf) * x.I0| * x.mu0 * (|x.NormBRDF * f| + |x.omega * p| / (x.mu0 + x.muEx)) * E := by
    rw [e1, abs_mul _ (1 - Real.exp _), abs_of_nonneg (ex E hE0).2, abs_mul _ (x.omega / _ * p - _), abs_mul _ x.mu0, abs_of_pos h0]
    refine mul_le_mul (mul_le_mul_of_nonneg_left ?_ (mul_nonneg (abs_nonneg _) h0.le)) (ex E hE0).1 (ex E hE0).2 (by positivity)
    refine (abs_sub _ _).trans ?_
    rw [add_comm]
    refine add_le_add le_rfl (le_of_eq ?_)
    rw [div_mul_eq_mul_div, abs_div, abs_of_pos hs]
  have b2 : x.coupling * K ≤ |(1 - x.bsf) * x.I0| * x.mu0 * (|x.NormBRDF * x.omega| * (2 * Real.pi) * K) * E := by
    have hc : x.coupling ≤ |(1 - x.bsf) * x.I0| * x.mu0 * (|x.NormBRDF * x.omega| * (2 * Real.pi)) * E := by
      have hw : Real.exp (-x.tau / x.muEx) * (1 - Real.exp (-x.tau / x.mu0)) + Real.exp (-x.tau / x.mu0) * (1 - Real.exp (-x.tau / x.muEx)) ≤ E := by
        have a := ex _ (div_nonneg ht h0.le)
        have b := ex _ (div_nonneg ht h1.le)
        rw [neg_div, neg_div, hE]
        have m1 := mul_le_mul_of_nonneg_right (show Real.exp (-(x.tau / x.muEx)) ≤ 1 by linarith [b.2]) a.2
        have m2 := mul_le_mul_of_nonneg_right (show Real.exp (-(x.tau / x.mu0)) ≤ 1 by linarith [a.2]) b.2
        linarith [a.1, b.1]
      unfold Site.coupling
      rw [show x.NormBRDF * (1 - x.bsf) * x.I0 * x.omega = ((1 - x.bsf) * x.I0) * (x.NormBRDF * x.omega) by ring, abs_mul]
      calc |(1 - x.bsf) * x.I0| * |x.NormBRDF * x.omega| * x.mu0 * (2 * Real.pi) * _
          ≤ |(1 - x.bsf) * x.I0| * |x.NormBRDF * x.omega| * x.mu0 * (2 * Real.pi) * E :=
            mul_le_mul_of_nonneg_left hw (by have := Real.pi_pos; positivity)
        _ = _ := by ring
    calc x.coupling * K ≤ _ := mul_le_mul_of_nonneg_right hc hK
      _ = _ := by ring
  rw [show x.surface f + x.volume p + u - x.bare f = (x.surface f + x.volume p - x.bare f) + u by ring]
  refine (abs_add_le _ _).trans ((add_le_add b1 (hu.trans b2)).trans (le_of_eq ?_))
  unfold Site.veil
  ring

section
variable {x : Site} {V S : Scatter} {P F : Bidir} {N M : ℕ} {eV MV eS MS : ℝ}

/-- The total differs from the signal of the bare soil at most by a multiple of the slant optical depth,
in every geometry mode (linear units). -/
theorem C80_thin (hV : Truncated x N V P eV MV) (hS : Truncated x M S F eS MS) {s : Bool} {md : Mode} (hx : x.Oblique)
    (hI : s = true → x.I0 ≠ 0) {r : XR} (h : ObservesRowP 0 ⟨V, S, true, s, false⟩ md x r) :
    ∃ v, r = XR.fin v ∧ |v - x.bare (F x.t0 x.tex x.p0 x.pex) * x.unit s| ≤
      x.veil (F x.t0 x.tex x.p0 x.pex) (P x.t0 x.tex x.p0 x.pex) ((MV + eV) * (MS + eS)) * |x.unit s| := by
  obtain ⟨g, hg, rfl⟩ := total_geom hV hS hx hI h
  have n1 := hV.near.nonneg
  have n2 := hS.near.nonneg
  refine ⟨_, inUnits_linear _ _ _, close_unit (Site.total_veil hx.mu0 hx.muEx hx.tau.le _ _
    (mul_nonneg (add_nonneg n1.2 n1.1) (add_nonneg n2.2 n2.1)) ?_)⟩
  exact geomInteraction_abs_le (fun y hy => hV.near.exp_le hy) (fun y hy => hS.near.exp_le hy) hV.near.contE hS.near.contE hx g

/-- The same without interaction term, for any scattering functions and also without canopy. -/
theorem C80_thin_first_order {c : Cfg} (hd : c.dB = false) (hq : c.intQ = false) {f p : ℝ} (hf : c.SRF.ValueAt x f) (hp : c.V.ValueAt x p)
    (h0 : 0 < x.mu0) (h1 : 0 < x.muEx) (hI : c.sig0 = true → x.I0 ≠ 0) (ht : 0 ≤ x.tau) {r : XR} (h : ObservesRow 0 c x r) :
    ∃ v, r = XR.fin v ∧ |v - x.bare f * x.unit c.sig0| ≤ x.veil f p 0 * |x.unit c.sig0| := by
  refine ⟨(x.surface f + x.volume p) * x.unit c.sig0, (h.total_val hq hf hp ⟨h0.ne', h1.ne', (add_pos h0 h1).ne', hI⟩ ht).trans ?_, ?_⟩
  · rw [hd, inUnits_linear]
  · have := close_unit (x := x) (s := c.sig0) (Site.total_veil h0 h1 ht f p (u := 0) (K := 0) le_rfl (by simp))
    rwa [add_zero] at this

/-- Without interaction term the signal lies between that of the bare soil and that of a canopy without
end: it is their mean, weighted with the transmission along the two paths. -/
theorem C80_between {c : Cfg} (hd : c.dB = false) (hq : c.intQ = false) {f p : ℝ} (hf : c.SRF.ValueAt x f) (hp : c.V.ValueAt x p)
    (h0 : 0 < x.mu0) (h1 : 0 < x.muEx) (hI : c.sig0 = true → x.I0 ≠ 0) (ht : 0 ≤ x.tau) {r : XR} (h : ObservesRow 0 c x r) :
    ∃ w, 0 < w ∧ w ≤ 1 ∧ r = XR.fin ((w * x.bare f + (1 - w) * x.thick f p) * x.unit c.sig0) := by
  refine ⟨Real.exp (-(x.tau / x.mu0) - x.tau / x.muEx), Real.exp_pos _, Real.exp_le_one_iff.mpr ?_,
    (h.total_val hq hf hp ⟨h0.ne', h1.ne', (add_pos h0 h1).ne', hI⟩ ht).trans ?_⟩
  · have a := div_nonneg ht h0.le
    have b := div_nonneg ht h1.le
    linarith
  · rw [hd, inUnits_linear]
    congr 2
    unfold Site.surface Site.volume Site.bare Site.thick
    rw [← Real.exp_add, ← sub_eq_add_neg]
    ring

end

/-! ### examples -/

/-- `1/(n+1)`. -/
def inv (n : ℕ) : ℝ := 1 / ((n : ℝ) + 1)

theorem inv_tendsto : Tendsto inv atTop (𝓝 0) := tendsto_one_div_add_atTop_nhds_zero_nat

theorem inv_pos (n : ℕ) : 0 < inv n := by unfold inv; positivity

theorem inv_le (n : ℕ) : inv n ≤ 1 := by
  unfold inv
  rw [div_le_one (by positivity)]
  linarith [Nat.cast_nonneg (α := ℝ) n]

/-- Monostatic site with incidence angle `e`, optical depth `τ` and the value `t` of the parameter t. -/
def driftSite (e τ t : ℝ) : Site :=
  { witSite e e 0 Real.pi with
    tau := τ
    ρ := fun k => if k = "tau" then τ else if k = "t" then t else (witSite e e 0 Real.pi).ρ k }

theorem driftSite_reports (e τ t : ℝ) : (driftSite e τ t).Reports [("t", t)] := by
  refine ⟨?_, ?_, ?_, ?_, ?_⟩ <;> simp [driftSite, witSite]

theorem driftSite_oblique {e τ : ℝ} (t : ℝ) (h0 : 0 < e) (h1 : e ≤ 1) (hτ : 0 < τ) : (driftSite e τ t).Oblique := by
  have hc : 0 < Real.cos e := Real.cos_pos_of_le_one (abs_le.2 ⟨by linarith, h1⟩)
  have hc' : Real.cos e < 1 := by
    have := Real.cos_lt_cos_of_nonneg_of_le_pi le_rfl (by linarith [Real.two_le_pi]) h0
    rwa [Real.cos_zero] at this
  exact ⟨hc, hc', hc, hc', hτ⟩

/-- Henyey-Greenstein phase function with the parameter t as symbol. -/
def symV : Scatter := .prim (.volHG (.sym "t")) volA (some 8)

theorem symV_admissible {e τ t : ℝ} (ht : |t| < 1) : Kind.Admissible (.volHG (.sym "t")) volA (driftSite e τ t) (-1) 1 1 t :=
  ⟨fun _ _ => ⟨Expr.Is.num _, Expr.Is.num _, Expr.Is.num _⟩, by simp, by simp, by simp,
    fun y hy => ⟨trivial, by
      show y.env "t" = t
      simp [Site.env, hy, driftSite]⟩, ht, fun h => h.elim, by simp⟩

theorem symV_settles {es τs ts : ℕ → ℝ} {e τ t : ℝ} (ht : Tendsto ts atTop (𝓝 t)) (h : |t| < 1) (hs : ∀ n, |ts n| < 1) :
    Settles (fun n => driftSite (es n) (τs n) (ts n)) (driftSite e τ t) symV
      (fun n => Kind.dirs (.volHG (.sym "t")) (-1) 1 1 (ts n)) (Kind.dirs (.volHG (.sym "t")) (-1) 1 1 t) :=
  .prim (k := .volHG (.sym "t")) (N := 7) (fun n => symV_admissible (hs n)) (symV_admissible h) tendsto_const_nhds tendsto_const_nhds
    tendsto_const_nhds ht

theorem isoS_settles (xs : ℕ → Site) (x : Site) : Settles xs x isoS (fun _ => Kind.dirs .srfIsotropic 1 1 1 0) (Kind.dirs .srfIsotropic 1 1 1 0) := by
  have h : ∀ y : Site, Kind.Admissible .srfIsotropic srfA y 1 1 1 0 := fun y =>
    ⟨fun _ _ => ⟨Expr.Is.num _, Expr.Is.num _, Expr.Is.num _⟩, by simp, by simp, by simp, fun _ _ => trivial, by simp,
      fun h => h.elim, by simp⟩
  exact .prim (k := .srfIsotropic) (N := 1) (fun n => h _) (h x) tendsto_const_nhds tendsto_const_nhds tendsto_const_nhds tendsto_const_nhds

theorem driftSite_tends {es τs ts : ℕ → ℝ} {e τ t : ℝ} (he : Tendsto es atTop (𝓝 e)) (hτ : Tendsto τs atTop (𝓝 τ)) :
    Site.Tends (fun n => driftSite (es n) (τs n) (ts n)) (driftSite e τ t) :=
  ⟨he, he, tendsto_const_nhds, tendsto_const_nhds, tendsto_const_nhds, hτ, tendsto_const_nhds, tendsto_const_nhds, tendsto_const_nhds⟩

theorem symV_phase : ∀ s ∈ symV.phase.free, s ∈ ["theta_0", "theta_ex", "phi_0", "phi_ex"] ++ [("t", (0 : ℝ))].map Prod.fst := by
  intro k hk
  simp [symV, Scatter.phase, Scatter.primPhase, Scatter.angleExpr, Scatter.hgExpr, volA, Expr.free] at hk
  simp
  tauto

theorem drift_observed {e τ t : ℝ} (ht : |t| < 1) (s d : Bool) :
    ∃ r, ObservesAny ⟨symV, isoS, true, s, d⟩ ⟨true, []⟩ (driftSite e τ t) r := by
  have h1 := symV_settles (es := fun _ => e) (τs := fun _ => τ) (e := e) (τ := τ) (tendsto_const_nhds (x := t) (f := atTop)) ht fun _ => ht
  have h2 := isoS_settles (fun _ => driftSite e τ t) (driftSite e τ t)
  obtain ⟨r, F, -, hF, -, h⟩ := scalar_interaction .sympy s d (mono := true) (fun _ => false) (fun _ => ⟨rfl, by simp [driftSite, witSite]⟩)
    (driftSite_reports e τ t) symV_phase (fun k hk => List.mem_append_left _ (isoS_plain k hk))
    (Scatter.Simple.fnCoefs h1.simple h2.simple) h1.simple.ncoefs h2.simple.ncoefs
  rw [hF fun _ => rfl] at h
  exact ⟨r, .inl h⟩

theorem quarter_lt (n : ℕ) : |(1/4 : ℝ) + inv n / 4| < 1 := by
  have h1 := inv_pos n
  have h2 := inv_le n
  rw [abs_of_pos (by linarith)]
  linarith

theorem half_tendsto (c : ℝ) : Tendsto (fun n => c + inv n / 4) atTop (𝓝 c) := by
  simpa using (inv_tendsto.div_const 4).const_add c

/-- Incidence angle, optical depth and the parameter t change. -/
example : ∃ (r : ℕ → XR) (l : ℝ), (∀ n, ObservesAny ⟨symV, isoS, true, true, false⟩ ⟨true, []⟩
      (driftSite (1/2 + inv n / 4) (1 + inv n / 4) (1/4 + inv n / 4)) (r n)) ∧
    ObservesAny ⟨symV, isoS, true, true, false⟩ ⟨true, []⟩ (driftSite (1/2) 1 (1/4)) (XR.fin l) ∧ Approach r l := by
  have hq : |(1/4 : ℝ)| < 1 := by rw [abs_of_pos] <;> norm_num
  have hV := symV_settles (es := fun n => 1/2 + inv n / 4) (τs := fun n => 1 + inv n / 4) (e := 1/2) (τ := 1) (half_tendsto (1/4)) hq quarter_lt
  have hS := isoS_settles (fun n => driftSite (1/2 + inv n / 4) (1 + inv n / 4) (1/4 + inv n / 4)) (driftSite (1/2) 1 (1/4))
  choose r hr using fun n => drift_observed (e := 1/2 + inv n / 4) (τ := 1 + inv n / 4) (quarter_lt n) true false
  obtain ⟨r', hr'⟩ := drift_observed (e := 1/2) (τ := 1) hq true false
  have hx := driftSite_oblique (e := 1/2) (τ := 1) (1/4) (by norm_num) (by norm_num) one_pos
  have hx' : ∀ n, (driftSite (1/2 + inv n / 4) (1 + inv n / 4) (1/4 + inv n / 4)).Oblique := fun n => by
    have h1 := inv_pos n
    have h2 := inv_le n
    exact driftSite_oblique _ (by linarith) (by linarith) (by linarith)
  obtain ⟨nV, e1⟩ := hV.simple.ncoefs
  obtain ⟨nS, e2⟩ := hS.simple.ncoefs
  obtain ⟨g, -, rfl⟩ := hr'.geom e1 e2 hx (by simp [driftSite, witSite])
  rw [inUnits_linear] at hr'
  exact ⟨r, _, hr, hr', C80_interaction hV hS (driftSite_tends (half_tendsto _) (half_tendsto _)) hx' hx
    (fun _ => ⟨by simp [driftSite, witSite], by simp [driftSite, witSite]⟩) hr hr'⟩

/-- Incidence angles that approach nadir. -/
example : ∃ (r : ℕ → XR) (l : ℝ), (∀ n, ObservesAny ⟨symV, isoS, true, true, false⟩ ⟨true, []⟩ (driftSite (inv n) 1 (1/4)) (r n)) ∧
    Approach r l ∧ (∀ r', ObservesP ⟨symV, isoS, true, true, false⟩ ⟨true, []⟩ (driftSite 0 1 (1/4)) r' → r' = XR.nan) := by
  have hq : |(1/4 : ℝ)| < 1 := by rw [abs_of_pos] <;> norm_num
  have hV := symV_settles (es := inv) (τs := fun _ => 1) (e := 0) (τ := 1) (tendsto_const_nhds (x := (1/4 : ℝ)) (f := atTop)) hq fun _ => hq
  have hS := isoS_settles (fun n => driftSite (inv n) 1 (1/4)) (driftSite 0 1 (1/4))
  choose r hr using fun n => drift_observed (e := inv n) (τ := 1) hq true false
  have h0 : 0 < (driftSite 0 1 (1/4)).mu0 := by simp [driftSite, witSite, Site.mu0]
  obtain ⟨nV, e1⟩ := hV.simple.ncoefs
  obtain ⟨nS, e2⟩ := hS.simple.ncoefs
  refine ⟨r, _, hr, C80_nadir hV hS rfl (driftSite_tends inv_tendsto tendsto_const_nhds)
    (fun n => driftSite_oblique _ (inv_pos n) (inv_le n) one_pos) h0 (fun _ => ⟨by simp [driftSite, witSite], by simp [driftSite, witSite]⟩) hr
    (inUnits_linear _ _ _), fun r' h => ?_⟩
  exact C38_nadir_nan h e1 e2 h0 (by simp [driftSite, witSite, Site.muEx]) (by simp [driftSite]) (.inl (by simp [driftSite, witSite, Site.mu0]))

theorem hgV_settles {t : ℝ} (ht : |t| < 1) (xs : ℕ → Site) (x : Site) :
    Settles xs x (hgV t) (fun _ => Kind.dirs (.volHG (.num t)) (-1) 1 1 t) (Kind.dirs (.volHG (.num t)) (-1) 1 1 t) :=
  .prim (k := .volHG (.num t)) (N := 1) (fun _ => ⟨fun _ _ => ⟨Expr.Is.num _, Expr.Is.num _, Expr.Is.num _⟩, by simp, by simp, by simp,
    fun _ _ => Expr.Is.num _, ht, fun h => h.elim, by simp⟩) ⟨fun _ _ => ⟨Expr.Is.num _, Expr.Is.num _, Expr.Is.num _⟩, by simp, by simp, by simp,
    fun _ _ => Expr.Is.num _, ht, fun h => h.elim, by simp⟩ tendsto_const_nhds tendsto_const_nhds tendsto_const_nhds tendsto_const_nhds

theorem hgS_settles {t : ℝ} (ht : |t| < 1) (xs : ℕ → Site) (x : Site) :
    Settles xs x (hgS t) (fun _ => Kind.dirs (.srfHG (.num t)) 1 1 1 t) (Kind.dirs (.srfHG (.num t)) 1 1 1 t) :=
  .prim (k := .srfHG (.num t)) (N := 1) (fun _ => ⟨fun _ _ => ⟨Expr.Is.num _, Expr.Is.num _, Expr.Is.num _⟩, by simp, by simp, by simp,
    fun _ _ => Expr.Is.num _, ht, fun h => h.elim, by simp⟩) ⟨fun _ _ => ⟨Expr.Is.num _, Expr.Is.num _, Expr.Is.num _⟩, by simp, by simp, by simp,
    fun _ _ => Expr.Is.num _, ht, fun h => h.elim, by simp⟩ tendsto_const_nhds tendsto_const_nhds tendsto_const_nhds tendsto_const_nhds

theorem tauSite_tends {τs : ℕ → ℝ} {τ : ℝ} (e : ℝ) (h : Tendsto τs atTop (𝓝 τ)) : Site.Tends (fun n => tauSite e (τs n)) (tauSite e τ) :=
  ⟨tendsto_const_nhds, tendsto_const_nhds, tendsto_const_nhds, tendsto_const_nhds, tendsto_const_nhds, h, tendsto_const_nhds,
    tendsto_const_nhds, tendsto_const_nhds⟩

theorem tau_row (τ : ℝ) (k : ℕ) (hk : k < 4) (s d : Bool) :
    ∃ r, ObservesRowP k ⟨hgV (1/4), hgS (1/3), true, s, d⟩ ⟨true, []⟩ (tauSite (Real.pi / 3) τ) r := by
  obtain ⟨arr, hsh, h⟩ := wit_calc .sympy (1/4) (1/3) s d 1 (fun _ => tauSite (Real.pi / 3) τ) fun _ _ => tauSite_ok _ _
  exact ⟨_, h.row (idx := [0]) (k := k) (by simp [Arr.Valid]) (by rw [hsh]; simpa [Arr.Valid] using hk)⟩

theorem tau_cos (τ : ℝ) : (tauSite (Real.pi / 3) τ).mu0 = 1 / 2 ∧ (tauSite (Real.pi / 3) τ).muEx = 1 / 2 := by
  simp [tauSite, witSite, Site.mu0, Site.muEx]

theorem tau_oblique {τ : ℝ} (h : 0 < τ) : (tauSite (Real.pi / 3) τ).Oblique := by
  obtain ⟨a, b⟩ := tau_cos τ
  exact ⟨by rw [a]; norm_num, by rw [a]; norm_num, by rw [b]; norm_num, by rw [b]; norm_num, h⟩

theorem tau_I0 (s : Bool) (τ : ℝ) : s = true → (tauSite (Real.pi / 3) τ).I0 ≠ 0 := by simp [tauSite, witSite]

/-- A canopy that vanishes, and the call with tau = 0. -/
example : ∃ (r : ℕ → XR) (l : ℝ), (∀ n, ObservesRowP 0 ⟨hgV (1/4), hgS (1/3), true, true, false⟩ ⟨true, []⟩ (tauSite (Real.pi / 3) (inv n)) (r n)) ∧
    (∃ arr, CalcP ⟨hgV (1/4), hgS (1/3), true, true, false⟩ ⟨true, []⟩ arr [1] (fun _ => tauSite (Real.pi / 3) 0) ∧
      arr.get [0, 0] = XR.fin l) ∧ Approach r l := by
  have h4 : |(1/4 : ℝ)| < 1 := by rw [abs_of_pos] <;> norm_num
  have h3 : |(1/3 : ℝ)| < 1 := by rw [abs_of_pos] <;> norm_num
  choose r hr using fun n => tau_row (inv n) 0 (by norm_num) true false
  obtain ⟨arr, hsh, h⟩ := wit_calc .sympy (1/4) (1/3) true false 1 (fun _ => tauSite (Real.pi / 3) 0) fun _ _ => tauSite_ok _ _
  obtain ⟨a, b⟩ := tau_cos 0
  have hT : ∀ i, Arr.Valid [1] i → 0 < (tauSite (Real.pi / 3) 0).mu0 ∧ (tauSite (Real.pi / 3) 0).mu0 < 1 ∧
      0 < (tauSite (Real.pi / 3) 0).muEx ∧ (tauSite (Real.pi / 3) 0).muEx < 1 ∧ 0 ≤ (tauSite (Real.pi / 3) 0).tau := fun i _ => by
    rw [a, b]
    exact ⟨by norm_num, by norm_num, by norm_num, by norm_num, by simp [tauSite]⟩
  have hv : Arr.Valid [1] [0] := by simp [Arr.Valid]
  have hV := hgV_settles h4 (fun n => tauSite (Real.pi / 3) (inv n)) (tauSite (Real.pi / 3) 0)
  have hS := hgS_settles h3 (fun n => tauSite (Real.pi / 3) (inv n)) (tauSite (Real.pi / 3) 0)
  have ht := h.total rfl (idx := [0]) hS.valueAt hV.valueAt (hgV_ncoefs _) (hgS_ncoefs _) hT hv (by simp [tauSite]) (tau_I0 _ _)
  rw [inUnits_linear] at ht
  exact ⟨r, _, hr, ⟨arr, h, ht⟩, C80_no_jump (site := fun _ => tauSite (Real.pi / 3) 0) (idx := [0]) hV hS
    (tauSite_tends _ inv_tendsto) (fun n => tau_oblique (inv_pos n)) (fun hs => ⟨tau_I0 _ _ hs, fun n => tau_I0 _ _ hs⟩) hr h hT hv
    (by simp [tauSite]) ht⟩

/-- The same limit without reference to the call. -/
example : ∃ (r : ℕ → XR) (l : ℝ), (∀ n, ObservesRowP 0 ⟨hgV (1/4), hgS (1/3), true, false, false⟩ ⟨true, []⟩ (tauSite (Real.pi / 3) (inv n)) (r n)) ∧
    Approach r l := by
  have h4 : |(1/4 : ℝ)| < 1 := by rw [abs_of_pos] <;> norm_num
  have h3 : |(1/3 : ℝ)| < 1 := by rw [abs_of_pos] <;> norm_num
  choose r hr using fun n => tau_row (inv n) 0 (by norm_num) false false
  obtain ⟨a, b⟩ := tau_cos 0
  exact ⟨r, _, hr, C80_bare (hgV_settles h4 _ _) (hgS_settles h3 _ _) (tauSite_tends _ inv_tendsto) (by simp [tauSite])
    (fun n => tau_oblique (inv_pos n)) (by rw [a]; norm_num) (by rw [b]; norm_num) (by simp) hr (inUnits_linear _ _ _)⟩

/-- All rows of `calc()` if the optical depth changes. -/
example : ∃ (r : ℕ → XR) (l : ℝ), (∀ n, ObservesRowP 0 ⟨hgV (1/4), hgS (1/3), true, true, false⟩ ⟨true, []⟩ (tauSite (Real.pi / 3) (1 + inv n / 4)) (r n)) ∧
    ObservesRowP 0 ⟨hgV (1/4), hgS (1/3), true, true, false⟩ ⟨true, []⟩ (tauSite (Real.pi / 3) 1) (XR.fin l) ∧ Approach r l := by
  have h4 : |(1/4 : ℝ)| < 1 := by rw [abs_of_pos] <;> norm_num
  have h3 : |(1/3 : ℝ)| < 1 := by rw [abs_of_pos] <;> norm_num
  choose r hr using fun n => tau_row (1 + inv n / 4) 0 (by norm_num) true false
  obtain ⟨r', hr'⟩ := tau_row 1 0 (by norm_num) true false
  have hV := hgV_settles h4 (fun n => tauSite (Real.pi / 3) (1 + inv n / 4)) (tauSite (Real.pi / 3) 1)
  have hS := hgS_settles h3 (fun n => tauSite (Real.pi / 3) (1 + inv n / 4)) (tauSite (Real.pi / 3) 1)
  obtain ⟨g, -, rfl⟩ := hr'.total_val rfl hS.valueAt hV.valueAt (hgV_ncoefs _) (hgS_ncoefs _) (tau_oblique one_pos) (tau_I0 _ _)
  rw [inUnits_linear] at hr'
  exact ⟨r, _, hr, hr', C80_total hV hS (tauSite_tends _ (half_tendsto _)) (fun n => tau_oblique (by linarith [inv_pos n])) (tau_oblique one_pos)
    (fun hs => ⟨tau_I0 _ _ hs, fun n => tau_I0 _ _ hs⟩) hr hr'⟩

example : ∃ (r r' : ℕ → XR) (l l' : ℝ), (∀ n, ObservesRow 1 ⟨hgV (1/4), hgS (1/3), true, true, false⟩ (tauSite (Real.pi / 3) (1 + inv n / 4)) (r n)) ∧
    (∀ n, ObservesRow 2 ⟨hgV (1/4), hgS (1/3), true, true, false⟩ (tauSite (Real.pi / 3) (1 + inv n / 4)) (r' n)) ∧
    Approach r l ∧ Approach r' l' := by
  have h4 : |(1/4 : ℝ)| < 1 := by rw [abs_of_pos] <;> norm_num
  have h3 : |(1/3 : ℝ)| < 1 := by rw [abs_of_pos] <;> norm_num
  choose r hr using fun n => tau_row (1 + inv n / 4) 1 (by norm_num) true false
  choose r' hr' using fun n => tau_row (1 + inv n / 4) 2 (by norm_num) true false
  have hV := hgV_settles h4 (fun n => tauSite (Real.pi / 3) (1 + inv n / 4)) (tauSite (Real.pi / 3) 1)
  have hS := hgS_settles h3 (fun n => tauSite (Real.pi / 3) (1 + inv n / 4)) (tauSite (Real.pi / 3) 1)
  have ht := tauSite_tends (Real.pi / 3) (half_tendsto 1)
  have ho := tau_oblique one_pos
  have hx : ∀ n, (tauSite (Real.pi / 3) (1 + inv n / 4)).Oblique := fun n => tau_oblique (by linarith [inv_pos n])
  exact ⟨r, r', _, _, fun n => (hr n).row, fun n => (hr' n).row,
    C80_surface ht (hS.dirs ht.t0 ht.tex ht.p0 ht.pex) hS.valuesAt ho.mu0 ho.muEx (fun n => ⟨(hx n).mu0, (hx n).muEx⟩)
      (fun hs => ⟨tau_I0 _ _ hs, fun n => tau_I0 _ _ hs⟩) (fun n => .inr (hr n).row) (inUnits_linear _ _ _),
    C80_volume ht (hV.dirs ht.t0 ht.tex ht.p0 ht.pex) hV.valuesAt ho.mu0 ho.muEx (fun n => ⟨(hx n).mu0, (hx n).muEx, (hx n).tau.le⟩)
      (fun hs => ⟨tau_I0 _ _ hs, fun n => tau_I0 _ _ hs⟩) (fun n => .inr (hr' n).row) (inUnits_linear _ _ _)⟩

example : ∃ (r : ℕ → XR) (l : ℝ), (∀ n, ObservesRow 0 ⟨hgV (1/4), hgS (1/3), false, true, false⟩ (tauSite (Real.pi / 3) (inv n)) (r n)) ∧
    Approach r l := by
  have h4 : |(1/4 : ℝ)| < 1 := by rw [abs_of_pos] <;> norm_num
  have h3 : |(1/3 : ℝ)| < 1 := by rw [abs_of_pos] <;> norm_num
  choose r hr using fun n => scalar_total .sympy false true false (tauSite_ok (Real.pi / 3) (inv n)).2.2 (hgV_plain (1/4)) (hgS_plain (1/3))
    (by simp) (by simp) (by simp)
  have hV := hgV_settles h4 (fun n => tauSite (Real.pi / 3) (inv n)) (tauSite (Real.pi / 3) 0)
  have hS := hgS_settles h3 (fun n => tauSite (Real.pi / 3) (inv n)) (tauSite (Real.pi / 3) 0)
  have ht := tauSite_tends (Real.pi / 3) inv_tendsto
  obtain ⟨a, b⟩ := tau_cos 0
  have hx : ∀ n, (tauSite (Real.pi / 3) (inv n)).Oblique := fun n => tau_oblique (inv_pos n)
  exact ⟨r, _, fun n => (hr n).row, C80_first_order rfl ht (hS.dirs ht.t0 ht.tex ht.p0 ht.pex) (hV.dirs ht.t0 ht.tex ht.p0 ht.pex) hS.valuesAt
    hV.valuesAt (by rw [a]; norm_num) (by rw [b]; norm_num) (fun n => ⟨(hx n).mu0, (hx n).muEx, (hx n).tau.le⟩)
    (fun hs => ⟨tau_I0 _ _ hs, fun n => tau_I0 _ _ hs⟩) (fun n => (hr n).row) (inUnits_linear _ _ _)⟩

example : ∃ r v, ObservesRowP 0 ⟨growV (1/4) 9, isoS, true, true, false⟩ ⟨false, []⟩ (thickSite 0) r ∧ r = XR.fin v := by
  have hV := hgV_trunc (t := 1/4) (by rw [abs_of_pos] <;> norm_num) (thickSite 0) (N := 9) (by norm_num)
  have hS := isoS_trunc (thickSite 0)
  obtain ⟨r, hr⟩ := trunc_total .sympy hV hS (growV_plain _ _) isoS_plain true false (thickSite_reports 0)
  have hw := wit_oblique 0 1
  obtain ⟨v, hv, -⟩ := C80_thin hV hS ⟨hw.mu0, hw.mu0', hw.muEx, hw.muEx', by simp [thickSite, Site.withTau]⟩
    (by simp [thickSite, Site.withTau, witSite]) hr
  exact ⟨r, v, hr, hv⟩

example : ∃ r v w, ObservesRow 0 ⟨growV (1/4) 9, isoS, false, true, false⟩ (thickSite 0) r ∧ r = XR.fin v ∧ 0 < w ∧ w ≤ 1 ∧
    v = (w * (thickSite 0).bare (1 / Real.pi) + (1 - w) * (thickSite 0).thick (1 / Real.pi)
      (Kind.dirs (.volHG (.num (1/4))) (-1) 1 1 (1/4) (Real.pi / 3) (Real.pi / 3) 0 1)) * (thickSite 0).unit true := by
  have hV := hgV_trunc (t := 1/4) (by rw [abs_of_pos] <;> norm_num) (thickSite 0) (N := 9) (by norm_num)
  have hS := isoS_trunc (thickSite 0)
  obtain ⟨r, hr⟩ := scalar_total .sympy false true false (thickSite_reports 0) (growV_plain (1/4) 9) isoS_plain (by simp) (by simp) (by simp)
  have hw := wit_oblique 0 1
  have ht : (0 : ℝ) ≤ (thickSite 0).tau := by simp [thickSite, Site.withTau]
  obtain ⟨v, hv, -⟩ := C80_thin_first_order (x := thickSite 0) rfl rfl hS.valueAt hV.valueAt hw.mu0 hw.muEx
    (by simp [thickSite, Site.withTau, witSite]) ht hr.row
  obtain ⟨w, h1, h2, h3⟩ := C80_between (x := thickSite 0) rfl rfl hS.valueAt hV.valueAt hw.mu0 hw.muEx
    (by simp [thickSite, Site.withTau, witSite]) ht hr.row
  rw [hv] at h3
  exact ⟨r, v, w, hr.row, hv, h1, h2, XR.fin.inj h3⟩

end

end RT1
