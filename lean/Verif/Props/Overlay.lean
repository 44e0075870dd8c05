import Verif.Props.Analyze
import Verif.Lemmas.AnalyzeY

/-!
# The range overlay and the state left by an analyzer (C66, C67)
-/

namespace RT1

noncomputable section
open Classical

/-! ## C66 -/

/-- **C66** (partial): line `j` of the overlay shows the values `calc()` returns with the range
parameter at the `j`-th of 20 equidistant values between the limits of its slider and all other
parameters at the values of their sliders.  Missing: the rows that contain the interaction term. -/
theorem C66_overlay_partial {P : Op → Prop} {id : ℕ} {w : World} {A : Analyzer} (h : Drawn P id w A)
    {key : String} (hr : A.range = some key) :
    ∃ o r, w.objs id = some o ∧ A.overlay = some r ∧
      ∀ j rj m l n n', (calcOp id (overlayValues A.sliders key j) w).1 = .ok rj →
        r.shape = [m, l, n] → rj.shape = [m, 1, n'] → ∀ i row, i < m → j < l →
        (row = 1 ∨ row = 2 ∨ row = 0 ∧ o.intQ = false) → r.get [i, j, row] = rj.get [i, 0, row] := by
  have hw' := h.session.reachable
  obtain ⟨w0, A0, o, o', res, contribs, sv, hw, hU⟩ := h.upd
  have hb := hw.keeps.any.bsfOK hU.before
  have hov := hU.over
  rw [hU.range] at hr
  rw [hr] at hov
  obtain ⟨-, r, hc, ho, hf⟩ := hov
  refine ⟨o', r, hU.after, ho, ?_⟩
  intro j rj m l n n' hj hs hs' i row hi hjl hrow
  set o1 := Fresh.update o (sliderVals A0.sliders) with ho1
  have hb1 : BsfOK o1 := hb.update _
  have hb2 : BsfOK (Fresh.update o1 (rangeVals A0.sliders key)) := hb1.update _
  have hp : o'.params = (Fresh.update o1 (rangeVals A0.sliders key)).params := hf.params
  have hp' : o'.params = o1.params.update ((rangeVals A0.sliders key).map fun p => (p.1, p.2.atleast1d)) := by
    rw [hp, Fresh.update_eq hb1.1]
  have hb' : "bsf" ∈ o'.params.keys := by rw [hp]; exact hb2.1
  rw [(calcOp_eq hw'.inv hU.after _).1, Fresh.update_eq hb'] at hj
  have hr' : Fresh.calcAll w.backend o' = .ok r := by
    rw [hU.backend, fresh_calc_filled hf, hc]
  have hag : AgreeAt o'.params (o'.params.update ((overlayValues A.sliders key j).map fun p => (p.1, p.2.atleast1d))) [i, j] := by
    rw [hp', hU.sliders]
    exact agree_overlay
  have hm1 : ∀ m : ℕ, i < m → (if m = 1 then 0 else i) < m := by intro m hm; split_ifs <;> omega
  have e : Arr.bidx [m, 1] [i, j] = [i, 0] := by
    simp only [Arr.bidx, List.cons.injEq, and_true]
    constructor
    · split_ifs <;> omega
    · simp
  have := hag.row (S := [m, l]) (S' := [m, 1]) hr' hj hs hs' (by
      refine .cons hi (.cons hjl .nil)) (by rw [e]; exact .cons hi (.cons (by omega) .nil)) (k := row) (by omega)
    (fun h0 => by rcases hrow with h | h | ⟨-, h⟩ <;> first | omega | exact h)
  rw [e] at this
  exact this

/-- **C66** (partial): the overlay can be drawn at creation, provided the definition of tau or bsf
uses one of the parameters with a slider.  Missing: sliders that only affect other parameters (false,
see below), models with interaction term. -/
theorem C66_works_partial {w : World} (hw : Reachable w) {id : ℕ} {o : Obj} (ho : w.objs id = some o)
    {ps : List (String × List SliderArg)} (hq : o.intQ = false)
    (hneeds : ∀ n, o.Needs n → n ∈ ps.map Prod.fst ∨ n ∈ o.params.keys)
    (hnum : ∀ p ∈ ps, ∃ a b rest, p.2 = .number a :: .number b :: rest ∧
      (rest = [] ∨ ∃ c r, rest = .number c :: r))
    (hI : Arr.Fits o.I0.shape [100, 1])
    (hpar : ∀ k x, o.params.get? k = some x → k ∉ ps.map Prod.fst ∨ ¬ o.Needs k → Arr.Fits x.shape [100, 1])
    (hdef : ∀ p, match o.pdef p with
      | .val x => Arr.Fits x.shape [100, 1]
      | .str e => ∀ s ∈ e.free, s ∉ ["theta_0", "theta_ex", "phi_0", "phi_ex"]
      | .basic e => e.free = [])
    {key : String} (hkey : o.Needs key) (hkey' : key ∈ ps.map Prod.fst)
    {p : PName} {e : Expr} {s : String} (hp : p = .tau ∨ p = .bsf) (he : o.pdef p = .str e) (hs : s ∈ e.free)
    (hs' : s ∈ ps.map Prod.fst) :
    ∃ A w' r, analyze id (some key) ps w = (.ok A, w') ∧ A.overlay = some r ∧ r.shape = [100, 20, 3] ∧
      ∀ j < 20, ∃ rj, (calcOp id (overlayValues A.sliders key j) w').1 = .ok rj ∧ rj.shape = [100, 1, 3] ∧
        ∀ i < 100, ∀ row < 3, r.get [i, j, row] = rj.get [i, 0, row] := by
  obtain ⟨sl, w3, o3, r3, ho3, -, hst, -, ht, -, hc, hn, -, heq⟩ := analyze_ready hw ho hneeds hnum hI hpar hdef
  have hq2 : o3.intQ = false := (intQ_still hst).trans hq
  have hkm := (hn key).mpr ⟨hkey', hkey⟩
  have hsm : s ∈ sl.map Prod.fst := by
    refine (hn s).mpr ⟨hs', Or.inl ⟨p, e, he, hs⟩, ?_⟩
    have := hdef p
    rw [he] at this
    exact this s hs
  obtain ⟨res, hres, -⟩ := hc.calcAll_three w3.backend (a := analyzeT0) ht rfl hq2
  have hb := (r3.keeps.any.bsfOK ho3).update (sliderVals sl)
  obtain ⟨r, hr, hr'⟩ := overlay_succ (k := key) w3.backend hc hb.1 ht hq2 hp
    (show (Fresh.update o3 (sliderVals sl)).pdef p = .str e by
      rw [← he, ← pdef_still hst]; rfl) hs hsm
  obtain ⟨A, w', hA⟩ := update_succ r3 ho3 (A := ⟨sl, some key, none, none⟩) (res := res) hres
    (fun h => by rw [hq2] at h; cases h) (fun k hk => by cases hk; exact ⟨hkm, r, hr⟩)
  obtain ⟨_, o', _, _, _, hU⟩ := update_ok r3 hA
  have hov := hU.over
  have e0 := hU.before
  rw [ho3] at e0
  cases e0
  obtain ⟨-, r', hr2, hr3, -⟩ := hov
  rw [hr] at hr2
  cases hr2
  have hA' : analyze id (some key) ps w = (.ok A, w') := by rw [heq key hkm]; exact hA
  refine ⟨A, w', r, hA', hr3, hr', fun j hj => ?_⟩
  have hD : Drawn (fun _ => True) id w' A := .start hw hA'
  have hw' := hD.session.reachable
  have hR := AnaReady.updated r3 hU (AnaReady.of (sl := sl) (r3.keeps.any.bsfOK ho3) ht hq2 hc)
  have hcj := hR.complete (A.sliders.map fun p => (p.1, { p.2 with
    val := if p.1 = key then p.2.lo + (p.2.hi - p.2.lo) * j / 19 else p.2.val })) (by
      rw [List.map_map]; rfl)
  have hov : sliderVals (A.sliders.map fun p => (p.1, { p.2 with
      val := if p.1 = key then p.2.lo + (p.2.hi - p.2.lo) * j / 19 else p.2.val })) =
      overlayValues A.sliders key j := by
    simp only [sliderVals, overlayValues, List.map_map]
    rfl
  rw [hov] at hcj
  obtain ⟨rj, h1, h2⟩ := hcj.calcAll_three w'.backend (a := analyzeT0) hR.t0 rfl hR.intQ
  have h1' : (calcOp id (overlayValues A.sliders key j) w').1 = .ok rj := by
    rw [(calcOp_eq hw'.inv hU.after _).1, h1]
  refine ⟨rj, h1', h2, fun i hi row hrow => ?_⟩
  obtain ⟨o2, r2, e1, e2, e3⟩ := C66_overlay_partial hD hU.range
  rw [hr3] at e2
  cases e2
  rw [hU.after] at e1
  cases e1
  refine e3 j rj 100 20 3 3 h1' hr' h2 i row hi hj ?_
  have := hR.intQ
  interval_cases row
  · exact Or.inr (Or.inr ⟨rfl, this⟩)
  · exact Or.inl rfl
  · exact Or.inr (Or.inl rfl)

/-- The case is met: sliders for tau and omega, the overlay for omega. -/
theorem num_overlay (b : Backend) (s d : Bool) (I t p τ ω N : ℝ) : ∃ A w' r,
    analyze 0 (some "omega") [("tau", [.number 0, .number 1]), ("omega", [.number 0, .number 1])]
      (numW b isoV isoS false s d I t p τ ω N) = (.ok A, w') ∧ A.overlay = some r ∧ r.shape = [100, 20, 3] ∧
      ∀ j < 20, ∃ rj, (calcOp 0 (overlayValues A.sliders "omega" j) w').1 = .ok rj ∧ rj.shape = [100, 1, 3] ∧
        ∀ i < 100, ∀ row < 3, r.get [i, j, row] = rj.get [i, 0, row] := by
  have hn := num_needs isoV isoS false s d I t p τ ω N isoV_plain isoS_plain
  exact C66_works_partial (num_reachable ..) (num_objs ..) rfl
    (fun n h => by
      rw [hn] at h
      rw [num_keys]
      rcases h with rfl | rfl | rfl | rfl <;> simp)
    (by
      intro p hp
      simp only [List.mem_cons, List.not_mem_nil, or_false] at hp
      rcases hp with rfl | rfl <;> exact ⟨0, 1, _, rfl, Or.inl rfl⟩)
    ⟨Or.inl rfl, trivial⟩ (fun _ _ hx _ => num_val isoV isoS false s d I t p τ ω N hx 100)
    (fun p => by
      rw [num_pdef]
      cases p <;> simp [defaultDefs, Expr.free])
    ((hn _).mpr (by simp)) (by simp) (Or.inl rfl) (show _ = PDef.str (.sym "tau") from rfl) (by simp [Expr.free] : "tau" ∈ _) (by simp)

/-- C66 is false for sliders that affect neither tau nor bsf: a model with numbers for all parameters
and the sympy backend, a slider for omega and omega as range parameter; the analyzer works without
range parameter and raises ValueError with it. -/
theorem C66_omega_counterexample (s d : Bool) (I t p τ ω N : ℝ) :
    (∃ A w', analyze 0 none [("omega", [.number 0, .number 1])]
      (numW .sympy isoV isoS false s d I t p τ ω N) = (.ok A, w')) ∧
    (analyze 0 (some "omega") [("omega", [.number 0, .number 1])]
      (numW .sympy isoV isoS false s d I t p τ ω N)).1 = .error .valueError := by
  have hw := num_reachable .sympy isoV isoS false s d I t p τ ω N
  have ho := num_objs .sympy isoV isoS false s d I t p τ ω N
  have hbk := num_backend .sympy isoV isoS false s d I t p τ ω N
  have hneeds := num_needs isoV isoS false s d I t p τ ω N isoV_plain isoS_plain
  have hkeys := num_keys isoV isoS false s d I t p τ ω N
  have hval := @num_val isoV isoS false s d I t p τ ω N
  have hpd := num_pdef isoV isoS false s d I t p τ ω N
  have hSRF : (numObj isoV isoS false s d I t p τ ω N).SRF = isoS := rfl
  have hI : Arr.Fits (numObj isoV isoS false s d I t p τ ω N).I0.shape [100, 1] := ⟨Or.inl rfl, trivial⟩
  have hq : (numObj isoV isoS false s d I t p τ ω N).intQ = false := rfl
  have hτ : (numObj isoV isoS false s d I t p τ ω N).params.get? "tau" = some (arr1 τ) := by
    rw [num_params]; simp [Dict.get?]
  exact omega_only hw ho hbk hneeds hkeys hval hpd hSRF hI hq hτ

/-! ## C67 -/

/-- **C67** (partial): after an update without range parameter, each parameter with a slider has the
value of its slider, and `calc()` without arguments returns the values that are drawn.  (Names of
keyword arguments are distinct.)  Missing: an update with range parameter (false, see below). -/
theorem C67_partial {P : Op → Prop} {id : ℕ} {w : World} {A : Analyzer} (h : Drawn P id w A)
    (hr : A.range = none) (hn : (A.sliders.map Prod.fst).Nodup) :
    ∃ o res, w.objs id = some o ∧
      (∀ k sl, (k, sl) ∈ A.sliders → ∃ x, o.params.get? k = some x ∧ x.shape = [1] ∧ x.get [0] = XR.fin sl.val) ∧
      (calcOp id [] w).1 = .ok res ∧
      (calcOp id (A.sliders.map fun p => (p.1, Arr.lit p.2.val)) w).1 = .ok res := by
  have hw' := h.session.reachable
  obtain ⟨w0, A0, o, o', res, contribs, sv, hw, hU⟩ := h.upd
  have hb := hw.keeps.any.bsfOK hU.before
  have hb' := hw'.keeps.any.bsfOK hU.after
  have hov := hU.over
  rw [hU.range] at hr
  rw [hr] at hov
  refine ⟨o', res, hU.after, ?_, ?_, ?_⟩
  · intro k sl hk
    rw [hU.sliders] at hk hn
    have hp : o'.params = (Fresh.update o (sliderVals A0.sliders)).params := hov.2.params
    rw [hp, Fresh.update_eq hb.1]
    show ∃ x, (Dict.update _ _).get? k = some x ∧ _
    rw [Dict.get?_update]
    obtain ⟨v, hv⟩ := lastValue_isSome (kw := (sliderVals A0.sliders).map fun p => (p.1, p.2.atleast1d)) (k := k) (by
      simpa [sliderVals, Dict.keys, List.map_map, Function.comp_def] using ⟨sl, hk⟩)
    rw [hv]
    refine ⟨v, rfl, ?_⟩
    have := lastValue_mem hv
    simp only [sliderVals, List.map_map, List.mem_map, Function.comp_def] at this
    obtain ⟨q, hq, he⟩ := this
    cases he
    have : q = (q.1, sl) := by
      have := List.inj_on_of_nodup_map hn hq hk rfl
      rw [this]
    rw [this]
    exact ⟨rfl, rfl⟩
  · rw [(calcOp_eq hw'.inv hU.after _).1, Fresh.update_nil hb'.1, hU.backend, fresh_calc_filled hov.2, hU.calc_]
  · show (calcOp id (sliderVals A.sliders) w).1 = _
    rw [(calcOp_eq hw'.inv hU.after _).1, hU.backend, fresh_calc_filled (hU.again hw), hU.calc_]

/-- The case is met: one slider for tau. -/
example (b : Backend) (s d : Bool) (I t p τ ω N : ℝ) : ∃ w A o x,
    Drawn (fun _ => True) 0 w A ∧ A.range = none ∧ (A.sliders.map Prod.fst).Nodup ∧ w.objs 0 = some o ∧
    o.params.get? "tau" = some x ∧ x.get [0] = XR.fin (1 / 4) := by
  obtain ⟨A, w', sl, h, h1, -, -, h2⟩ := num_one b s d I t p τ ω N
  have hD : Drawn (fun _ => True) 0 w' A := .start (num_reachable ..) h
  have hrange : A.range = none := by
    obtain ⟨w1, w2, sl, -, -, w3, -, -, r3, -, hu⟩ := analyze_ok (num_reachable ..) h
    obtain ⟨o, o', res, contribs, sv, hU⟩ := update_ok r3 hu
    exact hU.range
  have hn : (A.sliders.map Prod.fst).Nodup := by rw [h1]; simp
  obtain ⟨o, res, e1, e2, -⟩ := C67_partial hD hrange hn
  obtain ⟨x, e3, -, e4⟩ := e2 "tau" sl (by rw [h1]; simp)
  exact ⟨w', A, o, x, hD, hrange, hn, e1, e3, by rw [e4, h2]⟩

/-- With a range parameter the object is left with arrays of 20 values for all parameters that have
a slider. -/
theorem C67_range {P : Op → Prop} {id : ℕ} {w : World} {A : Analyzer} (h : Drawn P id w A)
    {key : String} (hr : A.range = some key) :
    ∃ o, w.objs id = some o ∧ ∀ k sl, (k, sl) ∈ A.sliders → ∃ x, o.params.get? k = some x ∧ x.shape = [1, 20] := by
  obtain ⟨w0, A0, o, o', res, contribs, sv, hw, hU⟩ := h.upd
  have hb := hw.keeps.any.bsfOK hU.before
  have hov := hU.over
  rw [hU.range] at hr
  rw [hr] at hov
  obtain ⟨-, r, hc, ho, hf⟩ := hov
  refine ⟨o', hU.after, fun k sl hk => ?_⟩
  rw [hf.params]
  rw [hU.sliders] at hk
  exact rangeVals_get (hb.update _).1 (List.mem_map_of_mem (f := Prod.fst) hk)

/-- C67 is false with a range parameter: after the analyzer was created with range parameter omega,
the value of tau in the object is an array of 20 values, although the slider shows one, and `calc()`
without arguments returns 20 values for each incidence angle. -/
theorem C67_range_counterexample (b : Backend) (s d : Bool) (I t p τ ω N : ℝ) : ∃ A w' o x,
    analyze 0 (some "omega") [("tau", [.number 0, .number 1]), ("omega", [.number 0, .number 1])]
      (numW b isoV isoS false s d I t p τ ω N) = (.ok A, w') ∧ w'.objs 0 = some o ∧
    "tau" ∈ A.sliders.map Prod.fst ∧ o.params.get? "tau" = some x ∧ x.shape = [1, 20] ∧
    ∃ res, (calcOp 0 [] w').1 = .ok res ∧ res.shape = [100, 20, 3] := by
  obtain ⟨A, w', r, hA, hr, hs, -⟩ := num_overlay b s d I t p τ ω N
  have hD : Drawn (fun _ => True) 0 w' A := .start (num_reachable ..) hA
  have hrange : A.range = some "omega" := by
    obtain ⟨w1, w2, sl, -, -, w3, -, -, r3, -, hu⟩ := analyze_ok (num_reachable ..) hA
    obtain ⟨o, o', res, contribs, sv, hU⟩ := update_ok r3 hu
    exact hU.range
  have hm : "tau" ∈ A.sliders.map Prod.fst := by
    have hs := (C64_sliders (num_reachable ..) (num_objs ..) hA).1
    exact forall₂_mem hs ("tau", [.number 0, .number 1]) (List.mem_filter.mpr ⟨by simp, decide_eq_true
      ((num_needs isoV isoS false s d I t p τ ω N isoV_plain isoS_plain _).mpr (by simp))⟩)
  obtain ⟨⟨k, sl⟩, hk, rfl⟩ := List.mem_map.mp hm
  obtain ⟨o, ho, hx⟩ := C67_range hD hrange
  obtain ⟨x, h1, h2⟩ := hx _ _ hk
  refine ⟨A, w', o, x, hA, ho, hm, h1, h2, r, ?_, hs⟩
  obtain ⟨w0, A0, o0, o', res, contribs, sv, hw, hU⟩ := hD.upd
  have hov := hU.over
  rw [← hU.range, hrange] at hov
  obtain ⟨-, r', h3, h4, h5⟩ := hov
  rw [hr] at h4
  cases h4
  have hw' := hD.session.reachable
  rw [(calcOp_eq hw'.inv hU.after _).1, Fresh.update_nil (hw'.keeps.any.bsfOK hU.after).1, hU.backend,
    fresh_calc_filled h5, h3]

end

end RT1
