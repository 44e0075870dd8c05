import Verif.Props.Overlay
import Verif.Lemmas.AnalyzeI
import Verif.Lemmas.OverlayZero

/-!
# Analyzers of models with interaction term (C64, C66)
-/

namespace RT1

noncomputable section
open Classical

/-- The state after an analyzer was created and used. -/
theorem int_session {w : World} (hw : Reachable w) {id : ℕ} {o : Obj} (ho : w.objs id = some o)
    {ps : List (String × List SliderArg)} (hq : o.intQ = true)
    (hneeds : ∀ n, o.Needs n → n ∈ ps.map Prod.fst ∨ n ∈ o.params.keys)
    (hnum : ∀ p ∈ ps, ∃ a b rest, p.2 = .number a :: .number b :: rest ∧
      (rest = [] ∨ ∃ c r, rest = .number c :: r))
    (hI : Arr.Fits o.I0.shape [100, 1])
    (hpar : ∀ k x, o.params.get? k = some x → k ∉ ps.map Prod.fst ∨ ¬ o.Needs k → Arr.Fits x.shape [100, 1])
    (hdef : ∀ p, match o.pdef p with
      | .val x => Arr.Fits x.shape [100, 1]
      | .str e => ∀ s ∈ e.free, s ∉ ["theta_0", "theta_ex", "phi_0", "phi_ex"]
      | .basic e => e.free = [])
    (hfi : o.fnInput = none) (hfei : o.fnevalsInput = none)
    (hnV : ∃ n, o.V.ncoefs = .ok (n + 1)) (hnS : ∃ n, o.SRF.ncoefs = .ok (n + 1)) {fs : List P}
    (hfn : fnCoefs o.V o.SRF ⟨.sym "theta_0", .sym "theta_0", .num 0, .num 0⟩ = .ok fs)
    (hcst : w.backend = .symengine ∨ ∃ p ∈ fs, ¬ isConstFn p)
    {r : Option String} {evs : List Event}
    (hsel : ∀ k, r = some k ∨ Event.select (some k) ∈ evs → (k ∈ ps.map Prod.fst ∧ o.Needs k) ∧
      ∃ p e s, (p = PName.tau ∨ p = .bsf) ∧ o.pdef p = .str e ∧ s ∈ e.free ∧ s ∈ ps.map Prod.fst) :
    ∃ A w' o', (analyze id r ps >>= fun A => evs.foldlM (fun A e => A.event id e) A) w = (.ok A, w') ∧
      Drawn (fun _ => False) id w' A ∧ w'.backend = w.backend ∧ w'.objs id = some o' ∧
      AnaReadyI w.backend o.pdef (A.sliders.map Prod.fst) o' ∧ Overlaid w.backend A o' := by
  obtain ⟨sl, w3, o3, r3, ho3, hb3, hst, hm, ht, ⟨hp0, hg, hfne, hfi3, hfei3⟩, hc, hn, he, heq⟩ :=
    analyze_ready hw ho hneeds hnum hI hpar hdef
  have hq2 : o3.intQ = true := (intQ_still hst).trans hq
  have hV : o3.V = o.V := by simp only [Obj.still, Prod.mk.injEq] at hst; exact hst.1
  have hS : o3.SRF = o.SRF := by simp only [Obj.still, Prod.mk.injEq] at hst; exact hst.2.1
  have hR := AnaReady.of (r3.keeps.any.bsfOK ho3) ht hq2 hc
  rw [pdef_still hst] at hR
  have hRI : AnaReadyI w3.backend o.pdef (sl.map Prod.fst) o3 :=
    ⟨hR, ⟨hfi3.trans hfi, hfei3.trans hfei, ⟨fs, by rw [hV, hS, hg, hfn], by rw [hb3]; exact hcst⟩,
      by rw [hV]; exact hnV, by rw [hS]; exact hnS, Or.inl hfne, fun l hl => by rw [hfne] at hl; cases hl⟩, hm, hp0, hg⟩
  have hsel' : ∀ k, r = some k ∨ Event.select (some k) ∈ evs → k ∈ sl.map Prod.fst ∧
      ∃ p e s, (p = PName.tau ∨ p = .bsf) ∧ o.pdef p = .str e ∧ s ∈ e.free ∧ s ∈ sl.map Prod.fst := by
    intro k hk
    obtain ⟨h1, p, e, s, h2, h3, h4, h5⟩ := hsel k hk
    refine ⟨(hn k).mpr h1, p, e, s, h2, h3, h4, (hn s).mpr ⟨h5, Or.inl ⟨p, e, h3, h4⟩, ?_⟩⟩
    have := hdef p
    rw [h3] at this
    exact this s h4
  obtain ⟨A, w', o', h1, h2, h3, hb4, h4, h5, h6, hO⟩ := AnaReadyI.succ (A := ⟨sl, r, none, none⟩) r3 ho3 hRI
    fun k hk => hsel' k (Or.inl hk)
  have hA : analyze id r ps w = (.ok A, w') := by
    cases r with
    | none => exact he.trans h1
    | some k => exact (heq k (hsel' k (Or.inl rfl)).1).trans h1
  rw [hb3] at h6 hO
  obtain ⟨A', w'', o'', h7, h8, h9, h10, h11, h12⟩ := AnaReadyI.events (id := id) (evs := evs)
    (fun k hk => hsel' k (Or.inr hk)) (.start hw hA) (hb4.trans hb3) h3 h6 hO
    (by rw [h4]) (by rw [h5]; exact fun k hk => hsel' k (Or.inl hk))
  exact ⟨A', w'', o'', by rw [bind_ok hA]; exact h7, h8, h9, h10, h11, h12⟩

/-- **C64** (2D, partial), with interaction term: under the conditions of
`C64_works_interaction_partial` nothing the user does with the widget raises an exception: sliders
moved to any values, range parameters selected and deselected in any order; if a range parameter is
selected, some parameter with a slider has to occur in the definition of tau or bsf (see C66). -/
theorem C64_events_interaction_partial {w : World} (hw : Reachable w) {id : ℕ} {o : Obj}
    (ho : w.objs id = some o) {ps : List (String × List SliderArg)} (hq : o.intQ = true)
    (hneeds : ∀ n, o.Needs n → n ∈ ps.map Prod.fst ∨ n ∈ o.params.keys)
    (hnum : ∀ p ∈ ps, ∃ a b rest, p.2 = .number a :: .number b :: rest ∧
      (rest = [] ∨ ∃ c r, rest = .number c :: r))
    (hI : Arr.Fits o.I0.shape [100, 1])
    (hpar : ∀ k x, o.params.get? k = some x → k ∉ ps.map Prod.fst ∨ ¬ o.Needs k → Arr.Fits x.shape [100, 1])
    (hdef : ∀ p, match o.pdef p with
      | .val x => Arr.Fits x.shape [100, 1]
      | .str e => ∀ s ∈ e.free, s ∉ ["theta_0", "theta_ex", "phi_0", "phi_ex"]
      | .basic e => e.free = [])
    (hfi : o.fnInput = none) (hfei : o.fnevalsInput = none)
    (hnV : ∃ n, o.V.ncoefs = .ok (n + 1)) (hnS : ∃ n, o.SRF.ncoefs = .ok (n + 1)) {fs : List P}
    (hfn : fnCoefs o.V o.SRF ⟨.sym "theta_0", .sym "theta_0", .num 0, .num 0⟩ = .ok fs)
    (hcst : w.backend = .symengine ∨ ∃ p ∈ fs, ¬ isConstFn p)
    {r : Option String} {evs : List Event}
    (hsel : ∀ k, r = some k ∨ Event.select (some k) ∈ evs → (k ∈ ps.map Prod.fst ∧ o.Needs k) ∧
      ∃ p e s, (p = PName.tau ∨ p = .bsf) ∧ o.pdef p = .str e ∧ s ∈ e.free ∧ s ∈ ps.map Prod.fst) :
    ∃ A w', (analyze id r ps >>= fun A => evs.foldlM (fun A e => A.event id e) A) w = (.ok A, w') := by
  obtain ⟨A, w', -, h, -⟩ := int_session hw ho hq hneeds hnum hI hpar hdef hfi hfei hnV hnS hfn hcst hsel
  exact ⟨A, w', h⟩

theorem analyze_dirs {b : Backend} {o : Obj} (ht : o.ang .t0 = some analyzeT0) (hm : o.mono = true) {i : ℕ}
    (hi : i < 100) {x : Site} (hx : FSite b o [i, 0] x) :
    0 < x.mu0 ∧ x.mu0 < 1 ∧ 0 < x.muEx ∧ x.muEx < 1 := by
  have e1 : x.t0 = deg2rad (linspace 10 80 100 i) := by
    obtain ⟨a, h1, h2⟩ := hx.t0
    rw [show Fresh.ang o .t0 = .ok analyzeT0 by simp [Fresh.ang, ht]] at h1
    cases h1
    have e : analyzeT0.at' [i, 0] = XR.fin (deg2rad (linspace 10 80 100 i)) := rfl
    rw [e] at h2
    exact (XR.fin.inj h2).symm
  have e2 : x.tex = x.t0 := by
    have h1 := hx.tex
    unfold Fresh.tex at h1
    rw [if_pos hm] at h1
    exact h1.unique hx.t0
  have hi' : (i : ℝ) ≤ 99 := by exact_mod_cast (by omega : i ≤ 99)
  have hpi := Real.pi_pos
  have l1 : 0 < x.t0 := by
    rw [e1]; unfold deg2rad linspace
    push_cast
    positivity
  have l2 : x.t0 < Real.pi / 2 := by
    rw [e1]; unfold deg2rad linspace
    push_cast
    have : (10 : ℝ) + i * ((80 - 10) / (100 - 1)) ≤ 80 := by
      have : (i : ℝ) * ((80 - 10) / (100 - 1)) ≤ 99 * ((80 - 10) / (100 - 1)) := by gcongr
      linarith
    nlinarith
  have c1 : 0 < Real.cos x.t0 := Real.cos_pos_of_mem_Ioo ⟨by linarith, l2⟩
  have c2 : Real.cos x.t0 < 1 := by
    rw [← Real.cos_zero]
    exact Real.cos_lt_cos_of_nonneg_of_le_pi le_rfl (by linarith) l1
  exact ⟨c1, c2, by unfold Site.muEx; rw [e2]; exact c1, by unfold Site.muEx; rw [e2]; exact c2⟩

theorem analyze_oblique {b : Backend} {o : Obj} (ht : o.ang .t0 = some analyzeT0) (hm : o.mono = true) {i : ℕ}
    (hi : i < 100) {x : Site} (hx : FSite b o [i, 0] x) (h : 0 < x.tau) : x.Oblique := by
  obtain ⟨h1, h2, h3, h4⟩ := analyze_dirs ht hm hi hx
  exact ⟨h1, h2, h3, h4, h⟩

/-- **C66** (partial), with interaction term: under the same conditions, whatever was done with the
widget, a selected range parameter is overlaid by 20 lines for each of the four contributions; line
`j` shows the values `calc()` returns with the range parameter at the `j`-th of 20 equidistant values
between the limits of its slider and all other parameters at the values of their sliders - for total
and interaction wherever the values of all parameters are numbers and the optical depth is positive.
Optical depths that are zero: `C66_bare_partial`.  Missing: overlays that reach negative optical depths. -/
theorem C66_interaction_partial {w : World} (hw : Reachable w) {id : ℕ} {o : Obj}
    (ho : w.objs id = some o) {ps : List (String × List SliderArg)} (hq : o.intQ = true)
    (hneeds : ∀ n, o.Needs n → n ∈ ps.map Prod.fst ∨ n ∈ o.params.keys)
    (hnum : ∀ p ∈ ps, ∃ a b rest, p.2 = .number a :: .number b :: rest ∧
      (rest = [] ∨ ∃ c r, rest = .number c :: r))
    (hI : Arr.Fits o.I0.shape [100, 1])
    (hpar : ∀ k x, o.params.get? k = some x → k ∉ ps.map Prod.fst ∨ ¬ o.Needs k → Arr.Fits x.shape [100, 1])
    (hdef : ∀ p, match o.pdef p with
      | .val x => Arr.Fits x.shape [100, 1]
      | .str e => ∀ s ∈ e.free, s ∉ ["theta_0", "theta_ex", "phi_0", "phi_ex"]
      | .basic e => e.free = [])
    (hfi : o.fnInput = none) (hfei : o.fnevalsInput = none)
    (hnV : ∃ n, o.V.ncoefs = .ok (n + 1)) (hnS : ∃ n, o.SRF.ncoefs = .ok (n + 1)) {fs : List P}
    (hfn : fnCoefs o.V o.SRF ⟨.sym "theta_0", .sym "theta_0", .num 0, .num 0⟩ = .ok fs)
    (hcst : w.backend = .symengine ∨ ∃ p ∈ fs, ¬ isConstFn p)
    {r : Option String} {evs : List Event}
    (hsel : ∀ k, r = some k ∨ Event.select (some k) ∈ evs → (k ∈ ps.map Prod.fst ∧ o.Needs k) ∧
      ∃ p e s, (p = PName.tau ∨ p = .bsf) ∧ o.pdef p = .str e ∧ s ∈ e.free ∧ s ∈ ps.map Prod.fst)
    {A : Analyzer} {w' : World} {key : String}
    (h : (analyze id r ps >>= fun A => evs.foldlM (fun A e => A.event id e) A) w = (.ok A, w'))
    (hkey : A.range = some key) :
    ∃ rr, A.overlay = some rr ∧ rr.shape = [100, 20, 4] ∧
      ∀ j < 20, ∃ rj wj, calcOp id (overlayValues A.sliders key j) w' = (.ok rj, wj) ∧ rj.shape = [100, 1, 4] ∧
        (∀ i < 100, rr.get [i, j, 1] = rj.get [i, 0, 1] ∧ rr.get [i, j, 2] = rj.get [i, 0, 2]) ∧
        ∀ i < 100, ∀ x, SiteAt wj id [i, 0] x → 0 < x.tau → ∀ row < 4, rr.get [i, j, row] = rj.get [i, 0, row] := by
  obtain ⟨A', w'', o', h', hD, hbk, ho', hR, hO⟩ := int_session hw ho hq hneeds hnum hI hpar hdef hfi hfei hnV hnS hfn hcst hsel
  rw [h] at h'
  cases h'
  obtain ⟨hc20, rr, hov, hsh, hcalc, -, d, hd⟩ := hO key hkey
  refine ⟨rr, hov, hsh, fun j hj => ?_⟩
  have hw' := hD.session.reachable
  have hb' := hw'.keeps.any.bsfOK ho'
  have hov' : sliderVals (A.sliders.map fun p => (p.1, { p.2 with
      val := if p.1 = key then p.2.lo + (p.2.hi - p.2.lo) * j / 19 else p.2.val })) =
      overlayValues A.sliders key j := by
    simp only [sliderVals, overlayValues, List.map_map]
    rfl
  have hok : ObjOK w.backend (Fresh.update o' (overlayValues A.sliders key j)) := by
    rw [← hbk]
    exact (hw'.inv.updated ho' (overlayValues A.sliders key j)).obj rfl _ _ (World.updated_objs ..)
  have hci := hR.completeI hb' (sl := A.sliders.map fun p => (p.1, { p.2 with
    val := if p.1 = key then p.2.lo + (p.2.hi - p.2.lo) * j / 19 else p.2.val })) (by
      rw [List.map_map]; rfl) (by rw [hov']; exact hok)
  rw [hov'] at hci
  obtain ⟨rj, h1, h2⟩ := hci.calcAll (a := analyzeT0) hR.base.t0 rfl
  obtain ⟨c1, c2⟩ := calcOp_eq hw'.inv ho' (overlayValues A.sliders key j)
  have e1 : calcOp id (overlayValues A.sliders key j) w' = (.ok rj, (calcOp id (overlayValues A.sliders key j) w').2) := by
    refine Prod.ext ?_ rfl
    rw [c1, hbk, h1]
  refine ⟨rj, _, e1, h2, fun i hi => ?_, fun i hi x hx hτ row hrow => ?_⟩
  · obtain ⟨o2, r2, f1, f2, f3⟩ := C66_overlay_partial hD hkey
    rw [hov] at f2
    cases f2
    have e1' : (calcOp id (overlayValues A.sliders key j) w').1 = .ok rj := by rw [e1]
    exact ⟨f3 j rj 100 20 4 4 e1' hsh h2 i 1 hi hj (Or.inl rfl),
      f3 j rj 100 20 4 4 e1' hsh h2 i 2 hi hj (Or.inr (Or.inl rfl))⟩
  · obtain ⟨oj, hoj, hfj⟩ := c2.get
    have hxf : FSite w.backend (Fresh.update o' (overlayValues A.sliders key j)) [i, 0] x := by
      have hs := hx.fsite c2.inv hoj
      rw [show (calcOp id (overlayValues A.sliders key j) w').2.backend = w.backend from c2.backend.trans hbk] at hs
      have hfj' : Filled w.backend (Fresh.update o' (overlayValues A.sliders key j)) oj := by
        rw [← hbk]; exact hfj
      exact hs.filled hfj'.symm
    have hob : x.Oblique := analyze_oblique (o := Fresh.update o' (overlayValues A.sliders key j)) hR.base.t0 hR.mono hi hxf hτ
    have hag : AgreeAt o'.params (o'.params.update ((overlayValues A.sliders key j).map fun p => (p.1, p.2.atleast1d))) [i, j] := by
      rw [hd]
      exact agree_overlay
    have hci2 : CompleteI w.backend o' [100, 20] :=
      hR.coefs.completeI rfl hc20 hb' (by rw [← hbk]; exact hw'.inv.obj rfl _ _ ho') (a := analyzeT0)
        hR.base.t0 rfl hR.mono hR.p0 hR.base.intQ
    rw [Fresh.update_eq hb'.1] at hci hxf h1
    have e : Arr.bidx [100, 1] [i, j] = [i, 0] := by simp [Arr.bidx]
    have := hag.rowI (S := [100, 20]) (S' := [100, 1]) hci2 hci (by
        rw [hR.geom]
        intro a ha s hs
        simp only [List.mem_cons, List.not_mem_nil, or_false] at ha
        rcases ha with rfl | rfl | rfl | rfl <;> cases hs <;> simp)
      hcalc h1 hsh h2 rfl (.cons hi (.cons hj .nil)) (by rw [e]; exact .cons hi (.cons (by omega) .nil))
      (x := x) (by rw [e]; exact hxf) hob hrow
    rw [e] at this
    exact this

/-- **C66** (partial), with interaction term: under the same conditions, if the optical depth is
negative for none of the 20 values, all four rows of line `j` are those `calc()` returns with the
range parameter at its `j`-th value, also where the optical depth is zero.  Missing: overlays that
reach negative optical depths. -/
theorem C66_bare_partial {w : World} (hw : Reachable w) {id : ℕ} {o : Obj}
    (ho : w.objs id = some o) {ps : List (String × List SliderArg)} (hq : o.intQ = true)
    (hneeds : ∀ n, o.Needs n → n ∈ ps.map Prod.fst ∨ n ∈ o.params.keys)
    (hnum : ∀ p ∈ ps, ∃ a b rest, p.2 = .number a :: .number b :: rest ∧
      (rest = [] ∨ ∃ c r, rest = .number c :: r))
    (hI : Arr.Fits o.I0.shape [100, 1])
    (hpar : ∀ k x, o.params.get? k = some x → k ∉ ps.map Prod.fst ∨ ¬ o.Needs k → Arr.Fits x.shape [100, 1])
    (hdef : ∀ p, match o.pdef p with
      | .val x => Arr.Fits x.shape [100, 1]
      | .str e => ∀ s ∈ e.free, s ∉ ["theta_0", "theta_ex", "phi_0", "phi_ex"]
      | .basic e => e.free = [])
    (hfi : o.fnInput = none) (hfei : o.fnevalsInput = none)
    (hnV : ∃ n, o.V.ncoefs = .ok (n + 1)) (hnS : ∃ n, o.SRF.ncoefs = .ok (n + 1)) {fs : List P}
    (hfn : fnCoefs o.V o.SRF ⟨.sym "theta_0", .sym "theta_0", .num 0, .num 0⟩ = .ok fs)
    (hcst : w.backend = .symengine ∨ ∃ p ∈ fs, ¬ isConstFn p)
    {r : Option String} {evs : List Event}
    (hsel : ∀ k, r = some k ∨ Event.select (some k) ∈ evs → (k ∈ ps.map Prod.fst ∧ o.Needs k) ∧
      ∃ p e s, (p = PName.tau ∨ p = .bsf) ∧ o.pdef p = .str e ∧ s ∈ e.free ∧ s ∈ ps.map Prod.fst)
    {A : Analyzer} {w' : World} {key : String}
    (h : (analyze id r ps >>= fun A => evs.foldlM (fun A e => A.event id e) A) w = (.ok A, w'))
    (hkey : A.range = some key)
    (hnn : ∀ j < 20, ∀ i < 100, ∃ x, SiteAt (calcOp id (overlayValues A.sliders key j) w').2 id [i, 0] x ∧ 0 ≤ x.tau) :
    ∃ rr, A.overlay = some rr ∧ rr.shape = [100, 20, 4] ∧
      ∀ j < 20, ∃ rj wj, calcOp id (overlayValues A.sliders key j) w' = (.ok rj, wj) ∧ rj.shape = [100, 1, 4] ∧
        ∀ i < 100, ∀ row < 4, rr.get [i, j, row] = rj.get [i, 0, row] := by
  obtain ⟨rr, hov, hsh, hrow⟩ := C66_interaction_partial hw ho hq hneeds hnum hI hpar hdef hfi hfei hnV hnS hfn hcst hsel h hkey
  obtain ⟨A', w'', o', h', hD, hbk, ho', hR, hO⟩ := int_session hw ho hq hneeds hnum hI hpar hdef hfi hfei hnV hnS hfn hcst hsel
  rw [h] at h'
  cases h'
  obtain ⟨hc20, rr', hov', -, hcalc, -, d, hd⟩ := hO key hkey
  rw [hov] at hov'
  cases hov'
  refine ⟨rr, hov, hsh, fun j hj => ?_⟩
  obtain ⟨rj, wj, e1, h2, -, hpos⟩ := hrow j hj
  refine ⟨rj, wj, e1, h2, fun i hi row hr => ?_⟩
  have hw' := hD.session.reachable
  have hb' := hw'.keeps.any.bsfOK ho'
  have hcomp : ∀ j, CompleteI w.backend (Fresh.update o' (overlayValues A.sliders key j)) [100, 1] := by
    intro j
    have hv' : sliderVals (A.sliders.map fun p => (p.1, { p.2 with
        val := if p.1 = key then p.2.lo + (p.2.hi - p.2.lo) * j / 19 else p.2.val })) =
        overlayValues A.sliders key j := by
      simp only [sliderVals, overlayValues, List.map_map]
      rfl
    have hok : ObjOK w.backend (Fresh.update o' (overlayValues A.sliders key j)) := by
      rw [← hbk]
      exact (hw'.inv.updated ho' (overlayValues A.sliders key j)).obj rfl _ _ (World.updated_objs ..)
    have hci := hR.completeI hb' (sl := A.sliders.map fun p => (p.1, { p.2 with
      val := if p.1 = key then p.2.lo + (p.2.hi - p.2.lo) * j / 19 else p.2.val })) (by
        rw [List.map_map]; rfl) (by rw [hv']; exact hok)
    rwa [hv'] at hci
  have hfs : ∀ j i x, SiteAt (calcOp id (overlayValues A.sliders key j) w').2 id [i, 0] x →
      FSite w.backend (Fresh.update o' (overlayValues A.sliders key j)) [i, 0] x := by
    intro j i x hx
    obtain ⟨c1, c2⟩ := calcOp_eq hw'.inv ho' (overlayValues A.sliders key j)
    obtain ⟨oj, hoj, hfj⟩ := c2.get
    have hs := hx.fsite c2.inv hoj
    rw [show (calcOp id (overlayValues A.sliders key j) w').2.backend = w.backend from c2.backend.trans hbk] at hs
    have hfj' : Filled w.backend (Fresh.update o' (overlayValues A.sliders key j)) oj := by
      rw [← hbk]; exact hfj
    exact hs.filled hfj'.symm
  obtain ⟨x, hx, h0⟩ := hnn j hj i hi
  rcases h0.lt_or_eq with h0 | h0
  · exact hpos i hi x (by rw [e1] at hx; exact hx) h0 row hr
  have hag : ∀ i j, AgreeAt o'.params (o'.params.update ((overlayValues A.sliders key j).map fun p => (p.1, p.2.atleast1d))) [i, j] := by
    intro i j
    rw [hd]
    exact agree_overlay
  have hci2 : CompleteI w.backend o' [100, 20] :=
    hR.coefs.completeI rfl hc20 hb' (by rw [← hbk]; exact hw'.inv.obj rfl _ _ ho') (a := analyzeT0)
      hR.base.t0 rfl hR.mono hR.p0 hR.base.intQ
  have hup : ∀ j, Fresh.update o' (overlayValues A.sliders key j) =
      o'.withValues (o'.params.update ((overlayValues A.sliders key j).map fun p => (p.1, p.2.atleast1d))) :=
    fun j => Fresh.update_eq hb'.1 _
  have e : ∀ i j, Arr.bidx [100, 1] [i, j] = [i, 0] := by intro i j; simp [Arr.bidx]
  have dirs : ∀ j, ∀ i < 100, ∀ x, FSite w.backend (Fresh.update o' (overlayValues A.sliders key j)) [i, 0] x →
      0 < x.mu0 ∧ x.mu0 < 1 ∧ 0 < x.muEx ∧ x.muEx < 1 := fun j i hi x hx =>
    analyze_dirs (o := Fresh.update o' (overlayValues A.sliders key j)) hR.base.t0 hR.mono hi hx
  have s1 : ∀ idx, Arr.Valid [100, 1] idx → ∃ y, FSite w.backend (Fresh.update o' (overlayValues A.sliders key j)) idx y ∧
      0 < y.mu0 ∧ y.mu0 < 1 ∧ 0 < y.muEx ∧ y.muEx < 1 ∧ 0 ≤ y.tau := by
    intro idx hv
    cases hv with
    | cons h1 hv =>
      cases hv with
      | cons h2 hv =>
        cases hv
        rename_i i' j'
        obtain rfl : j' = 0 := by omega
        obtain ⟨y, hy, hy0⟩ := hnn j hj i' h1
        have hy := hfs j i' y hy
        obtain ⟨d1, d2, d3, d4⟩ := dirs j i' h1 y hy
        exact ⟨y, hy, d1, d2, d3, d4, hy0⟩
  have s2 : ∀ idx, Arr.Valid [100, 20] idx → ∃ y, FSite w.backend o' idx y ∧
      0 < y.mu0 ∧ y.mu0 < 1 ∧ 0 < y.muEx ∧ y.muEx < 1 ∧ 0 ≤ y.tau := by
    intro idx hv
    cases hv with
    | cons h1 hv =>
      cases hv with
      | cons h2 hv =>
        cases hv
        rename_i i' j'
        obtain ⟨y, hy, hy0⟩ := hnn j' h2 i' h1
        have hy := hfs j' i' y hy
        obtain ⟨d1, d2, d3, d4⟩ := dirs j' i' h1 y hy
        refine ⟨y, ?_, d1, d2, d3, d4, hy0⟩
        have hc' := hcomp j'
        rw [hup j'] at hy hc'
        exact (hag i' j').fsite hci2.base hc'.base (by rw [e]; exact hy)
  have : Nonempty Site := ⟨x⟩
  choose! site1 hs1 using s1
  choose! site2 hs2 using s2
  have hj1 : Fresh.calcAll w.backend (Fresh.update o' (overlayValues A.sliders key j)) = .ok rj := by
    have := (calcOp_eq hw'.inv ho' (overlayValues A.sliders key j)).1
    rw [e1, hbk] at this
    exact this.symm
  have hc' := hcomp j
  have hv1 : Arr.Valid [100, 1] [i, 0] := .cons hi (.cons (by omega) .nil)
  have t0 : (site1 [i, 0]).tau = 0 := by
    rw [h0]
    exact (hs1 _ hv1).1.tau.unique (hfs j i x hx).tau
  rw [hup j] at hj1 hc' hs1
  have := (hag i j).rowZ (S := [100, 20]) (S' := [100, 1]) hci2 hc' (by
      rw [hR.geom]
      intro a ha s hs
      simp only [List.mem_cons, List.not_mem_nil, or_false] at ha
      rcases ha with rfl | rfl | rfl | rfl <;> cases hs <;> simp)
    hcalc hj1 hsh h2 (.cons hi (.cons hj .nil)) (by rw [e]; exact hv1)
    (site := site2) (site' := site1) hs2 hs1 (by rw [e]; exact t0) hr
  rw [e] at this
  exact this

/-- The case is met by isotropic scattering and symengine: the overlay for omega, and some slider
events. -/
theorem num_events_int (s d : Bool) (I t p τ ω N : ℝ) {r : Option String} {evs : List Event}
    (hsel : ∀ k, r = some k ∨ Event.select (some k) ∈ evs → k = "tau" ∨ k = "omega") :
    ∃ A w', (analyze 0 r [("tau", [.number 0, .number 1]), ("omega", [.number 0, .number 1])] >>= fun A =>
      evs.foldlM (fun A e => A.event 0 e) A) (numW .symengine isoV isoS true s d I t p τ ω N) = (.ok A, w') ∧
      ∀ key, A.range = some key → ∃ rr, A.overlay = some rr ∧ rr.shape = [100, 20, 4] := by
  obtain ⟨fs, hfs⟩ := iso_fnCoefs ⟨.sym "theta_0", .sym "theta_0", .num 0, .num 0⟩
  have hneeds : ∀ n, (numObj isoV isoS true s d I t p τ ω N).Needs n →
      n ∈ [("tau", [SliderArg.number 0, .number 1]), ("omega", [.number 0, .number 1])].map Prod.fst ∨
      n ∈ (numObj isoV isoS true s d I t p τ ω N).params.keys := by
    intro n h
    rw [num_needs isoV isoS true s d I t p τ ω N isoV_plain isoS_plain] at h
    rw [num_keys]
    rcases h with rfl | rfl | rfl | rfl <;> simp
  have hnum : ∀ p ∈ [("tau", [SliderArg.number 0, .number 1]), ("omega", [.number 0, .number 1])],
      ∃ a b rest, p.2 = .number a :: .number b :: rest ∧ (rest = [] ∨ ∃ c r, rest = .number c :: r) := by
    intro p hp
    simp only [List.mem_cons, List.not_mem_nil, or_false] at hp
    rcases hp with rfl | rfl <;> exact ⟨0, 1, _, rfl, Or.inl rfl⟩
  have hdef : ∀ pn, match (numObj isoV isoS true s d I t p τ ω N).pdef pn with
      | .val x => Arr.Fits x.shape [100, 1]
      | .str e => ∀ s ∈ e.free, s ∉ ["theta_0", "theta_ex", "phi_0", "phi_ex"]
      | .basic e => e.free = [] := by
    intro pn
    rw [num_pdef]
    cases pn <;> simp [defaultDefs, Expr.free]
  have hsel' : ∀ k, r = some k ∨ Event.select (some k) ∈ evs →
      (k ∈ [("tau", [SliderArg.number 0, .number 1]), ("omega", [.number 0, .number 1])].map Prod.fst ∧
        (numObj isoV isoS true s d I t p τ ω N).Needs k) ∧
      ∃ pn e s', (pn = PName.tau ∨ pn = .bsf) ∧ (numObj isoV isoS true s d I t p τ ω N).pdef pn = .str e ∧ s' ∈ e.free ∧
        s' ∈ [("tau", [SliderArg.number 0, .number 1]), ("omega", [.number 0, .number 1])].map Prod.fst := by
    intro k hk
    rw [num_needs isoV isoS true s d I t p τ ω N isoV_plain isoS_plain]
    refine ⟨?_, .tau, .sym "tau", "tau", Or.inl rfl, rfl, by simp [Expr.free], by simp⟩
    rcases hsel k hk with rfl | rfl <;> simp
  obtain ⟨A, w', h⟩ := C64_events_interaction_partial (num_reachable ..) (num_objs ..) rfl hneeds hnum
    ⟨Or.inl rfl, trivial⟩ (fun _ _ hx _ => num_val isoV isoS true s d I t p τ ω N hx 100) hdef
    rfl rfl ⟨0, isoV_ncoefs⟩ ⟨0, isoS_ncoefs⟩ hfs (Or.inl (num_backend ..)) hsel'
  refine ⟨A, w', h, fun key hkey => ?_⟩
  obtain ⟨rr, h1, h2, -⟩ := C66_interaction_partial (num_reachable ..) (num_objs ..) rfl hneeds hnum
    ⟨Or.inl rfl, trivial⟩ (fun _ _ hx _ => num_val isoV isoS true s d I t p τ ω N hx 100) hdef
    rfl rfl ⟨0, isoV_ncoefs⟩ ⟨0, isoS_ncoefs⟩ hfs (Or.inl (num_backend ..)) hsel' h hkey
  exact ⟨rr, h1, h2⟩

/-- A site of the 2D analyzer. -/
def numMonoSite (i : ℕ) (I τ ω N : ℝ) : Site :=
  ⟨deg2rad (linspace 10 80 100 i), deg2rad (linspace 10 80 100 i), 0, 0 + Real.pi, I, τ, ω, N, 0,
    fun k => if k = "tau" then τ else if k = "omega" then ω else if k = "NormBRDF" then N else 0⟩

theorem num_mono_fsite (b : Backend) {oF : Obj} {I τ ω N : ℝ} (hm : oF.mono = true)
    (ht : oF.ang .t0 = some analyzeT0) (hp0 : oF.ang .p0 = some (arr1 0)) (hpd : oF.pdef = defaultDefs)
    (hI : oF.I0 = arr1 I)
    (hP : oF.params = [("bsf", Arr.lit 0), ("tau", arr1 τ), ("omega", arr1 ω), ("NormBRDF", arr1 N)])
    (hc : Complete oF [100, 1]) {i : ℕ} (hi : i < 100) : FSite b oF [i, 0] (numMonoSite i I τ ω N) := by
  have hvals : ∀ k a, oF.params.get? k = some a → a.at' [i, 0] = XR.fin ((numMonoSite i I τ ω N).ρ k) := by
    intro k a hk
    rw [hP] at hk
    have := Dict.mem_of_get? hk
    simp only [List.mem_cons, Prod.mk.injEq, List.not_mem_nil, or_false] at this
    rcases this with ⟨rfl, rfl⟩ | ⟨rfl, rfl⟩ | ⟨rfl, rfl⟩ | ⟨rfl, rfl⟩
    · simp [numMonoSite, Arr.at', Arr.lit, Arr.num]
    · simp [numMonoSite, arr1_at]
    · simp [numMonoSite, arr1_at]
    · simp [numMonoSite, arr1_at]
  have hkeys : oF.params.keys = ["bsf", "tau", "omega", "NormBRDF"] := by rw [hP]; rfl
  have hparv : ∀ (p : PName) (k : String), defaultDefs p = .str (.sym k) → k ∈ oF.params.keys →
      HasVal (Fresh.par b oF p) [i, 0] ((numMonoSite i I τ ω N).ρ k) := by
    intro p k hp hk
    refine HasVal.of_succ (hc.s_par b p) ?_
    have h1 := PW.parStr (b := b) (e := .sym k) (by rw [hpd, hp]) [i, 0]
    refine fun z hz => (h1 z hz).trans ?_
    obtain ⟨a, ha⟩ := Dict.get?_of_mem hk
    show Dict.valAt _ _ _ = _
    unfold Dict.valAt
    rw [ha]
    exact hvals k a ha
  have h0 : HasVal (Fresh.ang oF .t0) [i, 0] (deg2rad (linspace 10 80 100 i)) :=
    ⟨_, by unfold Fresh.ang; rw [ht], rfl⟩
  refine ⟨h0, ?_, ⟨arr1 0, by unfold Fresh.ang; rw [hp0], arr1_at _ _⟩, ?_, hparv .tau "tau" rfl (by rw [hkeys]; simp),
    hparv .omega "omega" rfl (by rw [hkeys]; simp), hparv .NormBRDF "NormBRDF" rfl (by rw [hkeys]; simp),
    hparv .bsf "bsf" rfl (by rw [hkeys]; simp), by rw [hI]; exact arr1_at _ _, hvals⟩
  · unfold Fresh.tex
    rw [if_pos hm]
    exact h0
  · unfold Fresh.pex Fresh.ang
    rw [if_pos hm, hp0]
    exact ⟨_, rfl, rfl⟩

/-- The hypotheses of `C66_bare_partial` hold for the overlay over tau between 0 and 1 (isotropic
scattering, symengine): with the first of the 20 values there is no canopy. -/
example (s d : Bool) (I t p τ ω N : ℝ) :
    ∃ A w', analyze 0 (some "tau") [("tau", [.number 0, .number 1])] (numW .symengine isoV isoS true s d I t p τ ω N) = (.ok A, w') ∧
      A.range = some "tau" ∧
      (∀ j < 20, ∀ i < 100, ∃ x, SiteAt (calcOp 0 (overlayValues A.sliders "tau" j) w').2 0 [i, 0] x ∧ 0 ≤ x.tau) ∧
      ∀ i < 100, ∃ x, SiteAt (calcOp 0 (overlayValues A.sliders "tau" 0) w').2 0 [i, 0] x ∧ x.tau = 0 := by
  obtain ⟨fs, hfs⟩ := iso_fnCoefs ⟨.sym "theta_0", .sym "theta_0", .num 0, .num 0⟩
  have hN := num_needs isoV isoS true s d I t p τ ω N isoV_plain isoS_plain
  have hneeds : ∀ n, (numObj isoV isoS true s d I t p τ ω N).Needs n →
      n ∈ [("tau", [SliderArg.number 0, .number 1])].map Prod.fst ∨
      n ∈ (numObj isoV isoS true s d I t p τ ω N).params.keys := by
    intro n h
    rw [hN] at h
    rw [num_keys]
    rcases h with rfl | rfl | rfl | rfl <;> simp
  have hnum : ∀ p ∈ [("tau", [SliderArg.number 0, .number 1])],
      ∃ a b rest, p.2 = .number a :: .number b :: rest ∧ (rest = [] ∨ ∃ c r, rest = .number c :: r) := by
    intro p hp
    simp only [List.mem_cons, List.not_mem_nil, or_false] at hp
    subst hp
    exact ⟨0, 1, _, rfl, Or.inl rfl⟩
  have hdef : ∀ pn, match (numObj isoV isoS true s d I t p τ ω N).pdef pn with
      | .val x => Arr.Fits x.shape [100, 1]
      | .str e => ∀ s ∈ e.free, s ∉ ["theta_0", "theta_ex", "phi_0", "phi_ex"]
      | .basic e => e.free = [] := by
    intro pn
    rw [num_pdef]
    cases pn <;> simp [defaultDefs, Expr.free]
  obtain ⟨sl, w3, o3, r3, ho3, hb3, hst, hm, ht, ⟨hp0, hg, hfne, hfi3, hfei3⟩, hc, hn, -, heq⟩ :=
    analyze_ready (num_reachable ..) (num_objs (b := .symengine) ..) hneeds hnum
    ⟨Or.inl rfl, trivial⟩ (fun _ _ hx _ => num_val isoV isoS true s d I t p τ ω N hx 100) hdef
  have htau : "tau" ∈ sl.map Prod.fst := (hn "tau").mpr ⟨by simp, by rw [hN]; simp⟩
  have hst' := hst
  simp only [Obj.still, Prod.mk.injEq] at hst'
  obtain ⟨hV, hS, hI, -, -, hq, hpd, hpar⟩ := hst'
  have hpar : o3.params = _ := hpar.trans (num_params isoV isoS true s d I t p τ ω N)
  have hpd : o3.pdef = defaultDefs := hpd
  have hRI : AnaReadyI w3.backend o3.pdef (sl.map Prod.fst) o3 :=
    ⟨AnaReady.of (r3.keeps.any.bsfOK ho3) ht (intQ_still hst) hc,
      ⟨hfi3, hfei3, ⟨fs, by rw [hV, hS, hg]; exact hfs, by rw [hb3]; exact Or.inl (num_backend ..)⟩,
        by rw [hV]; exact ⟨0, isoV_ncoefs⟩, by rw [hS]; exact ⟨0, isoS_ncoefs⟩, Or.inl hfne,
        fun l hl => by rw [hfne] at hl; cases hl⟩, hm, hp0, hg⟩
  obtain ⟨A, w', o', h1, h2, h3, h4, h5, h6, h7, h8⟩ := AnaReadyI.succ (A := ⟨sl, some "tau", none, none⟩) r3 ho3 hRI (by
    rintro k hk
    cases hk
    exact ⟨htau, .tau, .sym "tau", "tau", Or.inl rfl, by rw [hpd]; rfl, by simp [Expr.free], htau⟩)
  have hA := (heq "tau" htau).trans h1
  have hsl := (C64_sliders (num_reachable ..) (num_objs ..) hA).1
  rw [List.filter_cons_of_pos (by simpa using (hN "tau").mpr (by simp)), List.filter_nil] at hsl
  obtain ⟨v, hv, v1, v2⟩ : ∃ v : Slider, A.sliders = [("tau", v)] ∧ v.lo = 0 ∧ v.hi = 1 := by
    generalize A.sliders = l at hsl
    cases hsl with
    | cons a b =>
      cases b
      rename_i q
      obtain ⟨a1, a, b, rest, a2, a3, a4, -⟩ := a
      cases a2
      exact ⟨q.2, by rw [show "tau" = q.1 from a1.symm], a3, a4⟩
  obtain ⟨oa, ob, res, contribs, sv, hU⟩ := update_ok r3 h1
  have hsv : sl = [("tau", v)] := by rw [← hv]; exact h5.symm
  obtain ⟨-, r, -, -, hf⟩ := hU.over
  rw [show oa = o3 from Option.some.inj (hU.before.symm.trans ho3)] at hf
  rw [show ob = o' from Option.some.inj (hU.after.symm.trans h3)] at hf
  have hP : o'.params = [("bsf", Arr.lit 0), ("tau", ⟨[1, 20], fun i => XR.fin (linspace v.lo v.hi 20 (i.getD 1 0))⟩),
      ("omega", arr1 ω), ("NormBRDF", arr1 N)] := by
    rw [hf.params, Fresh.update_eq (by
      rw [Fresh.update_eq (by rw [hpar]; simp [Dict.keys])]
      simp [hpar, hsv, sliderVals, Dict.update, Dict.set, Dict.keys]),
      Fresh.update_eq (by rw [hpar]; simp [Dict.keys])]
    simp [hpar, hsv, sliderVals, rangeVals, Dict.update, Dict.set, arr1]
    rfl
  have hb' := h2.keeps.any.bsfOK h3
  have hfs' : ∀ j, ∀ i < 100, SiteAt (calcOp 0 (overlayValues A.sliders "tau" j) w').2 0 [i, 0]
      (numMonoSite i I (v.lo + (v.hi - v.lo) * j / 19) ω N) := by
    intro j i hi
    obtain ⟨c1, c2⟩ := calcOp_eq h2.inv h3 (overlayValues A.sliders "tau" j)
    obtain ⟨oj, hoj, hfj⟩ := c2.get
    refine SiteAt.of_fsite c2.inv hoj ?_
    rw [c2.backend]
    refine FSite.filled hfj ?_
    have hov : sliderVals (A.sliders.map fun p => (p.1, { p.2 with
        val := if p.1 = "tau" then p.2.lo + (p.2.hi - p.2.lo) * j / 19 else p.2.val })) =
        overlayValues A.sliders "tau" j := by
      simp only [sliderVals, overlayValues, List.map_map]
      rfl
    have hok : ObjOK w3.backend (Fresh.update o' (overlayValues A.sliders "tau" j)) := by
      rw [← h4]
      exact (h2.inv.updated h3 (overlayValues A.sliders "tau" j)).obj rfl _ _ (World.updated_objs ..)
    have hci := h7.completeI hb' (sl := A.sliders.map fun p => (p.1, { p.2 with
      val := if p.1 = "tau" then p.2.lo + (p.2.hi - p.2.lo) * j / 19 else p.2.val })) (by
        rw [List.map_map]; rfl) (by rw [hov]; exact hok)
    rw [hov] at hci
    refine num_mono_fsite (oF := Fresh.update o' (overlayValues A.sliders "tau" j)) _ h7.mono h7.base.t0 h7.p0 (hf.pdef.trans hpd) ((hf.I0).trans hI) ?_ hci.base hi
    rw [Fresh.update_eq hb'.1]
    simp [hP, hv, overlayValues, Dict.update, Dict.set, arr1]
  refine ⟨A, w', hA, h6, fun j hj i hi => ⟨_, hfs' j i hi, ?_⟩, fun i hi => ⟨_, hfs' 0 i hi, ?_⟩⟩
  · show (0 : ℝ) ≤ v.lo + (v.hi - v.lo) * j / 19
    rw [v1, v2]
    positivity
  · show v.lo + (v.hi - v.lo) * ((0 : ℕ) : ℝ) / 19 = 0
    rw [v1, v2]
    simp

end

end RT1
