import Verif.Lemmas.AnalyzeE
import Verif.Props.Arrays

/-!
# The analyzer widgets (C64 - C69)
-/

namespace RT1

noncomputable section
open Classical

/-! ## C64 -/

/-- **C64** (2D): if a symbol of the model has neither a slider nor a value, creating the analyzer
fails with a message that lists exactly these symbols. -/
theorem C64_missing {w : World} (hw : Reachable w) {id : ℕ} {o : Obj} (ho : w.objs id = some o)
    (r : Option String) (ps : List (String × List SliderArg))
    (hm : ∃ n, o.Needs n ∧ n ∉ ps.map Prod.fst ∧ n ∉ o.params.keys) :
    ∃ l, (analyze id r ps w).1 = .error (.assertMissing l) ∧
      ∀ n, n ∈ l ↔ o.Needs n ∧ n ∉ ps.map Prod.fst ∧ n ∉ o.params.keys := by
  obtain ⟨w2, o2, r2, ho2, hst, -, -, -, -, -, -, -, -, -, e1, e2⟩ := analyze_start hw ho
  have hp := params_still hst
  obtain ⟨l, hl, hl'⟩ := checkParams_missing r2 ho2 (names := ps.map Prod.fst)
    (by simpa only [needs_still hst, hp] using hm)
  refine ⟨l, ?_, fun n => by rw [hl' n, needs_still hst, hp]⟩
  unfold analyze
  rw [bind_ok e1, bind_ok e2]
  have : (analyzerSliders id ps w2) = (.error (.assertMissing l), (checkParams id (ps.map Prod.fst) w2).2) := by
    unfold analyzerSliders
    rw [bind_error (Prod.ext hl rfl : checkParams id (ps.map Prod.fst) w2 = (.error (.assertMissing l), _))]
  rw [bind_error this]

/-- The case is met: only tau has a value, omega has a slider; NormBRDF is missing. -/
example (t p : ℝ) : ∃ l, (analyze 0 none [("omega", [.number 0, .number 1])]
    (demoW .sympy isoV isoS false false false (arr1 1) (arr1 t) (arr1 p) [("tau", Arr.lit 1)])).1 =
      .error (.assertMissing l) ∧ "NormBRDF" ∈ l ∧ "tau" ∉ l ∧ "omega" ∉ l := by
  have ho := demo_objs .sympy isoV isoS false false false (arr1 1) (arr1 t) (arr1 p) [("tau", Arr.lit 1)]
  have hn := needs_default (o := demoObj isoV isoS false false false (arr1 1) (arr1 t) (arr1 p) [("tau", Arr.lit 1)])
    rfl isoV_plain isoS_plain
  have hk : (demoObj isoV isoS false false false (arr1 1) (arr1 t) (arr1 p) [("tau", Arr.lit 1)]).params.keys =
      ["bsf", "tau"] := by simp [demoObj, Dict.update, Dict.set, Dict.keys]
  obtain ⟨l, h1, h2⟩ := C64_missing (demo_reachable ..) ho none [("omega", [.number 0, .number 1])]
    ⟨"NormBRDF", (hn _).mpr (by simp), by simp, by rw [hk]; simp⟩
  refine ⟨l, h1, (h2 _).mpr ⟨(hn _).mpr (by simp), by simp, by rw [hk]; simp⟩, fun h => ?_, fun h => ?_⟩
  · have := ((h2 _).mp h).2.2
    rw [hk] at this
    simp at this
  · simpa using ((h2 _).mp h).2.1

/-- **C64** (2D): an analyzer that was created has sliders for exactly those supplied parameters
that the model uses, in the order given, with the given ranges and start values; all other symbols
have a value in the object. -/
theorem C64_sliders {w w' : World} (hw : Reachable w) {id : ℕ} {o : Obj} (ho : w.objs id = some o)
    {r : Option String} {ps : List (String × List SliderArg)} {A : Analyzer}
    (h : analyze id r ps w = (.ok A, w')) :
    List.Forall₂ (fun p q => q.1 = p.1 ∧ SliderFor p.2 q.2)
      (ps.filter fun p => decide (o.Needs p.1)) A.sliders ∧
    (∀ n, o.Needs n → n ∈ A.sliders.map Prod.fst ∨ n ∈ o.params.keys) ∧
    (∀ k, r = some k → k ∈ A.sliders.map Prod.fst) := by
  obtain ⟨w2, o2, r2, ho2, hst, -, -, -, -, -, -, -, -, -, e1, e2⟩ := analyze_start hw ho
  obtain ⟨w1', w2', sl, e1', e2', w3, hsl, -, r3, hrange, hu⟩ := analyze_ok hw h
  rw [e1] at e1'
  cases e1'
  rw [e2] at e2'
  cases e2'
  obtain ⟨h1, l, h2, h3⟩ := analyzerSliders_ok r2 ho2 hsl
  obtain ⟨o3, o', res, contribs, sv, hU⟩ := update_ok r3 hu
  have hs : A.sliders = sl := hU.sliders
  have hf := mkSliders_for h2 h3
  simp only [needs_still hst] at h1 hf
  rw [params_still hst] at h1
  have hnames : ∀ n, n ∈ sl.map Prod.fst ↔ n ∈ ps.map Prod.fst ∧ o.Needs n := by
    intro n
    rw [mkSliders_keys h3, parseParameters_keys h2]
    simp only [needs_still hst, List.mem_map, List.mem_filter, decide_eq_true_eq]
    constructor
    · rintro ⟨p, ⟨hp, hn⟩, rfl⟩; exact ⟨⟨p, hp, rfl⟩, hn⟩
    · rintro ⟨⟨p, hp, rfl⟩, hn⟩; exact ⟨p, ⟨hp, hn⟩, rfl⟩
  rw [hs]
  refine ⟨hf, fun n hn => ?_, fun k hk => ?_⟩
  · rcases h1 n hn with h | h
    · exact Or.inl ((hnames n).mpr ⟨h, hn⟩)
    · exact Or.inr h
  · have := hU.over
    subst hk
    exact this.1

/-- **C64** (2D, partial): if every symbol has a slider with numeric range or a value, all values
can be broadcast to the angles of the widget, and the interaction term is not requested, the
analyzer is created.  Missing: models with interaction term (false for some, see C57), and
definitions of parameters that use an incidence or exit angle as symbol (the check passes and the
evaluation fails). -/
theorem C64_works_partial {w : World} (hw : Reachable w) {id : ℕ} {o : Obj} (ho : w.objs id = some o)
    {ps : List (String × List SliderArg)} (hq : o.intQ = false)
    (hneeds : ∀ n, o.Needs n → n ∈ ps.map Prod.fst ∨ n ∈ o.params.keys)
    (hnum : ∀ p ∈ ps, ∃ a b rest, p.2 = .number a :: .number b :: rest ∧
      (rest = [] ∨ ∃ c r, rest = .number c :: r))
    (hI : Arr.Fits o.I0.shape [100, 1])
    (hpar : ∀ k x, o.params.get? k = some x → k ∉ ps.map Prod.fst ∨ ¬ o.Needs k → Arr.Fits x.shape [100, 1])
    (hdef : ∀ p, match o.pdef p with
      | .val x => Arr.Fits x.shape [100, 1]
      | .str e => ∀ s ∈ e.free, s ∉ ["theta_0", "theta_ex", "phi_0", "phi_ex"]
      | .basic e => e.free = []) :
    ∃ A w', analyze id none ps w = (.ok A, w') := by
  obtain ⟨sl, w3, o3, r3, ho3, -, hst, -, ht, -, hc, -, he, -⟩ := analyze_ready hw ho hneeds hnum hI hpar hdef
  have hq2 : o3.intQ = false := (intQ_still hst).trans hq
  obtain ⟨res, hres, -⟩ := hc.calcAll_three w3.backend (a := analyzeT0) ht rfl hq2
  obtain ⟨A, w', hA⟩ := update_succ r3 ho3 (A := ⟨sl, none, none, none⟩) (res := res) hres
    (fun h => by rw [hq2] at h; cases h) (fun k hk => by cases hk)
  exact ⟨A, w', he.trans hA⟩

/-- **C64** (2D, partial): under the same conditions nothing the user does with the widget afterwards
raises an exception: sliders moved to any values, range parameters selected and deselected in any
order; if a range parameter is selected, some parameter with a slider has to occur in the definition of
tau or bsf (otherwise it fails for some models, see C66). -/
theorem C64_events_partial {w : World} (hw : Reachable w) {id : ℕ} {o : Obj} (ho : w.objs id = some o)
    {ps : List (String × List SliderArg)} (hq : o.intQ = false)
    (hneeds : ∀ n, o.Needs n → n ∈ ps.map Prod.fst ∨ n ∈ o.params.keys)
    (hnum : ∀ p ∈ ps, ∃ a b rest, p.2 = .number a :: .number b :: rest ∧
      (rest = [] ∨ ∃ c r, rest = .number c :: r))
    (hI : Arr.Fits o.I0.shape [100, 1])
    (hpar : ∀ k x, o.params.get? k = some x → k ∉ ps.map Prod.fst ∨ ¬ o.Needs k → Arr.Fits x.shape [100, 1])
    (hdef : ∀ p, match o.pdef p with
      | .val x => Arr.Fits x.shape [100, 1]
      | .str e => ∀ s ∈ e.free, s ∉ ["theta_0", "theta_ex", "phi_0", "phi_ex"]
      | .basic e => e.free = [])
    {r : Option String} {evs : List Event}
    (hsel : ∀ k, r = some k ∨ Event.select (some k) ∈ evs → (k ∈ ps.map Prod.fst ∧ o.Needs k) ∧
      ∃ p e s, (p = PName.tau ∨ p = .bsf) ∧ o.pdef p = .str e ∧ s ∈ e.free ∧ s ∈ ps.map Prod.fst) :
    ∃ A w', (analyze id r ps >>= fun A => evs.foldlM (fun A e => A.event id e) A) w = (.ok A, w') := by
  obtain ⟨sl, w3, o3, r3, ho3, -, hst, -, ht, -, hc, hn, he, heq⟩ := analyze_ready hw ho hneeds hnum hI hpar hdef
  have hq2 : o3.intQ = false := (intQ_still hst).trans hq
  have hR := AnaReady.of (r3.keeps.any.bsfOK ho3) ht hq2 hc
  rw [pdef_still hst] at hR
  have hsel' : ∀ k, r = some k ∨ Event.select (some k) ∈ evs → k ∈ sl.map Prod.fst ∧
      ∃ p e s, (p = PName.tau ∨ p = .bsf) ∧ o.pdef p = .str e ∧ s ∈ e.free ∧ s ∈ sl.map Prod.fst := by
    intro k hk
    obtain ⟨h1, p, e, s, h2, h3, h4, h5⟩ := hsel k hk
    refine ⟨(hn k).mpr h1, p, e, s, h2, h3, h4, (hn s).mpr ⟨h5, Or.inl ⟨p, e, h3, h4⟩, ?_⟩⟩
    have := hdef p
    rw [h3] at this
    exact this s h4
  obtain ⟨A, w', o', h1, h2, h3, h4, h5, h6⟩ := AnaReady.succ (A := ⟨sl, r, none, none⟩) r3 ho3 hR
    fun k hk => hsel' k (Or.inl hk)
  obtain ⟨A', w'', h7⟩ := AnaReady.events (id := id) (evs := evs) (fun k hk => hsel' k (Or.inr hk)) h2 h3 h6
    (by rw [h4]) (by rw [h5]; exact fun k hk => hsel' k (Or.inl hk))
  refine ⟨A', w'', ?_⟩
  rw [bind_ok (a := A) (w' := w')]
  · exact h7
  · cases r with
    | none => exact he.trans h1
    | some k => exact (heq k (hsel' k (Or.inl rfl)).1).trans h1

/-- The case is met by numbers for all parameters. -/
theorem num_works (b : Backend) (s d : Bool) (I t p τ ω N : ℝ) {ps : List (String × List SliderArg)}
    (hnum : ∀ p ∈ ps, ∃ a b rest, p.2 = .number a :: .number b :: rest ∧
      (rest = [] ∨ ∃ c r, rest = .number c :: r)) :
    ∃ A w', analyze 0 none ps (numW b isoV isoS false s d I t p τ ω N) = (.ok A, w') :=
  C64_works_partial (num_reachable ..) (num_objs ..) rfl
    (fun n h => by
      rw [num_needs isoV isoS false s d I t p τ ω N isoV_plain isoS_plain] at h
      rw [num_keys]
      rcases h with rfl | rfl | rfl | rfl <;> simp)
    hnum ⟨Or.inl rfl, trivial⟩ (fun _ _ hx _ => num_val isoV isoS false s d I t p τ ω N hx 100)
    (fun p => by
      rw [num_pdef]
      cases p <;> simp [defaultDefs, Expr.free])

/-- Moving sliders and selecting range parameters, for numbers as parameters. -/
theorem num_events (b : Backend) (s d : Bool) (I t p τ ω N : ℝ) {r : Option String} {evs : List Event}
    (hsel : ∀ k, r = some k ∨ Event.select (some k) ∈ evs → k = "tau" ∨ k = "omega") :
    ∃ A w', (analyze 0 r [("tau", [.number 0, .number 1]), ("omega", [.number 0, .number 1])] >>= fun A =>
      evs.foldlM (fun A e => A.event 0 e) A) (numW b isoV isoS false s d I t p τ ω N) = (.ok A, w') :=
  C64_events_partial (num_reachable ..) (num_objs ..) rfl
    (fun n h => by
      rw [num_needs isoV isoS false s d I t p τ ω N isoV_plain isoS_plain] at h
      rw [num_keys]
      rcases h with rfl | rfl | rfl | rfl <;> simp)
    (by
      intro p hp
      simp only [List.mem_cons, List.not_mem_nil, or_false] at hp
      rcases hp with rfl | rfl <;> exact ⟨0, 1, _, rfl, Or.inl rfl⟩)
    ⟨Or.inl rfl, trivial⟩ (fun _ _ hx _ => num_val isoV isoS false s d I t p τ ω N hx 100)
    (fun p => by
      rw [num_pdef]
      cases p <;> simp [defaultDefs, Expr.free])
    (fun k hk => by
      rw [num_needs isoV isoS false s d I t p τ ω N isoV_plain isoS_plain]
      refine ⟨?_, .tau, .sym "tau", "tau", Or.inl rfl, rfl, by simp [Expr.free], by simp⟩
      rcases hsel k hk with rfl | rfl <;> simp)

/-- Sliders for tau (start value 1/4) and for a name that the model does not use: there is one
slider, at 1/4. -/
theorem num_one (b : Backend) (s d : Bool) (I t p τ ω N : ℝ) : ∃ A w' sl,
    analyze 0 none [("tau", [.number 0, .number 1, .number (1 / 4)]), ("x", [.number 0, .number 1])]
      (numW b isoV isoS false s d I t p τ ω N) = (.ok A, w') ∧
    A.sliders = [("tau", sl)] ∧ sl.lo = 0 ∧ sl.hi = 1 ∧ sl.val = 1 / 4 := by
  obtain ⟨A, w', h⟩ := num_works b s d I t p τ ω N
    (ps := [("tau", [.number 0, .number 1, .number (1 / 4)]), ("x", [.number 0, .number 1])]) (by
      intro p hp
      simp only [List.mem_cons, List.not_mem_nil, or_false] at hp
      rcases hp with rfl | rfl
      · exact ⟨0, 1, _, rfl, Or.inr ⟨_, _, rfl⟩⟩
      · exact ⟨0, 1, _, rfl, Or.inl rfl⟩)
  have hs := (C64_sliders (num_reachable ..) (num_objs ..) h).1
  simp only [num_needs isoV isoS false s d I t p τ ω N isoV_plain isoS_plain] at hs
  have e : ([("tau", [.number 0, .number 1, .number (1 / 4)]), ("x", [.number 0, .number 1])] :
      List (String × List SliderArg)).filter
      (fun p => decide (p.1 = "tau" ∨ p.1 = "omega" ∨ p.1 = "NormBRDF" ∨ p.1 = "bsf")) =
      [("tau", [.number 0, .number 1, .number (1 / 4)])] := by
    simp
  rw [e] at hs
  generalize hA : A.sliders = l at hs
  cases hs with
  | cons h1 h2 =>
    cases h2
    rename_i q
    obtain ⟨n, sl⟩ := q
    obtain ⟨rfl, a, c, rest, e1, e2, e3, -, e5⟩ := h1
    simp only [List.cons.injEq, SliderArg.number.injEq] at e1
    obtain ⟨rfl, rfl, rfl⟩ := e1
    exact ⟨A, w', sl, h, hA, e2, e3, e5 _ _ rfl (by norm_num) (by norm_num)⟩

/-- **C64** (2D, partial), with interaction term: in addition, no expansion coefficients were
supplied, they can be computed, and the backend is symengine or some coefficient depends on an angle
or a parameter (otherwise `calc` fails for this number of axes, see C57). -/
theorem C64_works_interaction_partial {w : World} (hw : Reachable w) {id : ℕ} {o : Obj}
    (ho : w.objs id = some o) {ps : List (String × List SliderArg)} (hq : o.intQ = true)
    (hneeds : ∀ n, o.Needs n → n ∈ ps.map Prod.fst ∨ n ∈ o.params.keys)
    (hnum : ∀ p ∈ ps, ∃ a b rest, p.2 = .number a :: .number b :: rest ∧
      (rest = [] ∨ ∃ c r, rest = .number c :: r))
    (hI : Arr.Fits o.I0.shape [100, 1])
    (hpar : ∀ k x, o.params.get? k = some x → k ∉ ps.map Prod.fst ∨ ¬ o.Needs k → Arr.Fits x.shape [100, 1])
    (hdef : ∀ p, match o.pdef p with
      | .val x => Arr.Fits x.shape [100, 1]
      | .str e => ∀ s ∈ e.free, s ∉ ["theta_0", "theta_ex", "phi_0", "phi_ex"]
      | .basic e => e.free = [])
    (hfi : o.fnInput = none) (hfei : o.fnevalsInput = none)
    (hnV : ∃ n, o.V.ncoefs = .ok (n + 1)) (hnS : ∃ n, o.SRF.ncoefs = .ok (n + 1)) {fs : List P}
    (hfn : fnCoefs o.V o.SRF ⟨.sym "theta_0", .sym "theta_0", .num 0, .num 0⟩ = .ok fs)
    (hcst : w.backend = .symengine ∨ ∃ p ∈ fs, ¬ isConstFn p) :
    ∃ A w', analyze id none ps w = (.ok A, w') := by
  obtain ⟨sl, w3, o3, r3, ho3, hb3, hst, hm, ht, ⟨hp0, hg, hfne, hfi3, hfei3⟩, hc, -, he, -⟩ :=
    analyze_ready hw ho hneeds hnum hI hpar hdef
  have hq2 : o3.intQ = true := (intQ_still hst).trans hq
  have hb := (r3.keeps.any.bsfOK ho3).update (sliderVals sl)
  have hV : o3.V = o.V := by simp only [Obj.still, Prod.mk.injEq] at hst; exact hst.1
  have hS : o3.SRF = o.SRF := by simp only [Obj.still, Prod.mk.injEq] at hst; exact hst.2.1
  have hok : ObjOK w3.backend (Fresh.update o3 (sliderVals sl)) :=
    (r3.inv.updated ho3 (sliderVals sl)).obj rfl _ _ (World.updated_objs ..)
  have hci := ready_interaction (b := w3.backend) (fs := fs) hc hb hok ht hm hp0 hq2 (hfi3.trans hfi)
    (hfei3.trans hfei) (fun l hl => by
      have : o3.fnevals_ = some l := hl
      rw [hfne] at this; cases this)
    (show fnCoefs o3.V o3.SRF o3.geom = _ by rw [hV, hS, hg, hfn]) (by rw [hb3]; exact hcst)
    (show ∃ n, o3.V.ncoefs = _ by rw [hV]; exact hnV) (show ∃ n, o3.SRF.ncoefs = _ by rw [hS]; exact hnS)
  obtain ⟨res, hres, -⟩ := hci.calcAll (a := analyzeT0) ht rfl
  obtain ⟨A, w', hA⟩ := update_succ r3 ho3 (A := ⟨sl, none, none, none⟩) (res := res) hres
    (fun _ => hc.surfaceVolume w3.backend) (fun k hk => by cases hk)
  exact ⟨A, w', he.trans hA⟩

/-- The case is met by isotropic scattering and symengine. -/
theorem num_works_int (s d : Bool) (I t p τ ω N : ℝ) {ps : List (String × List SliderArg)}
    (hnum : ∀ p ∈ ps, ∃ a b rest, p.2 = .number a :: .number b :: rest ∧
      (rest = [] ∨ ∃ c r, rest = .number c :: r)) :
    ∃ A w', analyze 0 none ps (numW .symengine isoV isoS true s d I t p τ ω N) = (.ok A, w') := by
  obtain ⟨fs, hfs⟩ := iso_fnCoefs ⟨.sym "theta_0", .sym "theta_0", .num 0, .num 0⟩
  exact C64_works_interaction_partial (num_reachable ..) (num_objs ..) rfl
    (fun n h => by
      rw [num_needs isoV isoS true s d I t p τ ω N isoV_plain isoS_plain] at h
      rw [num_keys]
      rcases h with rfl | rfl | rfl | rfl <;> simp)
    hnum ⟨Or.inl rfl, trivial⟩ (fun _ _ hx _ => num_val isoV isoS true s d I t p τ ω N hx 100)
    (fun p => by
      rw [num_pdef]
      cases p <;> simp [defaultDefs, Expr.free])
    rfl rfl ⟨0, isoV_ncoefs⟩ ⟨0, isoS_ncoefs⟩ hfs (Or.inl (num_backend ..))

/-! ## C65 -/

/-- **C65** (partial): whatever was done before with the analyzer and with the object - except
assigning `int_Q` -, the lines just drawn are the rows of `calc()` for the values of the sliders,
and each label stands at its row.  Missing: `int_Q` assigned while the analyzer is open (false, see
below). -/
theorem C65_lines_partial {id : ℕ} {w : World} {A : Analyzer}
    (h : Drawn (fun op => ∀ b, op ≠ .setIntQ id b) id w A) :
    ∃ o lines res, w.objs id = some o ∧ A.lines = some lines ∧
      (calcOp id (A.sliders.map fun p => (p.1, Arr.lit p.2.val)) w).1 = .ok res ∧
      lines.map Prod.fst = labelsFor o.intQ ∧
      ∀ label k line, LabelRow label k → (some label, line) ∈ lines → IsRow line res k := by
  have hw' := h.session.reachable
  obtain ⟨w0, A0, o, o', res, contribs, sv, hw, hU, hl⟩ := h.updated fun _ h => h
  obtain ⟨S, s1, s2, s3, s4⟩ := hU.shape
  refine ⟨o', _, res, hU.after, hl, ?_, ?_, ?_⟩
  · show (calcOp id (sliderVals A.sliders) w).1 = _
    rw [(calcOp_eq hw'.inv hU.after _).1, hU.backend, fresh_calc_filled (hU.again hw), hU.calc_]
  · rw [drawnLines_labels, hU.intQ]
  · intro label k line hk hm
    obtain ⟨h1, rfl⟩ := mem_drawnLines hk hm
    rw [← s2] at h1
    refine s3 k _ ?_
    rw [List.getD_eq_getElem?_getD, List.getElem?_eq_getElem h1]
    rfl

/-- The case is met: a model with interaction term has five lines, and the one labelled "Volume" shows
row 2. -/
theorem num_drawn_int (s d : Bool) (I t p τ ω N : ℝ) : ∃ w A o lines res,
    Drawn (fun op => ∀ b, op ≠ .setIntQ 0 b) 0 w A ∧ w.objs 0 = some o ∧ A.lines = some lines ∧
    lines.map Prod.fst = [some "Total", some "Surface", some "Volume", some "Interaction", none] ∧
    (calcOp 0 (A.sliders.map fun p => (p.1, Arr.lit p.2.val)) w).1 = .ok res ∧
    ∃ line, (some "Volume", line) ∈ lines ∧ IsRow line res 2 := by
  obtain ⟨A, w', h⟩ := num_works_int s d I t p τ ω N (ps := [("omega", [.number 0, .number 1])]) (by
    intro p hp
    rw [List.mem_singleton.mp hp]
    exact ⟨0, 1, [], rfl, Or.inl rfl⟩)
  have hD : Drawn (fun op => ∀ b, op ≠ .setIntQ 0 b) 0 w' A := .start (num_reachable ..) h
  obtain ⟨o', h1, h2, -⟩ := (Runs.analyze 0 none [("omega", [.number 0, .number 1])]).flags
    (num_reachable .symengine isoV isoS true s d I t p τ ω N) (num_objs ..)
  rw [h] at h1
  obtain ⟨o'', lines, res, e1, e2, e3, e4, e5⟩ := C65_lines_partial hD
  rw [h1] at e1
  cases e1
  have hq : o'.intQ = true := h2.trans rfl
  rw [hq] at e4
  refine ⟨w', A, o', lines, res, hD, h1, e2, e4, e3, ?_⟩
  have : some "Volume" ∈ lines.map Prod.fst := by rw [e4]; simp [labelsFor]
  obtain ⟨⟨l, line⟩, hm, rfl⟩ := List.mem_map.mp this
  exact ⟨line, hm, e5 _ _ _ .volume hm⟩

/-- **C65** (partial): the dashed line is the sum of `surface()` and `volume()` for the values of
the sliders, in the units of the object, wherever both are real numbers (in decibel the
contributions are not added, their linear values are). -/
theorem C65_dashed_partial {id : ℕ} {w : World} {A : Analyzer}
    (h : Drawn (fun op => ∀ b, op ≠ .setIntQ id b) id w A) {lines : List (Option String × Arr)}
    (hl : A.lines = some lines) {line : Arr} (hm : (none, line) ∈ lines) :
    ∃ o s v S, w.objs id = some o ∧ o.intQ = true ∧
      (surface id (A.sliders.map fun p => (p.1, Arr.lit p.2.val)) w).1 = .ok s ∧
      (volume id (A.sliders.map fun p => (p.1, Arr.lit p.2.val)) w).1 = .ok v ∧
      Arr.bshape s.shape v.shape = some S ∧ line.shape = S.filter (fun m => decide (m ≠ 1)) ∧
      ∀ idx x y, Arr.Valid S idx → s.at' idx = XR.fin x → v.at' idx = XR.fin y →
        line.get (dropOnes S idx) = XR.fin (unitSum o.dB x y) := by
  have hw' := h.session.reachable
  obtain ⟨w0, A0, o, o', res, contribs, sv, hw, hU, hl'⟩ := h.updated fun _ h => h
  rw [hl] at hl'
  cases hl'
  obtain ⟨hq, rfl⟩ := mem_dashed hm
  have := hU.dashed
  rw [if_pos hq] at this
  obtain ⟨y, hy, rfl⟩ := this
  obtain ⟨s, v, h1, h2, h3, h4⟩ := surfaceVolume_sum hy
  have hf := hU.again hw
  have hb := hU.backend
  refine ⟨o', s, v, y.shape, hU.after, hU.intQ.trans hq, ?_, ?_, h3, rfl, ?_⟩
  · show (surface id (sliderVals A.sliders) w).1 = _
    rw [(surface_eq hw'.keeps.inv hU.after _).1, hb, ← h1]
    unfold Fresh.surface; rw [hf.acc0]
  · show (volume id (sliderVals A.sliders) w).1 = _
    rw [(volume_eq hw'.keeps.inv hU.after _).1, hb, ← h2]
    unfold Fresh.volume; rw [hf.acc0]
  · intro idx a b hi ha hb
    have hd : o'.dB = (Fresh.update o (sliderVals A0.sliders)).dB := hf.dB
    rw [hd, ← h4 idx a b hi ha hb]
    exact squeeze_get hi

/-- The case is met: a model with interaction term has a dashed line. -/
example (s d : Bool) (I t p τ ω N : ℝ) : ∃ w A lines line,
    Drawn (fun op => ∀ b, op ≠ .setIntQ 0 b) 0 w A ∧ A.lines = some lines ∧ (none, line) ∈ lines := by
  obtain ⟨w, A, o, lines, res, h1, -, h2, h3, -⟩ := num_drawn_int s d I t p τ ω N
  have : none ∈ lines.map Prod.fst := by rw [h3]; simp
  obtain ⟨⟨l, line⟩, hm, rfl⟩ := List.mem_map.mp this
  exact ⟨w, A, lines, line, h1, h2, hm⟩

/-- C65 is false if `int_Q` is switched on while the analyzer is open: the line labelled "Volume" then
shows surface + volume (the values meant for the dashed line), and no line shows the interaction
term. -/
theorem C65_switch_counterexample (t p τ ω : ℝ) {I N : ℝ} (hI : I ≠ 0) (hN : N ≠ 0) :
    ∃ w A o lines line, (∃ w0 w1 A0, analyze 0 none [("omega", [.number 0, .number 1])]
        (numW .symengine isoV isoS false false false I t p τ ω N) = (.ok A0, w0) ∧
        step (.setIntQ 0 true) w0 = (.ok (), w1) ∧ A0.event 0 (.select none) w1 = (.ok A, w)) ∧
      w.objs 0 = some o ∧ o.intQ = true ∧ A.lines = some lines ∧
      lines.map Prod.fst = [some "Total", some "Surface", some "Volume"] ∧ (some "Volume", line) ∈ lines ∧
      ∀ res, (calcOp 0 (A.sliders.map fun p => (p.1, Arr.lit p.2.val)) w).1 = .ok res → ¬ IsRow line res 2 :=
  switch_on (num_reachable ..) (num_objs ..) (num_backend ..)
    (num_needs isoV isoS false false false I t p τ ω N isoV_plain isoS_plain) hI hN (num_params ..)
    rfl rfl rfl rfl rfl rfl rfl rfl rfl

/-! ## C69 -/

/-- **C69** (2D): creating an analyzer - whether it succeeds or not - leaves scattering functions,
intensity, units, `int_Q`, definitions and the values of all parameters but those with a slider, and
all other objects. -/
theorem C69_analyze {w : World} (hw : Reachable w) {id : ℕ} {o : Obj} (ho : w.objs id = some o)
    (r : Option String) (ps : List (String × List SliderArg)) :
    ∃ o', (analyze id r ps w).2.objs id = some o' ∧ SameBut (ps.map Prod.fst) o o' ∧ o'.dB = o.dB ∧
      (∀ j, j ≠ id → (analyze id r ps w).2.objs j = w.objs j) ∧
      (analyze id r ps w).2.backend = w.backend := by
  have h := Runs.analyze id r ps
  obtain ⟨o', h1, h2, h3⟩ := (h.mono fun _ h => h.toAna).rest hw ho
  obtain ⟨o'', h1', h4, h5⟩ := h.flags hw ho
  rw [h1] at h1'
  cases h1'
  exact ⟨o', h1, ⟨h2.V, h2.SRF, h2.I0, h2.sig0, h2.pdef, h4, h2.params⟩, h5, h3.objs, h3.backend⟩

/-- The case is met, also by models whose analyzer cannot be created. -/
example (b : Backend) (V S : Scatter) (q s d : Bool) (I t p τ ω N : ℝ) (r : Option String)
    (ps : List (String × List SliderArg)) :
    ∃ o', (analyze 0 r ps (numW b V S q s d I t p τ ω N)).2.objs 0 = some o' ∧ o'.dB = d ∧ o'.intQ = q ∧
      ("NormBRDF" ∉ ps.map Prod.fst → o'.params.get? "NormBRDF" = some (arr1 N)) := by
  obtain ⟨o', h1, h2, h3, -⟩ := C69_analyze (num_reachable b V S q s d I t p τ ω N) (num_objs ..) r ps
  refine ⟨o', h1, h3, h2.intQ, fun h => ?_⟩
  rw [h2.params _ h, num_params]
  simp [Dict.get?]

/-- **C69** (2D): so does every event; the geometry is left as well. -/
theorem C69_event {w : World} (hw : Reachable w) {id : ℕ} {o : Obj} (ho : w.objs id = some o)
    (A : Analyzer) (e : Event) :
    ∃ o', (A.event id e w).2.objs id = some o' ∧ SameBut (A.sliders.map Prod.fst) o o' ∧ o'.dB = o.dB ∧
      o'.mono = o.mono ∧ o'.fixed = o.fixed ∧ o'.ang = o.ang ∧ o'.geom = o.geom ∧
      (∀ j, j ≠ id → (A.event id e w).2.objs j = w.objs j) ∧
      (A.event id e w).2.backend = w.backend := by
  have h := event_runs id A e
  rw [apply_names] at h
  have hu : Runs (UpdOp id ((A.apply e).sliders.map Prod.fst)) (A.event id e) := Runs.update fun _ h => h
  obtain ⟨o', h1, h2, h3⟩ := (h.mono fun _ h => h.toAna).rest hw ho
  obtain ⟨o'', h1', h4, h5⟩ := h.flags hw ho
  rw [h1] at h1'
  cases h1'
  obtain ⟨o'', h1', h6⟩ := hu.geomAttrs hw ho
  rw [h1] at h1'
  cases h1'
  simp only [Obj.geomAttrs, Prod.mk.injEq] at h6
  exact ⟨o', h1, ⟨h2.V, h2.SRF, h2.I0, h2.sig0, h2.pdef, h4, h2.params⟩, h5, h6.2.1, h6.1, h6.2.2.1, h6.2.2.2,
    h3.objs, h3.backend⟩

/-- The case is met, for any widget. -/
example (b : Backend) (V S : Scatter) (q s d : Bool) (I t p τ ω N : ℝ) (A : Analyzer) (e : Event)
    (h : "NormBRDF" ∉ A.sliders.map Prod.fst) :
    ∃ o', (A.event 0 e (numW b V S q s d I t p τ ω N)).2.objs 0 = some o' ∧
      o'.params.get? "NormBRDF" = some (arr1 N) ∧ o'.ang .t0 = some (arr1 t) := by
  obtain ⟨o', h1, h2, -, -, -, h3, -⟩ := C69_event (num_reachable b V S q s d I t p τ ω N) (num_objs ..) A e
  refine ⟨o', h1, ?_, by rw [h3]; rfl⟩
  rw [h2.params _ h, num_params]
  simp [Dict.get?]

/-- **C69** (2D): after creation the object is monostatic with the azimuth angle fixed at 0 and
100 incidence angles between 10 and 80 degrees. -/
theorem C69_geometry {w w' : World} (hw : Reachable w) {id : ℕ} {r : Option String}
    {ps : List (String × List SliderArg)} {A : Analyzer} (h : analyze id r ps w = (.ok A, w')) :
    ∃ o' t p, w'.objs id = some o' ∧ o'.mono = true ∧ o'.ang .t0 = some t ∧ o'.ang .p0 = some p ∧
      t.shape = [100, 1] ∧ (∀ k < 100, t.get [k, 0] = XR.fin ((10 + 70 * k / 99) * Real.pi / 180)) ∧
      p.shape = [1] ∧ p.get [0] = XR.fin 0 := by
  cases ho : w.objs id with
  | none =>
    obtain ⟨w1, w2, sl, h1, h2, w3, -⟩ := analyze_ok hw h
    exfalso
    have e : w1.objs id = none := by
      have := frame_step (op := .setMonostatic id (some (.number 0))) rfl (fun h => h) w w (FrameP.refl w id)
      have := this.ex
      rw [show (step (.setMonostatic id (some (.number 0))) w).2 = (setMonostatic id (some (.number 0)) w).2 from rfl, h1,
        ho] at this
      simpa using this
    have : (setGeometry id [("t_0", some analyzeT0)] w1).1 ≠ .ok () := by
      unfold setGeometry
      rw [if_neg (by simp [AngN.ofName]), bind_error (show getObj id w1 = (.error .attributeError, w1) by
        unfold getObj; rw [e])]
      simp
    rw [h2] at this
    exact this rfl
  | some o =>
  obtain ⟨w2, o2, r2, ho2, hst, hb2, hmono, ht, hp0, -, -, -, -, -, e1, e2⟩ := analyze_start hw ho
  obtain ⟨w1', w2', sl, e1', e2', w3, hsl, -, r3, hrange, hu⟩ := analyze_ok hw h
  rw [e1] at e1'
  cases e1'
  rw [e2] at e2'
  cases e2'
  obtain ⟨o3, h3, g3⟩ := (Runs.sliders (P := UpdOp id []) (id := id) (ps := ps) (.check _)).geomAttrs r2 ho2
  rw [hsl] at h3
  obtain ⟨o4, h4, g4⟩ := (Runs.update (id := id) (A := ⟨sl, r, none, none⟩) fun _ h => h).geomAttrs r3 h3
  rw [hu] at h4
  rw [g3] at g4
  simp only [Obj.geomAttrs, Prod.mk.injEq] at g4
  refine ⟨o4, analyzeT0, arr1 0, h4, g4.2.1.trans hmono, by rw [g4.2.2.1, ht], by rw [g4.2.2.1, hp0], rfl, ?_,
    rfl, rfl⟩
  intro k hk
  show XR.fin (deg2rad (linspace 10 80 100 k)) = _
  congr 1
  unfold deg2rad linspace
  push_cast
  ring

/-- The case is met. -/
example (b : Backend) (s d : Bool) (I t p τ ω N : ℝ) : ∃ A w',
    analyze 0 none [("tau", [.number 0, .number 1, .number (1 / 4)]), ("x", [.number 0, .number 1])]
      (numW b isoV isoS false s d I t p τ ω N) = (.ok A, w') ∧
    ∃ o' t, w'.objs 0 = some o' ∧ o'.mono = true ∧ o'.ang .t0 = some t ∧ t.get [99, 0] = XR.fin (80 * Real.pi / 180) := by
  obtain ⟨A, w', sl, h, -⟩ := num_one b s d I t p τ ω N
  obtain ⟨o', t', p', h1, h2, h3, -, -, h4, -⟩ := C69_geometry (num_reachable ..) h
  refine ⟨A, w', h, o', t', h1, h2, h3, ?_⟩
  rw [h4 99 (by omega)]
  congr 1
  push_cast
  ring

/-- **C69** (3D): creating a 3D analyzer - whether it succeeds or not - leaves scattering functions,
intensity, `sig0`, `int_Q`, definitions, all parameters without slider, and all other objects; it
switches decibel off. -/
theorem C69_analyze3d {w : World} (hw : Reachable w) {id : ℕ} {o : Obj} (ho : w.objs id = some o)
    (n : ℕ) (cs : List Char) (ps : List (String × List SliderArg)) :
    ∃ o', (analyze3d id n cs ps w).2.objs id = some o' ∧ SameBut (ps.map Prod.fst) o o' ∧ o'.dB = false ∧
      (∀ j, j ≠ id → (analyze3d id n cs ps w).2.objs j = w.objs j) ∧
      (analyze3d id n cs ps w).2.backend = w.backend := by
  obtain ⟨o', h1, h2, h3⟩ := (Runs.analyze3d id n cs ps).rest hw ho
  refine ⟨o', h1, ?_⟩
  have key : o'.intQ = o.intQ ∧ o'.dB = false := by
    set w1 := ((modObj id fun o => { o with dB := false }) w).2 with hw1
    have r1 : Reachable w1 := hw.step (op := .setDB id false) trivial
    have o1 : w1.objs id = some { o with dB := false } := modObj_get ho _
    have hQ : Quiet id (do
        clearAll
        let _ ← liftPy (useContribs cs)
        setBistatic id none none (some (.number 0)) none
        setGeometry id [("t_0", some (fullLike (analyze3dTex n) (deg2rad 45))),
          ("t_ex", some (analyze3dTex n)), ("p_ex", some (analyze3dPex n))]
        let sl ← analyzerSliders id ps
        Analyzer3D.first id ⟨sl, 45, cs, []⟩ : M Analyzer3D) := by
      refine Quiet.bind (Quiet.call (op := .clearCaches id) (keys := []) .clear (fun _ => ⟨rfl, rfl⟩) fun _ => rfl)
        fun _ => Quiet.bind (Quiet.lift _) fun _ => Quiet.bind (Quiet.bi id) fun _ =>
        Quiet.bind (Quiet.geom id _) fun _ => Quiet.bind (Quiet.sliders id ps) fun _ => Quiet.first3d id _
    obtain ⟨-, o2, ho2, q2, d2⟩ := hQ w1 r1 _ o1
    have e : analyze3d id n cs ps w = _ := bind_ok (show (modObj id fun o => { o with dB := false }) w = (.ok (), w1) from rfl)
    rw [e] at h1
    rw [ho2] at h1
    cases h1
    exact ⟨q2, d2⟩
  exact ⟨⟨h2.V, h2.SRF, h2.I0, h2.sig0, h2.pdef, key.1, h2.params⟩, key.2, h3.objs, h3.backend⟩

/-- The case is met, for any number of samples and any letters. -/
example (b : Backend) (V S : Scatter) (q s d : Bool) (I t p τ ω N : ℝ) (n : ℕ) (cs : List Char) :
    ∃ o', (analyze3d 0 n cs [("tau", [.number 0, .number 1])] (numW b V S q s d I t p τ ω N)).2.objs 0 = some o' ∧
      o'.dB = false ∧ o'.intQ = q ∧ o'.params.get? "omega" = some (arr1 ω) := by
  obtain ⟨o', h1, h2, h3, -⟩ := C69_analyze3d (num_reachable b V S q s d I t p τ ω N) (num_objs ..) n cs
    [("tau", [.number 0, .number 1])]
  refine ⟨o', h1, h3, h2.intQ, ?_⟩
  rw [h2.params _ (by simp), num_params]
  simp [Dict.get?]

/-- **C69** (3D): moving a slider of the 3D analyzer, whether it succeeds or not. -/
theorem C69_slide3d {w : World} (hw : Reachable w) {id : ℕ} {o : Obj} (ho : w.objs id = some o)
    (A : Analyzer3D) (key : String) (v : ℝ) :
    ∃ o', (A.slide id key v w).2.objs id = some o' ∧ SameBut (A.sliders.map Prod.fst) o o' ∧ o'.dB = o.dB ∧
      (∀ j, j ≠ id → (A.slide id key v w).2.objs j = w.objs j) ∧
      (A.slide id key v w).2.backend = w.backend := by
  have hn : ∀ k ∈ (if key = "inc" then { A with inc := v } else
      { A with sliders := A.sliders.map fun p => if p.1 = key then (p.1, { p.2 with val := v }) else p }
        : Analyzer3D).sliders.map Prod.fst, k ∈ A.sliders.map Prod.fst := by
    intro k hk
    split_ifs at hk with h
    · exact hk
    · rw [List.map_map] at hk
      rw [show A.sliders.map Prod.fst = A.sliders.map (Prod.fst ∘ fun p => if p.1 = key then (p.1, { p.2 with val := v }) else p) from
        List.map_congr_left fun p _ => by simp only [Function.comp]; split_ifs <;> rfl]
      exact hk
  obtain ⟨o', h1, h2, h3⟩ := (Runs.update3d (id := id) hn).rest hw ho
  obtain ⟨-, o2, ho2, q2, d2⟩ := Quiet.update3d id _ w hw o ho
  rw [h1] at ho2
  cases ho2
  exact ⟨o', h1, ⟨h2.V, h2.SRF, h2.I0, h2.sig0, h2.pdef, q2, h2.params⟩, d2, h3.objs, h3.backend⟩

/-- The case is met, for any widget. -/
example (b : Backend) (V S : Scatter) (q s d : Bool) (I t p τ ω N : ℝ) (A : Analyzer3D) (key : String) (v : ℝ)
    (h : "omega" ∉ A.sliders.map Prod.fst) :
    ∃ o', (A.slide 0 key v (numW b V S q s d I t p τ ω N)).2.objs 0 = some o' ∧
      o'.params.get? "omega" = some (arr1 ω) ∧ o'.dB = d := by
  obtain ⟨o', h1, h2, h3, -⟩ := C69_slide3d (num_reachable b V S q s d I t p τ ω N) (num_objs ..) A key v
  refine ⟨o', h1, ?_, h3⟩
  rw [h2.params _ h, num_params]
  simp [Dict.get?]

end

end RT1
