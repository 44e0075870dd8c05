import Verif.Props.Figure3D
import Verif.Props.Contrib
import Verif.Props.AnalyzeInt

/-!
# What the analyzers show is the documented model (C97)
-/

namespace RT1

noncomputable section
open Classical

/-- The documented contribution (linear intensity) of row `k`, without interaction term. -/
def Site.documented (x : Site) (f p : ℝ) : ℕ → ℝ
  | 0 => x.surface f + x.volume p
  | 1 => x.surface f
  | _ => x.volume p

theorem row_documented {w w3 : World} (hw : Reachable w) {id : ℕ} {kw : Dict} {res : Arr} {o : Obj}
    (h : calcOp id kw w = (.ok res, w3)) (ho : w3.objs id = some o) {S : List ℕ} {m k : ℕ} (hS : res.shape = S ++ [m])
    (hm : 3 ≤ m) (hk : k < 3) (hq : k = 0 → o.intQ = false) {idx : List ℕ} (hv : Arr.Valid S idx) {x : Site}
    (hx : SiteAt w3 id idx x) (hr : x.Regular o.sig0) (ht : 0 ≤ x.tau) {f p : ℝ} (hf : o.SRF.ValueAt x f)
    (hp : o.V.ValueAt x p) : res.get (idx ++ [k]) = x.inUnits o.sig0 o.dB (x.documented f p k) := by
  have hO : ObservesRow k o.cfg x (res.get (idx ++ [k])) :=
    ⟨w, id, kw, res, w3, idx, hw, h, by rw [hS]; exact Arr.valid_append_iff.mpr ⟨hv, by omega⟩, rfl, hx, o, ho, rfl⟩
  rcases k with _ | _ | _ | k
  · exact hO.total_val (hq rfl) hf hp hr ht
  · exact hO.surface_val hf hr.mu0 hr.muEx hr.I0
  · exact hO.volume_val hp hr ht
  · omega

/-- **C97** (2D; for the interaction row and the total with interaction term see `C97_lines_interaction_partial`): after every event (moved slider, selected range parameter) the lines of the analyzer hold the
documented values: where the getters report the values `x` after evaluating the model for the
sliders, the line labelled Surface (Volume) has the documented surface (volume) contribution in
the units of the object, and the line labelled Total their sum if there is no interaction term. -/
theorem C97_lines_partial {id : ℕ} {w : World} {A : Analyzer} (h : Drawn (fun op => ∀ b, op ≠ .setIntQ id b) id w A) :
    ∃ lines res w3 o S m, A.lines = some lines ∧
      calcOp id (A.sliders.map fun p => (p.1, Arr.lit p.2.val)) w = (.ok res, w3) ∧ w3.objs id = some o ∧
      res.shape = S ++ [m] ∧ ∀ idx x f p, Arr.Valid S idx → SiteAt w3 id idx x → x.Regular o.sig0 → 0 ≤ x.tau →
        o.SRF.ValueAt x f → o.V.ValueAt x p → ∀ label k line, LabelRow label k → k < 3 → (k = 0 → o.intQ = false) →
        (some label, line) ∈ lines → line.get (dropOnes S idx) = x.inUnits o.sig0 o.dB (x.documented f p k) := by
  have hw := h.session.reachable
  obtain ⟨o', lines, res, ho', hl, hc, hlab, hrow⟩ := C65_lines_partial h
  obtain ⟨w3, h3⟩ : ∃ w3, calcOp id (A.sliders.map fun p => (p.1, Arr.lit p.2.val)) w = (.ok res, w3) :=
    ⟨_, Prod.ext hc rfl⟩
  obtain ⟨o0, o, hok⟩ := calc_callOK hw h3
  obtain ⟨Is, Iv, Ii, hp⟩ := calc_parts hok.ok
  have hS := hp.rows.1
  have hn : 3 ≤ nrows (Fresh.update o0 (A.sliders.map fun p => (p.1, Arr.lit p.2.val))).intQ := by
    unfold nrows; split_ifs <;> omega
  refine ⟨lines, res, w3, o, Is.shape, _, hl, h3, hok.after, hS, ?_⟩
  intro idx x f p hv hx hr ht hf hpv label k line hlk hk hq hm
  obtain ⟨S', n', e1, -, -, e2⟩ := hrow label k line hlk hm
  have e : S' = Is.shape := by
    rw [hS] at e1
    exact (List.append_inj' e1 rfl).1.symm
  subst e
  rw [e2 idx hv]
  exact row_documented hw h3 hok.after hS hn hk hq hv hx hr ht hf hpv

theorem analyze_angle_cos {i : ℕ} (hi : i < 100) : 0 < Real.cos (deg2rad (linspace 10 80 100 i)) := by
  have hi' : (i : ℝ) ≤ 99 := by exact_mod_cast Nat.le_of_lt_succ hi
  have h0 : (0 : ℝ) ≤ i := Nat.cast_nonneg i
  have hpi := Real.pi_pos
  apply Real.cos_pos_of_mem_Ioo
  unfold deg2rad linspace
  push_cast
  constructor <;> nlinarith [mul_nonneg h0 hpi.le, mul_le_mul_of_nonneg_right hi' hpi.le]

/-- The hypotheses of `C97_lines_partial` and `C97_angles` are met, here at all 100 angles of a model with numbers as parameters and a slider
for the optical depth; the total is shown without interaction term. -/
example (b : Backend) (sg d : Bool) {I : ℝ} (hI : sg = true → I ≠ 0) (t p τ ω N : ℝ) :
    ∃ w A o, (∀ P, Drawn P 0 w A) ∧ A.sliders.map Prod.fst = ["tau"] ∧
      (calcOp 0 (A.sliders.map fun p => (p.1, Arr.lit p.2.val)) w).2.objs 0 = some o ∧ o.intQ = false ∧
      ∀ i < 100, ∃ x f p, SiteAt (calcOp 0 (A.sliders.map fun p => (p.1, Arr.lit p.2.val)) w).2 0 [i, 0] x ∧
        x.Regular o.sig0 ∧ 0 ≤ x.tau ∧ o.SRF.ValueAt x f ∧ o.V.ValueAt x p := by
  have hN := num_needs isoV isoS false sg d I t p τ ω N isoV_plain isoS_plain
  have hneeds : ∀ n, (numObj isoV isoS false sg d I t p τ ω N).Needs n →
      n ∈ [("tau", [SliderArg.number 0, .number 1])].map Prod.fst ∨
      n ∈ (numObj isoV isoS false sg d I t p τ ω N).params.keys := by
    intro n h
    rw [hN] at h
    rw [num_keys]
    rcases h with rfl | rfl | rfl | rfl <;> simp
  have hnum : ∀ p ∈ [("tau", [SliderArg.number 0, .number 1])],
      ∃ a b rest, p.2 = .number a :: .number b :: rest ∧ (rest = [] ∨ ∃ c r, rest = .number c :: r) := by
    intro p hp
    simp only [List.mem_cons, List.not_mem_nil, or_false] at hp
    subst hp
    exact ⟨0, 1, _, rfl, Or.inl rfl⟩
  have hdef : ∀ pn, match (numObj isoV isoS false sg d I t p τ ω N).pdef pn with
      | .val x => Arr.Fits x.shape [100, 1]
      | .str e => ∀ s ∈ e.free, s ∉ ["theta_0", "theta_ex", "phi_0", "phi_ex"]
      | .basic e => e.free = [] := by
    intro pn
    rw [num_pdef]
    cases pn <;> simp [defaultDefs, Expr.free]
  obtain ⟨sl, w3, o3, r3, ho3, hb3, hst, hm, ht, ⟨hp0, -⟩, hc, hn, heq, -⟩ :=
    analyze_ready (num_reachable ..) (num_objs (b := b) ..) hneeds hnum
    ⟨Or.inl rfl, trivial⟩ (fun _ _ hx _ => num_val isoV isoS false sg d I t p τ ω N hx 100) hdef
  have hst' := hst
  simp only [Obj.still, Prod.mk.injEq] at hst'
  obtain ⟨hV, hS, hI0, hsg, hq, -, hpd, hpar⟩ := hst'
  have hpar : o3.params = _ := hpar.trans (num_params isoV isoS false sg d I t p τ ω N)
  have hpd : o3.pdef = defaultDefs := hpd
  have hR : AnaReady false o3.pdef (sl.map Prod.fst) o3 := AnaReady.of (r3.keeps.any.bsfOK ho3) ht (intQ_still hst) hc
  obtain ⟨A, w', o', h1, h2, h3, h5, -, h7⟩ := AnaReady.succ (A := ⟨sl, none, none, none⟩) r3 ho3 hR (by rintro k ⟨⟩)
  have hA := heq.trans h1
  have hsl := (C64_sliders (num_reachable ..) (num_objs ..) hA).1
  rw [List.filter_cons_of_pos (by simpa using (hN "tau").mpr (by simp)), List.filter_nil] at hsl
  obtain ⟨v, hv, v1⟩ : ∃ v : Slider, A.sliders = [("tau", v)] ∧ 0 ≤ v.val := by
    generalize A.sliders = l at hsl
    cases hsl with
    | cons a b =>
      cases b
      rename_i q
      obtain ⟨a1, a, b, rest, a2, a3, a4, a5⟩ := a
      cases a2
      exact ⟨q.2, by rw [show "tau" = q.1 from a1.symm], (a5.1 zero_le_one).1⟩
  obtain ⟨oa, ob, res, contribs, sv, hU⟩ := update_ok r3 h1
  have hsv : sl = [("tau", v)] := by rw [← hv]; exact h5.symm
  obtain ⟨-, hf⟩ := hU.over
  rw [show oa = o3 from Option.some.inj (hU.before.symm.trans ho3)] at hf
  rw [show ob = o' from Option.some.inj (hU.after.symm.trans h3)] at hf
  have hP : o'.params = [("bsf", Arr.lit 0), ("tau", arr1 v.val), ("omega", arr1 ω), ("NormBRDF", arr1 N)] := by
    rw [hf.params, Fresh.update_eq (by rw [hpar]; simp [Dict.keys])]
    simp [hpar, hsv, sliderVals, Dict.update, Dict.set, arr1]
  have hb' := h2.keeps.any.bsfOK h3
  have hD : ∀ P, Drawn P 0 w' A := fun P => .start (num_reachable ..) hA
  obtain ⟨c1, c2⟩ := calcOp_eq h2.inv h3 (sliderVals A.sliders)
  obtain ⟨oj, hoj, hfj⟩ := c2.get
  have hoj' : (calcOp 0 (A.sliders.map fun p => (p.1, Arr.lit p.2.val)) w').2.objs 0 = some oj := hoj
  have hu : Fresh.update o' (sliderVals A.sliders) = { o' with params := _ } := Fresh.update_eq hb'.1 _
  have k1 : oj.sig0 = sg := by rw [hfj.sig0, hu]; exact hf.sig0.trans hsg
  have k2 : oj.SRF = isoS := by rw [hfj.SRF, hu]; exact hf.SRF.trans hS
  have k3 : oj.V = isoV := by rw [hfj.V, hu]; exact hf.V.trans hV
  have k4 : oj.intQ = false := by rw [hfj.intQ, hu]; exact hf.intQ.trans hq
  refine ⟨w', A, oj, hD, by rw [hv]; rfl, hoj', k4, fun i hi => ⟨numMonoSite i I v.val ω N, 1 / Real.pi, 1 / (4 * Real.pi), ?_, ?_, v1, ?_, ?_⟩⟩
  · refine SiteAt.of_fsite c2.inv hoj ?_
    rw [c2.backend]
    refine FSite.filled hfj ?_
    refine num_mono_fsite (oF := Fresh.update o' (sliderVals A.sliders)) _ (hf.mono.trans hm) ((congrFun hf.ang .t0).trans ht)
      ((congrFun hf.ang .p0).trans hp0) (hf.pdef.trans hpd) (hf.I0.trans hI0) ?_ (h7.complete _ rfl) hi
    rw [hu]
    simp [hP, hv, sliderVals, Dict.update, Dict.set, arr1]
  · have hm := analyze_angle_cos hi
    refine ⟨hm.ne', hm.ne', (add_pos hm hm).ne', ?_⟩
    rw [k1]
    exact hI
  · rw [k2]; rfl
  · rw [k3]; rfl

theorem AnaOp2.proper {id : ℕ} {keys : List String} {op : Op} (h : AnaOp2 id keys op) : op.Proper := by
  cases h <;> simp [Op.Proper]

theorem Runs.reachableP {P : Op → Prop} (hP : ∀ op, P op → op.Proper) {α : Type} {x : M α} (h : Runs P x) {w : World}
    (hw : ReachableP w) : ReachableP (x w).2 := by
  obtain ⟨ops, ho, he⟩ := h w
  obtain ⟨b, ops0, h0, rfl⟩ := hw
  refine ⟨b, ops0 ++ ops, fun op hop => ?_, ?_⟩
  · rcases List.mem_append.mp hop with h | h
    · exact h0 op h
    · exact hP op (ho op h)
  · rw [he, run_append]

/-- The documented contribution (linear intensity) of row `k` with interaction term. -/
def Site.documentedInt (x : Site) (V S : Scatter) (f p : ℝ) : ℕ → ℝ
  | 0 => x.surface f + x.volume p + x.interaction V S
  | 1 => x.surface f
  | 2 => x.volume p
  | _ => x.interaction V S

theorem row_documentedInt {w w3 : World} (hw : ReachableP w) {id : ℕ} {kw : Dict} {res : Arr} {o : Obj}
    (h : calcOp id kw w = (.ok res, w3)) (ho : w3.objs id = some o) {S : List ℕ} (hS : res.shape = S ++ [4]) {k : ℕ}
    (hk : k < 4) (hq : o.intQ = true) (hm : o.mono = true) {r : ℕ} (hal : Aligned w3.backend o r) {nV nS : ℕ}
    (hV : o.V.ncoefs = .ok (nV + 1)) (hSn : o.SRF.ncoefs = .ok (nS + 1)) {idx : List ℕ} (hv : Arr.Valid S idx) {x : Site}
    (hx : SiteAt w3 id idx x) (hob : x.Oblique) (hI : o.sig0 = true → x.I0 ≠ 0) {f p : ℝ} (hf : o.SRF.ValueAt x f)
    (hp : o.V.ValueAt x p) : res.get (idx ++ [k]) = x.inUnits o.sig0 o.dB (x.documentedInt o.V o.SRF f p k) := by
  have hO : ObservesRowP k o.cfg o.mode x (res.get (idx ++ [k])) :=
    ⟨w, id, kw, res, w3, idx, hw, h, by rw [hS]; exact Arr.valid_append_iff.mpr ⟨hv, by omega⟩, rfl, hx, o, ho, rfl, rfl, r, hal⟩
  rcases k with _ | _ | _ | _ | k
  · obtain ⟨g, hg, e⟩ := hO.total_val hq hf hp hV hSn hob hI
    rw [geomInteraction_mono hg hm] at e
    exact e
  · exact hO.row.surface_val hf hob.mu0.ne' hob.muEx.ne' hI
  · exact hO.row.volume_val hp ⟨hob.mu0.ne', hob.muEx.ne', (add_pos hob.mu0 hob.muEx).ne', hI⟩ hob.tau.le
  · obtain ⟨g, hg, e⟩ := hO.geom hV hSn hob hI
    rw [geomInteraction_mono hg hm] at e
    exact e
  · omega

/-- **C97** (2D with interaction term; missing: arrays as parameters with more axes than the angles have, nadir): after every event
all lines hold the documented values.  Other calls may come in between, if they are proper ones (`ReachableP`) and the
object is still monostatic with interaction term. -/
theorem C97_lines_interaction_partial {id : ℕ} {w : World} {A : Analyzer}
    (h : Drawn (fun op => ∀ b, op ≠ .setIntQ id b) id w A) (hw : ReachableP w) :
    ∃ lines res w3 o S m, A.lines = some lines ∧
      calcOp id (A.sliders.map fun p => (p.1, Arr.lit p.2.val)) w = (.ok res, w3) ∧ w3.objs id = some o ∧
      res.shape = S ++ [m] ∧ ∀ r nV nS idx x f p, o.intQ = true → o.mono = true → Aligned w3.backend o r →
        o.V.ncoefs = .ok (nV + 1) → o.SRF.ncoefs = .ok (nS + 1) → Arr.Valid S idx → SiteAt w3 id idx x → x.Oblique →
        (o.sig0 = true → x.I0 ≠ 0) → o.SRF.ValueAt x f → o.V.ValueAt x p →
        ∀ label k line, LabelRow label k → (some label, line) ∈ lines →
          line.get (dropOnes S idx) = x.inUnits o.sig0 o.dB (x.documentedInt o.V o.SRF f p k) := by
  have hw0 := h.session.reachable
  obtain ⟨o', lines, res, ho', hl, hc, hlab, hrow⟩ := C65_lines_partial h
  obtain ⟨w3, h3⟩ : ∃ w3, calcOp id (A.sliders.map fun p => (p.1, Arr.lit p.2.val)) w = (.ok res, w3) :=
    ⟨_, Prod.ext hc rfl⟩
  obtain ⟨o0, o, hok⟩ := calc_callOK hw0 h3
  obtain ⟨Is, Iv, Ii, hp⟩ := calc_parts hok.ok
  have hS := hp.rows.1
  refine ⟨lines, res, w3, o, Is.shape, _, hl, h3, hok.after, hS, ?_⟩
  intro r nV nS idx x f p hq hm hal hV hSn hv hx hob hI hf hpv label k line hlk hmem
  have hq' : (Fresh.update o0 (A.sliders.map fun p => (p.1, Arr.lit p.2.val))).intQ = true := by rw [← hok.filled.intQ]; exact hq
  obtain ⟨S', n', e1, -, -, e2⟩ := hrow label k line hlk hmem
  have e : S' = Is.shape := by
    rw [hS] at e1
    exact (List.append_inj' e1 rfl).1.symm
  subst e
  rw [e2 idx hv]
  have h4 : nrows (Fresh.update o0 (A.sliders.map fun p => (p.1, Arr.lit p.2.val))).intQ = 4 := by
    rw [hq']; rfl
  exact row_documentedInt hw h3 hok.after (by rw [hS, h4]) (by cases hlk <;> omega) hq hm hal hV hSn hv hx hob hI hf hpv

theorem analyze_angle_lt {i : ℕ} (hi : i < 100) : Real.cos (deg2rad (linspace 10 80 100 i)) < 1 := by
  have hi' : (i : ℝ) ≤ 99 := by exact_mod_cast Nat.le_of_lt_succ hi
  have h0 : (0 : ℝ) ≤ i := Nat.cast_nonneg i
  have hpi := Real.pi_pos
  rw [← Real.cos_zero]
  refine Real.cos_lt_cos_of_nonneg_of_le_pi_div_two le_rfl ?_ ?_
  all_goals
    unfold deg2rad linspace
    push_cast
    nlinarith [mul_nonneg h0 hpi.le, mul_le_mul_of_nonneg_right hi' hpi.le]

/-- The hypotheses of `C97_lines_interaction_partial` are met, here at all 100 angles of a model with isotropic scattering
(symengine) and a slider for the optical depth. -/
example (sg d : Bool) {I : ℝ} (hI : sg = true → I ≠ 0) (t p τ ω N : ℝ) :
    ∃ w A o r nV nS, Drawn (fun op => ∀ b, op ≠ .setIntQ 0 b) 0 w A ∧ A.sliders.map Prod.fst = ["tau"] ∧
      (calcOp 0 (A.sliders.map fun p => (p.1, Arr.lit p.2.val)) w).2.objs 0 = some o ∧ o.intQ = true ∧ o.mono = true ∧ ReachableP w ∧
      Aligned (calcOp 0 (A.sliders.map fun p => (p.1, Arr.lit p.2.val)) w).2.backend o r ∧
      o.V.ncoefs = .ok (nV + 1) ∧ o.SRF.ncoefs = .ok (nS + 1) ∧
      ∀ i < 100, ∃ x f p, SiteAt (calcOp 0 (A.sliders.map fun p => (p.1, Arr.lit p.2.val)) w).2 0 [i, 0] x ∧
        x.Oblique ∧ (o.sig0 = true → x.I0 ≠ 0) ∧ o.SRF.ValueAt x f ∧ o.V.ValueAt x p := by
  have hN := num_needs isoV isoS true sg d I t p τ ω N isoV_plain isoS_plain
  have hneeds : ∀ n, (numObj isoV isoS true sg d I t p τ ω N).Needs n →
      n ∈ [("tau", [SliderArg.number 0, .number 1, .number (1 / 4)])].map Prod.fst ∨
      n ∈ (numObj isoV isoS true sg d I t p τ ω N).params.keys := by
    intro n h
    rw [hN] at h
    rw [num_keys]
    rcases h with rfl | rfl | rfl | rfl <;> simp
  have hnum : ∀ p ∈ [("tau", [SliderArg.number 0, .number 1, .number (1 / 4)])],
      ∃ a b rest, p.2 = .number a :: .number b :: rest ∧ (rest = [] ∨ ∃ c r, rest = .number c :: r) := by
    intro p hp
    simp only [List.mem_cons, List.not_mem_nil, or_false] at hp
    subst hp
    exact ⟨0, 1, _, rfl, Or.inr ⟨_, _, rfl⟩⟩
  have hdef : ∀ pn, match (numObj isoV isoS true sg d I t p τ ω N).pdef pn with
      | .val x => Arr.Fits x.shape [100, 1]
      | .str e => ∀ s ∈ e.free, s ∉ ["theta_0", "theta_ex", "phi_0", "phi_ex"]
      | .basic e => e.free = [] := by
    intro pn
    rw [num_pdef]
    cases pn <;> simp [defaultDefs, Expr.free]
  obtain ⟨sl, w3, o3, r3, ho3, hb3, hst, hm, ht, ⟨hp0, hg, hfne, hfi3, hfei3⟩, hc, hn, heq, -⟩ :=
    analyze_ready (num_reachable ..) (num_objs (b := .symengine) ..) hneeds hnum
    ⟨Or.inl rfl, trivial⟩ (fun _ _ hx _ => num_val isoV isoS true sg d I t p τ ω N hx 100) hdef
  have hst' := hst
  simp only [Obj.still, Prod.mk.injEq] at hst'
  obtain ⟨hV, hS, hI0, hsg, hq, -, hpd, hpar⟩ := hst'
  have hpar : o3.params = _ := hpar.trans (num_params isoV isoS true sg d I t p τ ω N)
  have hpd : o3.pdef = defaultDefs := hpd
  obtain ⟨fs, hfs⟩ := iso_fnCoefs ⟨.sym "theta_0", .sym "theta_0", .num 0, .num 0⟩
  have hR : AnaReadyI w3.backend o3.pdef (sl.map Prod.fst) o3 :=
    ⟨AnaReady.of (r3.keeps.any.bsfOK ho3) ht (intQ_still hst) hc,
      ⟨hfi3, hfei3, ⟨fs, by rw [hV, hS, hg]; exact hfs, by rw [hb3]; exact Or.inl (num_backend ..)⟩,
        by rw [hV]; exact ⟨0, isoV_ncoefs⟩, by rw [hS]; exact ⟨0, isoS_ncoefs⟩, Or.inl hfne,
        fun l hl => by rw [hfne] at hl; cases hl⟩, hm, hp0, hg⟩
  obtain ⟨A, w', o', h1, h2, h3, h4, h5, -, h7, -⟩ := AnaReadyI.succ (A := ⟨sl, none, none, none⟩) r3 ho3 hR (by rintro k ⟨⟩)
  have hA := heq.trans h1
  have hsl := (C64_sliders (num_reachable ..) (num_objs ..) hA).1
  rw [List.filter_cons_of_pos (by simpa using (hN "tau").mpr (by simp)), List.filter_nil] at hsl
  obtain ⟨v, hv, v1⟩ : ∃ v : Slider, A.sliders = [("tau", v)] ∧ v.val = 1 / 4 := by
    generalize A.sliders = l at hsl
    cases hsl with
    | cons a b =>
      cases b
      rename_i q
      obtain ⟨a1, a, b, rest, a2, a3, a4, a5⟩ := a
      cases a2
      exact ⟨q.2, by rw [show "tau" = q.1 from a1.symm], a5.2 _ _ rfl (by norm_num) (by norm_num)⟩
  obtain ⟨oa, ob, res, contribs, sv, hU⟩ := update_ok r3 h1
  have hsv : sl = [("tau", v)] := by rw [← hv]; exact h5.symm
  obtain ⟨-, hf⟩ := hU.over
  rw [show oa = o3 from Option.some.inj (hU.before.symm.trans ho3)] at hf
  rw [show ob = o' from Option.some.inj (hU.after.symm.trans h3)] at hf
  have hP : o'.params = [("bsf", Arr.lit 0), ("tau", arr1 v.val), ("omega", arr1 ω), ("NormBRDF", arr1 N)] := by
    rw [hf.params, Fresh.update_eq (by rw [hpar]; simp [Dict.keys])]
    simp [hpar, hsv, sliderVals, Dict.update, Dict.set, arr1]
  have hb' := h2.keeps.any.bsfOK h3
  have hD : Drawn (fun op => ∀ b, op ≠ .setIntQ 0 b) 0 w' A := .start (num_reachable ..) hA
  obtain ⟨c1, c2⟩ := calcOp_eq h2.inv h3 (sliderVals A.sliders)
  obtain ⟨oj, hoj, hfj⟩ := c2.get
  have hoj' : (calcOp 0 (A.sliders.map fun p => (p.1, Arr.lit p.2.val)) w').2.objs 0 = some oj := hoj
  have hu : Fresh.update o' (sliderVals A.sliders) = { o' with params := _ } := Fresh.update_eq hb'.1 _
  have k1 : oj.sig0 = sg := by rw [hfj.sig0, hu]; exact hf.sig0.trans hsg
  have k2 : oj.SRF = isoS := by rw [hfj.SRF, hu]; exact hf.SRF.trans hS
  have k3 : oj.V = isoV := by rw [hfj.V, hu]; exact hf.V.trans hV
  have k4 : oj.intQ = true := by rw [hfj.intQ, hu]; exact hf.intQ.trans hq
  have k5 : oj.mono = true := by rw [hfj.mono, hu]; exact hf.mono.trans hm
  have hRP : ReachableP w' := by
    have h0 : ReachableP (numW .symengine isoV isoS true sg d I t p τ ω N) := by
      refine ⟨.symengine, _, ?_, rfl⟩
      intro op hop
      simp only [demoOps, List.mem_cons, List.not_mem_nil, or_false] at hop
      rcases hop with rfl | rfl | rfl <;> simp [Op.Proper]
    have := (Runs.analyze 0 none [("tau", [SliderArg.number 0, .number 1, .number (1 / 4)])]).reachableP
      (fun _ h => h.proper) h0
    rw [hA] at this
    exact this
  have hok : ObjOK w3.backend (Fresh.update o' (sliderVals A.sliders)) := by
    rw [← h4]
    exact (h2.inv.updated h3 (sliderVals A.sliders)).obj rfl _ _ (World.updated_objs ..)
  have hci := h7.completeI hb' (sl := A.sliders) rfl hok
  refine ⟨w', A, oj, 2, 0, 0, hD, by rw [hv]; rfl, hoj', k4, k5, hRP, ?_, by rw [k3]; exact isoV_ncoefs,
    by rw [k2]; exact isoS_ncoefs, fun i hi => ⟨numMonoSite i I v.val ω N, 1 / Real.pi, 1 / (4 * Real.pi), ?_, ?_, ?_, ?_, ?_⟩⟩
  · have e := hci.aligned.filled hfj
    rw [← h4] at e
    have eb : (calcOp 0 (sliderVals A.sliders) w').2.backend = w'.backend := c2.backend
    show Aligned (calcOp 0 (sliderVals A.sliders) w').2.backend oj 2
    rw [eb]
    exact e
  · refine SiteAt.of_fsite c2.inv hoj ?_
    rw [c2.backend]
    refine FSite.filled hfj ?_
    refine num_mono_fsite (oF := Fresh.update o' (sliderVals A.sliders)) _ (hf.mono.trans hm) ((congrFun hf.ang .t0).trans ht)
      ((congrFun hf.ang .p0).trans hp0) (hf.pdef.trans hpd) (hf.I0.trans hI0) ?_ hci.base hi
    rw [hu]
    simp [hP, hv, sliderVals, Dict.update, Dict.set, arr1]
  · refine ⟨analyze_angle_cos hi, analyze_angle_lt hi, analyze_angle_cos hi, analyze_angle_lt hi, ?_⟩
    show 0 < v.val
    rw [v1]
    norm_num
  · rw [k1]; exact hI
  · rw [k2]; rfl
  · rw [k3]; rfl

theorem HasVal.eq {x : Py Arr} {idx : List ℕ} {v v' : ℝ} {a : Arr} (h : HasVal x idx v) (e : x = .ok a)
    (ha : a.at' idx = .fin v') : v = v' := by
  obtain ⟨a', h1, h2⟩ := h
  rw [e] at h1
  cases h1
  rw [ha] at h2
  cases h2
  rfl

/-- The angles of the 2D analyzer. -/
structure Sweep (o : Obj) : Prop where
  mono : o.mono = true
  t0 : o.ang .t0 = some analyzeT0
  p0 : o.ang .p0 = some (arr1 0)

theorem Sweep.core {o o' : Obj} (h : o.core = o'.core) (g : Sweep o) : Sweep o' := by
  have h1 : o.mono = o'.mono := by have := congrArg Obj.mono h; exact this
  have h3 : o.ang = o'.ang := by have := congrArg Obj.ang h; exact this
  exact ⟨h1 ▸ g.mono, h3 ▸ g.t0, h3 ▸ g.p0⟩

theorem Sweep.filled {b : Backend} {o o' : Obj} (h : Filled b o o') (g : Sweep o) : Sweep o' := g.core h.core.symm

theorem Sweep.update {o : Obj} (hb : BsfOK o) (g : Sweep o) (kw : Dict) : Sweep (Fresh.update o kw) := by
  rw [Fresh.update_eq hb.1]
  exact ⟨g.mono, g.t0, g.p0⟩

theorem Sweep.after {id : ℕ} {o : Obj} (g : Sweep o) {op : Op} (hp : op.Plain) (ht : op.target = some id)
    (hm : ¬ MovesAngles id op) : Sweep (o.after op) := by
  cases op <;> simp only [Op.target, Option.some.injEq, reduceCtorEq] at ht <;> try subst ht
  case setMonostatic p => exact (hm (.mono p)).elim
  case setBistatic a b c d => exact (hm (.bi a b c d)).elim
  case setGeometry kw => exact (hm (.geom kw)).elim
  case overwriteArg => exact hp.elim
  case setV => exact hp.elim
  case setSRF => exact hp.elim
  all_goals exact ⟨g.mono, g.t0, g.p0⟩

theorem Updated.sweep {id : ℕ} {A A' : Analyzer} {w w' : World} {o o' : Obj} {res : Arr} {contribs : List Arr} {sv : Option Arr}
    (hw : Reachable w) (h : Updated id A A' w w' o o' res contribs sv) (g : Sweep o) : Sweep o' := by
  have hb := hw.keeps.any.bsfOK h.before
  have ho := h.over
  cases hr : A.range with
  | none =>
    rw [hr] at ho
    exact (g.update hb _).filled ho.2
  | some k =>
    rw [hr] at ho
    obtain ⟨-, r, -, -, hf⟩ := ho
    exact ((g.update hb _).update (hb.update _) _).filled hf

/-- During a session the angles are those of the analyzer. -/
theorem Session.sweep {P : Op → Prop} {id : ℕ} (hP : ∀ op, P op → ¬ MovesAngles id op) {w : World} {A : Analyzer}
    (h : Session P id w A) : ∃ o, w.objs id = some o ∧ Sweep o := by
  induction h with
  | @start w w' r ps A hw h =>
    obtain ⟨w1, w2, sl, e1, e2, w3, hsl, r2, r3, -, hu⟩ := analyze_ok hw h
    obtain ⟨oa, o', res, contribs, sv, hU⟩ := update_ok r3 hu
    have k3 := congrFun (ObjsKept.sliders id ps w2) id
    rw [hsl] at k3
    have o2 : w2.objs id = some oa := k3.symm.trans hU.before
    cases ho : w.objs id with
    | none =>
      exfalso
      have e : w1.objs id = none := by
        have := (frame_step (op := .setMonostatic id (some (.number 0))) rfl (fun h => h) w w (FrameP.refl w id)).ex
        rw [show (step (.setMonostatic id (some (.number 0))) w).2 = (setMonostatic id (some (.number 0)) w).2 from rfl, e1,
          ho] at this
        simpa using this
      have : (setGeometry id [("t_0", some analyzeT0)] w1).1 ≠ .ok () := by
        unfold setGeometry
        rw [if_neg (by simp [AngN.ofName]), bind_error (show getObj id w1 = (.error .attributeError, w1) by
          unfold getObj; rw [e])]
        simp
      rw [e2] at this
      exact this rfl
    | some o =>
      obtain ⟨w2', o2', -, ho2, -, -, hm, ht, hp0, -, -, -, -, -, d1, d2⟩ := analyze_start hw ho
      rw [e1] at d1
      rw [show (setMonostatic id (some (.number 0)) w).2 = w1 by rw [e1]] at d2
      rw [e2] at d2
      cases d2
      rw [o2] at ho2
      cases ho2
      exact ⟨o', hU.after, hU.sweep r3 ⟨hm, ht, hp0⟩⟩
  | @event w w' A A' e hs h ih =>
    obtain ⟨o, ho, g⟩ := ih
    obtain ⟨oa, o', res, contribs, sv, hU⟩ := update_ok hs.reachable h
    have := hU.before
    rw [ho] at this
    cases this
    exact ⟨o', hU.after, hU.sweep hs.reachable g⟩
  | @call w A op hs hp hop ih =>
    exact run_obj (Q := Sweep) (id := id) (ops := [op]) (fun _ _ h => Sweep.core h) (by
      intro op' hop' ht o g
      rw [List.mem_singleton.mp hop'] at ht ⊢
      exact g.after hp ht (hP op hop)) hs.reachable.keeps.any.next ih

/-- **C97**: the directions to which the values in the lines of the 2D analyzer belong: the incidence angles are 100 equidistant
ones from 10° to 80°, in backscattering direction. -/
theorem C97_angles {P : Op → Prop} {id : ℕ} (hP : ∀ op, P op → ¬ MovesAngles id op) {w : World} {A : Analyzer}
    (h : Session P id w A) {res : Arr} {w3 : World}
    (hc : calcOp id (A.sliders.map fun p => (p.1, Arr.lit p.2.val)) w = (.ok res, w3)) {idx : List ℕ} {x : Site}
    (hx : SiteAt w3 id idx x) (hi : idx.length = 2) (h1 : idx.getD 1 0 = 0) :
    x.t0 = (10 + 70 * (idx.getD 0 0 : ℕ) / 99) * (Real.pi / 180) ∧ x.tex = x.t0 ∧ x.p0 = 0 ∧ x.pex = Real.pi := by
  obtain ⟨o, ho, g⟩ := h.sweep hP
  have hw := h.reachable
  obtain ⟨o0, o3, hok⟩ := calc_callOK hw hc
  have e0 := hok.before
  rw [ho] at e0
  cases e0
  have g3 : Sweep o3 := (g.update (hw.keeps.any.bsfOK ho) _).filled hok.filled
  have f := hx.fsite hok.inv hok.after
  obtain ⟨i, j, rfl⟩ : ∃ i j, idx = [i, j] := by
    match idx, hi with
    | [i, j], _ => exact ⟨i, j, rfl⟩
  obtain rfl : j = 0 := h1
  have t : x.t0 = deg2rad (linspace 10 80 100 i) :=
    f.t0.eq (a := analyzeT0) (by unfold Fresh.ang; rw [g3.t0]) rfl
  have t' : x.tex = deg2rad (linspace 10 80 100 i) :=
    f.tex.eq (a := analyzeT0) (by unfold Fresh.tex Fresh.ang; rw [if_pos g3.mono, g3.t0]) rfl
  have p : x.p0 = 0 := f.p0.eq (a := arr1 0) (by unfold Fresh.ang; rw [g3.p0]) (arr1_at _ _)
  refine ⟨?_, t'.trans t.symm, p, ?_⟩
  · rw [t]
    show (10 + (i : ℝ) * ((80 - 10) / (((100 : ℕ) : ℝ) - 1))) * (Real.pi / 180) = (10 + 70 * (i : ℝ) / 99) * (Real.pi / 180)
    push_cast
    ring
  · have := f.pex
    unfold Fresh.pex Fresh.ang at this
    rw [if_pos g3.mono, g3.p0] at this
    obtain ⟨a, ha, hv⟩ := this
    cases ha
    have hv' : XR.fin (0 + Real.pi) = XR.fin x.pex := hv
    rw [zero_add] at hv'
    exact (XR.fin.inj hv').symm

theorem FSite.ofCore {b : Backend} {o o' : Obj} {idx : List ℕ} {x : Site} (h : o'.core = o.core) (hs : FSite b o idx x) :
    FSite b o' idx x := by
  have h1 : o'.mono = o.mono := by have := congrArg Obj.mono h; exact this
  have h2 : o'.ang = o.ang := by have := congrArg Obj.ang h; exact this
  have h3 : o'.pdef = o.pdef := by have := congrArg Obj.pdef h; exact this
  have h4 : o'.params = o.params := by have := congrArg Obj.params h; exact this
  have h5 : o'.I0 = o.I0 := by have := congrArg Obj.I0 h; exact this
  have a1 : ∀ n, Fresh.ang o' n = Fresh.ang o n := fun n => by unfold Fresh.ang; rw [h2]
  have a2 : Fresh.tex o' = Fresh.tex o := by unfold Fresh.tex; rw [h1, a1, a1]
  have a3 : Fresh.pex o' = Fresh.pex o := by unfold Fresh.pex; rw [h1, a1, a1]
  have a4 : ∀ p, Fresh.par b o' p = Fresh.par b o p := fun p => by
    have e1 : Fresh.symbs o' p = Fresh.symbs o p := by unfold Fresh.symbs; rw [h3]
    have e2 : Fresh.pfun b o' p = Fresh.pfun b o p := by unfold Fresh.pfun; rw [h3, e1]
    unfold Fresh.par
    rw [e2, e1, h3, h4]
  exact ⟨by rw [a1]; exact hs.t0, by rw [a2]; exact hs.tex, by rw [a1]; exact hs.p0, by rw [a3]; exact hs.pex,
    by rw [a4]; exact hs.tau, by rw [a4]; exact hs.omega, by rw [a4]; exact hs.NormBRDF, by rw [a4]; exact hs.bsf,
    by rw [h5]; exact hs.I0, by rw [h4]; exact hs.params⟩

/-- **C97** (3D; missing: the interaction term, for which C36 is false in bistatic geometry): the points of the surface drawn for the letter `t`, `s` or `v` lie in the directions of the grid, at
the documented distance: where the getters of the object report the values `s`, the distance is the
documented contribution in the units of the object (for the total: if the interaction term is not
requested).  The exit angle and azimuth in `s` are those of the direction in which the point lies, the
incidence angle is that of its slider. -/
theorem C97_surfaces_partial {P : Op → Prop} {id n : ℕ} (hP : ∀ op, P op → ¬ MovesAngles id op) {w : World} {A : Analyzer3D}
    (h : Drawn3D P id n w A) : ∃ o S, w.objs id = some o ∧ Arr.Fits [n, n] S ∧
      ∀ (j : ℕ) (c : Char), A.contribs[j]? = some c → c ≠ 'i' → (c = 't' → 'i' ∉ A.contribs) →
        ∃ (k : ℕ) (x y z : Arr), Shows c k ∧ A.surfaces[j]? = some (x, y, z) ∧ x.shape = S ∧
          ∀ idx s f p, Arr.Valid S idx → SiteAt w id idx s → s.Regular o.sig0 → 0 ≤ s.tau →
            o.SRF.ValueAt s f → o.V.ValueAt s p →
            s.tex = gridPolar n (idx.getD 0 0) ∧ s.pex = gridAzimuth n (idx.getD 1 0) ∧ s.p0 = 0 ∧
            s.t0 = A.inc * (Real.pi / 180) ∧
            x.get idx = s.inUnits o.sig0 o.dB (s.documented f p k) * XR.fin (Real.sin s.tex) * XR.fin (Real.cos s.pex) ∧
            y.get idx = s.inUnits o.sig0 o.dB (s.documented f p k) * XR.fin (Real.sin s.tex) * XR.fin (Real.sin s.pex) ∧
            z.get idx = s.inUnits o.sig0 o.dB (s.documented f p k) * XR.fin (Real.cos s.tex) := by
  obtain ⟨w0, A0, o, o', res, x, y, z, ks, hw0, g, hU⟩ := h.upd hP
  obtain ⟨hw, og, hog, gw⟩ := h.session.grid hP
  rw [hU.after] at hog
  cases hog
  obtain ⟨S, s1, s2, s3, s4⟩ := hU.picture
  have hc := (hU.again hw0 hw).2
  have q : decide ('i' ∈ A.contribs) = o'.intQ := by rw [hU.filled.intQ, hU.contribs]; rfl
  have r2 : Reachable (step (.setIntQ id (decide ('i' ∈ A.contribs))) w).2 := hw.step (op := .setIntQ id _) trivial
  have o2 : (step (.setIntQ id (decide ('i' ∈ A.contribs))) w).2.objs id = some o' := by
    refine (modObj_get hU.after _).trans ?_
    rw [q]
  have b2 : (step (.setIntQ id (decide ('i' ∈ A.contribs))) w).2.backend = w.backend := rfl
  obtain ⟨w3, h3⟩ : ∃ w3, calcOp id [] (step (.setIntQ id (decide ('i' ∈ A.contribs))) w).2 = (.ok res, w3) :=
    ⟨_, Prod.ext hc rfl⟩
  obtain ⟨o0, o3, hok⟩ := calc_callOK r2 h3
  have e0 := hok.before
  rw [o2] at e0
  cases e0
  have hfil := hok.filled
  rw [Fresh.update_nil (r2.keeps.any.bsfOK o2).1] at hfil
  refine ⟨_, S, hU.after, s2, fun j c hj hi ht => ?_⟩
  obtain ⟨k, x, y, z, e1, e2, e3, -, -, e4⟩ := s4 j c hj
  refine ⟨k, x, y, z, e1, e2, e3, fun idx s f p hv hs hr hτ hf hp => ?_⟩
  have f1 := hs.fsite hw.inv hU.after
  have f2 : FSite w.backend o' idx s :=
    ⟨f1.t0, f1.tex, f1.p0, f1.pex, f1.tau, f1.omega, f1.NormBRDF, f1.bsf, f1.I0, f1.params⟩
  have f3 : SiteAt w3 id idx s := by
    refine SiteAt.of_fsite hok.inv hok.after ?_
    rw [hok.backend, b2]
    exact f2.ofCore hfil.core
  obtain ⟨p1, p2⟩ := grid_polar n idx s2 hv
  have t1 : s.tex = gridPolar n (idx.getD 0 0) := by
    refine f1.tex.eq ?_ p1
    unfold Fresh.tex Fresh.ang
    rw [if_neg (by rw [gw.mono]; simp), gw.tex]
  have t2 : s.pex = gridAzimuth n (idx.getD 1 0) := by
    refine f1.pex.eq ?_ p2
    unfold Fresh.pex Fresh.ang
    rw [if_neg (by rw [gw.mono]; simp), gw.pex]
  have t3 : s.p0 = 0 := by
    refine f1.p0.eq ?_ (arr1_at _ _)
    unfold Fresh.ang
    rw [gw.p0]
  have t4 : s.t0 = A.inc * (Real.pi / 180) := by
    have : o'.ang .t0 = some (fullLike (analyze3dTex n) (deg2rad A0.inc)) := by
      rw [hU.filled.ang]
      simp [Obj.at3d]
    rw [hU.inc]
    refine f2.t0.eq (a := fullLike (analyze3dTex n) (deg2rad A0.inc)) ?_ rfl
    unfold Fresh.ang
    rw [this]
  have hk : k < 3 := by cases e1 <;> first | omega | exact absurd rfl hi
  have hq : k = 0 → o3.intQ = false := fun hk0 => by
    rw [hfil.intQ, ← q]
    exact decide_eq_false (ht (by cases e1 <;> first | rfl | cases hk0))
  have hn : 3 ≤ nrows (decide ('i' ∈ A.contribs)) := by unfold nrows; split_ifs <;> omega
  have hrow := row_documented r2 h3 hok.after s1 hn hk hq hv f3 (by rw [hfil.sig0]; exact hr) hτ
    (by rw [hfil.SRF]; exact hf) (by rw [hfil.V]; exact hp)
  rw [hfil.sig0, hfil.dB] at hrow
  refine ⟨t1, t2, t3, t4, ?_⟩
  rw [t1, t2]
  obtain ⟨c1, c2, c3⟩ := e4 idx hv
  rw [hrow] at c1 c2 c3
  exact ⟨c1, c2, c3⟩

/-- The hypotheses of `C97_surfaces_partial` are met, here at all points of the grid of a model with numbers as parameters. -/
example (b : Backend) (q sg d : Bool) {I : ℝ} (hI : sg = true → I ≠ 0) (t p τ ω N : ℝ) {n : ℕ} (hn : n ≠ 0) :
    ∃ w A o, Drawn3D (fun _ => False) 0 n w A ∧ A.contribs = ['t', 's', 'v'] ∧ w.objs 0 = some o ∧
      ∀ idx, Arr.Valid [n, n] idx → ∃ s f p, SiteAt w 0 idx s ∧ s.Regular o.sig0 ∧ 0 ≤ s.tau ∧
        o.SRF.ValueAt s f ∧ o.V.ValueAt s p := by
  have hcs : ∀ c ∈ ['t', 's', 'v'], ∃ k, Shows c k := fun c hc => by
    simp only [List.mem_cons, List.not_mem_nil, or_false] at hc
    rcases hc with rfl | rfl | rfl
    · exact ⟨0, .total⟩
    · exact ⟨1, .surface⟩
    · exact ⟨2, .volume⟩
  obtain ⟨v, w3, o3, A1, w1, ⟨r3, ho3, hv, hst, h3⟩, he, e1, r1, c1⟩ :=
    num_start b isoV_plain isoS_plain q sg d I t p τ ω N hn (cs := ['t', 's', 'v']) (by simp) hcs (by simp)
  obtain ⟨A, w', h⟩ := num_slides b q sg d hI t p τ ω N hn []
  obtain ⟨A2, w2, h2, -⟩ := bind_ok_inv h
  have h2' := h2
  rw [he] at h2'
  have e2 := (first3_ok h2').1
  rw [e1] at e2
  cases e2
  obtain ⟨o', res, x, y, z, ks, hU⟩ := update3_ok r3 ho3 h3.grid e1
  refine ⟨w1, A1, _, .start (num_reachable ..) h2, c1, hU.after, fun idx hi => ?_⟩
  have hc := h3.complete [("tau", v)] 45 (decide ('i' ∈ ['t', 's', 'v'])) rfl
  have f1 := (num_fsite w3.backend hst h3.grid 45 _ hc hi).ofCore hU.filled.core
  have f2 : FSite w1.backend { o' with intQ := o3.intQ } idx (numSite n 45 I v.val ω N idx) := by
    rw [hU.backend]
    exact ⟨f1.t0, f1.tex, f1.p0, f1.pex, f1.tau, f1.omega, f1.NormBRDF, f1.bsf, f1.I0, f1.params⟩
  have hlt : idx.getD 0 0 < n := by rcases hi with _ | ⟨h, _⟩; exact h
  have m1 : 0 < (numSite n 45 I v.val ω N idx).mu0 := cos45
  have m2 : 0 < (numSite n 45 I v.val ω N idx).muEx := gridPolar_cos hlt
  simp only [Obj.still, Prod.mk.injEq] at hst
  have g1 : o'.SRF = isoS := by rw [hU.filled.SRF]; exact hst.2.1
  have g2 : o'.V = isoV := by rw [hU.filled.V]; exact hst.1
  have g3 : o'.sig0 = sg := by rw [hU.filled.sig0]; exact hst.2.2.2.1
  refine ⟨_, 1 / Real.pi, 1 / (4 * Real.pi), SiteAt.of_fsite r1.inv hU.after f2, ⟨m1.ne', m2.ne', (add_pos m1 m2).ne', ?_⟩, ?_, ?_, ?_⟩
  · show o'.sig0 = true → I ≠ 0
    rw [g3]
    exact hI
  · show 0 ≤ v.val
    rw [hv]
    norm_num
  · show o'.SRF.ValueAt _ _
    rw [g1]
    rfl
  · show o'.V.ValueAt _ _
    rw [g2]
    rfl

end

end RT1
