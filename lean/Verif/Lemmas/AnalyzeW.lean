import Verif.Lemmas.AnalyzeC
import Verif.Lemmas.AnalyzeD

/-! When an update of an analyzer succeeds. -/

namespace RT1

noncomputable section
open Classical

theorem rowsOf_ok {x : Arr} {S : List ℕ} {n : ℕ} (hs : x.shape = S ++ [n]) (hn : n ≠ 1) :
    ∃ l, rowsOf x.squeeze = .ok l := by
  have hsh : x.squeeze.shape = S.filter (fun m => decide (m ≠ 1)) ++ [n] := by
    simp [Arr.squeeze, hs, hn]
  unfold rowsOf
  rw [hsh]
  cases h : S.filter (fun m => decide (m ≠ 1)) ++ [n] with
  | nil => simp at h
  | cons a l => exact ⟨_, rfl⟩

/-- An update up to the range overlay. -/
theorem update_main {w : World} (hw : Reachable w) {id : ℕ} {o : Obj} (ho : w.objs id = some o)
    {A : Analyzer} {res : Arr}
    (hc : Fresh.calcAll w.backend (Fresh.update o (sliderVals A.sliders)) = .ok res)
    (hsv : o.intQ = true → ∃ y, Fresh.surfaceVolume w.backend (Fresh.update o (sliderVals A.sliders)) = .ok y) :
    ∃ lines w3 o3, Analyzer.update id A w = (match A.range with
      | none => pure { A with lines := some lines, overlay := none }
      | some k => do
        let r ← rangeLines id A.sliders k
        pure { A with lines := some lines, overlay := some r } : M Analyzer) w3 ∧ Inv true w3 ∧
      w3.backend = w.backend ∧ w3.objs id = some o3 ∧
      Filled w.backend (Fresh.update o (sliderVals A.sliders)) o3 := by
  have hb := hw.keeps.any.bsfOK ho
  set kw := sliderVals A.sliders with hkw
  have hb1 := hb.update kw
  have i1 : Inv true (w.updated id o kw) := hw.inv.updated ho kw
  have o1 := w.updated_objs id o kw
  obtain ⟨c1, c2⟩ := calcOp_eq i1 o1 []
  rw [Fresh.update_nil hb1.1] at c1 c2
  have c1 : (calcOp id [] (w.updated id o kw)).1 = .ok res := c1.trans hc
  have e1 : calcOp id [] (w.updated id o kw) = (.ok res, (calcOp id [] (w.updated id o kw)).2) := Prod.ext c1 rfl
  generalize (calcOp id [] (w.updated id o kw)).2 = w2 at e1 c2
  obtain ⟨Is, Iv, Ii, hp⟩ := calc_parts hc
  have hn : nrows (Fresh.update o kw).intQ ≠ 1 := by cases (Fresh.update o kw).intQ <;> decide
  obtain ⟨l, hl⟩ := rowsOf_ok hp.rows.1 hn
  obtain ⟨o2, ho2, hf2⟩ := c2.get
  replace hf2 : Filled w.backend (Fresh.update o kw) o2 := hf2
  have q2 : o2.intQ = o.intQ := hf2.intQ
  have b2 : w2.backend = w.backend := c2.backend
  have main : ∃ lines w3 o3, ((calcOp id [] >>= fun res => (liftPy (rowsOf res.squeeze) : M _) >>= fun contribs =>
      getObj id >>= fun o => (if o.intQ = true then do
          let y ← surfaceVolume id
          pure (some y.squeeze)
        else pure none : M (Option Arr)) >>= fun sv => (match A.range with
      | none => pure { A with lines := some (newLines A.lines contribs sv), overlay := none }
      | some k => do
        let r ← rangeLines id A.sliders k
        pure { A with lines := some (newLines A.lines contribs sv), overlay := some r } : M Analyzer))
          (w.updated id o kw)) = (match A.range with
      | none => pure { A with lines := some lines, overlay := none }
      | some k => do
        let r ← rangeLines id A.sliders k
        pure { A with lines := some lines, overlay := some r } : M Analyzer) w3 ∧ Inv true w3 ∧
      w3.backend = w.backend ∧ w3.objs id = some o3 ∧ Filled w.backend (Fresh.update o kw) o3 := by
    rw [bind_ok e1, bind_ok (show (liftPy (rowsOf res.squeeze) : M _) w2 = (.ok l, w2) by rw [hl]; rfl),
      bind_ok (getObj_some ho2)]
    by_cases hq : o.intQ = true
    · rw [if_pos (q2.trans hq)]
      obtain ⟨y, hy⟩ := hsv hq
      obtain ⟨s1, s2⟩ := surfaceVolume_eq c2.inv ho2
      have e2 : surfaceVolume id w2 = (.ok y, (surfaceVolume id w2).2) := by
        refine Prod.ext ?_ rfl
        rw [s1, b2]
        show Fresh.surfaceVolume w.backend o2 = .ok y
        rw [← hy]
        unfold Fresh.surfaceVolume
        rw [Filled.acc0 hf2]
      have e3 : (do
          let y ← surfaceVolume id
          pure (some y.squeeze) : M (Option Arr)) w2 = (.ok (some y.squeeze), (surfaceVolume id w2).2) := by
        rw [bind_ok e2]; rfl
      rw [bind_ok e3]
      obtain ⟨o3, ho3, hf3⟩ := s2.get
      rw [b2] at hf3
      exact ⟨_, _, o3, rfl, s2.inv, s2.backend.trans b2, ho3, hf2.trans hf3⟩
    · rw [if_neg (by rw [q2]; exact hq)]
      exact ⟨_, _, o2, rfl, c2.inv, b2, ho2, hf2⟩
  obtain ⟨lines, w3, o3, h1, h2⟩ := main
  refine ⟨lines, w3, o3, ?_, h2⟩
  rw [← h1]
  unfold Analyzer.update
  rw [bind_ok (updateParams_eq ho _)]
  rfl

/-- The result of the range overlay. -/
theorem rangeLines_eq {w3 : World} {b : Backend} (hi : Inv true w3) (hbk : w3.backend = b) {id : ℕ}
    {o o3 : Obj} (hb : BsfOK o) (ho3 : w3.objs id = some o3) {sl : List (String × Slider)}
    (hf3 : Filled b (Fresh.update o (sliderVals sl)) o3) {k : String} (hk : k ∈ sl.map Prod.fst) :
    (rangeLines id sl k w3).1 = Fresh.calcAll b (Fresh.update (Fresh.update o (sliderVals sl)) (rangeVals sl k)) := by
  set kw := sliderVals sl with hkw
  set rv := rangeVals sl k with hrv
  have hb1 := hb.update kw
  have hb3 := hb1.filled hf3
  unfold rangeLines
  rw [if_neg (not_not.mpr hk), bind_ok (updateParams_eq ho3 _)]
  change (calcOp id [] (w3.updated id o3 rv)).1 = _
  obtain ⟨d1, d2⟩ := calcOp_eq (hi.updated ho3 rv) (w3.updated_objs id o3 rv) []
  rw [Fresh.update_nil (hb3.update rv).1] at d1
  have hkeys : Dict.keys (rv.map fun p => (p.1, p.2.atleast1d)) = kw.keys := by
    rw [Dict.keys_map_snd rv Arr.atleast1d, hrv, rangeVals_keys, hkw, sliderVals_keys]
  have hsame : Filled b (Fresh.update (Fresh.update o kw) rv) (Fresh.update o3 rv) := by
    rw [Fresh.update_eq hb3.1, Fresh.update_eq hb1.1, hf3.params]
    refine hf3.withParams (Dict.keys_update fun k' hk' => ?_)
    rw [hkeys] at hk'
    rw [update_params hb.1, Dict.mem_keys_update, Dict.keys_map_snd kw Arr.atleast1d]
    exact Or.inr hk'
  rw [d1, ← fresh_calc_filled hsame]
  subst hbk
  rfl

/-- An update succeeds if the evaluations do. -/
theorem update_succ {w : World} (hw : Reachable w) {id : ℕ} {o : Obj} (ho : w.objs id = some o)
    {A : Analyzer} {res : Arr}
    (hc : Fresh.calcAll w.backend (Fresh.update o (sliderVals A.sliders)) = .ok res)
    (hsv : o.intQ = true → ∃ y, Fresh.surfaceVolume w.backend (Fresh.update o (sliderVals A.sliders)) = .ok y)
    (hr : ∀ k, A.range = some k → k ∈ A.sliders.map Prod.fst ∧ ∃ r, Fresh.calcAll w.backend
      (Fresh.update (Fresh.update o (sliderVals A.sliders)) (rangeVals A.sliders k)) = .ok r) :
    ∃ A' w', Analyzer.update id A w = (.ok A', w') := by
  obtain ⟨lines, w3, o3, h1, h2, h3, h4, h5⟩ := update_main hw ho hc hsv
  rw [h1]
  cases hk : A.range with
  | none => exact ⟨_, _, rfl⟩
  | some k =>
    obtain ⟨m, r, hr⟩ := hr k hk
    have := rangeLines_eq h2 h3 (hw.keeps.any.bsfOK ho) h4 h5 m
    rw [hr] at this
    have e : rangeLines id A.sliders k w3 = (.ok r, (rangeLines id A.sliders k w3).2) := Prod.ext this rfl
    simp only [bind_ok e]
    exact ⟨_, _, rfl⟩

/-- An update fails if the evaluation for the overlay does. -/
theorem update_fail {w : World} (hw : Reachable w) {id : ℕ} {o : Obj} (ho : w.objs id = some o)
    {A : Analyzer} {res : Arr}
    (hc : Fresh.calcAll w.backend (Fresh.update o (sliderVals A.sliders)) = .ok res)
    (hsv : o.intQ = true → ∃ y, Fresh.surfaceVolume w.backend (Fresh.update o (sliderVals A.sliders)) = .ok y)
    {k : String} (hk : A.range = some k) (hm : k ∈ A.sliders.map Prod.fst) {e : PyErr}
    (hr : Fresh.calcAll w.backend
      (Fresh.update (Fresh.update o (sliderVals A.sliders)) (rangeVals A.sliders k)) = .error e) :
    (Analyzer.update id A w).1 = .error e := by
  obtain ⟨lines, w3, o3, h1, h2, h3, h4, h5⟩ := update_main hw ho hc hsv
  rw [h1, hk]
  have := rangeLines_eq h2 h3 (hw.keeps.any.bsfOK ho) h4 h5 hm
  rw [hr] at this
  have e' : rangeLines id A.sliders k w3 = (.error e, (rangeLines id A.sliders k w3).2) := Prod.ext this rfl
  simp only [bind_error e']

theorem analyzerSliders_succ {w : World} (hw : Reachable w) {id : ℕ} {o : Obj} (ho : w.objs id = some o)
    {ps : List (String × List SliderArg)}
    (h : ∀ n, o.Needs n → n ∈ ps.map Prod.fst ∨ n ∈ o.params.keys)
    (hn : ∀ p ∈ ps, ∃ a b rest, p.2 = .number a :: .number b :: rest ∧
      (rest = [] ∨ ∃ c r, rest = .number c :: r)) :
    ∃ sl w', analyzerSliders id ps w = (.ok sl, w') ∧ Reachable w' ∧
      DuringE true w id o w' := by
  obtain ⟨l, sl, h1, h2⟩ := mkSliders_ok (ps := ps.filter fun p => decide (o.Needs p.1))
    fun p hp => hn p (List.mem_filter.mp hp).1
  have hck := checkParams_ok hw ho h
  have hd := (checkParams_eq hw.inv ho (ps.map Prod.fst)).2
  have e : checkParams id (ps.map Prod.fst) w = (.ok (Fresh.needed o), (checkParams id (ps.map Prod.fst) w).2) :=
    Prod.ext hck rfl
  have hr : Reachable (checkParams id (ps.map Prod.fst) w).2 := by
    have := hw.step (op := .checkParams id (ps.map Prod.fst)) trivial
    rwa [show (step (.checkParams id (ps.map Prod.fst)) w).2 = (checkParams id (ps.map Prod.fst) w).2 from
      bind_pure_state _ _] at this
  generalize (checkParams id (ps.map Prod.fst) w).2 = w1 at *
  refine ⟨sl, w1, ?_, hr, hd⟩
  have hf : (ps.filter fun p => decide (p.1 ∈ Fresh.needed o)) = ps.filter fun p => decide (o.Needs p.1) :=
    List.filter_congr fun p _ => by simp only [needed_iff]
  unfold analyzerSliders
  rw [bind_ok e]
  change ((liftPy (parseParameters (ps.filter fun p => decide (p.1 ∈ Fresh.needed o))) : M _) >>=
    fun ps => (liftPy (mkSliders ps) : M _)) w1 = _
  rw [hf, h1, bind_ok (show (liftPy (Except.ok l) : M _) w1 = (.ok l, w1) from rfl), h2]
  rfl

/-- All inputs of the model fit the angles of the widget. -/
theorem complete_sliders {o o2 : Obj} (hb : BsfOK o) (hst : o2.still = o.still)
    {S : List ℕ} {a : Arr} (htex : o2.mono = true ∨ ∃ a, o2.ang .tex = some a ∧ Arr.Fits a.shape S)
    (hpex : o2.mono = true ∨ ∃ a, o2.ang .pex = some a ∧ Arr.Fits a.shape S) (ht : o2.ang .t0 = some a) (hs : a.shape = S) (hp0 : o2.ang .p0 = some (arr1 0))
    (hS : Arr.Fits [1] S) (sl : List (String × Slider))
    (hI : Arr.Fits o.I0.shape S)
    (hpar : ∀ k x, o.params.get? k = some x → k ∉ sl.map Prod.fst → Arr.Fits x.shape S)
    (hdef : ∀ p, match o.pdef p with
      | .val x => Arr.Fits x.shape S
      | .str e => ∀ s ∈ e.free, s ∈ sl.map Prod.fst ∨ s ∈ o.params.keys
      | .basic e => e.free = [])
    (hV : ∀ s ∈ o.V.phase.free, s ∉ ["theta_0", "theta_ex", "phi_0", "phi_ex"] →
      s ∈ sl.map Prod.fst ∨ s ∈ o.params.keys)
    (hSRF : ∀ s ∈ o.SRF.phase.free, s ∉ ["theta_0", "theta_ex", "phi_0", "phi_ex"] →
      s ∈ sl.map Prod.fst ∨ s ∈ o.params.keys) :
    Complete (Fresh.update o2 (sliderVals sl)) S := by
  simp only [Obj.still, Prod.mk.injEq] at hst
  obtain ⟨e1, e2, e3, e4, e5, e6, e7, e8⟩ := hst
  have hb2 : BsfOK o2 := by unfold BsfOK; rw [e8]; exact hb
  have hpd := update_params hb2.1 (sliderVals sl)
  rw [e8] at hpd
  have m2 : Dict.keys ((sliderVals sl).map fun p => (p.1, p.2.atleast1d)) = sl.map Prod.fst := by
    rw [Dict.keys_map_snd (sliderVals sl) Arr.atleast1d, sliderVals_keys]
  have hkeys : ∀ s, (s ∈ sl.map Prod.fst ∨ s ∈ o.params.keys) →
      s ∈ (Fresh.update o2 (sliderVals sl)).params.keys := by
    intro s h
    rw [hpd, Dict.mem_keys_update, m2]
    exact h.symm
  constructor
  · exact ⟨a, ht, by rw [hs]; exact Arr.Fits.refl _⟩
  · exact ⟨_, hp0, hS⟩
  · exact htex
  · exact hpex
  · show Arr.Fits o2.I0.shape S
    rw [e3]; exact hI
  · intro k x hx
    rw [hpd, Dict.get?_update] at hx
    by_cases hk : k ∈ sl.map Prod.fst
    · obtain ⟨v, hv⟩ := lastValue_isSome (kw := (sliderVals sl).map fun p => (p.1, p.2.atleast1d)) (by rw [m2]; exact hk)
      rw [hv] at hx
      cases hx
      have := lastValue_mem hv
      simp only [sliderVals, List.mem_map] at this
      obtain ⟨p, ⟨q, -, rfl⟩, h2⟩ := this
      cases h2
      exact hS
    · rw [lastValue_none (by rw [m2]; exact hk)] at hx
      exact hpar k x hx hk
  · intro p
    have hd := hdef p
    show match o2.pdef p with
      | .val x => _
      | .str e => _
      | .basic e => _
    rw [e7]
    cases hpp : o.pdef p with
    | val x => rw [hpp] at hd; exact hd
    | basic e => rw [hpp] at hd; exact hd
    | str e =>
      rw [hpp] at hd
      exact fun s hs => hkeys s (hd s hs)
  · intro s hs'
    have hs' : s ∈ o2.V.phase.free := hs'
    rw [e1] at hs'
    rw [List.mem_append]
    by_cases h : s ∈ ["theta_0", "theta_ex", "phi_0", "phi_ex"]
    · exact Or.inl h
    · exact Or.inr (hkeys s (hV s hs' h))
  · intro s hs'
    have hs' : s ∈ o2.SRF.phase.free := hs'
    rw [e2] at hs'
    rw [List.mem_append]
    by_cases h : s ∈ ["theta_0", "theta_ex", "phi_0", "phi_ex"]
    · exact Or.inl h
    · exact Or.inr (hkeys s (hSRF s hs' h))

end

end RT1
