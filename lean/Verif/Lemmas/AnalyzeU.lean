import Verif.Lemmas.AnalyzeL
import Verif.Lemmas.CallL
import Verif.Lemmas.DemoInt

/-! What one update of an analyzer computes. -/

namespace RT1

noncomputable section
open Classical

theorem bind_ok_inv {α β : Type} {x : M α} {f : α → M β} {w w' : World} {b : β}
    (h : (x >>= f) w = (.ok b, w')) : ∃ a w1, x w = (.ok a, w1) ∧ f a w1 = (.ok b, w') := by
  cases hx : x w with
  | mk r w1 =>
    cases r with
    | error e => rw [bind_error hx] at h; cases h
    | ok a => rw [bind_ok hx] at h; exact ⟨a, w1, rfl, h⟩

/-! ### Dictionaries -/

theorem Dict.keys_set {d : Dict} {k : String} (h : k ∈ d.keys) (v : Arr) : (d.set k v).keys = d.keys := by
  induction d with
  | nil => cases h
  | cons p d ih =>
    obtain ⟨k1, v1⟩ := p
    unfold Dict.set
    by_cases h1 : k1 = k
    · simp [h1, Dict.keys]
    · simp only [h1, if_false]
      have h : k ∈ k1 :: Dict.keys d := h
      have := ih ((List.mem_cons.mp h).resolve_left fun e => h1 e.symm)
      show k1 :: Dict.keys (Dict.set d k v) = k1 :: Dict.keys d
      rw [this]

theorem Dict.keys_update {kw : Dict} : ∀ {d : Dict}, (∀ k ∈ kw.keys, k ∈ d.keys) → (d.update kw).keys = d.keys := by
  induction kw with
  | nil => intro d _; rfl
  | cons p kw ih =>
    intro d h
    show (Dict.update (d.set p.1 p.2) kw).keys = _
    have h1 : p.1 ∈ d.keys := h _ (by simp [Dict.keys])
    rw [ih, Dict.keys_set h1]
    intro k hk
    rw [Dict.keys_set h1]
    exact h k (List.mem_cons_of_mem _ hk)

theorem Dict.ext_keys {d : Dict} : ∀ {d' : Dict}, d.keys = d'.keys → d.keys.Nodup →
    (∀ k, d.get? k = d'.get? k) → d = d' := by
  induction d with
  | nil =>
    intro d' h _ _
    cases d' with
    | nil => rfl
    | cons p d' => cases h
  | cons p d ih =>
    intro d' h hn hg
    cases d' with
    | nil => cases h
    | cons p' d' =>
      have h : p.1 :: Dict.keys d = p'.1 :: Dict.keys d' := h
      obtain ⟨h1, h2⟩ := List.cons.inj h
      have hn : (p.1 :: Dict.keys d).Nodup := hn
      rw [List.nodup_cons] at hn
      have e1 := hg p.1
      rw [Dict.get?_cons, Dict.get?_cons, if_pos rfl, if_pos h1.symm] at e1
      have hp : p = p' := Prod.ext h1 (Option.some.inj e1)
      subst hp
      congr 1
      refine ih h2 hn.2 fun k => ?_
      by_cases hk : p.1 = k
      · subst hk
        have : ∀ d : Dict, p.1 ∉ d.keys → d.get? p.1 = none := by
          intro d hd
          cases hx : d.get? p.1 with
          | none => rfl
          | some v => exact absurd (List.mem_map_of_mem (f := Prod.fst) (Dict.mem_of_get? hx)) hd
        rw [this d hn.1, this d' (h2 ▸ hn.1)]
      · have := hg k
        rwa [Dict.get?_cons, Dict.get?_cons, if_neg hk, if_neg hk] at this

theorem lastValue_isSome {kw : Dict} {k : String} (h : k ∈ kw.keys) : ∃ v, lastValue kw k = some v := by
  induction kw with
  | nil => cases h
  | cons p kw ih =>
    rw [lastValue_cons]
    have h : k ∈ p.1 :: Dict.keys kw := h
    rcases List.mem_cons.mp h with h | h
    · cases lastValue kw k with
      | some v => exact ⟨v, rfl⟩
      | none => exact ⟨p.2, by simp [h]⟩
    · obtain ⟨v, hv⟩ := ih h
      exact ⟨v, by rw [hv]; rfl⟩

theorem lastValue_none {kw : Dict} {k : String} (h : k ∉ kw.keys) : lastValue kw k = none := by
  cases hx : lastValue kw k with
  | none => rfl
  | some v => exact absurd (List.mem_map_of_mem (f := Prod.fst) (lastValue_mem hx)) h

/-- Supplying values, then others for the same names, then the first ones again. -/
theorem Dict.update_back {d kw kw' : Dict} (hd : d.keys.Nodup) (hk : kw'.keys = kw.keys) :
    ((d.update kw).update kw').update kw = d.update kw := by
  have m1 : ∀ k ∈ kw.keys, k ∈ (d.update kw).keys := fun k h => (Dict.mem_keys_update _ _ _).mpr (Or.inr h)
  have e1 : ((d.update kw).update kw').keys = (d.update kw).keys := Dict.keys_update fun k h => m1 k (hk ▸ h)
  have e2 : (((d.update kw).update kw').update kw).keys = (d.update kw).keys := by
    rw [Dict.keys_update, e1]
    intro k h; rw [e1]; exact m1 k h
  refine Dict.ext_keys e2 (by rw [e2]; exact Dict.nodup_update hd _) fun k => ?_
  rw [Dict.get?_update, Dict.get?_update, Dict.get?_update]
  by_cases hm : k ∈ kw.keys
  · obtain ⟨v, hv⟩ := lastValue_isSome hm
    rw [hv]; rfl
  · rw [lastValue_none hm, lastValue_none (fun h => hm (hk ▸ h))]; rfl

/-! ### Objects that differ in the parameter values -/

theorem fnevals_keys {b : Backend} {o : Obj} {d : Dict} (h : d.keys = o.params.keys) :
    Fresh.fnevals b { o with params := d } = Fresh.fnevals b o := by
  have : Self.fnVars d = Self.fnVars o.params := by unfold Self.fnVars; rw [h]
  unfold Fresh.fnevals Fresh.fnCompile Fresh.fn
  simp only [this]

theorem Filled.withParams {b : Backend} {o o' : Obj} (h : Filled b o o') {d : Dict}
    (hd : d.keys = o.params.keys) : Filled b { o with params := d } { o' with params := d } where
  core := by
    have := h.core
    have e : ∀ x : Obj, ({ x with params := d } : Obj).core = { x.core with params := d } := fun _ => rfl
    rw [e, e, this]
  fn := h.fn
  fnevals := by
    rw [fnevals_keys hd, fnevals_keys (by rw [hd, h.params]), h.fnevals]

theorem Fresh.update_eq {o : Obj} (h : "bsf" ∈ o.params.keys) (kw : Dict) :
    Fresh.update o kw = { o with params := o.params.update (kw.map fun p => (p.1, p.2.atleast1d)) } := by
  rw [← update_params h]; rfl

theorem Fresh.update_nil {o : Obj} (h : "bsf" ∈ o.params.keys) : Fresh.update o [] = o := by
  rw [Fresh.update_eq h]; rfl

theorem BsfOK.update {o : Obj} (h : BsfOK o) (kw : Dict) : BsfOK (Fresh.update o kw) :=
  h.after (.updateParams 0 kw)

theorem BsfOK.filled {b : Backend} {o o' : Obj} (h : BsfOK o) (hf : Filled b o o') : BsfOK o' := by
  unfold BsfOK; rw [hf.params]; exact h

/-- The first values again. -/
theorem Filled.back {b : Backend} {o o' : Obj} (hb : BsfOK o) {kw kw' : Dict} (hk : kw'.keys = kw.keys)
    (h : Filled b (Fresh.update (Fresh.update o kw) kw') o') :
    Filled b (Fresh.update o kw) (Fresh.update o' kw) := by
  have hb1 := hb.update kw
  have hb2 := hb1.update kw'
  have hb' := hb2.filled h
  have m2 : ∀ x : Dict, Dict.keys (x.map fun p => (p.1, p.2.atleast1d)) = x.keys :=
    fun x => Dict.keys_map_snd x Arr.atleast1d
  have hp : (Fresh.update (Fresh.update o kw) kw').params.update (kw.map fun p => (p.1, p.2.atleast1d)) =
      (Fresh.update o kw).params := by
    rw [update_params hb1.1, update_params hb.1]
    exact Dict.update_back hb.2 (by rw [m2, m2, hk])
  rw [Fresh.update_eq hb'.1, h.params, hp]
  have hkeys : (Fresh.update o kw).params.keys = (Fresh.update (Fresh.update o kw) kw').params.keys := by
    rw [update_params hb1.1]
    refine (Dict.keys_update fun k hk' => ?_).symm
    rw [m2, hk] at hk'
    rw [update_params hb.1, Dict.mem_keys_update, m2]
    exact Or.inr hk'
  have := h.withParams hkeys
  exact this

/-- The same values again. -/
theorem Filled.again {b : Backend} {o o' : Obj} (hb : BsfOK o) {kw : Dict}
    (h : Filled b (Fresh.update o kw) o') : Filled b (Fresh.update o kw) (Fresh.update o' kw) := by
  have hb1 := hb.update kw
  have hb' := hb1.filled h
  have m2 : ∀ x : Dict, Dict.keys (x.map fun p => (p.1, p.2.atleast1d)) = x.keys :=
    fun x => Dict.keys_map_snd x Arr.atleast1d
  have hp : (Fresh.update o kw).params.update (kw.map fun p => (p.1, p.2.atleast1d)) =
      (Fresh.update o kw).params := by
    rw [update_params hb.1]
    have := Dict.update_back (d := o.params) (kw := kw.map fun p => (p.1, p.2.atleast1d))
      (kw' := kw.map fun p => (p.1, p.2.atleast1d)) hb.2 rfl
    have h2 : ∀ k ∈ Dict.keys (kw.map fun p => (p.1, p.2.atleast1d)), k ∈
        (o.params.update (kw.map fun p => (p.1, p.2.atleast1d))).keys :=
      fun k h => (Dict.mem_keys_update _ _ _).mpr (Or.inr h)
    refine Dict.ext_keys (Dict.keys_update h2) ?_ fun k => ?_
    · rw [Dict.keys_update h2]; exact Dict.nodup_update hb.2 _
    · rw [Dict.get?_update, Dict.get?_update]
      cases lastValue (kw.map fun p => (p.1, p.2.atleast1d)) k <;> rfl
  rw [Fresh.update_eq hb'.1, h.params, hp]
  exact h.withParams rfl

/-! ### Surface + volume, and the parameter check -/

/-- `_surface_volume()` without memo tables. -/
def Fresh.surfaceVolume (b : Backend) (o : Obj) : Py Arr := do
  let x ← addM (Fresh.acc0 b o).surface (Fresh.acc0 b o).volume
  (Fresh.acc0 b o).convert x

theorem surfaceVolume_eq {full : Bool} {w : World} (hw : Inv full w) {id : ℕ} {o : Obj}
    (ho : w.objs id = some o) :
    (surfaceVolume id w).1 = Fresh.surfaceVolume w.backend o ∧
      DuringE full w id o (surfaceVolume id w).2 := by
  have h := accRef (full := full) (w0 := w) (id := id) (o := o)
    (S := fun _ _ => True) (Fresh.dVol w.backend o) (Fresh.dSrf w.backend o)
  have := Refines.bind (Refines.addM h.surface h.volume) (fun x _ => h.convert x)
  have := this w (During.init hw ho trivial)
  unfold surfaceVolume
  rw [bind_ok (getObj_some ho), bind_ok (show getW w = (.ok w, w) from rfl)]
  exact this

/-- The symbols the analyzers look at, without memo tables. -/
def Fresh.needed (o : Obj) : List String :=
  (Fresh.symbs o .tau ++ Fresh.symbs o .omega ++ Fresh.symbs o .NormBRDF ++ Fresh.symbs o .bsf ++
    o.V.phase.free ++ o.SRF.phase.free).filter fun k =>
      decide (k ∉ ["phi_0", "phi_ex", "theta_0", "theta_ex"])

/-- `_check_params` without memo tables. -/
def Fresh.checkParams (o : Obj) (names : List String) : Py (List String) :=
  let missing := ((Fresh.needed o).filter fun k => decide (k ∉ names)).filter
    fun k => decide (k ∉ o.params.keys)
  if missing ≠ [] then .error (.assertMissing missing) else .ok (Fresh.needed o)

theorem checkParams_eq {full : Bool} {w : World} (hw : Inv full w) {id : ℕ} {o : Obj}
    (ho : w.objs id = some o) (names : List String) :
    (checkParams id names w).1 = Fresh.checkParams o names ∧
      DuringE full w id o (checkParams id names w).2 := by
  have h := accRef (full := full) (w0 := w) (id := id) (o := o)
    (S := fun _ _ => True) (Fresh.dVol w.backend o) (Fresh.dSrf w.backend o)
  have key := Refines.bind (h.symbs .tau) fun a _ => Refines.bind (h.symbs .omega) fun b _ =>
    Refines.bind (h.symbs .NormBRDF) fun c _ => Refines.bind (h.symbs .bsf) fun d _ =>
    Refines.bind h.V fun v _ => Refines.bind h.SRF fun s _ => Refines.bind h.params fun pd _ =>
    Refines.ite (I := DuringE full w id o)
      (c := (((a ++ b ++ c ++ d ++ v.phase.free ++ s.phase.free).filter fun k =>
          decide (k ∉ ["phi_0", "phi_ex", "theta_0", "theta_ex"])).filter fun k =>
            decide (k ∉ names)).filter (fun k => decide (k ∉ pd.keys)) ≠ [])
      (fun _ => Refines.throw' (.assertMissing ((((a ++ b ++ c ++ d ++ v.phase.free ++ s.phase.free).filter fun k =>
          decide (k ∉ ["phi_0", "phi_ex", "theta_0", "theta_ex"])).filter fun k =>
            decide (k ∉ names)).filter (fun k => decide (k ∉ pd.keys)))))
      fun _ => Refines.pure_ok ((a ++ b ++ c ++ d ++ v.phase.free ++ s.phase.free).filter fun k =>
          decide (k ∉ ["phi_0", "phi_ex", "theta_0", "theta_ex"]))
  have := key w (During.init hw ho trivial)
  unfold checkParams
  rw [bind_ok (getObj_some ho), bind_ok (show getW w = (.ok w, w) from rfl)]
  exact this

/-! ### One update of `Analyze` -/

theorem DuringE.get {full : Bool} {w0 w : World} {id : ℕ} {o : Obj} (h : DuringE full w0 id o w) :
    ∃ o', w.objs id = some o' ∧ Filled w0.backend o o' := h.obj

/-- The effect of a successful update. -/
structure Updated (id : ℕ) (A A' : Analyzer) (w w' : World) (o o' : Obj) (res : Arr) (contribs : List Arr)
    (sv : Option Arr) : Prop where
  before : w.objs id = some o
  after : w'.objs id = some o'
  backend : w'.backend = w.backend
  frame : ∀ j, j ≠ id → w'.objs j = w.objs j
  next : w'.next = w.next
  calc_ : Fresh.calcAll w.backend (Fresh.update o (sliderVals A.sliders)) = .ok res
  rows : rowsOf res.squeeze = .ok contribs
  dashed : if o.intQ = true then ∃ y, Fresh.surfaceVolume w.backend (Fresh.update o (sliderVals A.sliders)) = .ok y ∧
      sv = some y.squeeze else sv = none
  sliders : A'.sliders = A.sliders
  range : A'.range = A.range
  lines : A'.lines = some (newLines A.lines contribs sv)
  over : match A.range with
    | none => A'.overlay = none ∧ Filled w.backend (Fresh.update o (sliderVals A.sliders)) o'
    | some k => k ∈ A.sliders.map Prod.fst ∧ ∃ r, Fresh.calcAll w.backend
        (Fresh.update (Fresh.update o (sliderVals A.sliders)) (rangeVals A.sliders k)) = .ok r ∧
        A'.overlay = some r ∧ Filled w.backend
          (Fresh.update (Fresh.update o (sliderVals A.sliders)) (rangeVals A.sliders k)) o'

theorem update_ok {w : World} (hw : Reachable w) {id : ℕ} {A A' : Analyzer} {w' : World}
    (h : Analyzer.update id A w = (.ok A', w')) :
    ∃ o o' res contribs sv, Updated id A A' w w' o o' res contribs sv := by
  cases ho : w.objs id with
  | none =>
    unfold Analyzer.update at h
    rw [bind_error (updateParams_none ho _)] at h
    cases h
  | some o =>
  have hb := hw.keeps.any.bsfOK ho
  unfold Analyzer.update at h
  rw [bind_ok (updateParams_eq ho _)] at h
  set kw := sliderVals A.sliders with hkw
  have hb1 := hb.update kw
  change ((calcOp id [] >>= _) (w.updated id o kw)) = _ at h
  have i1 : Inv true (w.updated id o kw) := hw.inv.updated ho kw
  have o1 := w.updated_objs id o kw
  obtain ⟨c1, c2⟩ := calcOp_eq i1 o1 []
  rw [Fresh.update_nil hb1.1] at c1 c2
  obtain ⟨res, w2, hc, h⟩ := bind_ok_inv h
  rw [hc] at c1 c2
  obtain ⟨contribs, w3, hl, h⟩ := bind_ok_inv h
  obtain ⟨hrows, rfl⟩ := lift_ok hl
  obtain ⟨o2, ho2, hf2⟩ := c2.get
  replace hf2 : Filled w.backend (Fresh.update o kw) o2 := hf2
  rw [bind_ok (getObj_some ho2)] at h
  have b2 : w2.backend = w.backend := c2.backend
  have fr2 : ∀ j, j ≠ id → w2.objs j = w.objs j := by
    intro j hj
    rw [c2.frame j hj]
    simp [World.updated, Function.update_of_ne hj]
  have n2 : w2.next = w.next := c2.next
  have q2 : o2.intQ = o.intQ := hf2.intQ
  obtain ⟨sv, w3, hs, h⟩ := bind_ok_inv h
  have hsv : (if o.intQ = true then ∃ y, Fresh.surfaceVolume w.backend (Fresh.update o kw) = .ok y ∧
      sv = some y.squeeze else sv = none) ∧ w3.backend = w.backend ∧ (∀ j, j ≠ id → w3.objs j = w.objs j) ∧
      w3.next = w.next ∧ Inv true w3 ∧
      ∃ o3, w3.objs id = some o3 ∧ Filled w.backend (Fresh.update o kw) o3 := by
    by_cases hq : o.intQ = true
    · rw [if_pos (q2.trans hq)] at hs
      rw [if_pos hq]
      obtain ⟨y, w4, hy, hs⟩ := bind_ok_inv hs
      have e : (pure (some y.squeeze) : M (Option Arr)) w4 = (.ok (some y.squeeze), w4) := rfl
      rw [e] at hs
      cases hs
      obtain ⟨s1, s2⟩ := surfaceVolume_eq c2.inv ho2
      rw [hy] at s1 s2
      obtain ⟨o3, ho3, hf3⟩ := s2.get
      rw [b2] at s1 hf3
      refine ⟨⟨y, ?_, rfl⟩, s2.backend.trans b2, fun j hj => (s2.frame j hj).trans (fr2 j hj), s2.next.trans n2,
        s2.inv, o3, ho3, hf2.trans hf3⟩
      refine Eq.trans ?_ s1.symm
      unfold Fresh.surfaceVolume
      rw [Filled.acc0 hf2]
    · rw [if_neg (by rw [q2]; exact hq)] at hs
      rw [if_neg hq]
      cases hs
      exact ⟨rfl, b2, fr2, n2, c2.inv, o2, ho2, hf2⟩
  obtain ⟨hsv, b3, fr3, n3, i3, o3, ho3, hf3⟩ := hsv
  cases hr : A.range with
  | none =>
    rw [hr] at h
    cases h
    exact ⟨o, o3, res, contribs, sv, ho, ho3, b3, fr3, n3, c1.symm, hrows, hsv, rfl, hr.symm, rfl, by
      rw [hr]; exact ⟨rfl, hf3⟩⟩
  | some k =>
    rw [hr] at h
    obtain ⟨r, w4, h4, h⟩ := bind_ok_inv h
    cases h
    unfold rangeLines at h4
    by_cases hk : k ∉ A.sliders.map Prod.fst
    · rw [if_pos hk] at h4; cases h4
    · rw [if_neg hk, bind_ok (updateParams_eq ho3 _)] at h4
      set rv := rangeVals A.sliders k with hrv
      have hb3 := hb1.filled hf3
      change calcOp id [] (w3.updated id o3 rv) = _ at h4
      have i4 : Inv true (w3.updated id o3 rv) := i3.updated ho3 rv
      obtain ⟨d1, d2⟩ := calcOp_eq i4 (w3.updated_objs id o3 rv) []
      rw [Fresh.update_nil (hb3.update rv).1] at d1 d2
      rw [h4] at d1 d2
      have hkeys : Dict.keys (rv.map fun p => (p.1, p.2.atleast1d)) = kw.keys := by
        rw [Dict.keys_map_snd rv Arr.atleast1d, hrv, rangeVals_keys, hkw, sliderVals_keys]
      have hsame : Filled w.backend (Fresh.update (Fresh.update o kw) rv) (Fresh.update o3 rv) := by
        rw [Fresh.update_eq hb3.1, Fresh.update_eq hb1.1, hf3.params]
        refine hf3.withParams (Dict.keys_update fun k' hk' => ?_)
        rw [hkeys] at hk'
        rw [update_params hb.1, Dict.mem_keys_update, Dict.keys_map_snd kw Arr.atleast1d]
        exact Or.inr hk'
      have b4 : (w3.updated id o3 rv).backend = w.backend := b3
      rw [b4] at d1
      obtain ⟨o4, ho4, hf4⟩ := d2.get
      have hf4 : Filled w.backend (Fresh.update o3 rv) o4 := b4 ▸ hf4
      refine ⟨o, o4, res, contribs, sv, ho, ho4, d2.backend.trans b4, ?_, d2.next.trans n3, c1.symm, hrows, hsv, rfl, hr.symm, rfl, by
        rw [hr]
        refine ⟨not_not.mp hk, r, ?_, rfl, hsame.trans hf4⟩
        rw [← fresh_calc_filled hsame]; exact d1.symm⟩
      intro j hj
      rw [d2.frame j hj]
      simp [World.updated, Function.update_of_ne hj]
      exact fr3 j hj

end

end RT1
