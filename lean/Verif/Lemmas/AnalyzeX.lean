import Verif.Lemmas.AnalyzeR

/-! When an analyzer is created, and its range overlay. -/

namespace RT1

noncomputable section
open Classical

theorem needs_still {o o' : Obj} (h : o'.still = o.still) (n : String) : o'.Needs n ↔ o.Needs n := by
  simp only [Obj.still, Prod.mk.injEq] at h
  obtain ⟨e1, e2, -, -, -, -, e7, -⟩ := h
  unfold Obj.Needs
  rw [e1, e2, e7]

theorem params_still {o o' : Obj} (h : o'.still = o.still) : o'.params = o.params := by
  simp only [Obj.still, Prod.mk.injEq] at h
  exact h.2.2.2.2.2.2.2

theorem intQ_still {o o' : Obj} (h : o'.still = o.still) : o'.intQ = o.intQ := by
  simp only [Obj.still, Prod.mk.injEq] at h
  exact h.2.2.2.2.1

theorem pdef_still {o o' : Obj} (h : o'.still = o.still) : o'.pdef = o.pdef := by
  simp only [Obj.still, Prod.mk.injEq] at h
  exact h.2.2.2.2.2.2.1

/-- A program that leaves all objects as they are. -/
def ObjsKept {α : Type} (x : M α) : Prop := ∀ w, (x w).2.objs = w.objs

namespace ObjsKept

theorem bind {α β : Type} {x : M α} {f : α → M β} (h : ObjsKept x) (hf : ∀ a, ObjsKept (f a)) :
    ObjsKept (x >>= f) := by
  intro w
  have hx := h w
  rcases hr : x w with ⟨r, w1⟩
  rw [hr] at hx
  cases r with
  | error e => rw [bind_error hr]; exact hx
  | ok a => rw [bind_ok hr, hf a w1]; exact hx

theorem pure {α : Type} (a : α) : ObjsKept (Pure.pure a : M α) := fun _ => rfl

theorem throw {α : Type} (e : PyErr) : ObjsKept (MonadExcept.throw e : M α) := fun _ => rfl

theorem lift {α : Type} (x : Py α) : ObjsKept (liftPy x : M α) := by
  intro w; cases x <;> rfl

theorem obj (id : ℕ) : ObjsKept (getObj id) := by
  intro w
  unfold getObj
  cases w.objs id <;> rfl

theorem symbs (id : ℕ) (p : PName) : ObjsKept (Self.paramSymbs id p) := by
  intro w
  unfold Self.paramSymbs memo
  cases LRU.find w.caches.psym (id, p) with
  | some v => rfl
  | none =>
    simp only
    cases ho : w.objs id with
    | none => rw [bind_error (show getObj id w = (.error .attributeError, w) by unfold getObj; rw [ho])]
    | some o => rw [bind_ok (getObj_some ho)]; rfl

theorem check (id : ℕ) (names : List String) : ObjsKept (checkParams id names) := by
  unfold checkParams
  refine bind (obj id) fun _ => bind (fun _ => rfl) fun w => bind (symbs id _) fun _ => bind (symbs id _) fun _ =>
    bind (symbs id _) fun _ => bind (symbs id _) fun _ => bind (bind (obj id) fun _ => pure _) fun _ =>
    bind (bind (obj id) fun _ => pure _) fun _ => bind (bind (obj id) fun _ => pure _) fun _ => ?_
  simp only
  split_ifs
  · exact throw _
  · exact pure _

theorem sliders (id : ℕ) (ps : List (String × List SliderArg)) : ObjsKept (analyzerSliders id ps) :=
  bind (check id _) fun _ => bind (lift _) fun _ => lift _

end ObjsKept

/-- The state before the first update. -/
theorem analyze_ready {w : World} (hw : Reachable w) {id : ℕ} {o : Obj} (ho : w.objs id = some o)
    {ps : List (String × List SliderArg)}
    (hneeds : ∀ n, o.Needs n → n ∈ ps.map Prod.fst ∨ n ∈ o.params.keys)
    (hnum : ∀ p ∈ ps, ∃ a b rest, p.2 = .number a :: .number b :: rest ∧
      (rest = [] ∨ ∃ c r, rest = .number c :: r))
    (hI : Arr.Fits o.I0.shape [100, 1])
    (hpar : ∀ k x, o.params.get? k = some x → k ∉ ps.map Prod.fst ∨ ¬ o.Needs k → Arr.Fits x.shape [100, 1])
    (hdef : ∀ p, match o.pdef p with
      | .val x => Arr.Fits x.shape [100, 1]
      | .str e => ∀ s ∈ e.free, s ∉ ["theta_0", "theta_ex", "phi_0", "phi_ex"]
      | .basic e => e.free = []) :
    ∃ sl w3 o3, Reachable w3 ∧ w3.objs id = some o3 ∧ w3.backend = w.backend ∧ o3.still = o.still ∧
      o3.mono = true ∧ o3.ang .t0 = some analyzeT0 ∧
      (o3.ang .p0 = some (arr1 0) ∧ o3.geom = ⟨.sym "theta_0", .sym "theta_0", .num 0, .num 0⟩ ∧
        o3.fnevals_ = none ∧ o3.fnInput = o.fnInput ∧ o3.fnevalsInput = o.fnevalsInput) ∧ Complete (Fresh.update o3 (sliderVals sl)) [100, 1] ∧
      (∀ n, n ∈ sl.map Prod.fst ↔ n ∈ ps.map Prod.fst ∧ o.Needs n) ∧
      analyze id none ps w = Analyzer.update id ⟨sl, none, none, none⟩ w3 ∧
      ∀ k ∈ sl.map Prod.fst, analyze id (some k) ps w = Analyzer.update id ⟨sl, some k, none, none⟩ w3 := by
  obtain ⟨w2, o2, r2, ho2, hst, hb2, hmono, ht, hp0, hgeo, -, hfne, hfi, hfei, e1, e2⟩ := analyze_start hw ho
  have hp := params_still hst
  obtain ⟨sl, w3, e3, r3, hd⟩ := analyzerSliders_succ r2 ho2 (ps := ps)
    (fun n hn => by rw [hp]; exact hneeds n ((needs_still hst n).mp hn)) hnum
  obtain ⟨o3, ho3, hf3⟩ := hd.get
  have ho32 : o3 = o2 := by
    have := congrFun (ObjsKept.sliders id ps w2) id
    rw [e3] at this
    have := (ho3.symm.trans this).trans ho2
    cases this; rfl
  obtain ⟨-, l, h2, h3⟩ := analyzerSliders_ok r2 ho2 e3
  have hnames : ∀ n, n ∈ sl.map Prod.fst ↔ n ∈ ps.map Prod.fst ∧ o.Needs n := by
    intro n
    rw [mkSliders_keys h3, parseParameters_keys h2]
    simp only [needs_still hst, List.mem_map, List.mem_filter, decide_eq_true_eq]
    constructor
    · rintro ⟨p, ⟨hp, hn⟩, rfl⟩; exact ⟨⟨p, hp, rfl⟩, hn⟩
    · rintro ⟨⟨p, hp, rfl⟩, hn⟩; exact ⟨p, ⟨hp, hn⟩, rfl⟩
  have hn : ∀ n, o.Needs n → n ∈ sl.map Prod.fst ∨ n ∈ o.params.keys := by
    intro n h
    rcases hneeds n h with h' | h'
    · exact Or.inl ((hnames n).mpr ⟨h', h⟩)
    · exact Or.inr h'
  have hst3 : o3.still = o.still := by
    have := congrArg Obj.still hf3.core
    have : o2.still = o3.still := this.symm
    rw [← this, hst]
  have hg3 : o3.geomAttrs = o2.geomAttrs := by
    have := congrArg Obj.geomAttrs hf3.core
    exact this
  simp only [Obj.geomAttrs, Prod.mk.injEq] at hg3
  obtain ⟨-, g2, g3, -⟩ := hg3
  have hc : Complete (Fresh.update o3 (sliderVals sl)) [100, 1] := by
    refine complete_sliders (hw.keeps.any.bsfOK ho) hst3 (.inl (g2.trans hmono)) (.inl (g2.trans hmono)) (g3 ▸ ht) rfl (g3 ▸ hp0)
      (by show Arr.Fits [1] [100, 1]; simp [Arr.Fits]) sl hI ?_ ?_ ?_ ?_
    · intro k x hx hk
      refine hpar k x hx ?_
      by_contra hcon
      rw [not_or, not_not, not_not] at hcon
      exact hk ((hnames k).mpr hcon)
    · intro p
      have hd := hdef p
      cases hpp : o.pdef p with
      | val x => rw [hpp] at hd; exact hd
      | basic e => rw [hpp] at hd; exact hd
      | str e =>
        rw [hpp] at hd
        exact fun s hs => hn s ⟨Or.inl ⟨p, e, hpp, hs⟩, hd s hs⟩
    · exact fun s hs h => hn s ⟨Or.inr (Or.inl hs), h⟩
    · exact fun s hs h => hn s ⟨Or.inr (Or.inr hs), h⟩
  refine ⟨sl, w3, o3, r3, ho3, hd.backend.trans hb2, hst3, g2.trans hmono, g3 ▸ ht,
    ⟨g3 ▸ hp0, ho32 ▸ hgeo, ho32 ▸ hfne, ho32 ▸ hfi, ho32 ▸ hfei⟩, hc, hnames, ?_, fun k hk => ?_⟩
  · unfold analyze
    rw [bind_ok e1, bind_ok e2, bind_ok e3]
  · unfold analyze
    rw [bind_ok e1, bind_ok e2, bind_ok e3]
    simp only [if_pos (Or.inr (Or.inr hk) : k = "" ∨ k = "None" ∨ k ∈ sl.map Prod.fst)]

theorem Complete.updated {o : Obj} {S T : List ℕ} (hc : Complete o S) (hS : Arr.Fits S T)
    (hb : "bsf" ∈ o.params.keys) {kw : Dict} (hkw : ∀ p ∈ kw, Arr.Fits p.2.atleast1d.shape T) :
    Complete (Fresh.update o kw) T := by
  rw [Fresh.update_eq hb]
  have hk : ∀ n, n ∈ o.params.keys → n ∈ (o.params.update (kw.map fun p => (p.1, p.2.atleast1d))).keys := by
    intro n hn
    rw [Dict.mem_keys_update]; exact Or.inl hn
  refine ⟨?_, ?_, ?_, ?_, hc.I0.trans hS, ?_, ?_, ?_, ?_⟩
  · obtain ⟨a, h1, h2⟩ := hc.t0; exact ⟨a, h1, h2.trans hS⟩
  · obtain ⟨a, h1, h2⟩ := hc.p0; exact ⟨a, h1, h2.trans hS⟩
  · rcases hc.tex with h | ⟨a, h1, h2⟩
    · exact Or.inl h
    · exact Or.inr ⟨a, h1, h2.trans hS⟩
  · rcases hc.pex with h | ⟨a, h1, h2⟩
    · exact Or.inl h
    · exact Or.inr ⟨a, h1, h2.trans hS⟩
  · intro k a ha
    rw [show ({ o with params := o.params.update (kw.map fun p => (p.1, p.2.atleast1d)) } : Obj).params =
      o.params.update (kw.map fun p => (p.1, p.2.atleast1d)) from rfl, Dict.get?_update] at ha
    cases hl : lastValue (kw.map fun p => (p.1, p.2.atleast1d)) k with
    | none => rw [hl] at ha; exact (hc.params k a ha).trans hS
    | some v =>
      rw [hl] at ha
      cases ha
      obtain ⟨y, hy, he⟩ := List.mem_map.mp (lastValue_mem hl)
      cases he
      exact hkw _ hy
  · intro p
    have := hc.defs p
    show match o.pdef p with
      | .val a => Arr.Fits a.shape T
      | .str e => ∀ s ∈ e.free, s ∈ (o.params.update (kw.map fun p => (p.1, p.2.atleast1d))).keys
      | .basic e => e.free = []
    cases hp : o.pdef p with
    | val a => rw [hp] at this; exact Arr.Fits.trans this hS
    | basic e => rw [hp] at this; exact this
    | str e => rw [hp] at this; exact fun s hs => hk s (this s hs)
  · intro s hs
    rcases List.mem_append.mp (hc.V s hs) with h | h
    · exact List.mem_append_left _ h
    · exact List.mem_append_right _ (hk s h)
  · intro s hs
    rcases List.mem_append.mp (hc.SRF s hs) with h | h
    · exact List.mem_append_left _ h
    · exact List.mem_append_right _ (hk s h)

/-- The interaction term can be evaluated for the values of the sliders. -/
theorem ready_interaction {b : Backend} {o : Obj} (hc : Complete o [100, 1]) (hb : BsfOK o) (hok : ObjOK b o)
    (ht : o.ang .t0 = some analyzeT0) (hm : o.mono = true) (hp0 : o.ang .p0 = some (arr1 0))
    (hq : o.intQ = true) (hfi : o.fnInput = none) (hfei : o.fnevalsInput = none)
    (hv : ∀ l, o.fnevals_ = some l → l.vars = ["theta_0", "phi_0", "theta_ex", "phi_ex"] ++ o.params.keys)
    {fs : List P} (hfn : fnCoefs o.V o.SRF o.geom = .ok fs) (hcst : b = .symengine ∨ ∃ p ∈ fs, ¬ isConstFn p)
    (hnV : ∃ n, o.V.ncoefs = .ok (n + 1)) (hnS : ∃ n, o.SRF.ncoefs = .ok (n + 1)) :
    CompleteI b o [100, 1] where
  base := hc
  aligned :=
    { pos := by simp
      t0 := fun a ha => by rw [ht] at ha; cases ha; rfl
      tex := fun h => by rw [hm] at h; cases h
      pex := fun h => by rw [hm] at h; cases h
      p0 := fun a ha => by
        rw [hp0] at ha; cases ha
        exact (by decide : 1 ≤ 2)
      params := fun p hp => (hc.params p.1 p.2 (Dict.get?_of_nodup hb.2 hp)).length
      tau := fun a ha => by
        obtain ⟨a', h1, h2⟩ := hc.s_par b .tau
        rw [ha] at h1; cases h1
        exact h2.length
      const := by
        rcases hcst with h | h
        · exact Or.inr (Or.inl h)
        · exact Or.inr (Or.inr ⟨fs, hfn, h⟩) }
  intQ := hq
  objOK := hok
  fnI := hfi
  fneI := hfei
  fn := ⟨fs, hfn⟩
  V := hnV
  SRF := hnS
  params := fun a ha => by
    obtain ⟨p, hp, rfl⟩ := List.mem_map.mp ha
    exact hc.params p.1 p.2 (Dict.get?_of_nodup hb.2 hp)
  vars := hv

theorem Complete.surfaceVolume {o : Obj} {S : List ℕ} (hc : Complete o S) (b : Backend) :
    ∃ y, Fresh.surfaceVolume b o = .ok y := by
  obtain ⟨x, h1, h2⟩ := Succ.addM (hc.s_surface b (Fresh.dVol b o) (Fresh.dSrf b o))
    (hc.s_volume b (Fresh.dVol b o) (Fresh.dSrf b o))
  obtain ⟨y, h3, -⟩ := hc.s_convert b (Fresh.dVol b o) (Fresh.dSrf b o) h2
  refine ⟨y, ?_⟩
  unfold Fresh.surfaceVolume
  rw [show addM (Fresh.acc0 b o).surface (Fresh.acc0 b o).volume = .ok x from h1]
  exact h3

theorem fits_box {T : List ℕ} (h1 : Arr.Fits [100, 1] T) (h2 : Arr.Fits [1, 20] T) : Arr.Fits [100, 20] T := by
  match T, h1, h2 with
  | [], h1, _ => cases h1
  | [a], h1, _ => exact absurd h1.2 (by simp [Arr.Fits])
  | a :: b :: T, h1, h2 => exact ⟨h1.1, h2.2.1, h1.2.2⟩

theorem rangeVals_get {o : Obj} (hb : "bsf" ∈ o.params.keys) {sl : List (String × Slider)} {k s : String}
    (hs : s ∈ sl.map Prod.fst) : ∃ x, (Fresh.update o (rangeVals sl k)).params.get? s = some x ∧ x.shape = [1, 20] := by
  obtain ⟨v, hv⟩ := lastValue_isSome (kw := (rangeVals sl k).map fun p => (p.1, p.2.atleast1d)) (k := s) (by
    simpa [rangeVals, Dict.keys, List.map_map, Function.comp_def] using hs)
  refine ⟨v, ?_, ?_⟩
  · rw [Fresh.update_eq hb]
    show (o.params.update _).get? s = _
    rw [Dict.get?_update, hv]; rfl
  · have := lastValue_mem hv
    simp only [rangeVals, List.map_map, List.mem_map, Function.comp_def] at this
    obtain ⟨p, -, he⟩ := this
    cases he
    rfl

theorem rangeVals_shape {sl : List (String × Slider)} {k : String} :
    ∀ p ∈ rangeVals sl k, p.2.atleast1d.shape = [1, 20] := by
  intro p hp
  obtain ⟨q, -, rfl⟩ := List.mem_map.mp hp
  rfl

theorem sliderVals_shape {sl : List (String × Slider)} :
    ∀ p ∈ sliderVals sl, p.2.atleast1d.shape = [1] := by
  intro p hp
  obtain ⟨q, -, rfl⟩ := List.mem_map.mp hp
  rfl

/-- The evaluation for the overlay, if tau or bsf depends on a slider. -/
theorem overlay_succ {o : Obj} (b : Backend) (hc : Complete o [100, 1]) (hb : "bsf" ∈ o.params.keys)
    {sl : List (String × Slider)} {k : String} (ht : o.ang .t0 = some analyzeT0) (hq : o.intQ = false)
    {p : PName} {e : Expr} {s : String} (hp : p = .tau ∨ p = .bsf) (he : o.pdef p = .str e) (hs : s ∈ e.free)
    (hs' : s ∈ sl.map Prod.fst) :
    ∃ r, Fresh.calcAll b (Fresh.update o (rangeVals sl k)) = .ok r ∧ r.shape = [100, 20, 3] := by
  have hc' : Complete (Fresh.update o (rangeVals sl k)) [100, 20] :=
    hc.updated (by simp [Arr.Fits]) hb fun p hp => by rw [rangeVals_shape p hp]; simp [Arr.Fits]
  obtain ⟨x, hx, hx'⟩ := rangeVals_get hb (k := k) hs'
  have e0 : (Fresh.update o (rangeVals sl k)).pdef = o.pdef ∧ (Fresh.update o (rangeVals sl k)).ang = o.ang ∧
      (Fresh.update o (rangeVals sl k)).intQ = o.intQ := ⟨rfl, rfl, rfl⟩
  generalize Fresh.update o (rangeVals sl k) = o1 at *
  obtain ⟨e1, e2, e3⟩ := e0
  obtain ⟨t, t1, -⟩ := hc'.s_par b .tau
  obtain ⟨β, b1, -⟩ := hc'.s_par b .bsf
  refine hc'.calcAll_common b (a := analyzeT0) (by rw [e2, ht]) (by rw [e3, hq]) t1 b1 ?_
  intro T h1 h2 h3 h4
  refine fits_box h1 ?_
  rw [← hx']
  rcases hp with rfl | rfl
  · exact (par_below (e1 ▸ he) t1 hs hx).trans h3
  · exact (par_below (e1 ▸ he) b1 hs hx).trans h4

end

end RT1
