import Verif.Lemmas.Extend
import Verif.Lemmas.Stale
import Verif.Lemmas.ScalarCall
import Verif.Lemmas.IsoErr
import Verif.Props.Backend

/-!
# C12: parameters that are added later

`R.calc(**kw)`, `R.surface(**kw)`, `R.volume(**kw)` and `R.update_params(**kw)` store the values of
`kw` on the object.  Here `kw` has names that have not been used before.
-/

namespace RT1

noncomputable section
open Classical

/-- The names of `ext` are new for the object: not stored yet, not one of the angle symbols, and no
name occurs twice (keywords of a python call). -/
structure New (o : Obj) (ext : Dict) : Prop where
  new : ∀ k ∈ ext.keys, k ∉ o.params.keys
  angle : ∀ k ∈ ext.keys, k ∉ ["theta_0", "theta_ex", "phi_0", "phi_ex"]
  nodup : ext.keys.Nodup

/-- After `update_params` the default of `bsf` is stored. -/
theorem bsf_known (o : Obj) (kw : Dict) (h : o.pdef .bsf = .str (.sym "bsf")) :
    "bsf" ∈ (Fresh.update o kw).params.keys := by
  unfold Fresh.update
  simp only [h]
  rw [Dict.mem_keys_update, Dict.keys_map_snd _ Arr.atleast1d]
  split_ifs with hb
  · exact hb
  · right
    rw [Dict.keys_append]
    simp [Dict.keys]

theorem New.names {o : Obj} {ext : Dict} (h : New o ext) :
    NewNames o.params (ext.map fun p => (p.1, p.2.atleast1d)) := by
  constructor
  · intro k hk
    rw [Dict.keys_map_snd _ Arr.atleast1d] at hk
    exact h.new k hk
  · intro k hk
    rw [Dict.keys_map_snd _ Arr.atleast1d] at hk
    exact h.angle k hk

theorem update_nil {o : Obj} (hb : o.pdef .bsf = .str (.sym "bsf") → "bsf" ∈ o.params.keys) :
    Fresh.update o [] = o := by
  rw [update_more hb (by simp [Dict.keys]) (by simp [Dict.keys])]
  unfold Obj.more
  simp

/-- Without interaction term `calc` does not use the stored coefficients. -/
theorem calcAll_core (b : Backend) {o o' : Obj} (h : o.core = o'.core) (hp : o.intQ = false) :
    Fresh.calcAll b o = Fresh.calcAll b o' := by
  have hp' : o'.intQ = false := by
    have e : o.core.intQ = o'.core.intQ := congrArg Obj.intQ h
    have e : o.intQ = o'.intQ := e
    rw [← e]; exact hp
  have hbody : (Fresh.acc0 b o).calcBody = (Fresh.acc0 b o').calcBody := by
    have h1 : (Fresh.acc0 b o).calcBody = (Fresh.acc0 b o.core).calcBody :=
      Acc.calcBody_congr (congrArg Except.ok hp) (congrArg Except.ok hp) rfl rfl rfl fun _ _ _ _ => rfl
    have h2 : (Fresh.acc0 b o').calcBody = (Fresh.acc0 b o'.core).calcBody :=
      Acc.calcBody_congr (congrArg Except.ok hp') (congrArg Except.ok hp') rfl rfl rfl fun _ _ _ _ => rfl
    rw [h1, h2, h]
  have hm : (Fresh.acc0 b o).missingNames = (Fresh.acc0 b o').missingNames := by
    show (Fresh.acc0 b o.core).missingNames = (Fresh.acc0 b o'.core).missingNames
    rw [h]
  unfold Fresh.calcAll Acc.calcTry
  rw [hbody, hm]

/-- The part common to surface, volume and calc. -/
theorem ext_call {call : ℕ → Dict → M Arr} {F : Backend → Obj → Py Arr} {P : Obj → Prop}
    (hP : ∀ o o' : Obj, o.core = o'.core → P o → P o') (hPm : ∀ o ext, P o → P (Obj.more o ext))
    (heq : ∀ {w : World} {id : ℕ} {o : Obj}, Inv false w → w.objs id = some o → P o → ∀ kw,
      (call id kw w).1 = F w.backend (Fresh.update o kw))
    (hcore : ∀ (b : Backend) (o o' : Obj), o.core = o'.core → P o → F b o = F b o')
    (hext : ∀ {o : Obj} {ext : Dict}, NewNames o.params ext → P o → Ext (F .sympy o) (F .sympy (o.more ext)))
    {w' : World} (hi : Inv false w') (hb : w'.backend = .sympy) {id : ℕ} {o u : Obj} {kw : Dict}
    (ho : w'.objs id = some o) (hc : o.core = (Fresh.update u kw).core) (hp : P o) {arr : Arr}
    (hok : F .sympy (Fresh.update u kw) = .ok arr) {ext : Dict} (hn : New o ext) :
    (call id ext w').1 = .ok arr ∧ (call id [] (updateParams id ext w').2).1 = .ok arr := by
  obtain ⟨-, -, c3, c4, -⟩ := core_fields hc
  have hbsf : o.pdef .bsf = .str (.sym "bsf") → "bsf" ∈ o.params.keys := by
    rw [c3, c4]; exact bsf_known u kw
  have hm := update_more hbsf hn.new hn.nodup
  have hok' : F .sympy o = .ok arr := by rw [hcore _ _ _ hc hp, hok]
  have hres := hext hn.names hp arr hok'
  constructor
  · rw [heq hi ho hp, hb, hm]
    exact hres
  · have e := updateParams_eq ho ext
    have ho2 : (updateParams id ext w').2.objs id = some (Fresh.update o ext) := by rw [e]; simp
    have hb2 : (updateParams id ext w').2.backend = .sympy := by rw [e]; exact hb
    have hp2 : P (Fresh.update o ext) := by rw [hm]; exact hPm _ _ hp
    rw [heq (Inv.updateParams ext w' hi) ho2 hp2, hb2, update_nil (bsf_known o ext), hm]
    exact hres

/-- **C12** (partial), sympy backend: after a successful evaluation of the surface or volume
contribution or, with `int_Q=False`, of `calc`, giving further parameters does not make the
evaluation fail, whatever their values and shapes are, and does not change the result.
Missing: the interaction term, for which it is false (`C12_interaction_fails`), the symengine
backend (see `C12_symengine_partial`), names that are angle symbols. -/
theorem C12_sympy_partial {w : World} (hw : ReachableK w) (hb : w.backend = .sympy) {id : ℕ} {kw ext : Dict}
    {arr : Arr} {w' : World} {o : Obj} (ho : w'.objs id = some o) (hn : New o ext) :
    (surface id kw w = (.ok arr, w') →
      (surface id ext w').1 = .ok arr ∧ (surface id [] (updateParams id ext w').2).1 = .ok arr) ∧
    (volume id kw w = (.ok arr, w') →
      (volume id ext w').1 = .ok arr ∧ (volume id [] (updateParams id ext w').2).1 = .ok arr) ∧
    (o.intQ = false → calcOp id kw w = (.ok arr, w') →
      (calcOp id ext w').1 = .ok arr ∧ (calcOp id [] (updateParams id ext w').2).1 = .ok arr) := by
  refine ⟨fun h => ?_, fun h => ?_, fun hq h => ?_⟩
  · obtain ⟨u, o', hc⟩ := surface_callOK hw h
    have : o' = o := by have := hc.after; rw [ho] at this; cases this; rfl
    subst this
    refine ext_call (P := fun _ => True) (F := Fresh.surface) (fun _ _ _ _ => trivial) (fun _ _ _ => trivial)
      (fun hi ho _ kw => (surface_eq hi ho kw).1) (fun b o o' h _ => ?_) (fun hn _ => freshSurface_ext hn)
      hc.inv (hc.backend.trans hb) ho hc.filled.core trivial (by rw [← hb]; exact hc.ok) hn
    show Fresh.surface b o.core = Fresh.surface b o'.core
    rw [h]
  · obtain ⟨u, o', hc⟩ := volume_callOK hw h
    have : o' = o := by have := hc.after; rw [ho] at this; cases this; rfl
    subst this
    refine ext_call (P := fun _ => True) (F := Fresh.volume) (fun _ _ _ _ => trivial) (fun _ _ _ => trivial)
      (fun hi ho _ kw => (volume_eq hi ho kw).1) (fun b o o' h _ => ?_) (fun hn _ => freshVolume_ext hn)
      hc.inv (hc.backend.trans hb) ho hc.filled.core trivial (by rw [← hb]; exact hc.ok) hn
    show Fresh.volume b o.core = Fresh.volume b o'.core
    rw [h]
  · have hw' : ReachableK w' := by
      have := hw.step (op := .evalCalc id kw) trivial
      rw [show (step (.evalCalc id kw) w).2 = (calcOp id kw w).2 from bind_pure_state _ _, h] at this
      exact this
    have hb' : w'.backend = w.backend := by
      have := step_backend (.evalCalc id kw) w
      rw [show (step (.evalCalc id kw) w).2 = (calcOp id kw w).2 from bind_pure_state _ _, h] at this
      exact this
    cases hu : w.objs id with
    | none =>
      have := calcOp_none hu kw
      rw [h] at this
      cases this
    | some u =>
      have hcu : ∃ o', w'.objs id = some o' ∧ o'.core = (Fresh.update u kw).core := by
        have : HasCore id (Fresh.update u kw) (calcOp id kw w).2 :=
          evalOp_core hu kw fun P hP => Safe.bind Safe.getW fun _ => (hP.acc _).calcTry
        rw [h] at this
        exact this
      obtain ⟨o', h1, h2⟩ := hcu
      have : o' = o := by rw [ho] at h1; cases h1; rfl
      subst this
      have hqu : u.intQ = false := by
        have e : o'.core.intQ = (Fresh.update u kw).core.intQ := congrArg Obj.intQ h2
        have e : o'.intQ = u.intQ := e
        rw [← e]; exact hq
      have hok := calcOp_noInt hw.inv hu hqu kw
      rw [h, hb] at hok
      refine ext_call (P := fun o => o.intQ = false) (F := Fresh.calcAll) (fun o o' h hp => ?_) (fun _ _ h => h)
        (fun hi ho hp kw => calcOp_noInt hi ho hp kw) (fun b o o' h hp => ?_) (fun hn hq => calcAll_ext hn hq)
        hw'.inv (hb'.trans hb) ho h2 hq hok.symm hn
      · have e : o.core.intQ = o'.core.intQ := congrArg Obj.intQ h
        have e : o.intQ = o'.intQ := e
        rw [← e]; exact hp
      · exact calcAll_core b h hp

/-- Further values that fit the shape of the inputs keep the inputs complete. -/
theorem Complete.more {o : Obj} {S : List ℕ} (h : Complete o S) {ext : Dict}
    (hn : ∀ k ∈ ext.keys, k ∉ o.params.keys)
    (hf : ∀ k a, ext.get? k = some a → Arr.Fits a.shape S) : Complete (o.more ext) S := by
  have hk : ∀ s, s ∈ o.params.keys → s ∈ (o.params ++ ext : Dict).keys := fun s hs => by
    rw [Dict.keys_append]; exact List.mem_append_left _ hs
  refine ⟨h.t0, h.p0, h.tex, h.pex, h.I0, fun k a hka => ?_, fun p => ?_, fun s hs => ?_, fun s hs => ?_⟩
  · have hka : Dict.get? (o.params ++ ext) k = some a := hka
    by_cases hm : k ∈ o.params.keys
    · rw [Dict.get?_append_left hm] at hka
      exact h.params k a hka
    · refine hf k a ?_
      unfold Dict.get? at hka ⊢
      rw [List.find?_append] at hka
      have : o.params.find? (fun p => decide (p.1 = k)) = none := by
        rw [List.find?_eq_none]
        intro p hp hpk
        exact hm (List.mem_map.2 ⟨p, hp, by simpa using hpk⟩)
      rw [this] at hka
      exact hka
  · have := h.defs p
    show match o.pdef p with | .val a => _ | .str e => _ | .basic e => _
    split
    · rename_i a ha; rw [ha] at this; exact this
    · rename_i e he; rw [he] at this; exact fun s hs => hk s (this s hs)
    · rename_i e he; rw [he] at this; exact this
  · rcases List.mem_append.1 (h.V s hs) with h1 | h1
    · exact List.mem_append_left _ h1
    · exact List.mem_append_right _ (hk s h1)
  · rcases List.mem_append.1 (h.SRF s hs) with h1 | h1
    · exact List.mem_append_left _ h1
    · exact List.mem_append_right _ (hk s h1)

/-- Values that can be broadcast to shape `S`, for a complete object: same results. -/
theorem Complete.same_more {u : Obj} {S : List ℕ} (h : Complete u S) (b : Backend) {a : Arr}
    (ha : u.ang .t0 = some a) (hs : a.shape = S) {ext : Dict} (hn : NewNames u.params ext)
    (hf : ∀ k v, ext.get? k = some v → Arr.Fits v.shape S) :
    SameResult (Fresh.surface b u) (Fresh.surface b (u.more ext)) ∧
    SameResult (Fresh.volume b u) (Fresh.volume b (u.more ext)) ∧
    (u.intQ = false → SameResult (Fresh.calcAll b u) (Fresh.calcAll b (u.more ext))) := by
  have h' : Complete (u.more ext) S := h.more hn.new hf
  have ha' : (u.more ext).ang .t0 = some a := ha
  refine ⟨?_, ?_, fun hq => ?_⟩
  · obtain ⟨z, z1, z2⟩ := h.surface_arr b ha hs
    obtain ⟨z0, y1, y2⟩ := h.surface_arr .sympy ha hs
    obtain ⟨z', x1, x2⟩ := h'.surface_arr b ha' hs
    refine ⟨z, z', z1, x1, by rw [z2, x2], fun idx hv => ?_⟩
    have e1 := surface_backend z1 y1 idx
    have e2 := surface_backend (freshSurface_ext hn z0 y1) x1 idx
    rwa [e2, Arr.at'_valid hv, Arr.at'_valid (by rw [x2, ← z2]; exact hv)] at e1
  · obtain ⟨z, z1, z2⟩ := h.volume_arr b ha hs
    obtain ⟨z0, y1, y2⟩ := h.volume_arr .sympy ha hs
    obtain ⟨z', x1, x2⟩ := h'.volume_arr b ha' hs
    refine ⟨z, z', z1, x1, by rw [z2, x2], fun idx hv => ?_⟩
    have e1 := volume_backend z1 y1 idx
    have e2 := volume_backend (freshVolume_ext hn z0 y1) x1 idx
    rwa [e2, Arr.at'_valid hv, Arr.at'_valid (by rw [x2, ← z2]; exact hv)] at e1
  · obtain ⟨z, z1, z2⟩ := h.calcAll_three b ha hs hq
    obtain ⟨z0, y1, y2⟩ := h.calcAll_three .sympy ha hs hq
    obtain ⟨z', x1, x2⟩ := h'.calcAll_three b ha' hs hq
    refine ⟨z, z', z1, x1, by rw [z2, x2], fun idx hv => ?_⟩
    rw [z2] at hv
    obtain ⟨i, k, rfl⟩ : ∃ i k, idx = i ++ [k] := by
      have hl := hv.length
      rcases List.eq_nil_or_concat idx with rfl | ⟨i, k, rfl⟩
      · simp at hl
      · exact ⟨i, k, by simp⟩
    obtain ⟨v1, v2⟩ := Arr.valid_append_iff.1 hv
    have hk : k < 3 := by first | exact v1 | exact v2
    have hi : Arr.Valid S i := by first | exact v1 | exact v2
    rw [calc_backend hq z1 y1 z2 y2 hk hi]
    exact calc_backend (o := u.more ext) hq (calcAll_ext hn hq z0 y1) x1 y2 x2 hk hi

/-- **C12** (partial), any backend: in a state with complete inputs, further parameters with values
that can be broadcast to the shape of `t_0` do not make the evaluation of the surface or volume
contribution or, with `int_Q=False`, of `calc` fail, and do not change the result.
Missing: values of other shapes (they do make the symengine backend fail, see
`C17_counterexample`), the interaction term. -/
theorem C12_symengine_partial {w : World} (hw : ReachableK w) {id : ℕ} {kw ext : Dict} {o : Obj}
    (ho : w.objs id = some o) {S : List ℕ} (hc : Complete (Fresh.update o kw) S) {a : Arr}
    (ha : o.ang .t0 = some a) (hs : a.shape = S) (hn : New (Fresh.update o kw) ext)
    (hf : ∀ p ∈ ext, Arr.Fits p.2.atleast1d.shape S) :
    SameResult (surface id kw w).1 (surface id ext (surface id kw w).2).1 ∧
    SameResult (volume id kw w).1 (volume id ext (volume id kw w).2).1 ∧
    (o.intQ = false → SameResult (calcOp id kw w).1 (calcOp id ext (calcOp id kw w).2).1) := by
  have hsame := hc.same_more w.backend ha hs hn.names fun k v hv => by
    obtain ⟨p, hp, e⟩ := List.mem_map.1 (Dict.mem_of_get? hv)
    cases e
    exact hf p hp
  have hm : ∀ {v : World} {o' : Obj}, v.objs id = some o' → o'.core = (Fresh.update o kw).core →
      (Fresh.update o' ext).core = ((Fresh.update o kw).more (ext.map fun p => (p.1, p.2.atleast1d))).core := by
    intro v o' _ hco
    have h1 := after_core hco (.updateParams id ext)
    have h1 : (Fresh.update o' ext).core = (Fresh.update (Fresh.update o kw) ext).core := h1
    rw [h1, update_more (bsf_known o kw) hn.new hn.nodup]
  refine ⟨?_, ?_, fun hq => ?_⟩
  · have e1 := surface_eq hw.inv ho kw
    obtain ⟨o', ho', hf'⟩ := e1.2.obj
    rw [e1.1, (surface_eq e1.2.inv ho' ext).1, show (surface id kw w).2.backend = w.backend from e1.2.backend]
    have : Fresh.surface w.backend (Fresh.update o' ext) =
        Fresh.surface w.backend ((Fresh.update o kw).more (ext.map fun p => (p.1, p.2.atleast1d))) := by
      show Fresh.surface w.backend (Fresh.update o' ext).core = _
      rw [hm ho' hf'.core]
      rfl
    rw [this]
    exact hsame.1
  · have e1 := volume_eq hw.inv ho kw
    obtain ⟨o', ho', hf'⟩ := e1.2.obj
    rw [e1.1, (volume_eq e1.2.inv ho' ext).1, show (volume id kw w).2.backend = w.backend from e1.2.backend]
    have : Fresh.volume w.backend (Fresh.update o' ext) =
        Fresh.volume w.backend ((Fresh.update o kw).more (ext.map fun p => (p.1, p.2.atleast1d))) := by
      show Fresh.volume w.backend (Fresh.update o' ext).core = _
      rw [hm ho' hf'.core]
      rfl
    rw [this]
    exact hsame.2.1
  · have hstep : ∀ w, (step (.evalCalc id kw) w).2 = (calcOp id kw w).2 := fun w => bind_pure_state _ _
    have hw' : ReachableK (calcOp id kw w).2 := by
      rw [← hstep]
      exact hw.step (op := .evalCalc id kw) trivial
    have hb' : (calcOp id kw w).2.backend = w.backend := by
      rw [← hstep]
      exact step_backend (.evalCalc id kw) w
    obtain ⟨o', ho', hco⟩ : HasCore id (Fresh.update o kw) (calcOp id kw w).2 :=
      evalOp_core ho kw fun P hP => Safe.bind Safe.getW fun _ => (hP.acc _).calcTry
    have hq' : o'.intQ = false := by
      have e : o'.core.intQ = (Fresh.update o kw).core.intQ := congrArg Obj.intQ hco
      have e : o'.intQ = o.intQ := e
      rw [e]; exact hq
    rw [calcOp_noInt hw.inv ho hq kw, calcOp_noInt hw'.inv ho' hq' ext, hb',
      calcAll_core w.backend (hm ho' hco) hq']
    exact hsame.2.2 hq

/-- The hypotheses of `C12_symengine_partial` hold for an object with two incidence angles and a new
parameter with two values. -/
example (b : Backend) : ∃ w o, ReachableK w ∧ w.backend = b ∧ w.objs 0 = some o ∧
    Complete (Fresh.update o []) [2] ∧ New (Fresh.update o []) [("x", vec2)] ∧
    SameResult (surface 0 [] w).1 (surface 0 [("x", vec2)] (surface 0 [] w).2).1 := by
  have ho := demo_objs b exV exS false true true (Arr.lit 1) vec2 (Arr.lit 0) (demoKw (1/2) (1/4) 1 0)
  have hr := (demo_reachable b exV exS false true true (Arr.lit 1) vec2 (Arr.lit 0) (demoKw (1/2) (1/4) 1 0)).keeps
  have hb := demo_backend b exV exS false true true (Arr.lit 1) vec2 (Arr.lit 0) (demoKw (1/2) (1/4) 1 0)
  have hu := demo_update exV exS false true true (Arr.lit 1) vec2 (Arr.lit 0) (1/2) (1/4) 1 0
  have hp := demo_params exV exS false true true (Arr.lit 1) vec2 (Arr.lit 0) (1/2) (1/4) 1 0
  have hc : Complete (demoObj exV exS false true true (Arr.lit 1) vec2 (Arr.lit 0) (demoKw (1/2) (1/4) 1 0)) [2] :=
    demo_complete_arr exV_plain exS_plain false true true vec2 1 0 (1/2) (1/4) 1 0
  have ha : (demoObj exV exS false true true (Arr.lit 1) vec2 (Arr.lit 0) (demoKw (1/2) (1/4) 1 0)).ang .t0 =
    some vec2.atleast1d := by simp [demoObj]
  generalize demoObj exV exS false true true (Arr.lit 1) vec2 (Arr.lit 0) (demoKw (1/2) (1/4) 1 0) = o at *
  generalize demoW b exV exS false true true (Arr.lit 1) vec2 (Arr.lit 0) (demoKw (1/2) (1/4) 1 0) = w at *
  have hn : New (Fresh.update o []) [("x", vec2)] := by
    rw [hu]
    refine ⟨?_, ?_, ?_⟩ <;> simp [Dict.keys, hp]
  have hc' : Complete (Fresh.update o []) [2] := by rw [hu]; exact hc
  refine ⟨w, o, hr, hb, ho, hc', hn, (C12_symengine_partial hr ho hc' ha rfl hn ?_).1⟩
  simp [vec2, Arr.atleast1d, Arr.Fits]

/-- The hypotheses of `C12_sympy_partial` hold for the same object and a new parameter with three
values, which do not fit the two incidence angles. -/
example : ∃ w arr w' o, ReachableK w ∧ surface 0 [] w = (.ok arr, w') ∧ w'.objs 0 = some o ∧
    New o [("x", ⟨[3], fun _ => XR.fin 1⟩)] ∧ (surface 0 [("x", ⟨[3], fun _ => XR.fin 1⟩)] w').1 = .ok arr := by
  have ho := demo_objs .sympy exV exS false true true (Arr.lit 1) vec2 (Arr.lit 0) (demoKw (1/2) (1/4) 1 0)
  have hr := (demo_reachable .sympy exV exS false true true (Arr.lit 1) vec2 (Arr.lit 0) (demoKw (1/2) (1/4) 1 0)).keeps
  have hb := demo_backend .sympy exV exS false true true (Arr.lit 1) vec2 (Arr.lit 0) (demoKw (1/2) (1/4) 1 0)
  have hu := demo_update exV exS false true true (Arr.lit 1) vec2 (Arr.lit 0) (1/2) (1/4) 1 0
  have hp := demo_params exV exS false true true (Arr.lit 1) vec2 (Arr.lit 0) (1/2) (1/4) 1 0
  have hc : Complete (demoObj exV exS false true true (Arr.lit 1) vec2 (Arr.lit 0) (demoKw (1/2) (1/4) 1 0)) [2] :=
    demo_complete_arr exV_plain exS_plain false true true vec2 1 0 (1/2) (1/4) 1 0
  have ha : (demoObj exV exS false true true (Arr.lit 1) vec2 (Arr.lit 0) (demoKw (1/2) (1/4) 1 0)).ang .t0 =
    some vec2.atleast1d := by simp [demoObj]
  generalize demoObj exV exS false true true (Arr.lit 1) vec2 (Arr.lit 0) (demoKw (1/2) (1/4) 1 0) = o at *
  generalize demoW .sympy exV exS false true true (Arr.lit 1) vec2 (Arr.lit 0) (demoKw (1/2) (1/4) 1 0) = w at *
  obtain ⟨arr, hF, -⟩ := hc.surface_arr .sympy ha rfl
  have h : surface 0 [] w = (.ok arr, (surface 0 [] w).2) :=
    Prod.ext (by rw [(surface_eq hr.inv ho []).1, hu, hb, hF]) rfl
  generalize (surface 0 [] w).2 = w' at h
  obtain ⟨o0, o1, hk⟩ := surface_callOK hr h
  have e : o0 = o := by have := hk.before; rw [ho] at this; cases this; rfl
  subst e
  have hpar : o1.params = [("bsf", arr1 0), ("tau", arr1 (1/2)), ("omega", arr1 (1/4)), ("NormBRDF", arr1 1)] := by
    have : o1.core.params = (Fresh.update o0 []).core.params := congrArg Obj.params hk.filled.core
    have : o1.params = (Fresh.update o0 []).params := this
    rw [this, hu, hp]
  have hn : New o1 [("x", ⟨[3], fun _ => XR.fin 1⟩)] := by
    refine ⟨?_, ?_, ?_⟩ <;> simp [Dict.keys, hpar]
  exact ⟨w, arr, w', o1, hr, h, hk.after, hn, ((C12_sympy_partial hr hb hk.after hn).1 h).1⟩

/-! ### the interaction term -/

/-- If the coefficients were compiled for another number of parameters, the evaluation of the
interaction fails. -/
theorem fint_arity {A : Acc Py} {ang : Py (List Arr)} {mux mu : Py Arr} {f : FnLam} {pd : Dict}
    (hf : A.fnevals = .ok (some f)) (hp : A.params = .ok pd) (ha : ∀ l, ang = .ok l → l.length = 4)
    (hl : f.vars.length ≠ 4 + pd.length) : ∃ e, A.fint ang mux mu = .error e := by
  unfold Acc.fint
  cases ang with
  | error e => exact ⟨e, rfl⟩
  | ok a =>
    rw [hp, hf]
    simp only [okb, liftPy_py]
    cases hb : Arr.broadcastArrays (a ++ pd.map Prod.snd) with
    | error e => exact ⟨e, rfl⟩
    | ok args =>
      have hlen : args.length = 4 + pd.length := by
        unfold Arr.broadcastArrays at hb
        split at hb
        · cases hb
        · cases hb
          simp [ha a rfl]
      have : ∃ e, A.fnCall f args = .error e := by
        unfold Acc.fnCall
        cases A.backend .fn with
        | error e => exact ⟨e, rfl⟩
        | ok k =>
        rw [okb, liftPy_py]
        unfold FnLam.call
        rw [if_pos (by rw [hlen]; exact fun h => hl h.symm)]
        exact ⟨_, rfl⟩
      obtain ⟨e, he⟩ := this
      simp only [okb]
      rw [he]
      exact ⟨_, rfl⟩

/-- After a successful evaluation of the interaction term and one more parameter name, the term
cannot be evaluated. -/
theorem interaction_stuck {w : World} (hw : Reachable w) {id : ℕ} {kw ext : Dict} {arr : Arr} {w' : World}
    (h : interaction id kw w = (.ok arr, w')) {o : Obj} (ho : w'.objs id = some o) (hq : o.intQ = true)
    (hfi : o.fnevalsInput = none) (hn : New o ext) (hne : ext ≠ []) :
    ∃ e, (Fresh.acc0 w'.backend (Fresh.update o ext)).interaction = .error e := by
  obtain ⟨u, o', hc⟩ := interaction_callOK hw h
  have : o' = o := by have := hc.after; rw [ho] at this; cases this; rfl
  subst this
  have hr : o'.Compiled := by
    have h1 := interaction_ready id kw w arr (by rw [h])
    rw [h] at h1
    exact h1 o' ho
  have hbsf : o'.pdef .bsf = .str (.sym "bsf") → "bsf" ∈ o'.params.keys := by
    obtain ⟨-, -, c3, c4, -⟩ := core_fields hc.filled.core
    rw [c3, c4]; exact bsf_known u kw
  have hm := update_more hbsf hn.new hn.nodup
  obtain ⟨l, hl⟩ : ∃ l, o'.fnevals_ = some l := by
    rcases hr with h1 | h1 | h1
    · exact Option.isSome_iff_exists.1 h1
    · rw [hfi] at h1; cases h1
    · rw [hq] at h1; cases h1
  obtain ⟨-, ks, f, hks, hlv, -⟩ := (hc.inv.obj rfl id o' ho).fnevals l hl
  have hlen : l.vars.length ≠ 4 + (o'.more (ext.map fun p => (p.1, p.2.atleast1d))).params.length := by
    have h1 : l.vars.length = 4 + ks.length := by rw [hlv]; simp; omega
    have h2 := hks.length_le
    have h3 : o'.params.keys.length = o'.params.length := by simp [Dict.keys]
    have h4 : (o'.more (ext.map fun p => (p.1, p.2.atleast1d))).params.length = o'.params.length + ext.length := by
      unfold Obj.more
      simp
    have h5 : 0 < ext.length := List.length_pos_iff.2 hne
    omega
  rw [hm]
  generalize hA : Fresh.acc0 w'.backend (o'.more (ext.map fun p => (p.1, p.2.atleast1d))) = A
  have hp : A.params = .ok (o'.more (ext.map fun p => (p.1, p.2.atleast1d))).params := by rw [← hA]; rfl
  have hfe : A.fnevals = .ok (some l) := by
    rw [← hA]
    show Fresh.fnevals _ _ = _
    unfold Fresh.fnevals
    rw [show (o'.more (ext.map fun p => (p.1, p.2.atleast1d))).fnevals_ = some l from hl]
  obtain ⟨e, he⟩ : ∃ e, A.fint1 = .error e := by
    refine fint_arity hfe hp (fun l hl => ?_) hlen
    obtain ⟨x1, -, hl⟩ := ok_bind hl
    obtain ⟨x2, -, hl⟩ := ok_bind hl
    obtain ⟨x3, -, hl⟩ := ok_bind hl
    obtain ⟨x4, -, hl⟩ := ok_bind hl
    cases hl
    rfl
  exact ⟨e, by unfold Acc.interaction; rw [he]; rfl⟩

/-- **C12** is false for the interaction term: after it has been evaluated, giving *any* further
parameter name makes every evaluation of it fail, and also `calc` unless the canopy is absent. -/
theorem C12_interaction_fails {w : World} (hw : Reachable w) {id : ℕ} {kw ext : Dict} {arr : Arr} {w' : World}
    (h : interaction id kw w = (.ok arr, w')) {o : Obj} (ho : w'.objs id = some o) (hq : o.intQ = true)
    (hfi : o.fnevalsInput = none) (hn : New o ext) (hne : ext ≠ []) :
    (∃ e, (interaction id ext w').1 = .error e) ∧
    ((∀ t, Fresh.par w'.backend (Fresh.update o ext) .tau = .ok t → t.shape = [] → (t.get []).isPos = true) →
      ∃ e, (calcOp id ext w').1 = .error e) := by
  obtain ⟨e, he⟩ := interaction_stuck hw h ho hq hfi hn hne
  obtain ⟨u, o', hc⟩ := interaction_callOK hw h
  constructor
  · refine ⟨e, ?_⟩
    rw [(interaction_eq hc.inv ho ext).1]
    show ((Fresh.acc0 w'.backend (Fresh.update o ext)).interaction >>= fun x => _) = _
    rw [he]
    rfl
  · intro ht
    rw [(calcOp_eq hc.inv ho ext).1]
    cases hr : Fresh.calcAll w'.backend (Fresh.update o ext) with
    | error e => exact ⟨e, rfl⟩
    | ok z =>
      exfalso
      obtain ⟨Is, Iv, Ii, hp⟩ := calc_parts hr
      obtain ⟨t, t1, t2⟩ := hp.tau
      rw [if_neg (by rintro ⟨h1, h2⟩; exact h2 (ht t t1 h1))] at t2
      obtain ⟨I, hI, -⟩ := t2.2 hq
      rw [he] at hI
      cases hI

/-- An object that is extended by a new parameter after its first evaluation. -/
theorem extend_demo (b : Backend) (v : ℝ) :
    let w := scalarW b isoV isoS true false false (witSite 1 1 0 Real.pi) true (fun _ => false)
      (scalarKw (witSite 1 1 0 Real.pi) [])
    Reachable w ∧ w.backend = b ∧ (∃ arr, (interaction 0 [] w).1 = .ok arr) ∧
      ∃ e, (interaction 0 [("x", Arr.lit v)] (interaction 0 [] w).2).1 = .error e := by
  dsimp only
  obtain ⟨arr, w1, he, -, -⟩ := scalar_interaction_call b (V := isoV) (SRF := isoS) false false
    (x := witSite 1 1 0 Real.pi) (mono := true) (l := []) (fun _ => ⟨rfl, by simp [witSite]⟩) (witSite_reports ..)
    (fun n hn => List.mem_append_left _ (isoV_plain n hn))
    (fun n hn => List.mem_append_left _ (isoS_plain n hn)) iso_fnCoefs ⟨0, isoV_ncoefs⟩ ⟨0, isoS_ncoefs⟩
  have hwP := scalarW_reachableP b isoV isoS true false false (witSite 1 1 0 Real.pi) true (fun _ => false)
    (scalarKw (witSite 1 1 0 Real.pi) [])
  have hw0 := hwP.reachable
  have ho := scalarW_obj b isoV isoS true false false (witSite 1 1 0 Real.pi) true (fun _ => false)
    (scalarKw (witSite 1 1 0 Real.pi) [])
  have hb := scalarW_backend b isoV isoS true false false (witSite 1 1 0 Real.pi) true (fun _ => false)
    (scalarKw (witSite 1 1 0 Real.pi) [])
  have hu := scalar_update isoV isoS true false false (witSite 1 1 0 Real.pi) true (fun _ => false)
    (scalarKw (witSite 1 1 0 Real.pi) [])
  have hk := scalar_keys isoV isoS true false false (witSite 1 1 0 Real.pi) true (fun _ => false) []
  have hc := scalar_cfg isoV isoS true false false (witSite 1 1 0 Real.pi) true (fun _ => false)
    (scalarKw (witSite 1 1 0 Real.pi) [])
  have hg := scalar_geom isoV isoS true false false (witSite 1 1 0 Real.pi) true (fun _ => false)
    (scalarKw (witSite 1 1 0 Real.pi) [])
  generalize scalarW b isoV isoS true false false (witSite 1 1 0 Real.pi) true (fun _ => false)
    (scalarKw (witSite 1 1 0 Real.pi) []) = w0 at *
  generalize scalarObj isoV isoS true false false (witSite 1 1 0 Real.pi) true (fun _ => false)
    (scalarKw (witSite 1 1 0 Real.pi) []) = o at *
  refine ⟨hw0, hb, ⟨arr, by rw [he]⟩, ?_⟩
  obtain ⟨u, o', hco⟩ := interaction_callOK hw0 he
  have : u = o := by have := hco.before; rw [ho] at this; cases this; rfl
  subst this
  have hcore := hco.filled.core
  rw [hu] at hcore
  rw [he]
  refine (C12_interaction_fails hw0 he hco.after ?_ ?_ ?_ (by simp)).1
  · have e : o'.core.intQ = u.core.intQ := congrArg Obj.intQ hcore
    have e : o'.intQ = u.intQ := e
    rw [e]; exact congrArg Cfg.intQ hc
  · have e : o'.core.fnevalsInput = u.core.fnevalsInput := congrArg Obj.fnevalsInput hcore
    have e : o'.fnevalsInput = u.fnevalsInput := e
    rw [e]; exact (hwP.geomOK ho).fneI
  · obtain ⟨-, -, -, c4, -⟩ := core_fields hcore
    refine ⟨fun k h => ?_, ?_, ?_⟩
    · rw [c4, hk]
      simp [Dict.keys] at h
      subst h
      simp
    · simp [Dict.keys]
    · simp [Dict.keys]

/-- **C12** fails for an object with isotropic scattering functions: evaluate the interaction term,
then give a value for a further name, which is not used anywhere. -/
theorem C12_counterexample (b : Backend) :
    ∃ w, Reachable w ∧ w.backend = b ∧ (∃ arr, (interaction 0 [] w).1 = .ok arr) ∧
      ∃ e, (interaction 0 [("x", Arr.lit 1)] (interaction 0 [] w).2).1 = .error e :=
  ⟨_, extend_demo b 1⟩

end

end RT1
