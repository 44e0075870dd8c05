import Mathlib.Analysis.Real.Pi.Bounds
import Verif.Model.Misc
import Verif.Lemmas.Backend
import Verif.Lemmas.Extend
import Verif.Lemmas.ScalarCall
import Verif.Lemmas.DemoVec
import Verif.Lemmas.IsoErr
import Verif.Props.Interaction
import Verif.Props.Assign

/-!
# The lambdify backends
-/

namespace RT1

noncomputable section
open Classical

/-! ## C17 -/

theorem ReachableK.of_run {b : Backend} {ops : List Op} (h : ∀ op ∈ ops, op.Keeps) :
    ReachableK (RT1.run (initWorld b) ops) := ⟨b, ops, h, rfl⟩

theorem initRun_backend (b : Backend) (ops : List Op) : (run (initWorld b) ops).backend = b := run_backend _ _

/-- **C17** (partial): after any history of calls (assignments of `R.V`, `R.SRF` included, angle
arrays not overwritten), executed once with the sympy and once with the symengine backend, the
entries of the arrays returned by `surface` and `volume` agree.  Missing: that both calls succeed
and that the shapes agree (see `C17_same_arrays_partial` and `C17_counterexample`). -/
theorem C17_entries_partial {ops : List Op} (hk : ∀ op ∈ ops, op.Keeps) (id : ℕ) (kw : Dict) {z z' : Arr} :
    ((surface id kw (run (initWorld .sympy) ops)).1 = .ok z →
      (surface id kw (run (initWorld .symengine) ops)).1 = .ok z' → ∀ idx, z.at' idx = z'.at' idx) ∧
    ((volume id kw (run (initWorld .sympy) ops)).1 = .ok z →
      (volume id kw (run (initWorld .symengine) ops)).1 = .ok z' → ∀ idx, z.at' idx = z'.at' idx) := by
  have hw := (ReachableK.of_run (b := .sympy) hk).inv
  have hw' := (ReachableK.of_run (b := .symengine) hk).inv
  have ht := Twin.init .sympy .symengine ops
  have hb := initRun_backend .sympy ops
  have hb' := initRun_backend .symengine ops
  generalize run (initWorld .sympy) ops = w at *
  generalize run (initWorld .symengine) ops = w' at *
  cases ho : w.objs id with
  | none =>
    refine ⟨fun h => ?_, fun h => ?_⟩
    · rw [surface_none ho] at h; cases h
    · rw [volume_none ho] at h; cases h
  | some o =>
    obtain ⟨o', ho', hc⟩ := ht.get ho
    refine ⟨fun h h' idx => ?_, fun h h' idx => ?_⟩
    · rw [(surface_eq hw ho kw).1, hb] at h
      rw [(surface_eq hw' ho' kw).1, hb'] at h'
      have h' : Fresh.surface .symengine (Fresh.update o'.core kw) = .ok z' := h'
      rw [← hc] at h'
      exact surface_backend (o := Fresh.update o.core kw) h h' idx
    · rw [(volume_eq hw ho kw).1, hb] at h
      rw [(volume_eq hw' ho' kw).1, hb'] at h'
      have h' : Fresh.volume .symengine (Fresh.update o'.core kw) = .ok z' := h'
      rw [← hc] at h'
      exact volume_backend (o := Fresh.update o.core kw) h h' idx

theorem Complete.of_core {o o' : Obj} {S : List ℕ} (hc : o.core = o'.core) (h : Complete o S) : Complete o' S := by
  have h' : Complete o.core S := ⟨h.t0, h.p0, h.tex, h.pex, h.I0, h.params, h.defs, h.V, h.SRF⟩
  rw [hc] at h'
  exact ⟨h'.t0, h'.p0, h'.tex, h'.pex, h'.I0, h'.params, h'.defs, h'.V, h'.SRF⟩

theorem Complete.surface_arr {o : Obj} {S : List ℕ} (h : Complete o S) (b : Backend) {a : Arr}
    (ha : o.ang .t0 = some a) (hs : a.shape = S) : ∃ z, Fresh.surface b o = .ok z ∧ z.shape = S := by
  obtain ⟨y, y1, y2⟩ := h.surface_shape b ha hs
  obtain ⟨z, z1, z2⟩ := h.s_convert b (Fresh.dVol b o) (Fresh.dSrf b o) (a := y) (by rw [y2]; exact Arr.Fits.refl _)
  refine ⟨z, ?_, z2.antisymm (by rw [← y2]; exact Below.convert (Arr.Fits.refl _) z z1)⟩
  show ((Fresh.acc0 b o).surface >>= fun x => (Fresh.acc0 b o).convert x) = _
  rw [y1]
  exact z1

theorem Complete.volume_arr {o : Obj} {S : List ℕ} (h : Complete o S) (b : Backend) {a : Arr}
    (ha : o.ang .t0 = some a) (hs : a.shape = S) : ∃ z, Fresh.volume b o = .ok z ∧ z.shape = S := by
  obtain ⟨y, y1, y2⟩ := h.volume_shape b ha hs
  obtain ⟨z, z1, z2⟩ := h.s_convert b (Fresh.dVol b o) (Fresh.dSrf b o) (a := y) (by rw [y2]; exact Arr.Fits.refl _)
  refine ⟨z, ?_, z2.antisymm (by rw [← y2]; exact Below.convert (Arr.Fits.refl _) z z1)⟩
  show ((Fresh.acc0 b o).volume >>= fun x => (Fresh.acc0 b o).convert x) = _
  rw [y1]
  exact z1

/-- Rows of `calc` without interaction term: same entries. -/
theorem calc_backend {b b' : Backend} {o : Obj} (hq : o.intQ = false) {z z' : Arr} {S : List ℕ}
    (h : Fresh.calcAll b o = .ok z) (h' : Fresh.calcAll b' o = .ok z') (hz : z.shape = S ++ [3])
    (hz' : z'.shape = S ++ [3]) {k : ℕ} (hk : k < 3) {idx : List ℕ} (hv : Arr.Valid S idx) :
    z.get (idx ++ [k]) = z'.get (idx ++ [k]) := by
  obtain ⟨Is, Iv, Ii, hp⟩ := calc_parts h
  obtain ⟨Is', Iv', Ii', hp'⟩ := calc_parts h'
  obtain ⟨r1, r2, -, r4⟩ := hp.rows
  obtain ⟨r1', r2', -, r4'⟩ := hp'.rows
  have hn : nrows o.intQ = 3 := by rw [hq]; rfl
  rw [hn] at r1 r4 r1' r4'
  have e1 : Is.shape = S := List.append_cancel_right (r1.symm.trans hz)
  have e1' : Is'.shape = S := List.append_cancel_right (r1'.symm.trans hz')
  have vs : Is.get idx = Is'.get idx := by
    have a1 := PW.surface (PW.srfCalc (E := (XSite.of b o idx).env) fun _ _ => rfl) Is hp.surf
    have a2 := PW.surface (PW.srfCalc (E := (XSite.of b o idx).env) fun _ _ => by rw [xsite_backend b' b]) Is' hp'.surf
    rw [Arr.at'_valid (by rw [e1]; exact hv)] at a1
    rw [Arr.at'_valid (by rw [e1']; exact hv), xsite_backend b' b] at a2
    rw [a1, a2]
  have vv : Iv.get idx = Iv'.get idx := by
    obtain ⟨t, t1, t2⟩ := hp.tau
    obtain ⟨t', t1', t2'⟩ := hp'.tau
    rw [par_backend (b' := b') t1] at t1'
    cases t1'
    by_cases hc : t.shape = [] ∧ ¬ (t.get []).isPos = true
    · rw [if_pos hc] at t2 t2'
      rw [t2.1, t2'.1]
      rfl
    · rw [if_neg hc] at t2 t2'
      have a1 := PW.volume (PW.vCalc (E := (XSite.of b o idx).env) fun _ _ => rfl) Iv t2.1
      have a2 := PW.volume (PW.vCalc (E := (XSite.of b o idx).env) fun _ _ => by rw [xsite_backend b' b]) Iv' t2'.1
      rw [Arr.at'_valid (by rw [r2, e1]; exact hv)] at a1
      rw [Arr.at'_valid (by rw [r2', e1']; exact hv), xsite_backend b' b] at a2
      rw [a1, a2]
  rw [r4 k hk idx (by rw [e1]; exact hv), r4' k hk idx (by rw [e1']; exact hv), vs, vv, xsite_backend b' b]
  congr 1
  unfold rowVal
  rw [hq]
  have : k = 0 ∨ k = 1 ∨ k = 2 := by omega
  rcases this with rfl | rfl | rfl <;> rfl

/-- The arrays have the same shape and the same entries. -/
def SameArr (z z' : Arr) : Prop := z.shape = z'.shape ∧ ∀ idx, Arr.Valid z.shape idx → z.get idx = z'.get idx

/-- Both calls succeed with the same array. -/
def SameResult (x y : Py Arr) : Prop := ∃ z z', x = .ok z ∧ y = .ok z' ∧ SameArr z z'

/-- **C17** (partial): if all inputs are there and can be broadcast to the shape of `t_0`, both
backends return the same arrays.  Missing: inputs of other shapes (see `C17_counterexample`), the interaction term
(see `C17_interaction_partial`). -/
theorem C17_same_arrays_partial {ops : List Op} (hk : ∀ op ∈ ops, op.Keeps) {id : ℕ} {kw : Dict} {o : Obj}
    (ho : (run (initWorld .sympy) ops).objs id = some o) {S : List ℕ} (hc : Complete (Fresh.update o kw) S)
    {a : Arr} (ha : o.ang .t0 = some a) (hs : a.shape = S) :
    SameResult (surface id kw (run (initWorld .sympy) ops)).1 (surface id kw (run (initWorld .symengine) ops)).1 ∧
    SameResult (volume id kw (run (initWorld .sympy) ops)).1 (volume id kw (run (initWorld .symengine) ops)).1 ∧
    (o.intQ = false → SameResult (calcOp id kw (run (initWorld .sympy) ops)).1
      (calcOp id kw (run (initWorld .symengine) ops)).1) := by
  have hw := (ReachableK.of_run (b := .sympy) hk).inv
  have hw' := (ReachableK.of_run (b := .symengine) hk).inv
  have ht := Twin.init .sympy .symengine ops
  have hb := initRun_backend .sympy ops
  have hb' := initRun_backend .symengine ops
  generalize run (initWorld .sympy) ops = w at *
  generalize run (initWorld .symengine) ops = w' at *
  obtain ⟨o', ho', hco⟩ := ht.get ho
  have hcu : (Fresh.update o kw).core = (Fresh.update o' kw).core := after_core hco (.updateParams id kw)
  generalize hU : Fresh.update o kw = u at *
  have hau : u.ang .t0 = some a := by rw [← hU]; exact ha
  have e1 : Fresh.surface .symengine (Fresh.update o' kw) = Fresh.surface .symengine u := by
    show Fresh.surface .symengine (Fresh.update o' kw).core = Fresh.surface .symengine u.core
    rw [hcu]
  have e2 : Fresh.volume .symengine (Fresh.update o' kw) = Fresh.volume .symengine u := by
    show Fresh.volume .symengine (Fresh.update o' kw).core = Fresh.volume .symengine u.core
    rw [hcu]
  refine ⟨?_, ?_, fun hq => ?_⟩
  · obtain ⟨z, z1, z2⟩ := hc.surface_arr .sympy hau hs
    obtain ⟨z', z1', z2'⟩ := hc.surface_arr .symengine hau hs
    refine ⟨z, z', ?_, ?_, by rw [z2, z2'], fun idx hv => ?_⟩
    · rw [(surface_eq hw ho kw).1, hb, hU, z1]
    · rw [(surface_eq hw' ho' kw).1, hb', e1, z1']
    · have := surface_backend z1 z1' idx
      rwa [Arr.at'_valid hv, Arr.at'_valid (by rw [z2', ← z2]; exact hv)] at this
  · obtain ⟨z, z1, z2⟩ := hc.volume_arr .sympy hau hs
    obtain ⟨z', z1', z2'⟩ := hc.volume_arr .symengine hau hs
    refine ⟨z, z', ?_, ?_, by rw [z2, z2'], fun idx hv => ?_⟩
    · rw [(volume_eq hw ho kw).1, hb, hU, z1]
    · rw [(volume_eq hw' ho' kw).1, hb', e2, z1']
    · have := volume_backend z1 z1' idx
      rwa [Arr.at'_valid hv, Arr.at'_valid (by rw [z2', ← z2]; exact hv)] at this
  · have hq' : o'.intQ = false := by
      have e : o.core.intQ = o'.core.intQ := congrArg Obj.intQ hco
      have e : o.intQ = o'.intQ := e
      rw [← e]; exact hq
    have hqu : u.intQ = false := by rw [← hU]; exact hq
    have hqu' : (Fresh.update o' kw).core.intQ = false := hq'
    obtain ⟨z, z1, z2⟩ := hc.calcAll_three .sympy hau hs hqu
    have hcc : Complete (Fresh.update o' kw) S := hc.of_core hcu
    have hau' : (Fresh.update o' kw).ang .t0 = some a := by
      have := (core_fields hcu).2.2.2.2.2.2.1
      rw [← this]; exact hau
    obtain ⟨z', z1', z2'⟩ := hcc.calcAll_three .symengine hau' hs hq'
    have e3 : Fresh.calcAll .symengine u = .ok z' := by
      rw [← z1']
      have hbody : (Fresh.acc0 .symengine u).calcBody = (Fresh.acc0 .symengine (Fresh.update o' kw)).calcBody := by
        have h1 : (Fresh.acc0 .symengine u).calcBody = (Fresh.acc0 .symengine u.core).calcBody :=
          Acc.calcBody_congr (congrArg Except.ok hqu) (congrArg Except.ok hqu) rfl rfl rfl fun _ _ _ _ => rfl
        have h2 : (Fresh.acc0 .symengine (Fresh.update o' kw)).calcBody =
            (Fresh.acc0 .symengine (Fresh.update o' kw).core).calcBody :=
          Acc.calcBody_congr (congrArg Except.ok hq') (congrArg Except.ok hq') rfl rfl rfl fun _ _ _ _ => rfl
        rw [h1, h2, hcu]
      have hm : (Fresh.acc0 .symengine u).missingNames =
          (Fresh.acc0 .symengine (Fresh.update o' kw)).missingNames := by
        show (Fresh.acc0 .symengine u.core).missingNames =
          (Fresh.acc0 .symengine (Fresh.update o' kw).core).missingNames
        rw [hcu]
      unfold Fresh.calcAll Acc.calcTry
      rw [hbody, hm]
    refine ⟨z, z', ?_, ?_, by rw [z2, z2'], fun idx hv => ?_⟩
    · rw [calcOp_noInt hw ho hq kw, hb, hU, z1]
    · rw [calcOp_noInt hw' ho' hq' kw, hb', z1']
    · rw [z2] at hv
      obtain ⟨i, k, rfl⟩ : ∃ i k, idx = i ++ [k] := by
        have hl := hv.length
        rcases List.eq_nil_or_concat idx with rfl | ⟨i, k, rfl⟩
        · simp at hl
        · exact ⟨i, k, by simp⟩
      obtain ⟨v1, v2⟩ := Arr.valid_append_iff.1 hv
      exact calc_backend hqu z1 e3 z2 z2' (by first | exact v2 | exact v1) (by first | exact v1 | exact v2)

theorem one_fits {S : List ℕ} (h : S ≠ []) : Arr.Fits [1] S := by
  cases S with
  | nil => exact absurd rfl h
  | cons a S => exact ⟨.inl rfl, Arr.fits_nil _⟩

theorem atleast1d_ne (a : Arr) : a.atleast1d.shape ≠ [] := by
  unfold Arr.atleast1d
  split <;> simp_all

/-- The demo object with an array of incidence angles. -/
theorem demo_complete_arr {V SRF : Scatter} (hV : V.Plain) (hS : SRF.Plain) (q s d : Bool) (t : Arr)
    (I p τ ω N β : ℝ) :
    Complete (demoObj V SRF q s d (Arr.lit I) t (Arr.lit p) (demoKw τ ω N β)) t.atleast1d.shape where
  t0 := ⟨t.atleast1d, by simp [demoObj], Arr.Fits.refl _⟩
  p0 := ⟨arr1 p, by simp [demoObj, arr1], one_fits (atleast1d_ne t)⟩
  tex := Or.inl rfl
  pex := Or.inl rfl
  I0 := by simp [demoObj, Arr.lit, Arr.num]
  params := by
    intro k a hk
    rw [demo_params] at hk
    have : ∀ r, Arr.Fits (arr1 r).shape t.atleast1d.shape := fun r => one_fits (atleast1d_ne t)
    simp only [Dict.get?, List.find?_cons] at hk
    split at hk
    · cases hk; exact this _
    split at hk
    · cases hk; exact this _
    split at hk
    · cases hk; exact this _
    split at hk
    · cases hk; exact this _
    · cases hk
  defs := by
    intro p'
    rw [demo_params]
    cases p' <;> simp [demoObj, defaultDefs, Expr.free, Dict.keys]
  V := fun n hn => List.mem_append_left _ (hV n hn)
  SRF := fun n hn => List.mem_append_left _ (hS n hn)

/-- An array of incidence angles: both backends return the same array. -/
example (t : Arr) : SameResult
    (surface 0 [] (demoW .sympy exV exS false true true (Arr.lit 1) t (Arr.lit 0) (demoKw (1/2) (1/4) 1 0))).1
    (surface 0 [] (demoW .symengine exV exS false true true (Arr.lit 1) t (Arr.lit 0) (demoKw (1/2) (1/4) 1 0))).1 := by
  refine (C17_same_arrays_partial (ops := demoOps exV exS false true true (Arr.lit 1) t (Arr.lit 0) (demoKw (1/2) (1/4) 1 0))
    ?_ (demo_objs ..) (S := t.atleast1d.shape) ?_ (a := t.atleast1d) (by simp [demoObj]) rfl).1
  · intro op hop
    simp only [demoOps, List.mem_cons, List.not_mem_nil, or_false] at hop
    rcases hop with rfl | rfl | rfl <;> trivial
  · rw [demo_update]
    exact demo_complete_arr exV_plain exS_plain false true true t 1 0 (1/2) (1/4) 1 0

/-- The hypotheses of `C17_entries_partial` hold in the same case. -/
example (t : Arr) : ∃ z z',
    (volume 0 [] (demoW .sympy exV exS false true true (Arr.lit 1) t (Arr.lit 0) (demoKw (1/2) (1/4) 1 0))).1 = .ok z ∧
    (volume 0 [] (demoW .symengine exV exS false true true (Arr.lit 1) t (Arr.lit 0) (demoKw (1/2) (1/4) 1 0))).1 = .ok z' ∧
    ∀ idx, z.at' idx = z'.at' idx := by
  have hk : ∀ op ∈ demoOps exV exS false true true (Arr.lit 1) t (Arr.lit 0) (demoKw (1/2) (1/4) 1 0), op.Keeps := by
    intro op hop
    simp only [demoOps, List.mem_cons, List.not_mem_nil, or_false] at hop
    rcases hop with rfl | rfl | rfl <;> trivial
  obtain ⟨z, z', h, h', -⟩ := (C17_same_arrays_partial hk (id := 0) (kw := []) (demo_objs ..) (S := t.atleast1d.shape)
    (by rw [demo_update]; exact demo_complete_arr exV_plain exS_plain false true true t 1 0 (1/2) (1/4) 1 0)
    (a := t.atleast1d) (by simp [demoObj]) rfl).2.1
  exact ⟨z, z', h, h', (C17_entries_partial hk 0 []).2 h h'⟩

/-- With the symengine backend all parameters take part in the broadcasting. -/
theorem symengine_fits {s : Scatter} {a1 a2 a3 a4 : Arr} {pd : Dict} {z : Arr}
    (h : s.calcVal .symengine a1 a2 a3 a4 pd = .ok z) :
    Arr.Fits a1.shape z.shape ∧ ∀ k v, pd.get? k = some v → Arr.Fits v.shape z.shape := by
  unfold Scatter.calcVal at h
  obtain ⟨f, hf, h⟩ := ok_bind h
  have := Lam.compile_ok hf
  subst this
  obtain ⟨bnd, hb, hz⟩ := ok_bind h
  obtain ⟨vals, hv, rfl⟩ := Lam.bindArgs_ok hb
  have hv : pd.keys.mapM (fun k => pd.get? k) = some vals := hv
  have hz : Lam.evalBound .symengine s.phase ((["theta_0", "theta_ex", "phi_0", "phi_ex"] ++ pd.keys).zip
    ([a1, a2, a3, a4] ++ vals)) = .ok z := hz
  unfold Lam.evalBound at hz
  simp only at hz
  split at hz
  · cases hz
  · rename_i sh hsh
    cases hz
    refine ⟨Arr.bshapes_fits hsh (by simp), fun k v hk => Arr.bshapes_fits hsh ?_⟩
    have hmem : k ∈ pd.keys := Lam.mem_of_get? hk
    have hz : ∀ (ks : List String) (vs : List Arr), ks.mapM (fun k => pd.get? k) = some vs → k ∈ ks →
        (k, v) ∈ ks.zip vs := by
      intro ks
      induction ks with
      | nil => intro vs _ h; cases h
      | cons k' ks ih =>
        intro vs hm hk'
        rw [List.mapM_cons] at hm
        cases hg : pd.get? k' with
        | none => rw [hg] at hm; cases hm
        | some v' =>
          cases hm' : ks.mapM (fun k => pd.get? k) with
          | none => rw [hg, hm'] at hm; cases hm
          | some vs' =>
            rw [hg, hm'] at hm
            cases hm
            rcases List.mem_cons.1 hk' with rfl | hk'
            · rw [hg] at hk; cases hk; simp
            · simp [ih _ hm' hk']
    have := hz pd.keys vals hv hmem
    refine List.mem_map.2 ⟨(k, v), ?_, rfl⟩
    rw [List.zip_append (by simp)]
    exact List.mem_append_right _ this

/-- ... and therefore every parameter value must fit the shape of the result. -/
theorem symengine_surface_fits {o : Obj} {z t : Arr} (h : (Fresh.acc0 .symengine o).surface = .ok z)
    (ht : Fresh.ang o .t0 = .ok t) :
    ∃ u, Arr.Fits t.shape u ∧ ∀ k v, o.params.get? k = some v → Arr.Fits v.shape u := by
  unfold Acc.surface at h
  obtain ⟨x, hx, -⟩ := ok_bind h
  obtain ⟨y, -, hx⟩ := ok_bind hx
  obtain ⟨f, hf, -⟩ := ok_bind hx
  unfold Acc.srfCalc at hf
  obtain ⟨s, hs, hf⟩ := ok_bind hf
  obtain ⟨a1, h1, hf⟩ := ok_bind hf
  obtain ⟨a2, h2, hf⟩ := ok_bind hf
  obtain ⟨a3, h3, hf⟩ := ok_bind hf
  obtain ⟨a4, h4, hf⟩ := ok_bind hf
  obtain ⟨pd, hpd, hf⟩ := ok_bind hf
  have hpd : Except.ok o.params = (Except.ok pd : Py Dict) := hpd
  cases hpd
  obtain ⟨kb, hkb, hf⟩ := ok_bind hf
  cases hkb
  rw [liftPy_py] at hf
  have h1 : Fresh.ang o .t0 = .ok a1 := h1
  rw [ht] at h1
  cases h1
  exact ⟨f.shape, symengine_fits hf⟩

/-- New names at the end of the dictionary. -/
theorem update_more {o : Obj} {kw : Dict} (hb : o.pdef .bsf = .str (.sym "bsf") → "bsf" ∈ o.params.keys)
    (hn : ∀ k ∈ kw.keys, k ∉ o.params.keys) (hd : kw.keys.Nodup) :
    Fresh.update o kw = o.more (kw.map fun p => (p.1, p.2.atleast1d)) := by
  have hk : ∀ d : Dict, Dict.keys (d.map fun p : String × Arr => (p.1, p.2.atleast1d)) = d.keys := by
    intro d
    unfold Dict.keys
    rw [List.map_map]
    rfl
  have key : Dict.update o.params (kw.map fun p => (p.1, p.2.atleast1d)) =
      o.params ++ (kw.map fun p => (p.1, p.2.atleast1d)) :=
    Dict.update_new (by rw [hk]; exact hn) (by rw [hk]; exact hd)
  unfold Fresh.update Obj.more
  simp only
  split
  · rename_i he
    rw [if_pos (Or.inl (hb he)), key]
  · rw [key]

/-- A vector of angles. -/
def vec2 : Arr := ⟨[2], fun _ => XR.fin 0⟩
def vec3 : Arr := ⟨[3], fun _ => XR.fin 0⟩

/-- **C17** is false in general: a parameter `x` that does not occur anywhere makes the symengine
backend fail if its shape does not fit the angles; the sympy backend ignores it. -/
theorem C17_counterexample :
    let ops := demoOps exV exS false true true (Arr.lit 1) vec2 (Arr.lit 0) (demoKw (1/2) (1/4) 1 0)
    (∃ z, (surface 0 [("x", vec3)] (run (initWorld .sympy) ops)).1 = .ok z) ∧
    ∃ e, (surface 0 [("x", vec3)] (run (initWorld .symengine) ops)).1 = .error e := by
  intro ops
  have ho := fun b => demo_objs b exV exS false true true (Arr.lit 1) vec2 (Arr.lit 0) (demoKw (1/2) (1/4) 1 0)
  have hr := fun b => (demo_reachable b exV exS false true true (Arr.lit 1) vec2 (Arr.lit 0) (demoKw (1/2) (1/4) 1 0)).inv
  have hb := fun b => demo_backend b exV exS false true true (Arr.lit 1) vec2 (Arr.lit 0) (demoKw (1/2) (1/4) 1 0)
  have hc := demo_complete_arr exV_plain exS_plain false true true vec2 1 0 (1/2) (1/4) 1 0
  have hp := demo_params exV exS false true true (Arr.lit 1) vec2 (Arr.lit 0) (1/2) (1/4) 1 0
  have ha : (demoObj exV exS false true true (Arr.lit 1) vec2 (Arr.lit 0) (demoKw (1/2) (1/4) 1 0)).ang .t0 =
      some vec2.atleast1d := by simp [demoObj]
  change (∃ z, (surface 0 [("x", vec3)] (demoW .sympy exV exS false true true (Arr.lit 1) vec2 (Arr.lit 0)
    (demoKw (1/2) (1/4) 1 0))).1 = .ok z) ∧ ∃ e, (surface 0 [("x", vec3)] (demoW .symengine exV exS false true true
    (Arr.lit 1) vec2 (Arr.lit 0) (demoKw (1/2) (1/4) 1 0))).1 = .error e
  rw [(surface_eq (hr .sympy) (ho .sympy) _).1, (surface_eq (hr .symengine) (ho .symengine) _).1, hb, hb]
  generalize demoObj exV exS false true true (Arr.lit 1) vec2 (Arr.lit 0) (demoKw (1/2) (1/4) 1 0) = o at *
  have hkeys : o.params.keys = ["bsf", "tau", "omega", "NormBRDF"] := by rw [hp]; rfl
  have hu : Fresh.update o [("x", vec3)] = o.more [("x", vec3.atleast1d)] :=
    update_more (fun _ => by rw [hkeys]; simp) (by rw [hkeys]; simp [Dict.keys]) (by simp [Dict.keys])
  rw [hu]
  constructor
  · obtain ⟨z, h1, -⟩ := hc.surface_arr .sympy ha rfl
    exact ⟨z, freshSurface_ext ⟨by rw [hkeys]; simp [Dict.keys], by simp [Dict.keys]⟩ z h1⟩
  · cases hz : (Fresh.acc0 .symengine (o.more [("x", vec3.atleast1d)])).surface with
    | error e =>
      refine ⟨e, ?_⟩
      show ((Fresh.acc0 .symengine (o.more [("x", vec3.atleast1d)])).surface >>= _) = _
      rw [hz]
      rfl
    | ok z =>
      exfalso
      obtain ⟨u, f1, f2⟩ := symengine_surface_fits (t := vec2.atleast1d) hz (by
        unfold Fresh.ang
        show (match o.ang .t0 with | some a => _ | none => _) = _
        rw [ha])
      have f3 := f2 "x" vec3.atleast1d (by
        show Dict.get? (o.params ++ [("x", vec3.atleast1d)]) "x" = _
        rw [hp]
        simp [Dict.get?])
      have s2 : vec2.atleast1d.shape = [2] := rfl
      have s3 : vec3.atleast1d.shape = [3] := rfl
      rw [s2] at f1
      rw [s3] at f3
      cases u with
      | nil => exact f1
      | cons b u =>
        rcases f1.1 with h | h
        · cases h
        · rcases f3.1 with h' | h'
          · cases h'
          · omega

/-- **C17** (partial), interaction term: after the same proper calls, entries at the same index
of the arrays that `interaction` returns with the two backends agree, for directions strictly
between nadir and horizon and a canopy.  Missing: other directions, inputs whose numbers of axes
do not fit. -/
theorem C17_interaction_partial {ops : List Op} (hp : ∀ op ∈ ops, op.Proper) {id : ℕ} {kw : Dict} {arr arr' : Arr}
    {v v' : World} (h : interaction id kw (run (initWorld .sympy) ops) = (.ok arr, v))
    (h' : interaction id kw (run (initWorld .symengine) ops) = (.ok arr', v')) {idx : List ℕ}
    (hv : Arr.Valid arr.shape idx) (hv' : Arr.Valid arr'.shape idx) {x : Site} (hs : SiteAt v id idx x)
    {o : Obj} (ho : v.objs id = some o) (hal : ∃ k, Aligned .sympy o k) {nV nS : ℕ}
    (hV : o.V.ncoefs = .ok (nV + 1)) (hS : o.SRF.ncoefs = .ok (nS + 1)) (hx : x.Oblique)
    (hI : o.sig0 = true → x.I0 ≠ 0) : arr.get idx = arr'.get idx := by
  have hw : ReachableP (run (initWorld .sympy) ops) := ⟨_, ops, hp, rfl⟩
  have hw' : ReachableP (run (initWorld .symengine) ops) := ⟨_, ops, hp, rfl⟩
  obtain ⟨a, b, hc⟩ := interaction_callOK hw.reachable h
  obtain ⟨a', b', hc'⟩ := interaction_callOK hw'.reachable h'
  have hoo : b = o := by have := hc.after; rw [ho] at this; cases this; rfl
  subst hoo
  have hbk : v.backend = .sympy := hc.backend.trans (initRun_backend _ _)
  have hbk' : v'.backend = .symengine := hc'.backend.trans (initRun_backend _ _)
  have ht : Twin v v' := by
    have := (Twin.init .sympy .symengine ops).step (.interaction id kw)
    have e : ∀ w, (step (.interaction id kw) w).2 = (interaction id kw w).2 := fun w => bind_pure_state _ _
    rw [e, e, h, h'] at this
    exact this
  obtain ⟨b'', hb'', hcore⟩ := ht.get ho
  rw [hc'.after] at hb''
  cases hb''
  obtain ⟨k, hk⟩ := hal
  have hfs : FSite .sympy b idx x := by
    have := hs.fsite hc.inv ho
    rwa [hbk] at this
  have hfs' : FSite .symengine b' idx x := by
    have h1 : FSite .symengine b.core idx x := by
      have := fsite_backend (b' := .symengine) hfs
      exact ⟨this.t0, this.tex, this.p0, this.pex, this.tau, this.omega, this.NormBRDF, this.bsf, this.I0, this.params⟩
    rw [hcore] at h1
    exact ⟨h1.t0, h1.tex, h1.p0, h1.pex, h1.tau, h1.omega, h1.NormBRDF, h1.bsf, h1.I0, h1.params⟩
  have hk' : Aligned .symengine b' k := by
    have h1 : Aligned .symengine b.core k :=
      ⟨hk.pos, hk.t0, hk.tex, hk.p0, hk.pex, hk.params, fun a ha => hk.tau a (par_backend (o := b) ha), .inr (.inl rfl)⟩
    rw [hcore] at h1
    exact ⟨h1.pos, h1.t0, h1.tex, h1.p0, h1.pex, h1.params, h1.tau, h1.const⟩
  have hcfg : b'.cfg = b.cfg := by
    have : b.core.cfg = b'.core.cfg := congrArg Obj.cfg hcore
    exact this.symm
  have hmode : b'.mode = b.mode := by
    have : b.core.mode = b'.core.mode := congrArg Obj.mode hcore
    exact this.symm
  refine C11_own_values (c := b.cfg) (md := b.mode) (x := x) hV hS hx hI
    ⟨_, id, kw, arr, v, idx, hw, h, hv, rfl, hs, b, ho, rfl, rfl, k, by rw [hbk]; exact hk⟩
    ⟨_, id, kw, arr', v', idx, hw', h', hv', rfl, ?_, b', hc'.after, hcfg, hmode, k, by rw [hbk']; exact hk'⟩
  exact SiteAt.of_fsite hc'.inv hc'.after (by rw [hbk']; exact hfs')

/-- Both backends for isotropic functions: the hypotheses of `C17_interaction_partial` hold at the
only index of the arrays. -/
example : ∃ ops : List Op, (∀ op ∈ ops, op.Proper) ∧ ∃ arr arr' v v',
    interaction 0 [] (run (initWorld .sympy) ops) = (.ok arr, v) ∧
    interaction 0 [] (run (initWorld .symengine) ops) = (.ok arr', v') ∧ arr.get [0] = arr'.get [0] := by
  have hsc := scalar_scalar true false false (fun _ => false) (V := isoV) (SRF := isoS) (mono := true)
    (x := witSite 1 1 0 Real.pi) (l := []) (fun _ => ⟨rfl, by simp [witSite]⟩) (witSite_reports ..)
    (fun n hn => List.mem_append_left _ (isoV_plain n hn)) (fun n hn => List.mem_append_left _ (isoS_plain n hn))
  have hcall := fun b => scalar_interaction_call b (V := isoV) (SRF := isoS) false false
    (x := witSite 1 1 0 Real.pi) (mono := true) (l := []) (fun _ => ⟨rfl, by simp [witSite]⟩) (witSite_reports ..)
    (fun n hn => List.mem_append_left _ (isoV_plain n hn))
    (fun n hn => List.mem_append_left _ (isoS_plain n hn)) iso_fnCoefs ⟨0, isoV_ncoefs⟩ ⟨0, isoS_ncoefs⟩
  have hu := scalar_update isoV isoS true false false (witSite 1 1 0 Real.pi) true (fun _ => false)
    (scalarKw (witSite 1 1 0 Real.pi) [])
  have ho := fun b => scalarW_obj b isoV isoS true false false (witSite 1 1 0 Real.pi) true (fun _ => false)
    (scalarKw (witSite 1 1 0 Real.pi) [])
  have hc := scalar_cfg isoV isoS true false false (witSite 1 1 0 Real.pi) true (fun _ => false)
    (scalarKw (witSite 1 1 0 Real.pi) [])
  obtain ⟨arr, v, e1, e2, -⟩ := hcall .sympy
  obtain ⟨arr', v', e1', e2', -⟩ := hcall .symengine
  have hpr : ∀ op ∈ Op.new isoV isoS true false false none none (Arr.lit (witSite 1 1 0 Real.pi).I0) ::
      scalarOps (witSite 1 1 0 Real.pi) true (fun _ => false) (scalarKw (witSite 1 1 0 Real.pi) []), op.Proper := by
    intro op hop
    rcases List.mem_cons.1 hop with rfl | hop
    · exact ⟨rfl, rfl⟩
    · simp only [scalarOps, if_true, List.mem_cons, List.not_mem_nil, or_false] at hop
      rcases hop with rfl | rfl | rfl
      · show (if false = true then _ else none) ≠ some PyArg.other
        simp
      · trivial
      · trivial
  refine ⟨_, hpr, arr, arr', v, v', e1, e1', ?_⟩
  obtain ⟨a, b, hco⟩ := interaction_callOK (w := scalarW .sympy isoV isoS true false false (witSite 1 1 0 Real.pi)
    true (fun _ => false) (scalarKw (witSite 1 1 0 Real.pi) []))
    (scalarW_reachableP ..).reachable e1
  have hb : a = scalarObj isoV isoS true false false (witSite 1 1 0 Real.pi) true (fun _ => false)
      (scalarKw (witSite 1 1 0 Real.pi) []) := by
    have := hco.before
    rw [ho .sympy] at this
    cases this; rfl
  have hbk := scalarW_backend .sympy isoV isoS true false false (witSite 1 1 0 Real.pi) true (fun _ => false)
    (scalarKw (witSite 1 1 0 Real.pi) [])
  subst hb
  generalize scalarObj isoV isoS true false false (witSite 1 1 0 Real.pi) true (fun _ => false)
      (scalarKw (witSite 1 1 0 Real.pi) []) = o at *
  have hf := hco.filled
  rw [hu, hbk] at hf
  have hVb : b.cfg = _ := hco.cfg.trans hc
  have hal := hsc.aligned .sympy
  have hfs := FSite.filled hf (hsc.fsite .sympy)
  have halb : Aligned .sympy b 1 := by
    have hcore : o.core = b.core := hf.core.symm
    have h1 : Aligned .sympy o.core 1 :=
      ⟨hal.pos, hal.t0, hal.tex, hal.p0, hal.pex, hal.params, hal.tau, hal.const⟩
    rw [hcore] at h1
    exact ⟨h1.pos, h1.t0, h1.tex, h1.p0, h1.pex, h1.params, h1.tau, h1.const⟩
  refine C17_interaction_partial hpr e1 e1' e2 e2' (x := witSite 1 1 0 Real.pi)
    (SiteAt.of_fsite hco.inv hco.after (by rw [hco.backend, hbk]; exact hfs)) hco.after ⟨1, halb⟩
    (nV := 0) (nS := 0) ?_ ?_ ?_ ?_
  · have : b.V = isoV := congrArg Cfg.V hVb
    rw [this]; exact isoV_ncoefs
  · have : b.SRF = isoS := congrArg Cfg.SRF hVb
    rw [this]; exact isoS_ncoefs
  · have h3 := Real.pi_gt_three
    exact witSite_oblique (by norm_num) (by linarith) (by norm_num) (by linarith)
  · have : b.sig0 = false := congrArg Cfg.sig0 hVb
    rw [this]; simp

/-- `set_lambda_backend` accepts exactly the two names; any other name raises and changes nothing. -/
theorem C17_setter (cur name : String) :
    (name = "sympy" ∨ name = "symengine" → setLambdaBackend cur name = (.ok (), name)) ∧
    (name ≠ "sympy" → name ≠ "symengine" → setLambdaBackend cur name = (.error .assertionError, cur)) := by
  unfold setLambdaBackend
  constructor
  · intro h
    rw [if_pos (by simpa using h)]
  · intro h1 h2
    rw [if_neg (by simp [h1, h2])]

example : setLambdaBackend "sympy" "numpy" = (.error .assertionError, "sympy") :=
  (C17_setter _ _).2 (by decide) (by decide)

end

end RT1
