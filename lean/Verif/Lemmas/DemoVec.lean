import Verif.Lemmas.IntRow
import Verif.Lemmas.DemoInt

/-! Success of `calc`, and concrete objects with vectors of inputs. -/

namespace RT1

noncomputable section
open Classical

theorem Complete.mono {o : Obj} {S T : List ℕ} (h : Complete o S) (hf : Arr.Fits S T) : Complete o T where
  t0 := by obtain ⟨a, h1, h2⟩ := h.t0; exact ⟨a, h1, h2.trans hf⟩
  p0 := by obtain ⟨a, h1, h2⟩ := h.p0; exact ⟨a, h1, h2.trans hf⟩
  tex := h.tex.imp id fun ⟨a, h1, h2⟩ => ⟨a, h1, h2.trans hf⟩
  pex := h.pex.imp id fun ⟨a, h1, h2⟩ => ⟨a, h1, h2.trans hf⟩
  I0 := h.I0.trans hf
  params := fun k a hk => (h.params k a hk).trans hf
  defs := by
    intro p
    have := h.defs p
    revert this
    cases o.pdef p with
    | val a => exact fun h => h.trans hf
    | str e => exact id
    | basic e => exact id
  V := h.V
  SRF := h.SRF

theorem ang_mu0 {o : Obj} {a : Arr} (ha : o.ang .t0 = some a) : Fresh.mu0 o = .ok (Arr.cos a) := by
  unfold Fresh.mu0 Fresh.ang; rw [ha]; rfl

namespace Complete
variable {o : Obj} {S : List ℕ} (h : Complete o S)
include h

theorem surface_shape (b : Backend) {a : Arr} (ha : o.ang .t0 = some a) (hs : a.shape = S) :
    ∃ z, (Fresh.acc0 b o).surface = .ok z ∧ z.shape = S := by
  obtain ⟨z, hz, hf⟩ := h.s_surface b (Fresh.dVol b o) (Fresh.dSrf b o)
  have := Below.surface_mu0 (ang_mu0 ha) z hz
  exact ⟨z, hz, hf.antisymm (by rw [← hs]; exact this)⟩

theorem volume_shape (b : Backend) {a : Arr} (ha : o.ang .t0 = some a) (hs : a.shape = S) :
    ∃ z, (Fresh.acc0 b o).volume = .ok z ∧ z.shape = S := by
  obtain ⟨z, hz, hf⟩ := h.s_volume b (Fresh.dVol b o) (Fresh.dSrf b o)
  have := Below.volume_mu0 (ang_mu0 ha) z hz
  exact ⟨z, hz, hf.antisymm (by rw [← hs]; exact this)⟩

theorem stack_convert (b : Backend) {l : List Arr} (hl : l ≠ []) (hs : ∀ y ∈ l, y.shape = S) :
    ∃ z, (do let st ← liftPy (Arr.stack l)
             (Fresh.acc0 b o).convert st : Py Arr) = .ok z ∧ z.shape = S ++ [l.length] := by
  obtain ⟨st, h1, h2⟩ := Arr.stack_same hl hs
  have hc := h.mono (Arr.Fits.append S [l.length])
  obtain ⟨z, hz, hf⟩ := hc.s_convert b (Fresh.dVol b o) (Fresh.dSrf b o) (a := st)
    (by rw [h2]; exact Arr.Fits.refl _)
  refine ⟨z, ?_, hf.antisymm (by rw [← h2]; exact Below.convert (Arr.Fits.refl _) z hz)⟩
  rw [liftPy_py, h1]
  exact hz

theorem finish (b : Backend) (q : Bool) {Is Iv Ii : Arr} (h1 : Is.shape = S) (h2 : Iv.shape = S)
    (h3 : q = true → Ii.shape = S) :
    ∃ z, (Fresh.acc0 b o).finish q Is Iv Ii = .ok z ∧ z.shape = S ++ [nrows q] := by
  have add : ∀ u v : Arr, u.shape = S → v.shape = S → ∃ z, Arr.map2 XR.add u v = .ok z ∧ z.shape = S := by
    intro u v hu hv
    exact Arr.map2_fits_right hu (by rw [hv]; exact Arr.Fits.refl _)
  obtain ⟨t1, e1, s1⟩ := add Is Iv h1 h2
  have e1' : addM (pure Is) (pure Iv) = (.ok t1 : Py Arr) := by
    show (liftPy (Arr.map2 XR.add Is Iv) : Py Arr) = _
    rw [liftPy_py]; exact e1
  unfold Acc.finish
  cases q with
  | false =>
    simp only [Bool.false_eq_true, if_false]
    rw [e1']
    exact h.stack_convert b (l := [t1, Is, Iv]) (by simp) (by simp [s1, h1, h2])
  | true =>
    obtain ⟨t2, e2, s2⟩ := add t1 Ii s1 (h3 rfl)
    have e2' : addM (addM (pure Is) (pure Iv)) (pure Ii) = (.ok t2 : Py Arr) := by
      rw [e1']
      show (liftPy (Arr.map2 XR.add t1 Ii) : Py Arr) = _
      rw [liftPy_py]; exact e2
    simp only [if_true]
    rw [e2']
    exact h.stack_convert b (l := [t2, Is, Iv, Ii]) (by simp) (by simp [s2, h1, h2, h3])

end Complete

theorem fixNan_succ {b : Backend} {o : Obj} {t I : Arr} (ht : Fresh.par b o .tau = .ok t)
    (hf : Arr.Fits t.shape I.shape) :
    ∃ Ii, (Fresh.acc0 b o).fixNan I = .ok Ii ∧ Ii.shape = I.shape := by
  have ht' : (Fresh.acc0 b o).par .tau = .ok t := ht
  unfold Acc.fixNan
  by_cases ha : I.anyNan
  · rw [if_pos ha, ht']
    have : ∃ c, Arr.nanIffZero I t = .ok c := by
      unfold Arr.nanIffZero
      rw [Arr.bshape_comm, Arr.bshape_eq_of_fits hf]
      exact ⟨_, rfl⟩
    obtain ⟨c, hc⟩ := this
    refine ⟨if c = true then Arr.nanToZero I else I, ?_, by split <;> rfl⟩
    show (liftPy (Arr.nanIffZero I t) >>= _ : Py Arr) = _
    rw [liftPy_py, hc]
    rfl
  · rw [if_neg ha]
    exact ⟨I, rfl, rfl⟩

theorem Complete.calcAll_three {o : Obj} {S : List ℕ} (h : Complete o S) (b : Backend) {a : Arr}
    (ha : o.ang .t0 = some a) (hs : a.shape = S) (hq : o.intQ = false) :
    ∃ z, Fresh.calcAll b o = .ok z ∧ z.shape = S ++ [3] := by
  suffices H : ∃ z, (Fresh.acc0 b o).calcBody = .ok z ∧ z.shape = S ++ [3] by
    obtain ⟨z, h1, h2⟩ := H
    refine ⟨z, ?_, h2⟩
    unfold Fresh.calcAll Acc.calcTry
    rw [h1]
    rfl
  obtain ⟨Is, s1, s2⟩ := h.surface_shape b ha hs
  obtain ⟨Iv, v1, v2⟩ := h.volume_shape b ha hs
  obtain ⟨t, t1, t2⟩ := h.s_par b .tau
  have q1 : (Fresh.acc0 b o).intQ = .ok false := by rw [← hq]; rfl
  have t1 : (Fresh.acc0 b o).par .tau = .ok t := t1
  have fin := fun Iv Ii (h2 : Iv.shape = S) => h.finish b false (Is := Is) (Iv := Iv) (Ii := Ii) s2 h2
    fun h => Bool.noConfusion h
  unfold Acc.calcBody
  by_cases hsc : t.shape = []
  · by_cases hpos : (t.get []).isPos = true
    · obtain ⟨z, z1, z2⟩ := fin Iv (Arr.lit 0) v2
      refine ⟨z, ?_, z2⟩
      simp only [t1, s1, v1, q1, okb, if_pos hsc, if_pos hpos]
      exact z1
    · obtain ⟨z, z1, z2⟩ := fin (Arr.zerosLike Is) (Arr.zerosLike Is) s2
      refine ⟨z, ?_, z2⟩
      simp only [t1, s1, q1, okb, if_pos hsc, if_neg hpos]
      exact z1
  · obtain ⟨z, z1, z2⟩ := fin Iv (Arr.lit 0) v2
    refine ⟨z, ?_, z2⟩
    simp only [t1, s1, v1, q1, okb, if_neg hsc]
    exact z1

theorem CompleteI.calcAll {b : Backend} {o : Obj} {S : List ℕ} (h : CompleteI b o S) {a : Arr}
    (ha : o.ang .t0 = some a) (hs : a.shape = S) :
    ∃ z, Fresh.calcAll b o = .ok z ∧ z.shape = S ++ [4] := by
  suffices H : ∃ z, (Fresh.acc0 b o).calcBody = .ok z ∧ z.shape = S ++ [4] by
    obtain ⟨z, h1, h2⟩ := H
    refine ⟨z, ?_, h2⟩
    unfold Fresh.calcAll Acc.calcTry
    rw [h1]
    rfl
  obtain ⟨Is, s1, s2⟩ := h.base.surface_shape b ha hs
  obtain ⟨Iv, v1, v2⟩ := h.base.volume_shape b ha hs
  obtain ⟨t, t1, t2⟩ := h.base.s_par b .tau
  obtain ⟨I, i1, i2⟩ := h.interaction (Fresh.dVol b o) (Fresh.dSrf b o)
  have i1 : (Fresh.acc0 b o).interaction = .ok I := i1
  have i3 : I.shape = S := by
    have := Below.interaction_mu0 (ang_mu0 ha) I i1
    exact i2.antisymm (by rw [← hs]; exact this)
  have hq := h.intQ
  have q1 : (Fresh.acc0 b o).intQ = .ok true := by rw [← hq]; rfl
  have t1 : (Fresh.acc0 b o).par .tau = .ok t := t1
  have fin := fun Ii (h3 : Ii.shape = S) => h.base.finish b true (Is := Is) (Iv := Iv) (Ii := Ii) s2 v2 fun _ => h3
  unfold Acc.calcBody
  by_cases hsc : t.shape = []
  · by_cases hpos : (t.get []).isPos = true
    · obtain ⟨z, z1, z2⟩ := fin I i3
      refine ⟨z, ?_, z2⟩
      simp only [t1, s1, v1, q1, i1, okb, if_pos hsc, if_pos hpos, if_true]
      exact z1
    · obtain ⟨z, z1, z2⟩ := h.base.finish b true (Is := Is) (Iv := Arr.zerosLike Is) (Ii := Arr.zerosLike Is)
        s2 s2 fun _ => s2
      refine ⟨z, ?_, z2⟩
      simp only [t1, s1, q1, okb, if_pos hsc, if_neg hpos]
      exact z1
  · obtain ⟨Ii, f1, f2⟩ := fixNan_succ (b := b) (o := o) (t := t) (I := I) t1 (by rw [i3]; exact t2)
    obtain ⟨z, z1, z2⟩ := fin Ii (by rw [f2, i3])
    refine ⟨z, ?_, z2⟩
    simp only [t1, s1, v1, q1, i1, f1, okb, if_neg hsc, if_true]
    exact z1

/-- Observed calls of `calc` exist wherever the memo-free evaluation succeeds. -/
theorem CalcP.of {w : World} (hw : ReachableP w) {id : ℕ} {o : Obj}
    (ho : w.objs id = some o) (kw : Dict) {arr : Arr}
    (hF : Fresh.calcAll w.backend (Fresh.update o kw) = .ok arr) {S : List ℕ} {n : ℕ}
    (hsh : arr.shape = S ++ [n]) {site : List ℕ → Site} {r : ℕ}
    (hal : Aligned w.backend (Fresh.update o kw) r)
    (hs : ∀ idx, Arr.Valid S idx → FSite w.backend (Fresh.update o kw) idx (site idx)) :
    CalcP o.cfg o.mode arr S site := by
  obtain ⟨h1, h2⟩ := calcOp_eq hw.reachable.inv ho kw
  obtain ⟨o', ho', hf⟩ := h2.obj
  refine ⟨w, id, kw, (calcOp id kw w).2, hw, ?_, ⟨n, hsh⟩, fun idx hv => ?_, o', ho', ?_, ?_, r, ?_⟩
  · rw [← hF, ← h1]
  · refine SiteAt.of_fsite h2.inv ho' ?_
    rw [h2.backend]
    exact FSite.filled hf (hs idx hv)
  · rw [hf.cfg]; rfl
  · show Mode.mk o'.mono o'.fixed = _
    rw [hf.mono, hf.fixed]; rfl
  · rw [h2.backend]
    exact hal.filled hf

theorem CalcP.row {c : Cfg} {md : Mode} {arr : Arr} {S : List ℕ} {site : List ℕ → Site}
    (h : CalcP c md arr S site) {idx : List ℕ} (hv : Arr.Valid S idx) {k : ℕ}
    (hk : Arr.Valid arr.shape (idx ++ [k])) :
    ObservesRowP k c md (site idx) (arr.get (idx ++ [k])) := by
  obtain ⟨w, id, kw, w', hw, hcall, -, hs, o, ho, hc, hm, hal⟩ := h
  exact ⟨w, id, kw, arr, w', idx, hw, hcall, hk, rfl, hs idx hv, o, ho, hc, hm, hal⟩

theorem ObservesRowP.row {k : ℕ} {c : Cfg} {md : Mode} {x : Site} {r : XR}
    (h : ObservesRowP k c md x r) : ObservesRow k c x r := by
  obtain ⟨w, id, kw, arr, w', idx, hw, hcall, hv, hr, hs, o, ho, hc, -, -⟩ := h
  exact ⟨w, id, kw, arr, w', idx, hw.reachable, hcall, hv, hr, hs, o, ho, hc⟩

/-! ### arrays of inputs -/

/-- The array with the shape `S` and the entries `f`. -/
def tens (S : List ℕ) (f : List ℕ → ℝ) : Arr := ⟨S, fun idx => XR.fin (f idx)⟩

/-- Values of the four parameters. -/
def tensKw (S : List ℕ) (site : List ℕ → Site) : Dict :=
  [("tau", tens S fun i => (site i).tau), ("omega", tens S fun i => (site i).omega),
    ("NormBRDF", tens S fun i => (site i).NormBRDF), ("bsf", tens S fun i => (site i).bsf)]

/-- A monostatic object with arrays of inputs of the shape `S`. -/
def tensObj (V SRF : Scatter) (q s d : Bool) (S : List ℕ) (site : List ℕ → Site) : Obj :=
  demoObj V SRF q s d (tens S fun i => (site i).I0) (tens S fun i => (site i).t0)
    (tens S fun i => (site i).p0) (tensKw S site)

/-- The state with this object. -/
def tensW (b : Backend) (V SRF : Scatter) (q s d : Bool) (S : List ℕ) (site : List ℕ → Site) : World :=
  demoW b V SRF q s d (tens S fun i => (site i).I0) (tens S fun i => (site i).t0)
    (tens S fun i => (site i).p0) (tensKw S site)

theorem tens_atleast1d {a : ℕ} {S : List ℕ} (f : List ℕ → ℝ) :
    (tens (a :: S) f).atleast1d = tens (a :: S) f := rfl

theorem tens_at {S : List ℕ} {f : List ℕ → ℝ} {idx : List ℕ} (h : Arr.Valid S idx) :
    (tens S f).at' idx = XR.fin (f idx) := by
  rw [Arr.at'_valid (x := tens S f) h]; rfl

section
variable (V SRF : Scatter) (q s d : Bool) (a : ℕ) (S : List ℕ) (site : List ℕ → Site)

theorem tens_params : (tensObj V SRF q s d (a :: S) site).params =
    [("bsf", tens (a :: S) fun i => (site i).bsf), ("tau", tens (a :: S) fun i => (site i).tau),
      ("omega", tens (a :: S) fun i => (site i).omega),
      ("NormBRDF", tens (a :: S) fun i => (site i).NormBRDF)] := by
  simp [tensObj, demoObj, tensKw, Dict.update, Dict.set, tens_atleast1d]

theorem tens_get {k : String} {x : Arr} (h : (tensObj V SRF q s d (a :: S) site).params.get? k = some x) :
    k = "bsf" ∧ x = (tens (a :: S) fun i => (site i).bsf) ∨
    k = "tau" ∧ x = (tens (a :: S) fun i => (site i).tau) ∨
    k = "omega" ∧ x = (tens (a :: S) fun i => (site i).omega) ∨
    k = "NormBRDF" ∧ x = (tens (a :: S) fun i => (site i).NormBRDF) := by
  rw [tens_params] at h
  have := Dict.mem_of_get? h
  simpa using this

theorem tens_update : Fresh.update (tensObj V SRF q s d (a :: S) site) [] =
    tensObj V SRF q s d (a :: S) site := by
  have h : "bsf" ∈ (tensObj V SRF q s d (a :: S) site).params.keys := by
    rw [tens_params]; simp [Dict.keys]
  unfold Fresh.update
  simp [tensObj, demoObj, defaultDefs] at h ⊢
  simp [h]
  simp [Dict.update]

variable {V SRF}

theorem tens_complete (hV : V.Plain) (hS : SRF.Plain) :
    Complete (tensObj V SRF q s d (a :: S) site) (a :: S) where
  t0 := ⟨_, by simp [tensObj, demoObj, tens_atleast1d]; rfl, Arr.Fits.refl _⟩
  p0 := ⟨_, by simp [tensObj, demoObj, tens_atleast1d]; rfl, Arr.Fits.refl _⟩
  tex := Or.inl rfl
  pex := Or.inl rfl
  I0 := Arr.Fits.refl _
  params := by
    intro k x hk
    rcases tens_get _ _ _ _ _ _ _ _ hk with ⟨-, rfl⟩ | ⟨-, rfl⟩ | ⟨-, rfl⟩ | ⟨-, rfl⟩ <;>
      exact Arr.Fits.refl _
  defs := by
    intro p'
    rw [tens_params]
    cases p' <;> simp [tensObj, demoObj, defaultDefs, Expr.free, Dict.keys]
  V := fun n hn => List.mem_append_left _ (hV n hn)
  SRF := fun n hn => List.mem_append_left _ (hS n hn)

theorem tens_fsite (b : Backend) (hV : V.Plain) (hS : SRF.Plain) {idx : List ℕ}
    (hv : Arr.Valid (a :: S) idx) (hm : (site idx).tex = (site idx).t0)
    (hm' : (site idx).pex = (site idx).p0 + Real.pi) (hr : (site idx).Reports []) :
    FSite b (tensObj V SRF q s d (a :: S) site) idx (site idx) := by
  have hc := tens_complete q s d a S site hV hS
  have hpar : ∀ pn k r, defaultDefs pn = .str (.sym k) →
      Dict.valAt (tensObj V SRF q s d (a :: S) site).params idx k = XR.fin r →
      HasVal (Fresh.par b (tensObj V SRF q s d (a :: S) site) pn) idx r := by
    intro pn k r hd hv
    refine HasVal.of_succ (hc.s_par b pn) ?_
    have := PW.parStr (b := b) (o := tensObj V SRF q s d (a :: S) site) (p := pn) (e := .sym k) hd idx
    simp only [Expr.evalX] at this
    rw [hv] at this
    exact this
  have hang0 : Fresh.ang (tensObj V SRF q s d (a :: S) site) .t0 = .ok (tens (a :: S) fun i => (site i).t0) := by
    simp [Fresh.ang, tensObj, demoObj, tens_atleast1d]
  have hang1 : Fresh.ang (tensObj V SRF q s d (a :: S) site) .p0 = .ok (tens (a :: S) fun i => (site i).p0) := by
    simp [Fresh.ang, tensObj, demoObj, tens_atleast1d]
  refine ⟨⟨_, hang0, tens_at hv⟩, ⟨_, hang0, by rw [hm]; exact tens_at hv⟩, ⟨_, hang1, tens_at hv⟩,
    ?_, ?_, ?_, ?_, ?_, tens_at hv, ?_⟩
  · refine HasVal.of_succ hc.s_pex ?_
    unfold Fresh.pex
    have hmm : (tensObj V SRF q s d (a :: S) site).mono = true := rfl
    rw [if_pos hmm, hang1]
    rw [hm']
    have h0 : (tens (a :: S) fun i => (site i).p0).at' idx = XR.fin (site idx).p0 := tens_at hv
    exact PW.bind fun x hx => by
      cases hx
      exact PW.map2 (u := XR.fin (site idx).p0) (v := XR.fin Real.pi) h0 rfl
  · exact hpar .tau "tau" _ rfl (by rw [tens_params]; simp [Dict.valAt, Dict.get?, tens_at hv])
  · exact hpar .omega "omega" _ rfl (by rw [tens_params]; simp [Dict.valAt, Dict.get?, tens_at hv])
  · exact hpar .NormBRDF "NormBRDF" _ rfl (by rw [tens_params]; simp [Dict.valAt, Dict.get?, tens_at hv])
  · exact hpar .bsf "bsf" _ rfl (by rw [tens_params]; simp [Dict.valAt, Dict.get?, tens_at hv])
  · intro k x hk
    rcases tens_get _ _ _ _ _ _ _ _ hk with ⟨rfl, rfl⟩ | ⟨rfl, rfl⟩ | ⟨rfl, rfl⟩ | ⟨rfl, rfl⟩
    · rw [tens_at hv, hr.bsf]
    · rw [tens_at hv, hr.tau]
    · rw [tens_at hv, hr.omega]
    · rw [tens_at hv, hr.NormBRDF]

theorem tens_aligned (b : Backend) (hV : V.Plain) (hS : SRF.Plain)
    (hc : S = [] ∨ b = .symengine ∨ ∃ fs, fnCoefs V SRF ⟨.sym "theta_0", .sym "theta_0", .sym "phi_0", .sym "phi_0"⟩
      = .ok fs ∧ ∃ p ∈ fs, ¬ isConstFn p) :
    Aligned b (tensObj V SRF q s d (a :: S) site) (a :: S).length where
  pos := by simp
  t0 x hx := by
    have : some (tens (a :: S) fun i => (site i).t0) = some x := by
      rw [← hx]; simp [tensObj, demoObj, tens_atleast1d]
    cases this; rfl
  p0 x hx := by
    have : some (tens (a :: S) fun i => (site i).p0) = some x := by
      rw [← hx]; simp [tensObj, demoObj, tens_atleast1d]
    cases this; exact le_refl _
  tex h := by cases h
  pex h := by cases h
  params p hp := by
    rw [tens_params] at hp
    simp only [List.mem_cons, List.not_mem_nil, or_false] at hp
    rcases hp with rfl | rfl | rfl | rfl <;> exact le_refl _
  tau x hx := by
    obtain ⟨a', ha', hf⟩ := (tens_complete q s d a S site hV hS).s_par b .tau
    rw [hx] at ha'; cases ha'
    exact hf.length
  const := by
    rcases hc with rfl | h | h
    · exact .inl rfl
    · exact .inr (.inl h)
    · exact .inr (.inr h)

theorem tensW_reachableP (b : Backend) (V SRF : Scatter) : ReachableP (tensW b V SRF q s d (a :: S) site) := by
  refine .of_ops ?_
  intro op hop
  simp only [demoOps, List.mem_cons, List.not_mem_nil, or_false] at hop
  rcases hop with rfl | rfl | rfl
  · exact ⟨rfl, rfl⟩
  · trivial
  · trivial

/-- `calc()` returns an array for arrays of inputs. -/
theorem tens_calc (b : Backend) (hV : V.Plain) (hS : SRF.Plain)
    (hc : S = [] ∨ b = .symengine ∨ ∃ fs, fnCoefs V SRF ⟨.sym "theta_0", .sym "theta_0", .sym "phi_0", .sym "phi_0"⟩
      = .ok fs ∧ ∃ p ∈ fs, ¬ isConstFn p)
    (hfn : ∃ fs, fnCoefs V SRF ⟨.sym "theta_0", .sym "theta_0", .sym "phi_0", .sym "phi_0"⟩ = .ok fs)
    (hnV : ∃ n, V.ncoefs = .ok (n + 1)) (hnS : ∃ n, SRF.ncoefs = .ok (n + 1))
    (hm : ∀ idx, Arr.Valid (a :: S) idx → (site idx).tex = (site idx).t0 ∧
      (site idx).pex = (site idx).p0 + Real.pi ∧ (site idx).Reports []) :
    ∃ arr, arr.shape = (a :: S) ++ [4] ∧ CalcP ⟨V, SRF, true, s, d⟩ ⟨true, []⟩ arr (a :: S) site := by
  have hw := tensW_reachableP true s d a S site b V SRF
  have ho : (tensW b V SRF true s d (a :: S) site).objs 0 = some (tensObj V SRF true s d (a :: S) site) :=
    demo_objs ..
  have hb : (tensW b V SRF true s d (a :: S) site).backend = b := demo_backend ..
  have hu := tens_update V SRF true s d a S site
  have hcm := tens_complete true s d a S site hV hS
  have hg := hw.geomOK ho
  have hci : CompleteI b (tensObj V SRF true s d (a :: S) site) (a :: S) :=
    { base := hcm
      aligned := tens_aligned true s d a S site b hV hS hc
      intQ := rfl
      objOK := ObjOK.none rfl rfl
      fnI := hg.fnI
      fneI := hg.fneI
      fn := hfn
      V := hnV
      SRF := hnS
      params := by
        intro x hx
        rw [tens_params] at hx
        simp only [List.map_cons, List.map_nil, List.mem_cons, List.not_mem_nil, or_false] at hx
        rcases hx with rfl | rfl | rfl | rfl <;> exact Arr.Fits.refl _
      vars := by intro l hl; cases hl }
  obtain ⟨arr, h1, h2⟩ := hci.calcAll (a := tens (a :: S) fun i => (site i).t0)
    (by simp [tensObj, demoObj, tens_atleast1d]) rfl
  refine ⟨arr, h2, CalcP.of hw ho [] (arr := arr) (r := (a :: S).length) (by rw [hb, hu]; exact h1) h2
    (by rw [hb, hu]; exact hci.aligned) fun idx hv => ?_⟩
  rw [hb, hu]
  obtain ⟨e1, e2, e3⟩ := hm idx hv
  exact tens_fsite true s d a S site b hV hS hv e1 e2 e3

end

end

end RT1
