import Verif.Lemmas.IntNan
import Verif.Lemmas.RowVals
import Verif.Lemmas.CallL
import Verif.Lemmas.IntMath

/-! Values of the interaction row of `calc`. -/

namespace RT1

noncomputable section
open Classical

/-- The geometry entries are determined by the mode and the reported angles. -/
theorem GeomAt.unique {md : Mode} {g g' : Geom4} {x : Site} (h : GeomAt md g x) (h' : GeomAt md g' x) :
    g = g' := by
  cases hm : md.mono with
  | true =>
    obtain ⟨-, -, a, b, d, e⟩ := h.mono hm
    obtain ⟨-, -, a', b', d', e'⟩ := h'.mono hm
    have hp : g.p0 = g'.p0 := by
      rcases e with ⟨e1, e2⟩ | ⟨e1, e2⟩ <;> rcases e' with ⟨e1', e2'⟩ | ⟨e1', e2'⟩
      · rw [e1, e1']
      · rw [e2] at e2'; cases e2'
      · rw [e2] at e2'; cases e2'
      · rw [e1, e1']
    obtain ⟨g1, g2, g3, g4⟩ := g
    obtain ⟨k1, k2, k3, k4⟩ := g'
    simp only at *
    subst a a' b b' d d' hp
    rfl
  | false =>
    have e : ∀ n, g.entry n = g'.entry n := fun n => (h.bi hm n).trans (h'.bi hm n).symm
    obtain ⟨g1, g2, g3, g4⟩ := g
    obtain ⟨k1, k2, k3, k4⟩ := g'
    have e1 := e .t0
    have e2 := e .tex
    have e3 := e .p0
    have e4 := e .pex
    simp only [Geom4.entry] at e1 e2 e3 e4
    subst e1 e2 e3 e4
    rfl

/-- Everything known about one observed entry of the array returned by `calc` after proper
calls. -/
structure RowP (k : ℕ) (c : Cfg) (md : Mode) (x : Site) (r : XR) (idx : List ℕ) (b : Backend)
    (o : Obj) (Is Iv Ii z : Arr) (n : ℕ) : Prop where
  info : RowInfo k c x r idx b o Is Iv Ii z
  objOK : ObjOK b o
  geomOK : GeomOK o
  mode : o.mode = md
  al : Aligned b o n
  len : n ≤ idx.length

theorem calc_rowP {w w' : World} {id : ℕ} {kw : Dict} {arr : Arr} {n : ℕ}
    {o : Obj} (hw : ReachableP w) (hcall : calcOp id kw w = (.ok arr, w'))
    (ho : w'.objs id = some o) (hal : Aligned w'.backend o n) :
    ∃ Is Iv Ii, Parts w'.backend o Is Iv Ii arr ∧ arr.shape = Is.shape ++ [nrows o.intQ] ∧
      ∀ k idx x, Arr.Valid arr.shape (idx ++ [k]) → SiteAt w' id idx x →
        RowP k o.cfg o.mode x (arr.get (idx ++ [k])) idx w'.backend o Is Iv Ii arr n := by
  have hw' : ReachableP w' := by
    have := hw.step (op := .evalCalc id kw) trivial
    have e : (RT1.step (.evalCalc id kw) w).2 = (calcOp id kw w).2 := bind_pure_state _ _
    rw [e, hcall] at this
    exact this
  obtain ⟨o1, o2, hc⟩ := calc_callOK hw.reachable hcall
  have e2 : o2 = o := by
    have := hc.after
    rw [ho] at this
    exact (Option.some.inj this).symm
  subst e2
  have hok : Fresh.calcAll w'.backend o2 = .ok arr := by
    rw [hc.backend, fresh_calc_filled hc.filled]
    exact hc.ok
  obtain ⟨Is, Iv, Ii, hp⟩ := calc_parts hok
  obtain ⟨h1, h2, h3, h4⟩ := hp.rows
  refine ⟨Is, Iv, Ii, hp, h1, fun k idx x hv hs => ?_⟩
  have hf := hs.fsite hc.inv ho
  rw [h1] at hv
  obtain ⟨hv1, hk⟩ := Arr.valid_append_iff.mp hv
  refine ⟨⟨hf, rfl, hp, hv1, hk, h4 k hk idx hv1, by rw [h2]; exact hv1,
    fun hq => by rw [h3 hq]; exact hv1⟩, hc.inv.obj rfl _ _ ho, hw'.geomOK ho, rfl, hal, ?_⟩
  obtain ⟨a1, ha1, e1⟩ := hf.t0.obtain
  have hm0 : Fresh.mu0 o2 = .ok (Arr.cos a1) := by unfold Fresh.mu0; rw [ha1]; rfl
  have l1 := (Below.surface_mu0 hm0 _ hp.surf).length
  have l2 : (Arr.cos a1).shape.length = n := hal.t0 a1 (ang_ok ha1)
  rw [hv1.length]
  omega

theorem fixNan_spec {b : Backend} {o : Obj} {I Ii : Arr} (h : (Fresh.acc0 b o).fixNan I = .ok Ii) :
    Ii.shape = I.shape ∧ (∀ i, (I.get i).isnan = false → Ii.get i = I.get i) ∧
    ∀ t, Fresh.par b o .tau = .ok t → Arr.Fits t.shape I.shape →
      (∀ i, Arr.Valid I.shape i → (I.get i).isnan = (t.at' i).isZero) →
      ∀ i, Arr.Valid I.shape i → (I.get i).isnan = true → Ii.get i = XR.fin 0 := by
  unfold Acc.fixNan at h
  by_cases ha : I.anyNan
  · rw [if_pos ha] at h
    obtain ⟨t, ht, h⟩ := ok_bind h
    obtain ⟨c, hc, h⟩ := ok_bind h
    rw [liftPy_py] at hc
    have h : Ii = if c = true then Arr.nanToZero I else I := (Except.ok.inj h).symm
    refine ⟨?_, fun i hi => ?_, fun t' ht' hfit hall i hv hn => ?_⟩
    · rw [h]; split <;> rfl
    · rw [h]
      split
      · show (if (I.get i).isnan = true then XR.fin 0 else I.get i) = _
        rw [hi]; rfl
      · rfl
    · have ht : Fresh.par b o .tau = .ok t := ht
      rw [ht'] at ht
      cases ht
      unfold Arr.nanIffZero at hc
      rw [Arr.bshape_comm, Arr.bshape_eq_of_fits hfit] at hc
      have hc := Except.ok.inj hc
      have : c = true := by
        rw [← hc]
        refine decide_eq_true fun i hi => ?_
        rw [Arr.at'_valid hi]
        exact hall i hi
      rw [h, if_pos this]
      show (if (I.get i).isnan = true then XR.fin 0 else I.get i) = _
      rw [if_pos hn]
  · rw [if_neg ha] at h
    have h : I = Ii := Except.ok.inj h
    subst h
    exact ⟨rfl, fun _ _ => rfl, fun t ht hfit hall i hv hn => absurd ⟨i, hv, hn⟩ ha⟩

namespace RowP
variable {k : ℕ} {c : Cfg} {md : Mode} {x : Site} {r : XR} {idx : List ℕ} {b : Backend} {o : Obj}
  {Is Iv Ii z : Arr} {n : ℕ}

theorem V_eq (h : RowP k c md x r idx b o Is Iv Ii z n) : o.V = c.V := by rw [← h.info.cfg]; rfl
theorem SRF_eq (h : RowP k c md x r idx b o Is Iv Ii z n) : o.SRF = c.SRF := by
  rw [← h.info.cfg]; rfl

theorem tau_at (h : RowP k c md x r idx b o Is Iv Ii z n) {t : Arr} (ht : Fresh.par b o .tau = .ok t) :
    t.at' idx = XR.fin x.tau := by
  obtain ⟨t', h1', h2'⟩ := h.info.site.tau
  rw [ht] at h1'
  cases h1'
  exact h2'

theorem geom (h : RowP k c md x r idx b o Is Iv Ii z n) : GeomAt md o.geom x := by
  have := h.geomOK.at h.info.site
  rwa [h.mode] at this

/-- The interaction entry where there is a canopy and no direction is nadir. -/
theorem int_val (h : RowP k c md x r idx b o Is Iv Ii z n) (hq : o.intQ = true) {nV nS : ℕ}
    (hV : c.V.ncoefs = .ok (nV + 1)) (hS : c.SRF.ncoefs = .ok (nS + 1)) (hx : x.Oblique) :
    Ii.get idx = XR.fin (geomInteraction c.V c.SRF o.geom x) := by
  obtain ⟨t, ht1, ht2⟩ := h.info.parts.tau
  have hta := h.tau_at ht1
  have hn : ¬ (t.shape = [] ∧ ¬ (t.get []).isPos = true) := by
    rintro ⟨e1, e2⟩
    apply e2
    have : t.get [] = t.at' idx := by
      unfold Arr.at'
      rw [e1]
      cases idx <;> rfl
    rw [this, hta]
    simp [XR.isPos, hx.tau]
  rw [if_neg hn] at ht2
  obtain ⟨I, hI1, hI2⟩ := ht2.2 hq
  have hat := interaction_at h.objOK h.geomOK.fnI h.geomOK.fneI h.geomOK.named hI1
    (by rw [h.V_eq]; exact hV) (by rw [h.SRF_eq]; exact hS) h.al h.len h.info.site hx
  rw [h.V_eq, h.SRF_eq] at hat
  have hvI := h.info.validI hq
  by_cases hs : t.shape = []
  · rw [if_pos hs] at hI2
    subst hI2
    rwa [Arr.at'_valid hvI] at hat
  · rw [if_neg hs] at hI2
    obtain ⟨e1, e2, -⟩ := fixNan_spec hI2
    rw [e1] at hvI
    rw [Arr.at'_valid hvI] at hat
    rw [e2 idx (by rw [hat]; rfl), hat]

/-- With a tau given as a number, the volume and interaction entries are zero without canopy. -/
theorem off (h : RowP k c md x r idx b o Is Iv Ii z n) {t : Arr} (ht : Fresh.par b o .tau = .ok t)
    (hs : t.shape = []) (h0 : x.tau ≤ 0) : Iv.get idx = XR.fin 0 ∧ Ii.get idx = XR.fin 0 := by
  obtain ⟨t', ht1, ht2⟩ := h.info.parts.tau
  rw [ht] at ht1
  cases ht1
  have hta := h.tau_at ht
  have hn : t.shape = [] ∧ ¬ (t.get []).isPos = true := by
    refine ⟨hs, ?_⟩
    have : t.get [] = t.at' idx := by
      unfold Arr.at'
      rw [hs]
      cases idx <;> rfl
    rw [this, hta]
    simp [XR.isPos, h0]
  rw [if_pos hn] at ht2
  rw [ht2.1, ht2.2]
  exact ⟨rfl, rfl⟩

end RowP

theorem Below.interaction_tau {b : Backend} {o : Obj} {dv ds : String → Py Lam} {t : Arr}
    (ht : Fresh.par b o .tau = .ok t) : Below t.shape (Fresh.acc b o dv ds).interaction :=
  bind fun _ _ => bind fun _ _ => bind fun _ h3 => mul_right (pure
    (mul_right (add_left (mul_left (mapM' (div_left (mapM' (self ht)))))) _ h3))

/-- The interaction row of `calc`: where there is a canopy and no direction is nadir. -/
theorem ObservesRowP.geom {c : Cfg} {md : Mode} {x : Site} {r : XR} (h : ObservesRowP 3 c md x r)
    {nV nS : ℕ} (hV : c.V.ncoefs = .ok (nV + 1)) (hS : c.SRF.ncoefs = .ok (nS + 1))
    (hx : x.Oblique) (hI : c.sig0 = true → x.I0 ≠ 0) :
    ∃ g : Geom4, GeomAt md g x ∧ r = x.inUnits c.sig0 c.dB (geomInteraction c.V c.SRF g x) := by
  obtain ⟨w, id, kw, arr, w', idx, hw, hcall, hv, rfl, hs, o, ho, rfl, rfl, n, hal⟩ := h
  obtain ⟨Is, Iv, Ii, hp, -, hrow⟩ := calc_rowP hw hcall ho hal
  have hr := hrow 3 idx x hv hs
  have hq : o.intQ = true := by
    have := hr.info.lt
    unfold nrows at this
    by_contra hq
    rw [if_neg hq] at this
    omega
  refine ⟨o.geom, hr.geom, ?_⟩
  rw [hr.info.val]
  show (XSite.of _ o idx).convert _ _ (Ii.get idx) = _
  rw [hr.int_val hq hV hS hx]
  exact hr.info.site.x_convert hI _

/-- The interaction entry of `calc` for arrays is zero without canopy, if no direction is nadir. -/
theorem CalcP.zero {c : Cfg} {md : Mode} {arr : Arr} {S : List ℕ} {site : List ℕ → Site}
    (h : CalcP c md arr S site) (hq : c.intQ = true)
    {nV nS : ℕ} (hV : c.V.ncoefs = .ok (nV + 1)) (hS : c.SRF.ncoefs = .ok (nS + 1))
    (hx : ∀ idx, Arr.Valid S idx → 0 < (site idx).mu0 ∧ (site idx).mu0 < 1 ∧ 0 < (site idx).muEx ∧
      (site idx).muEx < 1 ∧ 0 ≤ (site idx).tau)
    {idx : List ℕ} (hv : Arr.Valid S idx) (ht : (site idx).tau = 0) :
    ∃ b o Is Iv Ii n, (∀ k < 4, RowP k c md (site idx) (arr.get (idx ++ [k])) idx b o Is Iv Ii arr n) ∧ o.intQ = true ∧
      Ii.get idx = XR.fin 0 := by
  obtain ⟨w, id, kw, w', hw, hcall, ⟨m, hm⟩, hs, o, ho, rfl, rfl, n, hal⟩ := h
  have hq : o.intQ = true := hq
  obtain ⟨Is, Iv, Ii, hp, hsh, hrow⟩ := calc_rowP hw hcall ho hal
  have hm' : m = 4 ∧ S = Is.shape := by
    rw [hm] at hsh
    have := List.append_inj' hsh rfl
    simp [nrows, hq] at this
    exact ⟨this.2, this.1⟩
  obtain ⟨rfl, rfl⟩ := hm'
  have hall : ∀ i, Arr.Valid Is.shape i →
      RowP 3 o.cfg o.mode (site i) (arr.get (i ++ [3])) i w'.backend o Is Iv Ii arr n := fun i hi =>
    hrow 3 i (site i) (by rw [hm]; exact Arr.valid_append_iff.mpr ⟨hi, by omega⟩) (hs i hi)
  have hr := hall idx hv
  refine ⟨_, o, Is, Iv, Ii, n, fun k hk => hrow k idx (site idx) (by rw [hm]; exact Arr.valid_append_iff.mpr ⟨hv, hk⟩) (hs idx hv), hq, ?_⟩
  · obtain ⟨t, ht1, ht2⟩ := hp.tau
    by_cases hsc : t.shape = []
    · exact (hr.off ht1 hsc ht.le).2
    · rw [if_neg (fun h => hsc h.1)] at ht2
      obtain ⟨I, hI1, hI2⟩ := ht2.2 hq
      rw [if_neg hsc] at hI2
      obtain ⟨e1, e2, e3⟩ := fixNan_spec hI2
      have hshape : I.shape = Is.shape := by rw [← e1]; exact hp.rows.2.2.1 hq
      have hnan : ∀ i, Arr.Valid Is.shape i → (site i).tau = 0 → I.get i = XR.nan := by
        intro i hi h0
        have hri := hall i hi
        have hxi := hx i hi
        have := interaction_nan hri.objOK hri.geomOK.fnI hri.geomOK.fneI hI1 hV hS hri.al hri.len
          hri.info.site ⟨hxi.1, hxi.2.2.1, hxi.2.2.2.2, .inr (.inr h0)⟩
        rwa [Arr.at'_valid (by rw [hshape]; exact hi)] at this
      refine e3 t ht1 (Below.interaction_tau ht1 _ hI1) (fun i hi => ?_) idx (by rw [hshape]; exact hv)
        (by rw [hnan idx hv ht]; rfl)
      rw [hshape] at hi
      have hri := hall i hi
      rw [hri.tau_at ht1]
      have hxi := hx i hi
      by_cases h0 : (site i).tau = 0
      · rw [hnan i hi h0, h0]
        simp [XR.isnan, XR.isZero]
      · have := interaction_at hri.objOK hri.geomOK.fnI hri.geomOK.fneI hri.geomOK.named hI1 hV hS
          hri.al hri.len hri.info.site ⟨hxi.1, hxi.2.1, hxi.2.2.1, hxi.2.2.2.1,
            lt_of_le_of_ne hxi.2.2.2.2 (Ne.symm h0)⟩
        rw [Arr.at'_valid (by rw [hshape]; exact hi)] at this
        rw [this]
        simp [XR.isnan, XR.isZero, h0]

/-- The interaction row of `calc` for arrays: zero without canopy, the interaction contribution
elsewhere, if no direction is nadir. -/
theorem CalcP.interaction {c : Cfg} {md : Mode} {arr : Arr} {S : List ℕ} {site : List ℕ → Site}
    (h : CalcP c md arr S site) (hq : c.intQ = true)
    {nV nS : ℕ} (hV : c.V.ncoefs = .ok (nV + 1)) (hS : c.SRF.ncoefs = .ok (nS + 1))
    (hx : ∀ idx, Arr.Valid S idx → 0 < (site idx).mu0 ∧ (site idx).mu0 < 1 ∧ 0 < (site idx).muEx ∧
      (site idx).muEx < 1 ∧ 0 ≤ (site idx).tau)
    {idx : List ℕ} (hv : Arr.Valid S idx) (ht : (site idx).tau = 0)
    (hI : c.sig0 = true → (site idx).I0 ≠ 0) :
    arr.get (idx ++ [3]) = (site idx).inUnits c.sig0 c.dB 0 := by
  obtain ⟨b, o, Is, Iv, Ii, n, hr, -, key⟩ := h.zero hq hV hS hx hv ht
  have hi := (hr 3 (by norm_num)).info
  rw [hi.val]
  show (XSite.of _ o idx).convert _ _ (Ii.get idx) = _
  rw [key, hi.sig0_eq, hi.dB_eq]
  exact hi.site.x_convert hI _

/-- The first row of `calc` for arrays, without canopy. -/
theorem CalcP.total {c : Cfg} {md : Mode} {arr : Arr} {S : List ℕ} {site : List ℕ → Site}
    (h : CalcP c md arr S site) (hq : c.intQ = true) {f p : ℝ} {idx : List ℕ} (hf : c.SRF.ValueAt (site idx) f)
    (hp : c.V.ValueAt (site idx) p)
    {nV nS : ℕ} (hV : c.V.ncoefs = .ok (nV + 1)) (hS : c.SRF.ncoefs = .ok (nS + 1))
    (hx : ∀ idx, Arr.Valid S idx → 0 < (site idx).mu0 ∧ (site idx).mu0 < 1 ∧ 0 < (site idx).muEx ∧
      (site idx).muEx < 1 ∧ 0 ≤ (site idx).tau)
    (hv : Arr.Valid S idx) (ht : (site idx).tau = 0)
    (hI : c.sig0 = true → (site idx).I0 ≠ 0) :
    arr.get (idx ++ [0]) = (site idx).inUnits c.sig0 c.dB ((site idx).surface f + (site idx).volume p) := by
  obtain ⟨b, o, Is, Iv, Ii, n, hr, hq', key⟩ := h.zero hq hV hS hx hv ht
  have hi := (hr 0 (by norm_num)).info
  obtain ⟨h0, -, h1, -, -⟩ := hx idx hv
  rw [hi.val]
  simp only [rowVal, hq', if_true]
  rw [hi.srf hf h0.ne' h1.ne', hi.vol hp h0.ne' h1.ne' (add_pos h0 h1).ne' ht.ge, key, hi.sig0_eq, hi.dB_eq]
  show (XSite.of _ o idx).convert _ _ (XR.fin (_ + 0)) = _
  rw [add_zero]
  exact hi.site.x_convert hI _

/-- A nadir direction with a canopy somewhere prevents the replacement of nan by zero. -/
theorem CalcP.nadir_nan {c : Cfg} {md : Mode} {arr : Arr} {S : List ℕ} {site : List ℕ → Site}
    (h : CalcP c md arr S site) (hq : c.intQ = true)
    {nV nS : ℕ} (hV : c.V.ncoefs = .ok (nV + 1)) (hS : c.SRF.ncoefs = .ok (nS + 1))
    {idx idx' : List ℕ} (hv : Arr.Valid S idx) (hv' : Arr.Valid S idx')
    (h0 : (site idx).Degenerate) (h1 : (site idx').Degenerate) (ht : (site idx).tau = 0)
    (ht' : (site idx').tau ≠ 0) : arr.get (idx ++ [3]) = XR.nan := by
  obtain ⟨w, id, kw, w', hw, hcall, ⟨m, hm⟩, hs, o, ho, rfl, rfl, n, hal⟩ := h
  have hq : o.intQ = true := hq
  obtain ⟨Is, Iv, Ii, hp, hsh, hrow⟩ := calc_rowP hw hcall ho hal
  have hm' : m = 4 ∧ S = Is.shape := by
    rw [hm] at hsh
    have := List.append_inj' hsh rfl
    simp [nrows, hq] at this
    exact ⟨this.2, this.1⟩
  obtain ⟨rfl, rfl⟩ := hm'
  have hall : ∀ i, Arr.Valid Is.shape i →
      RowP 3 o.cfg o.mode (site i) (arr.get (i ++ [3])) i w'.backend o Is Iv Ii arr n := fun i hi =>
    hrow 3 i (site i) (by rw [hm]; exact Arr.valid_append_iff.mpr ⟨hi, by omega⟩) (hs i hi)
  have hr := hall idx hv
  rw [hr.info.val]
  show (XSite.of _ o idx).convert _ _ (Ii.get idx) = _
  have key : Ii.get idx = XR.nan := by
    obtain ⟨t, ht1, ht2⟩ := hp.tau
    have hsc : t.shape ≠ [] := by
      intro hsc
      apply ht'
      have e1 := hr.tau_at ht1
      have e2 := (hall idx' hv').tau_at ht1
      have : ∀ i, t.at' i = t.get [] := by
        intro i
        unfold Arr.at'
        rw [hsc]
        cases i <;> rfl
      rw [this] at e1 e2
      rw [e1] at e2
      rw [← XR.fin.inj e2, ht]
    rw [if_neg (fun h => hsc h.1)] at ht2
    obtain ⟨I, hI1, hI2⟩ := ht2.2 hq
    rw [if_neg hsc] at hI2
    have hshape : I.shape = Is.shape := by rw [← (fixNan_spec hI2).1]; exact hp.rows.2.2.1 hq
    have hnan : ∀ i, Arr.Valid Is.shape i → (site i).Degenerate → I.get i = XR.nan := by
      intro i hi h0
      have hri := hall i hi
      have := interaction_nan hri.objOK hri.geomOK.fnI hri.geomOK.fneI hI1 hV hS hri.al hri.len
        hri.info.site h0
      rwa [Arr.at'_valid (by rw [hshape]; exact hi)] at this
    have he : Ii = I := by
      unfold Acc.fixNan at hI2
      by_cases ha : I.anyNan
      · rw [if_pos ha] at hI2
        obtain ⟨t2, hp2, hr2⟩ := ok_bind hI2
        obtain ⟨c, hc, hr3⟩ := ok_bind hr2
        rw [liftPy_py] at hc
        have hp2 : Fresh.par w'.backend o .tau = .ok t2 := hp2
        rw [ht1] at hp2
        cases hp2
        have h : Ii = if c = true then Arr.nanToZero I else I := (Except.ok.inj hr3).symm
        unfold Arr.nanIffZero at hc
        rw [Arr.bshape_comm, Arr.bshape_eq_of_fits (Below.interaction_tau ht1 _ hI1)] at hc
        have hc := Except.ok.inj hc
        have : c = false := by
          rw [← hc]
          refine decide_eq_false fun hall' => ?_
          have := hall' idx' (by rw [hshape]; exact hv')
          rw [Arr.at'_valid (by rw [hshape]; exact hv'), hnan idx' hv' h1, (hall idx' hv').tau_at ht1] at this
          simp [XR.isnan, XR.isZero, ht'] at this
        rw [h, this]
        rfl
      · rw [if_neg ha] at hI2
        exact (Except.ok.inj hI2).symm
    rw [he, hnan idx hv h0]
  rw [key, XSite.convert_nan]

end

end RT1
