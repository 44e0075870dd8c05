import Verif.Lemmas.DrawNum
import Verif.Lemmas.AnalyzeI3
import Verif.Lemmas.IntRow

/-!
# What the 3D analyzer draws, with interaction term
-/

namespace RT1

noncomputable section
open Classical

theorem fixNan_or {b : Backend} {o : Obj} {I Ii : Arr} (h : (Fresh.acc0 b o).fixNan I = .ok Ii) (i : List ℕ) :
    Ii.get i = I.get i ∨ Ii.get i = XR.fin 0 := by
  unfold Acc.fixNan at h
  by_cases ha : I.anyNan
  · rw [if_pos ha] at h
    obtain ⟨t, ht, h⟩ := ok_bind h
    obtain ⟨c, hc, h⟩ := ok_bind h
    have h : Ii = if c = true then Arr.nanToZero I else I := (Except.ok.inj h).symm
    subst h
    split_ifs
    · show (if (I.get i).isnan = true then XR.fin 0 else I.get i) = _ ∨
        (if (I.get i).isnan = true then XR.fin 0 else I.get i) = _
      split_ifs with hn
      · exact .inr rfl
      · exact .inl rfl
    · exact .inl rfl
  · rw [if_neg ha] at h
    cases h
    exact .inl rfl

/-- With interaction term, the values are finite or nan above the horizon, and the surface part is
finite. -/
theorem int_drawable {b : Backend} {o : Obj} {res : Arr} {S : List ℕ} (hci : CompleteI b o S) (hg : o.geom.Named)
    (hcalc : Fresh.calcAll b o = .ok res) (hdB : o.dB = false) (hS : res.shape = S ++ [4])
    (hne : ∃ idx, Arr.Valid S idx)
    (hsite : ∀ idx, Arr.Valid S idx → ∃ x f p, FSite b o idx x ∧ o.SRF.ValueAt x f ∧ o.V.ValueAt x p ∧
      0 < x.mu0 ∧ 0 < x.muEx ∧ 0 < x.tau ∧ (o.sig0 = true → x.I0 ≠ 0)) {cs : List Char} (hs : 's' ∈ cs) :
    Drawable cs res := by
  obtain ⟨Is, Iv, Ii, hp⟩ := calc_parts hcalc
  obtain ⟨h1, h2, h3, h4⟩ := hp.rows
  have hq := hci.intQ
  obtain ⟨nV, hV⟩ := hci.V
  obtain ⟨nS, hSn⟩ := hci.SRF
  have hSS : S = Is.shape := by
    rw [hS] at h1
    exact (List.append_inj' h1 rfl).1
  have h1' : res.shape = S ++ [4] := hS
  rw [← hSS] at h2 h3 h4
  have key : ∀ idx, Arr.Valid S idx → (∃ r, Is.get idx = XR.fin r) ∧ (∃ r, Iv.get idx = XR.fin r) ∧
      (Ii.get idx = .nan ∨ ∃ r, Ii.get idx = .fin r) ∧
      (∀ v, ∃ r, (XSite.of b o idx).convert o.sig0 o.dB (XR.fin v) = XR.fin r) ∧
        (XSite.of b o idx).convert o.sig0 o.dB .nan = .nan := by
    intro idx hv
    obtain ⟨x, f, p, hx, hf, hp', m0, m1, ht, hI0⟩ := hsite idx hv
    have hk' : 1 < nrows o.intQ := by rw [hq]; simp [nrows]
    have hinfo : RowInfo 1 o.cfg x (res.get (idx ++ [1])) idx b o Is Iv Ii res :=
      ⟨hx, rfl, hp, by rw [← hSS]; exact hv, hk', h4 1 hk' idx hv, by rw [h2]; exact hv, fun h => by rw [h3 h]; exact hv⟩
    refine ⟨⟨_, hinfo.srf hf m0.ne' m1.ne'⟩, ⟨_, hinfo.vol hp' m0.ne' m1.ne' (add_pos m0 m1).ne' ht.le⟩, ?_, fun v => ?_, ?_⟩
    · obtain ⟨t, ht1, ht2⟩ := hp.tau
      have hta : t.at' idx = XR.fin x.tau := by
        obtain ⟨t', e1, e2⟩ := hx.tau
        rw [ht1] at e1
        cases e1
        exact e2
      have hn : ¬ (t.shape = [] ∧ ¬ (t.get []).isPos = true) := by
        rintro ⟨e1, e2⟩
        apply e2
        have : t.get [] = t.at' idx := by
          unfold Arr.at'
          rw [e1]
          cases idx <;> rfl
        rw [this, hta]
        simp [XR.isPos, ht]
      rw [if_neg hn] at ht2
      obtain ⟨I, hI1, hI2⟩ := ht2.2 hq
      have hlen : S.length ≤ idx.length := hv.length_eq.ge
      have hIv : Arr.Valid I.shape idx := by
        split_ifs at hI2
        · rw [← hI2, h3 hq]; exact hv
        · rw [← (fixNan_spec hI2).1, h3 hq]; exact hv
      have hI : I.get idx = .nan ∨ ∃ r, I.get idx = .fin r := by
        by_cases hd : x.mu0 = 1 ∨ x.muEx = 1
        · have := interaction_nan hci.objOK hci.fnI hci.fneI hI1 hV hSn hci.aligned hlen hx
            ⟨m0, m1, ht.le, hd.imp id fun h => .inl h⟩
          rw [Arr.at'_valid hIv] at this
          exact .inl this
        · rw [not_or] at hd
          have := interaction_at hci.objOK hci.fnI hci.fneI hg hI1 hV hSn hci.aligned hlen hx
            ⟨m0, lt_of_le_of_ne (Real.cos_le_one _) hd.1, m1, lt_of_le_of_ne (Real.cos_le_one _) hd.2, ht⟩
          rw [Arr.at'_valid hIv] at this
          exact .inr ⟨_, this⟩
      split_ifs at hI2
      · rw [hI2]; exact hI
      · rcases fixNan_or hI2 idx with e | e
        · rw [e]; exact hI
        · exact .inr ⟨_, e⟩
    · rw [hx.x_convert hI0, hdB]
      exact ⟨_, rfl⟩
    · unfold XSite.convert
      rw [hdB]
      cases o.sig0
      · rfl
      · simp [XR.nan_mul]
  have rows : ∀ idx k, Arr.Valid S idx → k < 4 → (res.get (idx ++ [k]) = .nan ∨ ∃ r, res.get (idx ++ [k]) = XR.fin r) ∧
      (k = 1 → ∃ r, res.get (idx ++ [k]) = XR.fin r) := by
    intro idx k hv hk
    obtain ⟨⟨a, ha⟩, ⟨c, hc⟩, hi, hfin, hnan⟩ := key idx hv
    have hk' : k < nrows o.intQ := by rw [hq]; simpa [nrows] using hk
    rw [h4 k hk' idx hv, ha, hc, hq]
    match k, hk with
    | 0, _ =>
      refine ⟨?_, by simp⟩
      rcases hi with hi | ⟨r, hi⟩
      · rw [hi]; exact .inl hnan
      · rw [hi]; exact .inr (hfin _)
    | 1, _ => exact ⟨.inr (hfin _), fun _ => hfin _⟩
    | 2, _ => exact ⟨.inr (hfin _), by simp⟩
    | 3, _ =>
      refine ⟨?_, by simp⟩
      rcases hi with hi | ⟨r, hi⟩
      · rw [hi]; exact .inl hnan
      · rw [hi]; exact .inr (hfin _)
  refine ⟨?_, fun c hc k idx hk hv => ?_⟩
  · obtain ⟨idx, hv⟩ := hne
    obtain ⟨r, hr⟩ := (rows idx 1 hv (by norm_num)).2 rfl
    exact ⟨'s', hs, 1, idx, r, .surface, by rw [hS]; exact Arr.valid_append_iff.mpr ⟨hv, by norm_num⟩, hr⟩
  · rw [hS] at hv
    obtain ⟨v1, v2⟩ := Arr.valid_append_iff.mp hv
    rcases (rows idx k v1 v2).1 with e | ⟨r, e⟩ <;> rw [e] <;> exact ⟨by simp, by simp⟩

/-- The set-up of the geometry and the first update succeed. -/
theorem works3_start_int {w : World} (hw : Reachable w) {id n : ℕ} (hn : n ≠ 0) {o : Obj}
    (ho : w.objs id = some o) {cs : List Char} {ps : List (String × List SliderArg)} (hne : cs ≠ [])
    (hcs : ∀ c ∈ cs, ∃ k, Shows c k)
    (hneeds : ∀ s, o.Needs s → (s ∈ ps.map Prod.fst ∧ s ≠ "inc") ∨ s ∈ o.params.keys)
    (hnum : ∀ p ∈ ps, ∃ a b rest, p.2 = .number a :: .number b :: rest ∧
      (rest = [] ∨ ∃ c r, rest = .number c :: r))
    (hI : Arr.Fits o.I0.shape [n, n])
    (hpar : ∀ k x, o.params.get? k = some x → k ∉ ps.map Prod.fst ∨ ¬ o.Needs k ∨ k = "inc" → Arr.Fits x.shape [n, n])
    (hdef : ∀ p, match o.pdef p with
      | .val x => Arr.Fits x.shape [n, n]
      | .str e => ∀ s ∈ e.free, s ∉ ["theta_0", "theta_ex", "phi_0", "phi_ex"]
      | .basic e => e.free = [])
    (hfi : o.fnInput = none) (hfei : o.fnevalsInput = none)
    (hnV : ∃ n, o.V.ncoefs = .ok (n + 1)) (hnS : ∃ n, o.SRF.ncoefs = .ok (n + 1)) {fs : List P}
    (hfn : fnCoefs o.V o.SRF ⟨.sym "theta_0", .sym "theta_ex", .num 0, .sym "phi_ex"⟩ = .ok fs)
    (hcst : w.backend = .symengine ∨ ∃ p ∈ fs, ¬ isConstFn p) :
    ∃ sl w3 o3 A1 w1 o1, (Reachable w3 ∧ w3.objs id = some o3 ∧ w3.backend = w.backend ∧
      o3.still = Obj.still { o with dB := false } ∧ Ready3I w3.backend n (sl.map Prod.fst) o3 ∧
      o3.geom = ⟨.sym "theta_0", .sym "theta_ex", .num 0, .sym "phi_ex"⟩) ∧
      (∃ l, parseParameters (ps.filter fun p => decide (o.Needs p.1)) = .ok l ∧ mkSliders l = .ok sl) ∧
      analyze3d id n cs ps w = Analyzer3D.first id ⟨sl, 45, cs, []⟩ w3 ∧
      Analyzer3D.update id ⟨sl, 45, cs, []⟩ w3 = (.ok A1, w1) ∧ Reachable w1 ∧ w1.backend = w3.backend ∧
      w1.objs id = some o1 ∧ A1.contribs = cs ∧ Ready3I w3.backend n (A1.sliders.map Prod.fst) o1 := by
  obtain ⟨sl, w3, o3, r3, ho3, hb3, hst, ⟨g, hx⟩, hs, hl, he⟩ := analyze3d_ready (n := n) hw ho (cs := cs) (ps := ps) hcs
    (fun s h => (hneeds s h).imp And.left fun h => h) hnum
  have h3 : Ready3 n (sl.map Prod.fst) o3 := by
    refine Ready3.of (hw.keeps.any.bsfOK ho) hst g hI ?_ ?_ hdef
    · intro k x hx hk
      refine hpar k x hx ?_
      rw [hs, not_and_or, or_assoc] at hk
      exact hk
    · intro s h
      exact (hneeds s h).imp (fun h' => ⟨(hs s).mpr ⟨h'.1, h⟩, h'.2⟩) fun h => h
  have hV : o3.V = o.V := by simp only [Obj.still, Prod.mk.injEq] at hst; exact hst.1
  have hS : o3.SRF = o.SRF := by simp only [Obj.still, Prod.mk.injEq] at hst; exact hst.2.1
  have hI3 : Ready3I w3.backend n (sl.map Prod.fst) o3 :=
    ⟨h3, hx.fnI.trans hfi, hx.fneI.trans hfei, ⟨fs, by rw [hV, hS, hx.geom, hfn], by rw [hb3]; exact hcst⟩,
      by rw [hV]; exact hnV, by rw [hS]; exact hnS, Or.inl hx.fnevals, fun l hl => by rw [hx.fnevals] at hl; cases hl⟩
  obtain ⟨A1, w1, o1, e1, r1, bk1, ho1, s1, c1, h1⟩ := Ready3I.succ (A := ⟨sl, 45, cs, []⟩) r3 hn ho3 hI3 hne hcs
  exact ⟨sl, w3, o3, A1, w1, o1, ⟨r3, ho3, hb3, hst, hI3, hx.geom⟩, hl, he, e1, r1, bk1, ho1, c1, h1⟩

/-- The object with the values of the sliders is complete. -/
theorem Ready3I.at3d {id n : ℕ} {w : World} {o : Obj} (hw : Reachable w) (ho : w.objs id = some o)
    {sl : List (String × Slider)} (h : Ready3I w.backend n (sl.map Prod.fst) o) (inc : ℝ) :
    CompleteI w.backend ((Fresh.update o (sliderVals (noInc sl))).at3d n inc true) [n, n] := by
  have hb := hw.keeps.any.bsfOK ho
  have hc := h.base.complete sl inc true rfl
  have hg : Grid n ((Fresh.update o (sliderVals (noInc sl))).at3d n inc true) :=
    Grid.at3d (o := Fresh.update o (sliderVals (noInc sl))) ⟨h.base.grid.mono, h.base.grid.fixed, h.base.grid.tex, h.base.grid.pex, h.base.grid.p0⟩ _ _
  obtain ⟨c1, -⟩ := h.coefs.update hb (kw := sliderVals (noInc sl)) (by rw [sliderVals_keys, noInc_fst])
  have hok : ObjOK w.backend (Fresh.update o (sliderVals (noInc sl))) :=
    (hw.inv.updated ho (sliderVals (noInc sl))).obj rfl _ _ (World.updated_objs ..)
  exact (c1.at3d n inc true).completeI_of rfl hc (hb.update _) ⟨hok.fn, hok.fnevals⟩
    (a := fullLike (analyze3dTex n) (deg2rad inc)) (by simp [Obj.at3d]) rfl
    (fun _ a ha => by rw [hg.tex] at ha; cases ha; rfl) (fun _ a ha => by rw [hg.pex] at ha; cases ha; rfl)
    hg.p0 (by simp [Obj.at3d])

end

end RT1
