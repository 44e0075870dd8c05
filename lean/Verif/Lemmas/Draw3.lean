import Verif.Lemmas.Analyze3
import Verif.Lemmas.Frame3
import Verif.Lemmas.RowVals

/-!
# What the 3D analyzer draws
-/

namespace RT1

noncomputable section
open Classical

theorem grid_polar (n : ℕ) (idx : List ℕ) {S : List ℕ} (hS : Arr.Fits [n, n] S) (hv : Arr.Valid S idx) :
    (analyze3dTex n).at' idx = XR.fin (gridPolar n (idx.getD 0 0)) ∧
    (analyze3dPex n).at' idx = XR.fin (gridAzimuth n (idx.getD 1 0)) := by
  match S, hS, idx, hv with
  | [], hS, _, _ => simp [Arr.Fits] at hS
  | [_], hS, _, _ => simp [Arr.Fits] at hS
  | _ :: _ :: _, hS, i :: j :: idx, hv =>
    simp only [Arr.at', analyze3dTex, analyze3dPex, Arr.bidx, List.getD_cons_zero, List.getD_cons_succ, gridPolar,
      gridAzimuth, linspace, deg2rad]
    by_cases h1 : n = 1
    · subst h1
      simp
    · rw [if_neg h1]
      constructor
      · congr 1
        ring
      · rw [if_neg h1]
        congr 1
        ring
  | _ :: _ :: _, _, [], hv => cases hv
  | _ :: _ :: _, _, [_], hv => rcases hv with _ | ⟨_, ⟨⟩⟩

/-- What an update draws. -/
theorem Updated3.picture {id n : ℕ} {A0 A : Analyzer3D} {w0 w : World} {o o' : Obj} {res x y z : Arr} {ks : List ℕ}
    (hU : Updated3 id n A0 A w0 w o o' res x y z ks) : ∃ S,
      res.shape = S ++ [nrows (decide ('i' ∈ A.contribs))] ∧ Arr.Fits [n, n] S ∧
      A.surfaces.length = A.contribs.length ∧
      ∀ (j : ℕ) (c : Char), A.contribs[j]? = some c → ∃ (k : ℕ) (x y z : Arr), Shows c k ∧ A.surfaces[j]? = some (x, y, z) ∧
        x.shape = S ∧ y.shape = S ∧ z.shape = S ∧ ∀ idx, Arr.Valid S idx →
          x.get idx = res.get (idx ++ [k]) * XR.fin (Real.sin (gridPolar n (idx.getD 0 0))) *
            XR.fin (Real.cos (gridAzimuth n (idx.getD 1 0))) ∧
          y.get idx = res.get (idx ++ [k]) * XR.fin (Real.sin (gridPolar n (idx.getD 0 0))) *
            XR.fin (Real.sin (gridAzimuth n (idx.getD 1 0))) ∧
          z.get idx = res.get (idx ++ [k]) * XR.fin (Real.cos (gridPolar n (idx.getD 0 0))) := by
  obtain ⟨S, s1, s2⟩ := calcAll_t0 hU.calc_ (a := fullLike (analyze3dTex n) (deg2rad A0.inc)) (by simp [Obj.at3d])
  have hs1 : res.shape = S ++ [nrows (decide ('i' ∈ A.contribs))] := by rw [hU.contribs]; exact s1
  have hf : Arr.Fits [n, n] res.shape := by rw [hs1]; exact Arr.Fits.trans s2 (Arr.Fits.append _ _)
  obtain ⟨a, ha, hx⟩ := hU.hx
  obtain ⟨a', ha', hy⟩ := hU.hy
  rw [ha] at ha'
  cases ha'
  obtain ⟨sa, ga⟩ := mul_small ha hf
  obtain ⟨sx, gx⟩ := mul_small hx (by rw [sa]; exact hf)
  obtain ⟨sy, gy⟩ := mul_small hy (by rw [sa]; exact hf)
  obtain ⟨sz, gz⟩ := mul_small hU.hz hf
  refine ⟨S, hs1, s2, ?_, ?_⟩
  · rw [(mapM_get hU.surfaces).1, (mapM_get hU.rows).1, hU.contribs]
  · intro j c hj
    rw [hU.contribs] at hj
    obtain ⟨k, hk, hck⟩ := (mapM_get hU.rows).2 j c hj
    obtain ⟨p, hp, hpk⟩ := (mapM_get hU.surfaces).2 j k hk
    unfold surfaceOf at hpk
    obtain ⟨x', h1, hpk⟩ := ok_bind hpk
    obtain ⟨y', h2, hpk⟩ := ok_bind hpk
    obtain ⟨z', h3, hpk⟩ := ok_bind hpk
    cases hpk
    obtain ⟨⟨m1, e1, l1⟩, q1⟩ := rowOf_ok h1
    obtain ⟨⟨m2, e2, l2⟩, q2⟩ := rowOf_ok h2
    obtain ⟨⟨m3, e3, l3⟩, q3⟩ := rowOf_ok h3
    rw [sx, sa, hs1] at e1
    rw [sy, sa, hs1] at e2
    rw [sz, hs1] at e3
    obtain ⟨f1, d1⟩ := List.append_inj' e1 rfl
    obtain ⟨f2, -⟩ := List.append_inj' e2 rfl
    obtain ⟨f3, -⟩ := List.append_inj' e3 rfl
    cases d1
    refine ⟨k, x', y', z', contribIndex_shows hck, hp, f1.symm, f2.symm, f3.symm, fun idx hv => ?_⟩
    have hv' : Arr.Valid res.shape (idx ++ [k]) := by rw [hs1]; exact Arr.valid_append_iff.mpr ⟨hv, l1⟩
    have hl : ∀ t : Arr, t.shape = [n, n] → t.at' (idx ++ [k]) = t.at' idx := fun t ht =>
      Arr.at'_append (by rw [ht, hv.length]; exact s2.length)
    obtain ⟨p1, p2⟩ := grid_polar n idx s2 hv
    rw [q1, q2, q3, gx _ (by rw [sa]; exact hv'), gy _ (by rw [sa]; exact hv'), gz _ hv', ga _ hv',
      Arr.at'_map, Arr.at'_map, Arr.at'_map, Arr.at'_map, hl _ rfl, hl _ rfl, p1, p2]
    exact ⟨rfl, rfl, rfl⟩

/-- The drawn values are those `calc` returns afterwards. -/
theorem Updated3.again {id n : ℕ} {A0 A : Analyzer3D} {w0 w : World} {o o' : Obj} {res x y z : Arr} {ks : List ℕ}
    (hU : Updated3 id n A0 A w0 w o o' res x y z ks) (hw0 : Reachable w0) (hw : Reachable w) :
    (calcOp id (sliderVals (A.sliders.filter fun p => decide (p.1 ≠ "inc")))
        (step (.setIntQ id (decide ('i' ∈ A.contribs))) w).2).1 = .ok res ∧
    (calcOp id [] (step (.setIntQ id (decide ('i' ∈ A.contribs))) w).2).1 = .ok res := by
  have hb := hw0.keeps.any.bsfOK hU.before
  have r2 : Reachable (step (.setIntQ id (decide ('i' ∈ A.contribs))) w).2 := hw.step trivial
  have o2 : (step (.setIntQ id (decide ('i' ∈ A.contribs))) w).2.objs id = some o' := by
    have q : decide ('i' ∈ A.contribs) = o'.intQ := by rw [hU.filled.intQ, hU.contribs]; rfl
    refine (modObj_get hU.after _).trans ?_
    rw [q]
  have b2 : (step (.setIntQ id (decide ('i' ∈ A.contribs))) w).2.backend = w0.backend := hU.backend
  have hb1 : BsfOK (o.at3d n A0.inc (decide ('i' ∈ A0.contribs))) := hb
  have hf' : Filled w0.backend (Fresh.update (o.at3d n A0.inc (decide ('i' ∈ A0.contribs)))
      (sliderVals (A0.sliders.filter fun p => decide (p.1 ≠ "inc")))) o' := hU.filled
  constructor
  · rw [(calcOp_eq r2.inv o2 _).1, b2, hU.sliders, fresh_calc_filled (hf'.again hb1)]
    exact hU.calc_
  · have e : Fresh.update o' [] = o' := Fresh.update_nil (r2.keeps.any.bsfOK o2).1
    rw [(calcOp_eq r2.inv o2 _).1, b2, e, fresh_calc_filled hf']
    exact hU.calc_

/-- Rows of values that can be drawn in 3D: among the values of the requested contributions there is a
number, and none is infinite. -/
structure Drawable (cs : List Char) (res : Arr) : Prop where
  number : ∃ c ∈ cs, ∃ k idx r, Shows c k ∧ Arr.Valid res.shape (idx ++ [k]) ∧ res.get (idx ++ [k]) = XR.fin r
  bounded : ∀ c ∈ cs, ∀ k idx, Shows c k → Arr.Valid res.shape (idx ++ [k]) →
    res.get (idx ++ [k]) ≠ XR.pinf ∧ res.get (idx ++ [k]) ≠ XR.ninf

theorem XR.fin_or {v : XR} (h1 : v ≠ .pinf) (h2 : v ≠ .ninf) : v = .nan ∨ ∃ r, v = .fin r := by
  cases v with
  | fin r => exact .inr ⟨r, rfl⟩
  | pinf => exact (h1 rfl).elim
  | ninf => exact (h2 rfl).elim
  | nan => exact .inl rfl

theorem XR.scaled {v : XR} (h : v = .nan ∨ ∃ r, v = .fin r) (a : ℝ) : v * .fin a = .nan ∨ ∃ r, v * .fin a = .fin r := by
  rcases h with rfl | ⟨r, rfl⟩
  · exact .inl rfl
  · exact .inr ⟨_, rfl⟩

theorem Updated3.valid {id n : ℕ} {A0 A : Analyzer3D} {w0 w : World} {o o' : Obj} {res x y z : Arr} {ks : List ℕ}
    (hU : Updated3 id n A0 A w0 w o o' res x y z ks) {S : List ℕ}
    (hS : res.shape = S ++ [nrows (decide ('i' ∈ A.contribs))]) {c : Char} (hc : c ∈ A.contribs) {k : ℕ} (hk : Shows c k)
    (idx : List ℕ) : Arr.Valid res.shape (idx ++ [k]) ↔ Arr.Valid S idx := by
  rw [hS, Arr.valid_append_iff]
  refine ⟨And.left, fun h => ⟨h, ?_⟩⟩
  unfold nrows
  cases hk <;> split_ifs <;> simp_all

/-- Rows that can be drawn have finite limits. -/
theorem Updated3.frame {id n : ℕ} {A0 A : Analyzer3D} {w0 w : World} {o o' : Obj} {res x y z : Arr} {ks : List ℕ}
    (hU : Updated3 id n A0 A w0 w o o' res x y z ks) (hd : Drawable A.contribs res) :
    Coords (A.surfaces.flatMap fun s => s.1.entries) ∧ Coords (A.surfaces.flatMap fun s => s.2.1.entries) := by
  obtain ⟨S, s1, s2, s3, s4⟩ := hU.picture
  have key : ∀ s ∈ A.surfaces, ∃ c ∈ A.contribs, ∃ k, Shows c k ∧ s.1.shape = S ∧ s.2.1.shape = S ∧
      ∀ idx, Arr.Valid S idx → (res.get (idx ++ [k]) = .nan ∨ ∃ r, res.get (idx ++ [k]) = .fin r) ∧
        s.1.get idx = res.get (idx ++ [k]) * XR.fin (Real.sin (gridPolar n (idx.getD 0 0))) *
            XR.fin (Real.cos (gridAzimuth n (idx.getD 1 0))) ∧
        s.2.1.get idx = res.get (idx ++ [k]) * XR.fin (Real.sin (gridPolar n (idx.getD 0 0))) *
            XR.fin (Real.sin (gridAzimuth n (idx.getD 1 0))) := by
    intro s hs
    obtain ⟨j, hj, rfl⟩ := List.getElem_of_mem hs
    have hj' : j < A.contribs.length := by rw [← s3]; exact hj
    obtain ⟨k, x, y, z, k1, k2, k3, k4, -, k5⟩ := s4 j A.contribs[j] (List.getElem?_eq_getElem hj')
    rw [List.getElem?_eq_getElem hj] at k2
    have e := Option.some.inj k2
    rw [e]
    refine ⟨_, List.getElem_mem hj', k, k1, k3, k4, fun idx hv => ?_⟩
    obtain ⟨b1, b2⟩ := hd.bounded _ (List.getElem_mem hj') k idx k1 ((hU.valid s1 (List.getElem_mem hj') k1 idx).mpr hv)
    exact ⟨XR.fin_or b1 b2, (k5 idx hv).1, (k5 idx hv).2.1⟩
  obtain ⟨c, hc, k, idx, r, hk, hv, hr⟩ := hd.number
  have hv' := (hU.valid s1 hc hk idx).mp hv
  obtain ⟨j, hj, hjc⟩ := List.getElem_of_mem hc
  obtain ⟨k', x', y', z', k1, k2, k3, k4, -, k5⟩ := s4 j c (by rw [List.getElem?_eq_getElem hj, hjc])
  have hkk : k' = k := by cases hk <;> cases k1 <;> rfl
  subst hkk
  have hmem : (x', y', z') ∈ A.surfaces := List.mem_of_getElem? k2
  obtain ⟨e1, e2, -⟩ := k5 idx hv'
  rw [hr] at e1 e2
  refine ⟨⟨fun v hv => ?_, _, List.mem_flatMap.mpr ⟨_, hmem, Arr.mem_entries.mpr ⟨idx, by rw [k3]; exact hv', e1⟩⟩⟩,
    ⟨fun v hv => ?_, _, List.mem_flatMap.mpr ⟨_, hmem, Arr.mem_entries.mpr ⟨idx, by rw [k4]; exact hv', e2⟩⟩⟩⟩
  · obtain ⟨s, hs, hv⟩ := List.mem_flatMap.mp hv
    obtain ⟨i, hi, rfl⟩ := Arr.mem_entries.mp hv
    obtain ⟨c, -, k, -, h1, -, h3⟩ := key s hs
    rw [h1] at hi
    rw [(h3 i hi).2.1]
    exact XR.scaled (XR.scaled (h3 i hi).1 _) _
  · obtain ⟨s, hs, hv⟩ := List.mem_flatMap.mp hv
    obtain ⟨i, hi, rfl⟩ := Arr.mem_entries.mp hv
    obtain ⟨c, -, k, -, -, h1, h3⟩ := key s hs
    rw [h1] at hi
    rw [(h3 i hi).2.2]
    exact XR.scaled (XR.scaled (h3 i hi).1 _) _

theorem Updated3.frameZ {id n : ℕ} {A0 A : Analyzer3D} {w0 w : World} {o o' : Obj} {res x y z : Arr} {ks : List ℕ}
    (hU : Updated3 id n A0 A w0 w o o' res x y z ks) (hd : Drawable A.contribs res) :
    Coords (A.surfaces.flatMap fun s => s.2.2.entries) := by
  obtain ⟨S, s1, s2, s3, s4⟩ := hU.picture
  refine ⟨fun v hv => ?_, ?_⟩
  · obtain ⟨s, hs, hv⟩ := List.mem_flatMap.mp hv
    obtain ⟨i, hi, rfl⟩ := Arr.mem_entries.mp hv
    obtain ⟨j, hj, rfl⟩ := List.getElem_of_mem hs
    have hj' : j < A.contribs.length := by rw [← s3]; exact hj
    obtain ⟨k, x, y, z, k1, k2, -, -, k4, k5⟩ := s4 j A.contribs[j] (List.getElem?_eq_getElem hj')
    rw [List.getElem?_eq_getElem hj] at k2
    have e := Option.some.inj k2
    rw [e] at hi ⊢
    rw [show (x, y, z).2.2.shape = S from k4] at hi
    show z.get i = .nan ∨ ∃ r, z.get i = .fin r
    obtain ⟨b1, b2⟩ := hd.bounded _ (List.getElem_mem hj') k i k1 ((hU.valid s1 (List.getElem_mem hj') k1 i).mpr hi)
    rw [(k5 i hi).2.2]
    exact XR.scaled (XR.fin_or b1 b2) _
  · obtain ⟨c, hc, k, idx, r, hk, hv, hr⟩ := hd.number
    have hv' := (hU.valid s1 hc hk idx).mp hv
    obtain ⟨j, hj, hjc⟩ := List.getElem_of_mem hc
    obtain ⟨k', x', y', z', k1, k2, -, -, k4, k5⟩ := s4 j c (by rw [List.getElem?_eq_getElem hj, hjc])
    have hkk : k' = k := by cases hk <;> cases k1 <;> rfl
    subst hkk
    have e := (k5 idx hv').2.2
    rw [hr] at e
    exact ⟨_, List.mem_flatMap.mpr ⟨_, List.mem_of_getElem? k2, Arr.mem_entries.mpr ⟨idx, by rw [k4]; exact hv', e⟩⟩⟩

/-- Rows without any number cannot be drawn. -/
theorem Updated3.noframe {id n : ℕ} {A0 A : Analyzer3D} {w0 w : World} {o o' : Obj} {res x y z : Arr} {ks : List ℕ}
    (hU : Updated3 id n A0 A w0 w o o' res x y z ks)
    (hd : ∀ c ∈ A.contribs, ∀ k idx, Shows c k → Arr.Valid res.shape (idx ++ [k]) → res.get (idx ++ [k]) = .nan) :
    (frame3d A.surfaces).isFin = false := by
  obtain ⟨S, s1, s2, s3, s4⟩ := hU.picture
  refine frame3d_nan fun v hv => ?_
  obtain ⟨s, hs, hv⟩ := List.mem_flatMap.mp hv
  obtain ⟨i, hi, rfl⟩ := Arr.mem_entries.mp hv
  obtain ⟨j, hj, rfl⟩ := List.getElem_of_mem hs
  have hj' : j < A.contribs.length := by rw [← s3]; exact hj
  obtain ⟨k, x, y, z, k1, k2, k3, k4, -, k5⟩ := s4 j A.contribs[j] (List.getElem?_eq_getElem hj')
  rw [List.getElem?_eq_getElem hj] at k2
  have e := Option.some.inj k2
  rw [e] at hi ⊢
  rw [show (x, y, z).1.shape = S from k3] at hi
  have := hd _ (List.getElem_mem hj') k i k1 ((hU.valid s1 (List.getElem_mem hj') k1 i).mpr hi)
  show x.get i = _
  rw [(k5 i hi).1, this]
  rfl

theorem first3_run {w w1 : World} {id : ℕ} {A A1 : Analyzer3D} (h : Analyzer3D.update id A w = (.ok A1, w1)) :
    Analyzer3D.first id A w = (if (frame3d A1.surfaces).isFin then (.ok A1, w1) else (.error .valueError, w1)) := by
  unfold Analyzer3D.first
  rw [bind_ok h]
  split_ifs <;> rfl

/-- The creation succeeds if the first update does and its rows can be drawn. -/
theorem created3 {id n : ℕ} {w w3 w1 : World} {o3 : Obj} {cs : List Char} {ps : List (String × List SliderArg)}
    {sl : List (String × Slider)} {A1 : Analyzer3D} (r3 : Reachable w3) (ho3 : w3.objs id = some o3) (g : Grid n o3)
    (he : analyze3d id n cs ps w = Analyzer3D.first id ⟨sl, 45, cs, []⟩ w3)
    (e1 : Analyzer3D.update id ⟨sl, 45, cs, []⟩ w3 = (.ok A1, w1)) (r1 : Reachable w1) (c1 : A1.contribs = cs)
    (hdraw : ∀ res, (calcOp id [] (step (.setIntQ id (decide ('i' ∈ cs))) (analyze3d id n cs ps w).2).2).1 = .ok res →
      Drawable cs res) : analyze3d id n cs ps w = (.ok A1, w1) := by
  obtain ⟨o', res, x, y, z, ks, hU⟩ := update3_ok r3 ho3 g e1
  rw [he, first3_run e1] at hdraw ⊢
  have hw1 : ∀ p : Prop, [Decidable p] → (if p then ((.ok A1, w1) : Py Analyzer3D × World) else
      (.error .valueError, w1)).2 = w1 := fun p _ => by split_ifs <;> rfl
  rw [hw1] at hdraw
  subst c1
  have hd := hdraw res (hU.again r3 r1).2
  obtain ⟨L, hL, -⟩ := frame3d_fin (hU.frame hd).1 (hU.frame hd).2
  rw [hL]
  rfl

/-- What `calc` returns after the creation, also if it failed because of the limits. -/
theorem drawn_of {id n : ℕ} {w w3 w1 : World} {o3 : Obj} {cs : List Char} {ps : List (String × List SliderArg)}
    {sl : List (String × Slider)} {A1 : Analyzer3D} (r3 : Reachable w3) (ho3 : w3.objs id = some o3) (g : Grid n o3)
    (he : analyze3d id n cs ps w = Analyzer3D.first id ⟨sl, 45, cs, []⟩ w3)
    (e1 : Analyzer3D.update id ⟨sl, 45, cs, []⟩ w3 = (.ok A1, w1)) (r1 : Reachable w1) (c1 : A1.contribs = cs)
    {res : Arr} (h : (calcOp id [] (step (.setIntQ id (decide ('i' ∈ cs))) (analyze3d id n cs ps w).2).2).1 = .ok res) :
    Fresh.calcAll w3.backend ((Fresh.update o3 (sliderVals (noInc sl))).at3d n 45 (decide ('i' ∈ cs))) = .ok res := by
  obtain ⟨o', res', x, y, z, ks, hU⟩ := update3_ok r3 ho3 g e1
  rw [he, first3_run e1] at h
  have hw1 : ∀ p : Prop, [Decidable p] → (if p then ((.ok A1, w1) : Py Analyzer3D × World) else
      (.error .valueError, w1)).2 = w1 := fun p _ => by split_ifs <;> rfl
  rw [hw1] at h
  subst c1
  have := (hU.again r3 r1).2
  rw [h] at this
  cases this
  exact hU.calc_

/-- The set-up of the geometry and the first update succeed. -/
theorem works3_start {w : World} (hw : Reachable w) {id n : ℕ} (hn : n ≠ 0) {o : Obj} (ho : w.objs id = some o)
    {cs : List Char} {ps : List (String × List SliderArg)} (hne : cs ≠ []) (hcs : ∀ c ∈ cs, ∃ k, Shows c k)
    (hi : 'i' ∉ cs)
    (hneeds : ∀ s, o.Needs s → (s ∈ ps.map Prod.fst ∧ s ≠ "inc") ∨ s ∈ o.params.keys)
    (hnum : ∀ p ∈ ps, ∃ a b rest, p.2 = .number a :: .number b :: rest ∧
      (rest = [] ∨ ∃ c r, rest = .number c :: r))
    (hI : Arr.Fits o.I0.shape [n, n])
    (hpar : ∀ k x, o.params.get? k = some x → k ∉ ps.map Prod.fst ∨ ¬ o.Needs k ∨ k = "inc" → Arr.Fits x.shape [n, n])
    (hdef : ∀ p, match o.pdef p with
      | .val x => Arr.Fits x.shape [n, n]
      | .str e => ∀ s ∈ e.free, s ∉ ["theta_0", "theta_ex", "phi_0", "phi_ex"]
      | .basic e => e.free = []) :
    ∃ sl w3 o3 A1 w1 o1, (Reachable w3 ∧ w3.objs id = some o3 ∧ w3.backend = w.backend ∧
      o3.still = Obj.still { o with dB := false } ∧ Ready3 n (sl.map Prod.fst) o3) ∧
      (∃ l, parseParameters (ps.filter fun p => decide (o.Needs p.1)) = .ok l ∧ mkSliders l = .ok sl) ∧
      analyze3d id n cs ps w = Analyzer3D.first id ⟨sl, 45, cs, []⟩ w3 ∧
      Analyzer3D.update id ⟨sl, 45, cs, []⟩ w3 = (.ok A1, w1) ∧ Reachable w1 ∧ w1.objs id = some o1 ∧
      A1.contribs = cs ∧ Ready3 n (A1.sliders.map Prod.fst) o1 := by
  obtain ⟨sl, w3, o3, r3, ho3, hbk, hst, ⟨g, -⟩, hs, hl, he⟩ := analyze3d_ready (n := n) hw ho (cs := cs) (ps := ps) hcs
    (fun s h => (hneeds s h).imp And.left fun h => h) hnum
  have h3 : Ready3 n (sl.map Prod.fst) o3 := by
    refine Ready3.of (hw.keeps.any.bsfOK ho) hst g hI ?_ ?_ hdef
    · intro k x hx hk
      refine hpar k x hx ?_
      rw [hs, not_and_or, or_assoc] at hk
      exact hk
    · intro s h
      exact (hneeds s h).imp (fun h' => ⟨(hs s).mpr ⟨h'.1, h⟩, h'.2⟩) fun h => h
  obtain ⟨A1, w1, o1, e1, r1, ho1, s1, c1, h1⟩ := Ready3.succ (A := ⟨sl, 45, cs, []⟩) r3 hn ho3 h3 hne hcs hi
  exact ⟨sl, w3, o3, A1, w1, o1, ⟨r3, ho3, hbk, hst, h3⟩, hl, he, e1, r1, ho1, c1, h1⟩

/-- Without interaction term, the values are finite at regular directions. -/
theorem firstOrder_drawable {b : Backend} {o : Obj} {res : Arr} (hcalc : Fresh.calcAll b o = .ok res)
    (hq : o.intQ = false) (hdB : o.dB = false) {S : List ℕ} {m : ℕ} (hS : res.shape = S ++ [m])
    (hne : ∃ idx, Arr.Valid S idx)
    (hsite : ∀ idx, Arr.Valid S idx → ∃ x f p, FSite b o idx x ∧ o.SRF.ValueAt x f ∧ o.V.ValueAt x p ∧
      x.Regular o.sig0 ∧ 0 ≤ x.tau) {cs : List Char} (hcs : ∀ c ∈ cs, ∃ k, Shows c k) (hi : 'i' ∉ cs) (hc : cs ≠ []) :
    Drawable cs res := by
  obtain ⟨Is, Iv, Ii, hp⟩ := calc_parts hcalc
  obtain ⟨h1, h2, h3, h4⟩ := hp.rows
  have hSS : S = Is.shape := by
    rw [hS] at h1
    exact (List.append_inj' h1 rfl).1
  subst hSS
  have key : ∀ idx k, Arr.Valid Is.shape idx → k < 3 → ∃ r, res.get (idx ++ [k]) = XR.fin r := by
    intro idx k hv hk
    have hk' : k < nrows o.intQ := by rw [hq]; simpa [nrows] using hk
    obtain ⟨x, f, p, hx, hf, hp', hr, ht⟩ := hsite idx hv
    have hinfo : RowInfo k o.cfg x (res.get (idx ++ [k])) idx b o Is Iv Ii res :=
      ⟨hx, rfl, hp, hv, hk', h4 k hk' idx hv, by rw [h2]; exact hv, fun h => by rw [hq] at h; cases h⟩
    rw [h4 k hk' idx hv, hinfo.srf hf hr.mu0 hr.muEx, hinfo.vol hp' hr.mu0 hr.muEx hr.sum ht, hq]
    have hconv : ∀ v, ∃ r, (XSite.of b o idx).convert o.sig0 o.dB (XR.fin v) = XR.fin r := by
      intro v
      rw [hx.x_convert hr.I0, hdB]
      exact ⟨_, rfl⟩
    match k, hk with
    | 0, _ => exact hconv _
    | 1, _ => exact hconv _
    | 2, _ => exact hconv _
  have hk3 : ∀ c ∈ cs, ∀ k, Shows c k → k < 3 := by
    intro c hc k hk
    cases hk <;> first | omega | exact (hi hc).elim
  refine ⟨?_, fun c hc k idx hk hv => ?_⟩
  · obtain ⟨c, hc⟩ := List.exists_mem_of_ne_nil cs hc
    obtain ⟨k, hk⟩ := hcs c hc
    obtain ⟨idx, hv⟩ := hne
    obtain ⟨r, hr⟩ := key idx k hv (hk3 c hc k hk)
    refine ⟨c, hc, k, idx, r, hk, ?_, hr⟩
    rw [h1]
    refine Arr.valid_append_iff.mpr ⟨hv, ?_⟩
    rw [hq]
    simpa [nrows] using hk3 c hc k hk
  · rw [h1] at hv
    obtain ⟨r, hr⟩ := key idx k (Arr.valid_append_iff.mp hv).1 (hk3 c hc k hk)
    rw [hr]
    exact ⟨by simp, by simp⟩

end

end RT1
