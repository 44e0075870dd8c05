import Verif.Lemmas.AnalyzeE
import Verif.Props.Misc

/-!
# The 3D analyzer
-/

namespace RT1

noncomputable section
open Classical

/-- The angles of the object are those of the grid with `n` samples. -/
structure Grid (n : ℕ) (o : Obj) : Prop where
  mono : o.mono = false
  fixed : o.fixed = [.p0]
  tex : o.ang .tex = some (analyze3dTex n)
  pex : o.ang .pex = some (analyze3dPex n)
  p0 : o.ang .p0 = some (arr1 0)

theorem Grid.core {n : ℕ} {o o' : Obj} (h : o.core = o'.core) (g : Grid n o) : Grid n o' := by
  have h1 : o.mono = o'.mono := by have := congrArg Obj.mono h; exact this
  have h2 : o.fixed = o'.fixed := by have := congrArg Obj.fixed h; exact this
  have h3 : o.ang = o'.ang := by have := congrArg Obj.ang h; exact this
  exact ⟨h1 ▸ g.mono, h2 ▸ g.fixed, h3 ▸ g.tex, h3 ▸ g.pex, h3 ▸ g.p0⟩

theorem Grid.after {n id : ℕ} {o : Obj} (g : Grid n o) {op : Op} (hp : op.Plain) (ht : op.target = some id)
    (hm : ¬ MovesAngles id op) : Grid n (o.after op) := by
  cases op <;> simp only [Op.target, Option.some.injEq, reduceCtorEq] at ht <;> try subst ht
  case setMonostatic p => exact (hm (.mono p)).elim
  case setBistatic a b c d => exact (hm (.bi a b c d)).elim
  case setGeometry kw => exact (hm (.geom kw)).elim
  case overwriteArg => exact hp.elim
  case setV => exact hp.elim
  case setSRF => exact hp.elim
  all_goals exact ⟨g.mono, g.fixed, g.tex, g.pex, g.p0⟩

/-- The object with the angles for one incidence angle. -/
def Obj.at3d (n : ℕ) (inc : ℝ) (q : Bool) (o : Obj) : Obj :=
  { o with ang := Function.update o.ang .t0 (some (fullLike (analyze3dTex n) (deg2rad inc))), intQ := q }

theorem Grid.geom {n : ℕ} {o : Obj} (g : Grid n o) (inc : ℝ) :
    o.afterGeom [("t_0", some (fullLike (analyze3dTex n) (deg2rad inc))), ("t_ex", some (analyze3dTex n)),
      ("p_ex", some (analyze3dPex n))] = o.at3d n inc o.intQ := by
  have h1 : (analyze3dTex n).atleast1d = analyze3dTex n := rfl
  have h2 : (analyze3dPex n).atleast1d = analyze3dPex n := rfl
  have h3 : (fullLike (analyze3dTex n) (deg2rad inc)).atleast1d = fullLike (analyze3dTex n) (deg2rad inc) := rfl
  have e : Function.update (Function.update (Function.update o.ang .t0 (some (fullLike (analyze3dTex n) (deg2rad inc))))
      .tex (some (analyze3dTex n))) .pex (some (analyze3dPex n)) =
      Function.update o.ang .t0 (some (fullLike (analyze3dTex n) (deg2rad inc))) := by
    funext a
    cases a <;> simp [Function.update, g.tex, g.pex]
  simp [Obj.afterGeom, Obj.angLoop, AngN.ofName, g.mono, g.fixed, h1, h2, h3, e, Obj.at3d]

/-- A product with an array whose shape is a part of the shape of the first one. -/
theorem mul_small {a t x : Arr} (h : Arr.mul a t = .ok x) (hf : Arr.Fits t.shape a.shape) :
    x.shape = a.shape ∧ ∀ idx, Arr.Valid a.shape idx → x.get idx = a.get idx * t.at' idx := by
  have hs : x.shape = a.shape := by
    obtain ⟨z, h1, h2⟩ := Arr.map2_fits_right (f := (· * ·)) (a := a) (b := t) rfl hf
    have : (Except.ok z : Py Arr) = .ok x := h1.symm.trans h
    cases this
    exact h2
  refine ⟨hs, fun idx hv => ?_⟩
  have := Arr.at'_map2 h idx
  rw [Arr.at'_valid (x := x) (by rw [hs]; exact hv), Arr.at'_valid (x := a) hv] at this
  exact this

/-- The effect of a successful update of the 3D analyzer. -/
structure Updated3 (id n : ℕ) (A A' : Analyzer3D) (w w' : World) (o o' : Obj) (res x y z : Arr)
    (ks : List ℕ) : Prop where
  before : w.objs id = some o
  after : w'.objs id = some { o' with intQ := o.intQ }
  backend : w'.backend = w.backend
  filled : Filled w.backend ((Fresh.update o (sliderVals (A.sliders.filter fun p => decide (p.1 ≠ "inc")))).at3d n A.inc
    (decide ('i' ∈ A.contribs))) o'
  calc_ : Fresh.calcAll w.backend ((Fresh.update o (sliderVals (A.sliders.filter fun p => decide (p.1 ≠ "inc")))).at3d n A.inc
    (decide ('i' ∈ A.contribs))) = .ok res
  hx : ∃ a, Arr.mul res (Arr.map XR.sin (analyze3dTex n)) = .ok a ∧ Arr.mul a (Arr.map XR.cos (analyze3dPex n)) = .ok x
  hy : ∃ a, Arr.mul res (Arr.map XR.sin (analyze3dTex n)) = .ok a ∧ Arr.mul a (Arr.map XR.sin (analyze3dPex n)) = .ok y
  hz : Arr.mul res (Arr.map XR.cos (analyze3dTex n)) = .ok z
  rows : useContribs A.contribs = .ok ks
  surfaces : ks.mapM (surfaceOf x y z) = .ok A'.surfaces
  contribs : A'.contribs = A.contribs
  sliders : A'.sliders = A.sliders
  inc : A'.inc = A.inc

theorem tex_eq {w : World} {id n : ℕ} {o : Obj} (ho : w.objs id = some o) (g : Grid n o) :
    Self.tex id w = (.ok (analyze3dTex n), w) := by
  unfold Self.tex
  rw [bind_ok (getObj_some ho), if_neg (by rw [g.mono]; simp), g.tex]
  rfl

theorem pex_eq {w : World} {id n : ℕ} {o : Obj} (ho : w.objs id = some o) (g : Grid n o) :
    Self.pex id w = (.ok (analyze3dPex n), w) := by
  unfold Self.pex
  rw [bind_ok (getObj_some ho), if_neg (by rw [g.mono]; simp), g.pex]
  rfl

theorem Grid.at3d {n : ℕ} {o : Obj} (g : Grid n o) (inc : ℝ) (q : Bool) : Grid n (o.at3d n inc q) :=
  ⟨g.mono, g.fixed, by simp [Obj.at3d, g.tex], by simp [Obj.at3d, g.pex], by simp [Obj.at3d, g.p0]⟩

theorem update3_ok {w : World} (hw : Reachable w) {id n : ℕ} {A A' : Analyzer3D} {w' : World} {o : Obj}
    (ho : w.objs id = some o) (g : Grid n o) (h : Analyzer3D.update id A w = (.ok A', w')) :
    ∃ o' res x y z ks, Updated3 id n A A' w w' o o' res x y z ks := by
  have hb := hw.keeps.any.bsfOK ho
  unfold Analyzer3D.update at h
  rw [bind_ok (updateParams_eq ho _)] at h
  set kw := sliderVals (A.sliders.filter fun p => decide (p.1 ≠ "inc")) with hkw
  have r1 : Reachable (w.updated id o kw) := by
    have := hw.step (op := .updateParams id kw) trivial
    rw [show step (.updateParams id kw) w = _ from updateParams_eq ho kw] at this
    exact this
  set w1 := w.updated id o kw with hw1
  have o1 : w1.objs id = some (Fresh.update o kw) := w.updated_objs id o kw
  set o1' := Fresh.update o kw with ho1'
  have b1 : w1.backend = w.backend := rfl
  have g1 : Grid n o1' := ⟨g.mono, g.fixed, g.tex, g.pex, g.p0⟩
  change ((getvals id A.contribs A.inc >>= _) w1) = _ at h
  obtain ⟨⟨x, y, z⟩, w5, hg, h⟩ := bind_ok_inv h
  obtain ⟨ks, w6, hk, h⟩ := bind_ok_inv h
  obtain ⟨hks, rfl⟩ := lift_ok hk
  obtain ⟨l, w7, hl, h⟩ := bind_ok_inv h
  obtain ⟨hls, rfl⟩ := lift_ok hl
  have h' : A' = { A with surfaces := l } ∧ w5 = w' := by
    split_ifs at h
    · cases h
    · cases h
      exact ⟨rfl, rfl⟩
  obtain ⟨rfl, rfl⟩ := h'
  unfold getvals at hg
  rw [bind_ok (tex_eq o1 g1), bind_ok (pex_eq o1 g1)] at hg
  obtain ⟨u, w2, hge, hg⟩ := bind_ok_inv hg
  have r2 : Reachable w2 := by
    have := r1.step (op := .setGeometry id [("t_0", some (fullLike (analyze3dTex n) (deg2rad A.inc))),
      ("t_ex", some (analyze3dTex n)), ("p_ex", some (analyze3dPex n))]) trivial
    rw [show step (.setGeometry id _) w1 = _ from hge] at this
    exact this
  have o2 : w2.objs id = some (o1'.at3d n A.inc o1'.intQ) := by
    have := setGeometry_obj o1 [("t_0", some (fullLike (analyze3dTex n) (deg2rad A.inc))),
      ("t_ex", some (analyze3dTex n)), ("p_ex", some (analyze3dPex n))]
    rw [hge, g1.geom] at this
    exact this
  have b2 : w2.backend = w.backend := by
    have := frame_step (op := .setGeometry id [("t_0", some (fullLike (analyze3dTex n) (deg2rad A.inc))),
      ("t_ex", some (analyze3dTex n)), ("p_ex", some (analyze3dPex n))]) rfl (fun h => h) w1 w1 (FrameP.refl w1 id)
    rw [show step (.setGeometry id _) w1 = _ from hge] at this
    exact this.backend
  obtain ⟨res, w3, hc, hg⟩ := bind_ok_inv hg
  have e : withIntQ id A.contribs (calcOp id []) w2 = ((calcOp id [] (withoutI id A.contribs w2)).1,
      ((modObj id fun o' => { o' with intQ := o1'.intQ }) (calcOp id [] (withoutI id A.contribs w2)).2).2) := by
    unfold withIntQ
    rw [bind_ok (getObj_some o2)]
    rfl
  rw [e] at hc
  simp only [Prod.mk.injEq] at hc
  obtain ⟨hc, hw3⟩ := hc
  have r2' : Reachable (withoutI id A.contribs w2) := r2.step (op := .setIntQ id (decide ('i' ∈ A.contribs))) trivial
  have o2' : (withoutI id A.contribs w2).objs id = some (o1'.at3d n A.inc (decide ('i' ∈ A.contribs))) :=
    modObj_get o2 _
  obtain ⟨c1, c2⟩ := calcOp_eq r2'.inv o2' []
  have hb1 : BsfOK (o1'.at3d n A.inc (decide ('i' ∈ A.contribs))) := r2'.keeps.any.bsfOK o2'
  rw [Fresh.update_nil hb1.1] at c1 c2
  rw [hc] at c1
  have b2' : (withoutI id A.contribs w2).backend = w.backend := b2
  obtain ⟨o4, ho4, hf4⟩ := c2.get
  rw [b2'] at c1
  replace hf4 : Filled w.backend (o1'.at3d n A.inc (decide ('i' ∈ A.contribs))) o4 := by
    have e : ((withoutI id A.contribs w2).updated id (o1'.at3d n A.inc (decide ('i' ∈ A.contribs))) []).backend =
      w.backend := b2
    rw [e] at hf4
    exact hf4
  have o5 : w3.objs id = some { o4 with intQ := o.intQ } := by
    rw [← hw3]
    exact modObj_get ho4 _
  have b3 : w3.backend = w.backend := by
    rw [← hw3]
    exact c2.backend.trans b2
  have g5 : Grid n { o4 with intQ := o.intQ } := by
    have : Grid n o4 := (g1.at3d A.inc (decide ('i' ∈ A.contribs))).core hf4.core.symm
    exact ⟨this.mono, this.fixed, this.tex, this.pex, this.p0⟩
  rw [bind_ok (tex_eq o5 g5), bind_ok (pex_eq o5 g5)] at hg
  obtain ⟨a, w4, ha, hg⟩ := bind_ok_inv hg
  replace ha := lift_ok ha
  obtain ⟨ha, rfl⟩ := ha
  obtain ⟨x', w4, hx, hg⟩ := bind_ok_inv hg
  replace hx := lift_ok hx
  obtain ⟨hx, rfl⟩ := hx
  obtain ⟨a', w4, ha', hg⟩ := bind_ok_inv hg
  replace ha' := lift_ok ha'
  obtain ⟨ha', rfl⟩ := ha'
  obtain ⟨y', w4, hy, hg⟩ := bind_ok_inv hg
  replace hy := lift_ok hy
  obtain ⟨hy, rfl⟩ := hy
  obtain ⟨z', w4, hz, hg⟩ := bind_ok_inv hg
  replace hz := lift_ok hz
  obtain ⟨hz, rfl⟩ := hz
  cases hg
  exact ⟨o4, res, x, y, z, ks, ho, o5, b3, hf4, c1.symm, ⟨a, ha, hx⟩, ⟨a', ha', hy⟩, hz, hks, hls, rfl, rfl, rfl⟩

theorem Updated3.grid {id n : ℕ} {A A' : Analyzer3D} {w w' : World} {o o' : Obj} {res x y z : Arr} {ks : List ℕ}
    (h : Updated3 id n A A' w w' o o' res x y z ks) (g : Grid n o) : Grid n { o' with intQ := o.intQ } := by
  have g1 : Grid n (Fresh.update o (sliderVals (A.sliders.filter fun p => decide (p.1 ≠ "inc")))) :=
    ⟨g.mono, g.fixed, g.tex, g.pex, g.p0⟩
  have : Grid n o' := (g1.at3d A.inc (decide ('i' ∈ A.contribs))).core h.filled.core.symm
  exact ⟨this.mono, this.fixed, this.tex, this.pex, this.p0⟩

theorem first3_ok {w w' : World} {id : ℕ} {A A' : Analyzer3D} (h : Analyzer3D.first id A w = (.ok A', w')) :
    Analyzer3D.update id A w = (.ok A', w') ∧ (frame3d A'.surfaces).isFin = true := by
  unfold Analyzer3D.first at h
  obtain ⟨A1, w1, h1, h⟩ := bind_ok_inv h
  split_ifs at h with hf
  · cases h
    exact ⟨h1, hf⟩
  · cases h

/-- The state after the set-up of the geometry by the 3D analyzer. -/
theorem analyze3d_ok {w w' : World} {id n : ℕ} {cs : List Char} {ps : List (String × List SliderArg)}
    {A : Analyzer3D} (hw : Reachable w) (h : analyze3d id n cs ps w = (.ok A, w')) :
    ∃ sl w3 o3, Reachable w3 ∧ w3.objs id = some o3 ∧ Grid n o3 ∧
      Analyzer3D.update id ⟨sl, 45, cs, []⟩ w3 = (.ok A, w') := by
  unfold analyze3d at h
  obtain ⟨u1, w1, h1, h⟩ := bind_ok_inv h
  obtain ⟨u2, w2, h2, h⟩ := bind_ok_inv h
  obtain ⟨idx, w2', hi, h⟩ := bind_ok_inv h
  obtain ⟨-, rfl⟩ := lift_ok hi
  obtain ⟨u3, w3, h3, h⟩ := bind_ok_inv h
  obtain ⟨u4, w4, h4, h⟩ := bind_ok_inv h
  obtain ⟨sl, w5, h5, h⟩ := bind_ok_inv h
  have r1 : Reachable w1 := by
    have := hw.step (op := .setDB id false) trivial
    rw [show step (.setDB id false) w = _ from h1] at this
    exact this
  have r2 : Reachable w2 := by
    have := r1.step (op := .clearCaches id) trivial
    rw [show step (.clearCaches id) w1 = _ from h2] at this
    exact this
  have r3 : Reachable w3 := by
    have := r2.step (op := .setBistatic id none none (some (.number 0)) none) trivial
    rw [show step (.setBistatic id none none (some (.number 0)) none) w2 = _ from h3] at this
    exact this
  have r4 : Reachable w4 := by
    have := r3.step (op := .setGeometry id [("t_0", some (fullLike (analyze3dTex n) (deg2rad 45))),
      ("t_ex", some (analyze3dTex n)), ("p_ex", some (analyze3dPex n))]) trivial
    rw [show step (.setGeometry id _) w3 = _ from h4] at this
    exact this
  have r5 : Reachable w5 := by
    have := (Runs.sliders (P := AnaOp2 id []) (id := id) (ps := ps) (.check _)).reachable
      (fun _ h => h.toAna.plain) r4
    rw [h5] at this
    exact this
  have hex : ∃ o2, w2.objs id = some o2 := by
    cases ho : w2.objs id with
    | some o2 => exact ⟨o2, rfl⟩
    | none =>
      exfalso
      have hn : (setBistatic id none none (some (.number 0)) none w2).2.objs id = none := by
        have key : ∀ (f : Obj → Obj) (w : World), w.objs id = none → ((modObj id f) w).2.objs id = none := by
          intro f w hw
          show Function.update w.objs id _ id = _
          rw [Function.update_self, hw]
          rfl
        exact key _ _ (key _ _ (key _ _ (key _ _ ho)))
      rw [h3] at hn
      unfold setGeometry at h4
      rw [if_neg (by simp [AngN.ofName]), bind_error (getObj_none hn)] at h4
      cases h4
  obtain ⟨o2, ho2⟩ := hex
  have ho3 := setBistatic_obj ho2 none none (some (.number 0)) none
  rw [h3] at ho3
  have ho4 := setGeometry_obj ho3 [("t_0", some (fullLike (analyze3dTex n) (deg2rad 45))),
      ("t_ex", some (analyze3dTex n)), ("p_ex", some (analyze3dPex n))]
  rw [h4] at ho4
  have g4 : Grid n ((o2.afterBi none none (some (.number 0)) none).afterGeom
      [("t_0", some (fullLike (analyze3dTex n) (deg2rad 45))),
      ("t_ex", some (analyze3dTex n)), ("p_ex", some (analyze3dPex n))]) := by
    constructor <;> simp [Obj.afterGeom, Obj.angLoop, AngN.ofName, Obj.afterBi, Obj.fixLoop, Obj.fix, Obj.reset,
      PyArg.ok] <;> rfl
  obtain ⟨o5, ho5, g5⟩ : ∃ o5, w5.objs id = some o5 ∧ Grid n o5 := by
    obtain ⟨ops, hops, he⟩ := (Runs.sliders (P := fun op => op = .checkParams id (ps.map Prod.fst)) (id := id)
      (ps := ps) rfl) w4
    have := run_obj (Q := Grid n) (id := id) (ops := ops) (fun _ _ h => Grid.core h) (by
      intro op hop ht o g
      rw [hops op hop] at ht ⊢
      exact g.after (id := id) trivial rfl (by rintro ⟨⟩)) r4.keeps.any.next ⟨_, ho4, g4⟩
    rw [← he, h5] at this
    exact this
  exact ⟨sl, w5, o5, r5, ho5, g5, (first3_ok h).1⟩

theorem slide_fields (A : Analyzer3D) (key : String) (v : ℝ) :
    (if key = "inc" then { A with inc := v } else
      { A with sliders := A.sliders.map fun p => if p.1 = key then (p.1, { p.2 with val := v }) else p }
        : Analyzer3D).contribs = A.contribs := by
  split_ifs <;> rfl

/-- During a session the angles are those of the grid. -/
theorem Session3D.grid {P : Op → Prop} {id n : ℕ} (hP : ∀ op, P op → ¬ MovesAngles id op) {w : World} {A : Analyzer3D}
    (h : Session3D P id n w A) : Reachable w ∧ ∃ o, w.objs id = some o ∧ Grid n o := by
  induction h with
  | @start w w' cs ps A hw h =>
    have hr := (Runs.analyze3d id n cs ps).reachable (fun _ h => h.plain) hw
    rw [h] at hr
    obtain ⟨sl, w3, o3, r3, ho3, g3, hu⟩ := analyze3d_ok hw h
    obtain ⟨o', res, x, y, z, ks, hU⟩ := update3_ok r3 ho3 g3 hu
    exact ⟨hr, _, hU.after, hU.grid g3⟩
  | @slide w w' A A' key v hs h ih =>
    obtain ⟨hw, o, ho, g⟩ := ih
    have hr := (Runs.update3d (id := id) (A := if key = "inc" then { A with inc := v } else
      { A with sliders := A.sliders.map fun p => if p.1 = key then (p.1, { p.2 with val := v }) else p })
      (fun _ h => h)).reachable (fun _ h => h.plain) hw
    rw [show Analyzer3D.update id _ w = _ from h] at hr
    obtain ⟨o', res, x, y, z, ks, hU⟩ := update3_ok hw ho g h
    exact ⟨hr, _, hU.after, hU.grid g⟩
  | @call w A op hs hp hop ih =>
    obtain ⟨hw, o, ho, g⟩ := ih
    refine ⟨hw.step hp, ?_⟩
    have := run_obj (Q := Grid n) (id := id) (ops := [op]) (fun _ _ h => Grid.core h) (by
      intro op' hop' ht o g
      rw [List.mem_singleton.mp hop'] at ht ⊢
      exact g.after hp ht (hP op hop)) hw.keeps.any.next ⟨o, ho, g⟩
    exact this

theorem Drawn3D.session {P : Op → Prop} {id n : ℕ} {w : World} {A : Analyzer3D} (h : Drawn3D P id n w A) :
    Session3D P id n w A := by
  cases h with
  | start hw h => exact .start hw h
  | slide key v hs h => exact .slide key v hs h

theorem Drawn3D.upd {P : Op → Prop} {id n : ℕ} (hP : ∀ op, P op → ¬ MovesAngles id op) {w' : World} {A' : Analyzer3D}
    (h : Drawn3D P id n w' A') : ∃ w A o o' res x y z ks, Reachable w ∧ Grid n o ∧
      Updated3 id n A A' w w' o o' res x y z ks := by
  cases h with
  | start hw h =>
    obtain ⟨sl, w3, o3, r3, ho3, g3, hu⟩ := analyze3d_ok hw h
    obtain ⟨o', res, x, y, z, ks, hU⟩ := update3_ok r3 ho3 g3 hu
    exact ⟨_, _, _, _, _, _, _, _, _, r3, g3, hU⟩
  | slide key v hs h =>
    obtain ⟨hw, o, ho, g⟩ := hs.grid hP
    obtain ⟨o', res, x, y, z, ks, hU⟩ := update3_ok hw ho g h
    exact ⟨_, _, _, _, _, _, _, _, _, hw, g, hU⟩

/-- The shape of the result contains the grid. -/
theorem calcAll_t0 {b : Backend} {o : Obj} {z a : Arr} (h : Fresh.calcAll b o = .ok z) (ha : o.ang .t0 = some a) :
    ∃ S, z.shape = S ++ [nrows o.intQ] ∧ Arr.Fits a.shape S := by
  obtain ⟨Is, Iv, Ii, hp⟩ := calc_parts h
  refine ⟨Is.shape, hp.rows.1, ?_⟩
  obtain ⟨m, hm⟩ := surface_mu0_ok hp.surf
  have := Below.surface_mu0 hm _ hp.surf
  have e : m.shape = a.shape := by
    unfold Fresh.mu0 Fresh.ang at hm
    rw [ha] at hm
    cases hm
    rfl
  rw [← e]
  exact this

/-! ### Success -/

theorem mul_small_ok {a t : Arr} (hf : Arr.Fits t.shape a.shape) :
    ∃ x, Arr.mul a t = .ok x ∧ x.shape = a.shape := Arr.map2_fits_right rfl hf

theorem rowOf_succ {x : Arr} {S : List ℕ} {m k : ℕ} (hs : x.shape = S ++ [m]) (hk : k < m) : ∃ y, rowOf x k = .ok y := by
  unfold rowOf
  rw [hs]
  have h1 : (S ++ [m]).getLastD 0 = m := by simp [List.getLastD_eq_getLast?]
  have h2 : S ++ [m] ≠ [] := by simp
  generalize S ++ [m] = l at *
  cases l with
  | nil => exact absurd rfl h2
  | cons a l =>
    rw [← h1] at hk
    exact ⟨_, if_pos hk⟩

theorem mapM_each {α β : Type} {f : α → Py β} {l : List α} (h : ∀ a ∈ l, ∃ b, f a = .ok b) :
    ∃ r, l.mapM f = .ok r := by
  induction l with
  | nil => exact ⟨[], rfl⟩
  | cons a l ih =>
    obtain ⟨b, hb⟩ := h a List.mem_cons_self
    obtain ⟨r, hr⟩ := ih fun x hx => h x (List.mem_cons_of_mem _ hx)
    exact ⟨b :: r, by rw [List.mapM_cons, hb, hr]; rfl⟩

theorem useContribs_succ {cs : List Char} (h : ∀ c ∈ cs, ∃ k, Shows c k) : ∃ ks, useContribs cs = .ok ks :=
  mapM_each fun c hc => by
    obtain ⟨k, hk⟩ := h c hc
    cases hk <;> exact ⟨_, rfl⟩

/-- The update succeeds if the evaluation succeeds. -/
theorem update3_succ {w : World} (hw : Reachable w) {id n : ℕ} {A : Analyzer3D} {o : Obj} (hn : n ≠ 0)
    (ho : w.objs id = some o) (g : Grid n o) {res : Arr}
    (hres : Fresh.calcAll w.backend ((Fresh.update o (sliderVals (A.sliders.filter fun p => decide (p.1 ≠ "inc")))).at3d n
      A.inc (decide ('i' ∈ A.contribs))) = .ok res)
    (hS : res.shape = [n, n, nrows (decide ('i' ∈ A.contribs))]) (hne : A.contribs ≠ [])
    (hcs : ∀ c ∈ A.contribs, ∃ k, Shows c k) : ∃ A' w', Analyzer3D.update id A w = (.ok A', w') := by
  unfold Analyzer3D.update
  rw [bind_ok (updateParams_eq ho _)]
  set kw := sliderVals (A.sliders.filter fun p => decide (p.1 ≠ "inc")) with hkw
  have r1 : Reachable (w.updated id o kw) := by
    have := hw.step (op := .updateParams id kw) trivial
    rw [show step (.updateParams id kw) w = _ from updateParams_eq ho kw] at this
    exact this
  change ∃ A' w', ((getvals id A.contribs A.inc >>= _) (w.updated id o kw)) = _
  set w1 := w.updated id o kw with hw1
  have o1 : w1.objs id = some (Fresh.update o kw) := w.updated_objs id o kw
  set o1' := Fresh.update o kw with ho1'
  have g1 : Grid n o1' := ⟨g.mono, g.fixed, g.tex, g.pex, g.p0⟩
  obtain ⟨w2, hge⟩ : ∃ w2, setGeometry id [("t_0", some (fullLike (analyze3dTex n) (deg2rad A.inc))),
      ("t_ex", some (analyze3dTex n)), ("p_ex", some (analyze3dPex n))] w1 = (.ok (), w2) := by
    refine ⟨_, Prod.ext (setGeometry_ok o1 ?_ fun _ => g1.mono) rfl⟩
    intro p hp
    simp only [List.mem_cons, List.not_mem_nil, or_false] at hp
    rcases hp with rfl | rfl | rfl
    · exact ⟨⟨.t0, rfl, by simp [g1.fixed]⟩, _, rfl⟩
    · exact ⟨⟨.tex, rfl, by simp [g1.fixed]⟩, _, rfl⟩
    · exact ⟨⟨.pex, rfl, by simp [g1.fixed]⟩, _, rfl⟩
  have r2 : Reachable w2 := by
    have := r1.step (op := .setGeometry id [("t_0", some (fullLike (analyze3dTex n) (deg2rad A.inc))),
      ("t_ex", some (analyze3dTex n)), ("p_ex", some (analyze3dPex n))]) trivial
    rw [show step (.setGeometry id _) w1 = _ from hge] at this
    exact this
  have o2 : w2.objs id = some (o1'.at3d n A.inc o1'.intQ) := by
    have := setGeometry_obj o1 [("t_0", some (fullLike (analyze3dTex n) (deg2rad A.inc))),
      ("t_ex", some (analyze3dTex n)), ("p_ex", some (analyze3dPex n))]
    rw [hge, g1.geom] at this
    exact this
  have b2 : w2.backend = w.backend := by
    have := frame_step (op := .setGeometry id [("t_0", some (fullLike (analyze3dTex n) (deg2rad A.inc))),
      ("t_ex", some (analyze3dTex n)), ("p_ex", some (analyze3dPex n))]) rfl (fun h => h) w1 w1 (FrameP.refl w1 id)
    rw [show step (.setGeometry id _) w1 = _ from hge] at this
    exact this.backend
  have e : withIntQ id A.contribs (calcOp id []) w2 = ((calcOp id [] (withoutI id A.contribs w2)).1,
      ((modObj id fun o' => { o' with intQ := o1'.intQ }) (calcOp id [] (withoutI id A.contribs w2)).2).2) := by
    unfold withIntQ
    rw [bind_ok (getObj_some o2)]
    rfl
  have r2' : Reachable (withoutI id A.contribs w2) := r2.step (op := .setIntQ id (decide ('i' ∈ A.contribs))) trivial
  have o2' : (withoutI id A.contribs w2).objs id = some (o1'.at3d n A.inc (decide ('i' ∈ A.contribs))) :=
    modObj_get o2 _
  obtain ⟨c1, c2⟩ := calcOp_eq r2'.inv o2' []
  have hb1 : BsfOK (o1'.at3d n A.inc (decide ('i' ∈ A.contribs))) := r2'.keeps.any.bsfOK o2'
  rw [Fresh.update_nil hb1.1] at c1 c2
  have b2' : (withoutI id A.contribs w2).backend = w.backend := b2
  obtain ⟨o4, ho4, hf4⟩ := c2.get
  rw [b2', hres] at c1
  have hcore := hf4.core
  set w3 := ((modObj id fun o' => { o' with intQ := o1'.intQ }) (calcOp id [] (withoutI id A.contribs w2)).2).2 with hw3
  have o5 : w3.objs id = some { o4 with intQ := o.intQ } := by
    rw [hw3]
    exact modObj_get ho4 _
  have g5 : Grid n { o4 with intQ := o.intQ } := by
    have : Grid n o4 := (g1.at3d A.inc (decide ('i' ∈ A.contribs))).core hcore.symm
    exact ⟨this.mono, this.fixed, this.tex, this.pex, this.p0⟩
  rw [c1] at e
  have hf : Arr.Fits [n, n] res.shape := by rw [hS]; simp [Arr.Fits]
  obtain ⟨a, ha, sa⟩ := mul_small_ok (a := res) (t := Arr.map XR.sin (analyze3dTex n)) hf
  obtain ⟨x, hx, sx⟩ := mul_small_ok (a := a) (t := Arr.map XR.cos (analyze3dPex n)) (by rw [sa]; exact hf)
  obtain ⟨y, hy, sy⟩ := mul_small_ok (a := a) (t := Arr.map XR.sin (analyze3dPex n)) (by rw [sa]; exact hf)
  obtain ⟨z, hz, sz⟩ := mul_small_ok (a := res) (t := Arr.map XR.cos (analyze3dTex n)) hf
  have L : ∀ {α : Type} (v : α) (w : World), (liftPy (Except.ok v) : M α) w = (.ok v, w) := fun _ _ => rfl
  have eg : getvals id A.contribs A.inc w1 = (.ok (x, y, z), w3) := by
    unfold getvals
    rw [bind_ok (tex_eq o1 g1), bind_ok (pex_eq o1 g1), bind_ok hge, bind_ok e, bind_ok (tex_eq o5 g5),
      bind_ok (pex_eq o5 g5), ha, bind_ok (L _ _), hx, bind_ok (L _ _), bind_ok (L _ _), hy, bind_ok (L _ _), hz,
      bind_ok (L _ _)]
    rfl
  obtain ⟨ks, hks⟩ := useContribs_succ hcs
  have hk : ∀ k ∈ ks, k < nrows (decide ('i' ∈ A.contribs)) := by
    intro k hk
    obtain ⟨u1, u2⟩ := mapM_get hks
    obtain ⟨j, hj, rfl⟩ := List.getElem_of_mem hk
    obtain ⟨k', h1, h2⟩ := u2 j (A.contribs[j]'(by omega)) (List.getElem?_eq_getElem _)
    rw [List.getElem?_eq_getElem hj] at h1
    cases h1
    have hm : A.contribs[j]'(by omega) ∈ A.contribs := List.getElem_mem _
    have hsh := contribIndex_shows h2
    generalize A.contribs[j]'(by omega) = c at *
    have key : ∀ {c : Char} {k : ℕ}, Shows c k → c ∈ A.contribs → k < nrows (decide ('i' ∈ A.contribs)) := by
      intro c k hs hm
      unfold nrows
      cases hs
      · split_ifs <;> simp
      · split_ifs <;> simp
      · split_ifs <;> simp
      · simp [hm]
    exact key hsh hm
  obtain ⟨l, hl⟩ : ∃ l, ks.mapM (surfaceOf x y z) = .ok l := by
    refine mapM_each fun k hk' => ?_
    have hk := hk k hk'
    have q : ∀ v : Arr, v.shape = res.shape → ∃ u, rowOf v k = .ok u := fun v hv =>
      rowOf_succ (S := [n, n]) (by rw [hv, hS]; rfl) hk
    obtain ⟨u1, h1⟩ := q x (sx.trans sa)
    obtain ⟨u2, h2⟩ := q y (sy.trans sa)
    obtain ⟨u3, h3⟩ := q z sz
    exact ⟨(u1, u2, u3), by unfold surfaceOf; rw [h1, h2, h3]; rfl⟩
  have hxs : ¬ (A.contribs = [] ∨ ∃ m ∈ x.shape, m = 0) := by
    rw [sx, sa, hS]
    rintro (h | ⟨m, hm, rfl⟩)
    · exact hne h
    · simp only [List.mem_cons, List.not_mem_nil, or_false] at hm
      rcases hm with h | h | h
      · exact hn h.symm
      · exact hn h.symm
      · revert h
        unfold nrows
        split_ifs <;> simp
  refine ⟨{ A with surfaces := l }, w3, ?_⟩
  rw [bind_ok eg]
  simp only
  rw [hks, bind_ok (L _ _), hl, bind_ok (L _ _), if_neg hxs]
  rfl

/-- The sliders whose values are passed on. -/
def noInc (sl : List (String × Slider)) : List (String × Slider) := sl.filter fun p => decide (p.1 ≠ "inc")

/-- The object of a 3D analyzer: the evaluation succeeds for all values of the sliders. -/
structure Ready3 (n : ℕ) (names : List String) (o : Obj) : Prop where
  grid : Grid n o
  complete : ∀ sl inc q, sl.map Prod.fst = names →
    Complete ((Fresh.update o (sliderVals (noInc sl))).at3d n inc q) [n, n]

theorem noInc_names {sl sl' : List (String × Slider)} (h : sl.map Prod.fst = sl'.map Prod.fst) :
    (noInc sl).map Prod.fst = (noInc sl').map Prod.fst := by
  unfold noInc
  have key : ∀ l : List (String × Slider), (l.filter fun p => decide (p.1 ≠ "inc")).map Prod.fst =
      (l.map Prod.fst).filter fun k => decide (k ≠ "inc") := by
    intro l
    rw [List.filter_map]
    rfl
  rw [key, key, h]

theorem sliderVals_fits3 (n : ℕ) (sl : List (String × Slider)) :
    ∀ p ∈ sliderVals sl, Arr.Fits p.2.atleast1d.shape [n, n] := by
  intro p hp
  obtain ⟨q, hq, rfl⟩ := List.mem_map.mp hp
  exact ⟨Or.inl rfl, trivial⟩

theorem at3d_update (o : Obj) (kw : Dict) (n : ℕ) (inc : ℝ) (q : Bool) :
    (Fresh.update o kw).at3d n inc q = Fresh.update (o.at3d n inc q) kw := rfl

theorem Ready3.updated {id n : ℕ} {A A' : Analyzer3D} {w w' : World} {o o' : Obj} {res x y z : Arr} {ks : List ℕ}
    (hw : Reachable w) (hU : Updated3 id n A A' w w' o o' res x y z ks) (h : Ready3 n (A.sliders.map Prod.fst) o) :
    Ready3 n (A.sliders.map Prod.fst) { o' with intQ := o.intQ } := by
  have hb := hw.keeps.any.bsfOK hU.before
  refine ⟨hU.grid h.grid, fun sl inc q hs => ?_⟩
  have hc := h.complete A.sliders inc q rfl
  have hb1 : BsfOK ((Fresh.update o (sliderVals (noInc A.sliders))).at3d n inc q) := hb.update _
  have hc2 := hc.updated (Arr.Fits.refl _) hb1.1 (sliderVals_fits3 n (noInc sl))
  have hf : Filled w.backend ((Fresh.update o (sliderVals (noInc A.sliders))).at3d n A.inc
    (decide ('i' ∈ A.contribs))) o' := hU.filled
  have hb' : BsfOK o' := (show BsfOK ((Fresh.update o (sliderVals (noInc A.sliders))).at3d n A.inc
    (decide ('i' ∈ A.contribs))) from hb.update _).filled hf
  refine hc2.congr ?_ hf.mono hf.I0 ?_ hf.pdef hf.V hf.SRF
  · show Function.update o'.ang .t0 _ = Function.update o.ang .t0 _
    rw [hf.ang]
    simp only [Obj.at3d, Function.update_idem]
    rfl
  · show (Fresh.update { o' with intQ := o.intQ } (sliderVals (noInc sl))).params = _
    rw [update_params' (o := { o' with intQ := o.intQ }) hb'.1, update_params' hb1.1]
    show Dict.update o'.params _ = _
    rw [hf.params]
    rfl

/-- The update succeeds. -/
theorem Ready3.succ {id n : ℕ} {A : Analyzer3D} {w : World} {o : Obj} (hw : Reachable w) (hn : n ≠ 0)
    (ho : w.objs id = some o) (h : Ready3 n (A.sliders.map Prod.fst) o) (hne : A.contribs ≠ [])
    (hcs : ∀ c ∈ A.contribs, ∃ k, Shows c k) (hi : 'i' ∉ A.contribs) :
    ∃ A' w' o', Analyzer3D.update id A w = (.ok A', w') ∧ Reachable w' ∧ w'.objs id = some o' ∧
      A'.sliders = A.sliders ∧ A'.contribs = A.contribs ∧ Ready3 n (A'.sliders.map Prod.fst) o' := by
  have hc := h.complete A.sliders A.inc (decide ('i' ∈ A.contribs)) rfl
  obtain ⟨res, hres, hs⟩ := hc.calcAll_three w.backend (a := fullLike (analyze3dTex n) (deg2rad A.inc))
    (by simp [Obj.at3d]) rfl (by simp [Obj.at3d, hi])
  obtain ⟨A', w', hA⟩ := update3_succ (id := id) (A := A) hw hn ho h.grid hres (by rw [hs]; simp [nrows, hi]) hne hcs
  obtain ⟨o', res', x, y, z, ks, hU⟩ := update3_ok hw ho h.grid hA
  have hr := (Runs.update3d (id := id) (A := A) (fun _ h => h)).reachable (fun _ h => h.plain) hw
  rw [hA] at hr
  exact ⟨A', w', _, hA, hr, hU.after, hU.sliders, hU.contribs, by rw [hU.sliders]; exact h.updated hw hU⟩

/-- Sequences of moved sliders succeed. -/
theorem Ready3.slides {id n : ℕ} (hn : n ≠ 0) {evs : List (String × ℝ)} : ∀ {A : Analyzer3D} {w : World} {o : Obj},
    Reachable w → w.objs id = some o → Ready3 n (A.sliders.map Prod.fst) o → A.contribs ≠ [] →
    (∀ c ∈ A.contribs, ∃ k, Shows c k) → 'i' ∉ A.contribs →
    ∃ A' w', (evs.foldlM (fun A e => Analyzer3D.slide id A e.1 e.2) A : M Analyzer3D) w = (.ok A', w') := by
  induction evs with
  | nil => intro A w o _ _ _ _ _ _; exact ⟨A, w, rfl⟩
  | cons e evs ih =>
    intro A w o hw ho h hne hcs hi
    have e1 : ∀ B : Analyzer3D, B = (if e.1 = "inc" then { A with inc := e.2 } else
      { A with sliders := A.sliders.map fun p => if p.1 = e.1 then (p.1, { p.2 with val := e.2 }) else p }
        : Analyzer3D) → B.contribs = A.contribs ∧ B.sliders.map Prod.fst = A.sliders.map Prod.fst := by
      rintro B rfl
      split_ifs
      · exact ⟨rfl, rfl⟩
      · refine ⟨rfl, ?_⟩
        rw [List.map_map]
        refine List.map_congr_left fun p _ => ?_
        simp only [Function.comp]
        split_ifs <;> rfl
    have e2 : Analyzer3D.slide id A e.1 e.2 w = Analyzer3D.update id (if e.1 = "inc" then { A with inc := e.2 } else
      { A with sliders := A.sliders.map fun p => if p.1 = e.1 then (p.1, { p.2 with val := e.2 }) else p }) w := rfl
    generalize hB : (if e.1 = "inc" then { A with inc := e.2 } else
      { A with sliders := A.sliders.map fun p => if p.1 = e.1 then (p.1, { p.2 with val := e.2 }) else p }
        : Analyzer3D) = B at e1 e2
    obtain ⟨b1, b2⟩ := e1 B rfl
    obtain ⟨A', w', o', h1, h2, h3, h4, h5, h6⟩ := Ready3.succ (id := id) (A := B) hw hn ho (by rw [b2]; exact h)
      (by rw [b1]; exact hne) (by rw [b1]; exact hcs) (by rw [b1]; exact hi)
    obtain ⟨A2, w2, h7⟩ := ih h2 h3 h6 (by rw [h5, b1]; exact hne) (by rw [h5, b1]; exact hcs) (by rw [h5, b1]; exact hi)
    refine ⟨A2, w2, ?_⟩
    rw [List.foldlM_cons, bind_ok (e2.trans h1)]
    exact h7

/-- The attributes that concern the coefficients of the interaction term after the set-up of the
geometry. -/
structure Coefs3 (o o4 : Obj) : Prop where
  geom : o4.geom = ⟨.sym "theta_0", .sym "theta_ex", .num 0, .sym "phi_ex"⟩
  fnevals : o4.fnevals_ = none
  fnI : o4.fnInput = o.fnInput
  fneI : o4.fnevalsInput = o.fnevalsInput

theorem needs_dB (o : Obj) (b : Bool) (n : String) : Obj.Needs { o with dB := b } n ↔ o.Needs n := Iff.rfl

/-- The state before the sliders are created. -/
theorem analyze3d_start {w : World} (hw : Reachable w) {id n : ℕ} {o : Obj} (ho : w.objs id = some o)
    {cs : List Char} {ps : List (String × List SliderArg)} (hcs : ∀ c ∈ cs, ∃ k, Shows c k) :
    ∃ w4 o4, Reachable w4 ∧ w4.objs id = some o4 ∧ w4.backend = w.backend ∧
      o4.still = Obj.still { o with dB := false } ∧ (Grid n o4 ∧ Coefs3 o o4) ∧
      analyze3d id n cs ps w = (analyzerSliders id ps >>= fun sl => Analyzer3D.first id ⟨sl, 45, cs, []⟩) w4 := by
  obtain ⟨idx, hidx⟩ := useContribs_succ hcs
  set w1 := ((modObj id fun o => { o with dB := false }) w).2 with hw1
  have r1 : Reachable w1 := hw.step (op := .setDB id false) trivial
  have o1 : w1.objs id = some { o with dB := false } := modObj_get ho _
  set w2 := (clearAll w1).2 with hw2
  have r2 : Reachable w2 := r1.step (op := .clearCaches id) trivial
  have o2 : w2.objs id = some { o with dB := false } := o1
  set w3 := (setBistatic id none none (some (.number 0)) none w2).2 with hw3
  have r3 : Reachable w3 := r2.step (op := .setBistatic id none none (some (.number 0)) none) trivial
  have o3 : w3.objs id = some (Obj.afterBi { o with dB := false } none none (some (.number 0)) none) :=
    setBistatic_obj o2 none none (some (.number 0)) none
  set kw := [("t_0", some (fullLike (analyze3dTex n) (deg2rad 45))),
      ("t_ex", some (analyze3dTex n)), ("p_ex", some (analyze3dPex n))] with hkw
  set w4 := (setGeometry id kw w3).2 with hw4
  have r4 : Reachable w4 := r3.step (op := .setGeometry id kw) trivial
  have o4 : w4.objs id = some (Obj.afterGeom (Obj.afterBi { o with dB := false } none none (some (.number 0)) none) kw) :=
    setGeometry_obj o3 kw
  have g4 : Grid n (Obj.afterGeom (Obj.afterBi { o with dB := false } none none (some (.number 0)) none) kw) := by
    rw [hkw]
    constructor <;> simp [Obj.afterGeom, Obj.angLoop, AngN.ofName, Obj.afterBi, Obj.fixLoop, Obj.fix, Obj.reset,
      PyArg.ok] <;> rfl
  have x4 : Coefs3 o (Obj.afterGeom (Obj.afterBi { o with dB := false } none none (some (.number 0)) none) kw) := by
    rw [hkw]
    constructor <;> simp [Obj.afterGeom, Obj.angLoop, AngN.ofName, Obj.afterBi, Obj.fixLoop, Obj.fix, Obj.reset,
      PyArg.ok, angS]
  have hst4 : (Obj.afterGeom (Obj.afterBi { o with dB := false } none none (some (.number 0)) none) kw).still =
      Obj.still { o with dB := false } := (still_geom _ _).trans (still_bi _ _ _ _ _)
  have e4 : setGeometry id kw w3 = (.ok (), w4) := by
    refine Prod.ext (setGeometry_ok o3 ?_ fun _ => ?_) rfl
    · intro p hp
      simp only [hkw, List.mem_cons, List.not_mem_nil, or_false] at hp
      rcases hp with rfl | rfl | rfl
      · exact ⟨⟨.t0, rfl, by simp [Obj.afterBi, Obj.fixLoop, Obj.fix, Obj.reset, PyArg.ok]⟩, _, rfl⟩
      · exact ⟨⟨.tex, rfl, by simp [Obj.afterBi, Obj.fixLoop, Obj.fix, Obj.reset, PyArg.ok]⟩, _, rfl⟩
      · exact ⟨⟨.pex, rfl, by simp [Obj.afterBi, Obj.fixLoop, Obj.fix, Obj.reset, PyArg.ok]⟩, _, rfl⟩
    · simp [Obj.afterBi, Obj.fixLoop, Obj.fix, Obj.reset, PyArg.ok]
  have e3 : setBistatic id none none (some (.number 0)) none w2 = (.ok (), w3) := rfl
  generalize Obj.afterGeom (Obj.afterBi { o with dB := false } none none (some (.number 0)) none) kw = o4' at *
  have hb4 : w4.backend = w.backend := by
    have f1 := frame_step (op := .setDB id false) rfl (fun h => h) w w (FrameP.refl w id)
    have f2 := frame_step (op := .setBistatic id none none (some (.number 0)) none) rfl (fun h => h) w2 w2 (FrameP.refl w2 id)
    have f3 := frame_step (op := .setGeometry id kw) rfl (fun h => h) w3 w3 (FrameP.refl w3 id)
    exact f3.backend.trans (f2.backend.trans f1.backend)
  refine ⟨w4, o4', r4, o4, hb4, hst4, ⟨g4, x4⟩, ?_⟩
  unfold analyze3d
  rw [bind_ok (show (modObj id fun o => { o with dB := false }) w = (.ok (), w1) from rfl),
    bind_ok (show clearAll w1 = (.ok (), w2) from rfl), hidx,
    bind_ok (show (liftPy (Except.ok idx) : M _) w2 = (.ok idx, w2) from rfl), bind_ok e3, bind_ok e4]

/-- The state before the first update. -/
theorem analyze3d_ready {w : World} (hw : Reachable w) {id n : ℕ} {o : Obj} (ho : w.objs id = some o)
    {cs : List Char} {ps : List (String × List SliderArg)}
    (hcs : ∀ c ∈ cs, ∃ k, Shows c k)
    (hneeds : ∀ s, o.Needs s → s ∈ ps.map Prod.fst ∨ s ∈ o.params.keys)
    (hnum : ∀ p ∈ ps, ∃ a b rest, p.2 = .number a :: .number b :: rest ∧
      (rest = [] ∨ ∃ c r, rest = .number c :: r)) :
    ∃ sl w3 o3, Reachable w3 ∧ w3.objs id = some o3 ∧ w3.backend = w.backend ∧
      o3.still = Obj.still { o with dB := false } ∧ (Grid n o3 ∧ Coefs3 o o3) ∧
      (∀ s, s ∈ sl.map Prod.fst ↔ s ∈ ps.map Prod.fst ∧ o.Needs s) ∧
      (∃ l, parseParameters (ps.filter fun p => decide (o.Needs p.1)) = .ok l ∧ mkSliders l = .ok sl) ∧
      analyze3d id n cs ps w = Analyzer3D.first id ⟨sl, 45, cs, []⟩ w3 := by
  obtain ⟨w4, o4', r4, o4, hb4, hst4, ⟨g4, x4⟩, e⟩ := analyze3d_start (n := n) (ps := ps) hw ho hcs
  have hp := params_still hst4
  obtain ⟨sl, w5, e5, r5, hd⟩ := analyzerSliders_succ r4 o4 (ps := ps)
    (fun n hn => by rw [hp]; exact hneeds n ((needs_still hst4 n).mp hn)) hnum
  obtain ⟨o5, ho5, hf5⟩ := hd.get
  obtain ⟨-, l, h2, h3⟩ := analyzerSliders_ok r4 o4 e5
  have ho54 : o5 = o4' := by
    have := congrFun (ObjsKept.sliders id ps w4) id
    rw [e5] at this
    have := (ho5.symm.trans this).trans o4
    cases this; rfl
  refine ⟨sl, w5, o5, r5, ho5, hd.backend.trans hb4, ?_, ⟨g4.core hf5.core.symm, ho54 ▸ x4⟩, ?_, ?_, ?_⟩
  · have := congrArg Obj.still hf5.core
    have : o4'.still = o5.still := this.symm
    rw [← this, hst4]
  · intro s
    rw [mkSliders_keys h3, parseParameters_keys h2]
    simp only [needs_still hst4, needs_dB, List.mem_map, List.mem_filter, decide_eq_true_eq]
    constructor
    · rintro ⟨p, ⟨hp, hn⟩, rfl⟩; exact ⟨⟨p, hp, rfl⟩, hn⟩
    · rintro ⟨⟨p, hp, rfl⟩, hn⟩; exact ⟨p, ⟨hp, hn⟩, rfl⟩
  · refine ⟨l, ?_, h3⟩
    simp only [needs_still hst4, needs_dB] at h2
    exact h2
  · rw [e, bind_ok e5]

/-- All inputs of the model fit the angles of the 3D widget. -/
theorem Ready3.of {o o3 : Obj} {n : ℕ} (hb : BsfOK o) (hst : o3.still = Obj.still { o with dB := false })
    (g : Grid n o3) {names : List String}
    (hI : Arr.Fits o.I0.shape [n, n])
    (hpar : ∀ k x, o.params.get? k = some x → k ∉ names ∨ k = "inc" → Arr.Fits x.shape [n, n])
    (hneeds : ∀ s, o.Needs s → (s ∈ names ∧ s ≠ "inc") ∨ s ∈ o.params.keys)
    (hdef : ∀ p, match o.pdef p with
      | .val x => Arr.Fits x.shape [n, n]
      | .str e => ∀ s ∈ e.free, s ∉ ["theta_0", "theta_ex", "phi_0", "phi_ex"]
      | .basic e => e.free = []) : Ready3 n names o3 := by
  refine ⟨g, fun sl inc q hs => ?_⟩
  have hmem : ∀ s, s ∈ (noInc sl).map Prod.fst ↔ s ∈ names ∧ s ≠ "inc" := by
    intro s
    rw [← hs]
    simp only [noInc, List.mem_map, List.mem_filter, decide_eq_true_eq]
    constructor
    · rintro ⟨p, ⟨h1, h2⟩, rfl⟩; exact ⟨⟨p, h1, rfl⟩, h2⟩
    · rintro ⟨⟨p, h1, rfl⟩, h2⟩; exact ⟨p, ⟨h1, h2⟩, rfl⟩
  have hf : Arr.Fits [1] [n, n] := by simp [Arr.Fits]
  have g3 := g.at3d inc o3.intQ
  have hc : Complete (Fresh.update (o3.at3d n inc o3.intQ) (sliderVals (noInc sl))) [n, n] := by
    refine complete_sliders (o := { o with dB := false }) (o2 := o3.at3d n inc o3.intQ) (a := fullLike (analyze3dTex n) (deg2rad inc)) hb hst
      (.inr ⟨_, g3.tex, Arr.Fits.refl _⟩) (.inr ⟨_, g3.pex, Arr.Fits.refl _⟩) (by simp [Obj.at3d]) rfl g3.p0 hf _ hI
      ?_ ?_ ?_ ?_
    · intro k x hx hk
      refine hpar k x hx ?_
      rw [hmem, not_and_or, not_not] at hk
      exact hk
    · intro p
      have hd := hdef p
      cases hpp : o.pdef p with
      | val x => rw [hpp] at hd; exact hd
      | basic e => rw [hpp] at hd; exact hd
      | str e =>
        rw [hpp] at hd
        exact fun s hs => (hneeds s ⟨Or.inl ⟨p, e, hpp, hs⟩, hd s hs⟩).imp (hmem s).mpr id
    · exact fun s hs h => (hneeds s ⟨Or.inr (Or.inl hs), h⟩).imp (hmem s).mpr id
    · exact fun s hs h => (hneeds s ⟨Or.inr (Or.inr hs), h⟩).imp (hmem s).mpr id
  exact hc.congr rfl rfl rfl rfl rfl rfl rfl

theorem update3_fields {w w' : World} {id : ℕ} {A A' : Analyzer3D} (h : Analyzer3D.update id A w = (.ok A', w')) :
    A'.inc = A.inc ∧ A'.sliders = A.sliders ∧ A'.contribs = A.contribs := by
  unfold Analyzer3D.update at h
  obtain ⟨_, _, -, h⟩ := bind_ok_inv h
  obtain ⟨⟨x, y, z⟩, _, -, h⟩ := bind_ok_inv h
  obtain ⟨_, _, -, h⟩ := bind_ok_inv h
  obtain ⟨_, _, -, h⟩ := bind_ok_inv h
  split_ifs at h
  · cases h
  · cases h
    exact ⟨rfl, rfl, rfl⟩

theorem analyze3d_fields {w w' : World} {id n : ℕ} {cs : List Char} {ps : List (String × List SliderArg)}
    {A : Analyzer3D} (h : analyze3d id n cs ps w = (.ok A, w')) : A.inc = 45 ∧ A.contribs = cs := by
  unfold analyze3d at h
  obtain ⟨_, _, -, h⟩ := bind_ok_inv h
  obtain ⟨_, _, -, h⟩ := bind_ok_inv h
  obtain ⟨_, _, -, h⟩ := bind_ok_inv h
  obtain ⟨_, _, -, h⟩ := bind_ok_inv h
  obtain ⟨_, _, -, h⟩ := bind_ok_inv h
  obtain ⟨sl, _, -, h⟩ := bind_ok_inv h
  have := update3_fields (first3_ok h).1
  exact ⟨this.1, this.2.2⟩

theorem mapM_shows {cs : List Char} : ∀ {ks : List ℕ}, useContribs cs = .ok ks → ∀ c ∈ cs, ∃ k, Shows c k := by
  induction cs with
  | nil => exact fun _ c h => absurd h (List.not_mem_nil)
  | cons c0 cs ih =>
    intro ks h
    unfold useContribs at h
    rw [List.mapM_cons] at h
    obtain ⟨k, h1, h⟩ := ok_bind h
    obtain ⟨l, h2, h⟩ := ok_bind h
    intro c hc
    rcases List.mem_cons.mp hc with rfl | hc
    · exact ⟨k, contribIndex_shows h1⟩
    · exact ih h2 c hc

theorem analyze3d_shows {w w' : World} {id n : ℕ} {cs : List Char} {ps : List (String × List SliderArg)}
    {A : Analyzer3D} (h : analyze3d id n cs ps w = (.ok A, w')) : ∀ c ∈ cs, ∃ k, Shows c k := by
  unfold analyze3d at h
  obtain ⟨_, _, -, h⟩ := bind_ok_inv h
  obtain ⟨_, _, -, h⟩ := bind_ok_inv h
  obtain ⟨ks, _, hk, -⟩ := bind_ok_inv h
  exact mapM_shows (lift_ok hk).1

end

end RT1
