import Verif.Lemmas.IntVal

/-! Geometry entries of reachable objects; values of observed interaction contributions. -/

namespace RT1

noncomputable section
open Classical

/-- Symbol of an angle. -/
def AngN.symName : AngN → String
  | .t0 => "theta_0"
  | .tex => "theta_ex"
  | .p0 => "phi_0"
  | .pex => "phi_ex"

/-- Geometry entry of an angle. -/
def Geom4.entry (g : Geom4) : AngN → AngS
  | .t0 => g.t0
  | .tex => g.tex
  | .p0 => g.p0
  | .pex => g.pex

/-- The geometry entries belong to the mode and the fixed angles of the object; no coefficients
were passed to the constructor. -/
structure GeomOK (o : Obj) : Prop where
  fnI : o.fnInput = none
  fneI : o.fnevalsInput = none
  mono : o.mono = true → o.geom.t0 = .sym "theta_0" ∧ o.geom.tex = .sym "theta_0" ∧
    o.geom.pex = o.geom.p0 ∧ (o.geom.p0 = .sym "phi_0" ∧ o.fixed = [] ∨
      ∃ r, o.geom.p0 = .num r ∧ o.ang .p0 = some (arr1 r) ∧ o.fixed = [.p0])
  bi : o.mono = false → ∀ n, n ∉ o.fixed ∧ o.geom.entry n = .sym n.symName ∨
    ∃ r, o.geom.entry n = .num r ∧ o.ang n = some (arr1 r) ∧ n ∈ o.fixed

theorem GeomOK.congr {o o' : Obj} (h : GeomOK o) (h1 : o'.fnInput = o.fnInput)
    (h2 : o'.fnevalsInput = o.fnevalsInput) (h3 : o'.mono = o.mono) (h4 : o'.geom = o.geom)
    (h5 : o'.fixed = o.fixed) (h6 : ∀ n ∈ o.fixed, o'.ang n = o.ang n) : GeomOK o' where
  fnI := h1.trans h.fnI
  fneI := h2.trans h.fneI
  mono hm := by
    rw [h3] at hm
    rw [h4, h5]
    obtain ⟨a, b, c, d⟩ := h.mono hm
    refine ⟨a, b, c, ?_⟩
    rcases d with d | ⟨r, d1, d2, d3⟩
    · exact .inl d
    · exact .inr ⟨r, d1, by rw [h6 _ (by rw [d3]; simp), d2], d3⟩
  bi hm n := by
    rw [h3] at hm
    rw [h4, h5]
    rcases h.bi hm n with d | ⟨r, d1, d2, d3⟩
    · exact .inl d
    · exact .inr ⟨r, d1, by rw [h6 _ d3, d2], d3⟩

theorem GeomOK.afterMono {o : Obj} (h1 : o.fnInput = none) (h2 : o.fnevalsInput = none)
    {p : Option PyArg} (hp : p ≠ some .other) : GeomOK (o.afterMono p) := by
  rcases p with _ | (r | _)
  · exact ⟨h1, h2, fun _ => ⟨rfl, rfl, rfl, .inl ⟨rfl, rfl⟩⟩, fun h => Bool.noConfusion h⟩
  · refine ⟨h1, h2, fun _ => ⟨rfl, rfl, rfl, .inr ⟨r, rfl, ?_, rfl⟩⟩, fun h => Bool.noConfusion h⟩
    show Function.update o.ang .p0 (some (arr1 r)) .p0 = _
    rw [Function.update_self]
  · exact absurd rfl hp

theorem GeomOK.afterBi {o : Obj} (h1 : o.fnInput = none) (h2 : o.fnevalsInput = none)
    {a b c d : Option PyArg} (ha : a ≠ some .other) (hb : b ≠ some .other) (hc : c ≠ some .other)
    (hd : d ≠ some .other) : GeomOK (o.afterBi a b c d) := by
  rcases a with _ | (ra | _) <;> try exact absurd rfl ha
  all_goals rcases b with _ | (rb | _) <;> try exact absurd rfl hb
  all_goals rcases c with _ | (rc | _) <;> try exact absurd rfl hc
  all_goals rcases d with _ | (rd | _) <;> try exact absurd rfl hd
  all_goals
    unfold Obj.afterBi
    rw [if_pos ⟨rfl, rfl, rfl, rfl⟩]
    refine ⟨h1, h2, fun h => Bool.noConfusion h, fun _ n => ?_⟩
    cases n <;> simp [Obj.fixLoop, Obj.fix, Obj.reset, angS, Geom4.entry, AngN.symName]

theorem angLoop_frame (l : List (String × Option Arr)) : ∀ o : Obj,
    (Obj.angLoop l o).fnInput = o.fnInput ∧ (Obj.angLoop l o).fnevalsInput = o.fnevalsInput ∧
    (Obj.angLoop l o).mono = o.mono ∧ (Obj.angLoop l o).geom = o.geom ∧
    (Obj.angLoop l o).fixed = o.fixed ∧ ∀ n ∈ o.fixed, (Obj.angLoop l o).ang n = o.ang n := by
  induction l with
  | nil => intro o; exact ⟨rfl, rfl, rfl, rfl, rfl, fun _ _ => rfl⟩
  | cons p l ih =>
    intro o
    obtain ⟨k, v⟩ := p
    unfold Obj.angLoop
    cases hk : AngN.ofName k with
    | none => exact ih o
    | some n =>
      by_cases hn : n ∈ o.fixed
      · simp only; rw [if_pos hn]; exact ⟨rfl, rfl, rfl, rfl, rfl, fun _ _ => rfl⟩
      · simp only [if_neg hn]
        cases v with
        | none => exact ⟨rfl, rfl, rfl, rfl, rfl, fun _ _ => rfl⟩
        | some a =>
          obtain ⟨i1, i2, i3, i4, i5, i6⟩ :=
            ih { o with ang := Function.update o.ang n (some a.atleast1d) }
          refine ⟨i1, i2, i3, i4, i5, fun m hm => ?_⟩
          rw [i6 m hm]
          show Function.update o.ang n _ m = _
          rw [Function.update_of_ne]
          rintro rfl
          exact hn hm

theorem GeomOK.after {o : Obj} (h : GeomOK o) {op : Op} (hop : op.Proper) : GeomOK (o.after op) := by
  cases op
  case new => exact h
  case setMonostatic id p => exact .afterMono h.fnI h.fneI hop
  case setBistatic id a b c d => exact .afterBi h.fnI h.fneI hop.1 hop.2.1 hop.2.2.1 hop.2.2.2
  case setGeometry id kw =>
    show GeomOK (o.afterGeom kw)
    unfold Obj.afterGeom
    split_ifs
    · exact h
    · exact h
    · obtain ⟨i1, i2, i3, i4, i5, i6⟩ := angLoop_frame kw o
      exact h.congr i1 i2 i3 i4 i5 i6
  case setV => exact hop.elim
  case setSRF => exact hop.elim
  case overwriteArg => exact hop.elim
  all_goals exact h.congr rfl rfl rfl rfl rfl fun _ _ => rfl

theorem GeomOK.core {o o' : Obj} (hc : o.core = o'.core) (h : GeomOK o) : GeomOK o' := by
  have e1 := congrArg Obj.fnInput hc
  have e2 := congrArg Obj.fnevalsInput hc
  have e3 := congrArg Obj.mono hc
  have e4 := congrArg Obj.geom hc
  have e5 := congrArg Obj.fixed hc
  have e6 := congrArg Obj.ang hc
  exact h.congr e1.symm e2.symm e3.symm e4.symm e5.symm fun n _ => (congrFun e6 n).symm

theorem ReachableP.geomOK {w : World} (hw : ReachableP w) {id : ℕ} {o : Obj}
    (ho : w.objs id = some o) : GeomOK o := by
  obtain ⟨b, ops, hops, rfl⟩ := hw
  refine allObj_history (Q := GeomOK) (fun _ _ hc h => h.core hc) (fun op hop o h => h.after (hops op hop))
    (fun V SRF q s d f fe i hn => ?_) b ho
  have := hops _ hn
  exact GeomOK.afterMono (o := initObj V SRF q s d f fe i) (p := none) this.1 this.2 (by simp)

theorem Op.Proper.plain {op : Op} (h : op.Proper) : op.Plain := by
  cases op <;> first | exact trivial | exact h

theorem ReachableP.reachable {w : World} (h : ReachableP w) : Reachable w := by
  obtain ⟨b, ops, hops, rfl⟩ := h
  exact ⟨b, ops, fun op hop => (hops op hop).plain, rfl⟩

theorem GeomOK.named {o : Obj} (h : GeomOK o) : o.geom.Named := by
  intro e he s hs
  cases hm : o.mono with
  | true =>
    obtain ⟨a, b, c, d⟩ := h.mono hm
    have hp : ∀ s, o.geom.p0 = .sym s → s = "phi_0" := by
      intro s hs
      rcases d with d | ⟨r, d, -⟩
      · rw [d.1] at hs; cases hs; rfl
      · rw [d] at hs; cases hs
    rw [a, b, c] at he
    simp only [List.mem_cons, List.not_mem_nil, or_false] at he
    rcases he with rfl | rfl | rfl | rfl
    · cases hs; simp
    · cases hs; simp
    · rw [hp s hs]; simp
    · rw [hp s hs]; simp
  | false =>
    have hb : ∀ n, ∀ s, o.geom.entry n = .sym s → s = n.symName := by
      intro n s hs
      rcases h.bi hm n with d | ⟨r, d, -⟩
      · rw [d.2] at hs; cases hs; rfl
      · rw [d] at hs; cases hs
    simp only [List.mem_cons, List.not_mem_nil, or_false] at he
    rcases he with rfl | rfl | rfl | rfl
    · rw [hb .t0 s hs]; simp [AngN.symName]
    · rw [hb .tex s hs]; simp [AngN.symName]
    · rw [hb .p0 s hs]; simp [AngN.symName]
    · rw [hb .pex s hs]; simp [AngN.symName]

theorem Below.interaction_mu0 {b : Backend} {o : Obj} {dv ds : String → Py Lam} {m : Arr}
    (hm : Fresh.mu0 o = .ok m) : Below m.shape (Fresh.acc b o dv ds).interaction :=
  bind fun _ _ => bind fun _ _ => bind fun _ h3 => mul_right (pure
    (mul_left (mul_left (mul_right (self hm))) _ h3))

theorem Below.convert {b : Backend} {o : Obj} {dv ds : String → Py Lam} {s : List ℕ} {a : Arr}
    (h : Arr.Fits s a.shape) : Below s ((Fresh.acc b o dv ds).convert a) := by
  refine Below.bind fun s1 _ => Below.bind fun d _ => ?_
  have key : ∀ n : Arr, Below s (do
      let ret ← liftPy (a.mul n)
      if d = true then RT1.mulM (litM 10) (Pure.pure (Arr.map XR.log10 ret)) else Pure.pure ret) := by
    intro n
    refine Below.bind fun r hr => ?_
    have hr' : Arr.Fits s r.shape := by
      rw [liftPy_py] at hr
      exact Below.map2_left h r hr
    by_cases h : d = true
    · simp only [h, if_true]
      exact Below.mul_right (Below.pure hr')
    · simp only [h]
      exact Below.pure hr'
  by_cases h : s1 = true
  · simp only [h, if_true]
    exact Below.bind fun n _ => key n
  · simp only [h]
    exact Below.bind fun n _ => key n

/-- Angle of a site. -/
def Site.angle (x : Site) : AngN → ℝ
  | .t0 => x.t0
  | .tex => x.tex
  | .p0 => x.p0
  | .pex => x.pex

/-- The geometry entries of an object with mode `md`, at the site `x`. -/
structure GeomAt (md : Mode) (g : Geom4) (x : Site) : Prop where
  mono : md.mono = true → x.tex = x.t0 ∧ x.pex = x.p0 + Real.pi ∧
    g.t0 = .sym "theta_0" ∧ g.tex = .sym "theta_0" ∧ g.pex = g.p0 ∧
    (g.p0 = .sym "phi_0" ∧ md.fixed = [] ∨ g.p0 = .num x.p0 ∧ md.fixed = [.p0])
  bi : md.mono = false → ∀ n, g.entry n = if n ∈ md.fixed then .num (x.angle n) else .sym n.symName

theorem arr1_at (r : ℝ) (idx : List ℕ) : (arr1 r).at' idx = XR.fin r := by
  cases idx <;> rfl

theorem HasVal.unique {x : Py Arr} {idx : List ℕ} {v v' : ℝ} (h : HasVal x idx v) (h' : HasVal x idx v') :
    v = v' := by
  obtain ⟨a, rfl, h⟩ := h
  obtain ⟨a', e, h'⟩ := h'
  cases e
  rw [h] at h'
  cases h'
  rfl

theorem HasVal.of_arr1 {o : Obj} {n : AngN} {r : ℝ} (h : o.ang n = some (arr1 r)) (idx : List ℕ) :
    HasVal (Fresh.ang o n) idx r := ⟨arr1 r, by unfold Fresh.ang; rw [h], arr1_at r idx⟩

theorem GeomOK.at {b : Backend} {o : Obj} {idx : List ℕ} {x : Site} (h : GeomOK o)
    (hs : FSite b o idx x) : GeomAt o.mode o.geom x where
  mono hm := by
    have hm' : o.mono = true := hm
    obtain ⟨h1, h2, h3, h4⟩ := h.mono hm'
    refine ⟨?_, ?_, h1, h2, h3, ?_⟩
    · have := hs.tex
      unfold Fresh.tex at this
      rw [if_pos hm'] at this
      exact this.unique hs.t0
    · have := hs.pex
      unfold Fresh.pex at this
      rw [if_pos hm'] at this
      obtain ⟨a, ha, e⟩ := hs.p0
      rw [ha] at this
      obtain ⟨z, hz, e'⟩ := this
      have := PW.map2 (f := XR.add) (a := a) (b := Arr.lit Real.pi) (idx := idx) e rfl z hz
      rw [e'] at this
      have h2 : (XR.fin x.p0 + XR.fin Real.pi : XR) = XR.fin x.pex := this.symm
      rw [XR.fin_add] at h2
      exact (XR.fin.inj h2).symm
    · rcases h4 with h4 | ⟨r, h5, h6, h7⟩
      · exact .inl h4
      · refine .inr ⟨?_, h7⟩
        rw [h5, (HasVal.of_arr1 h6 idx).unique hs.p0]
  bi hm n := by
    have hm' : o.mono = false := hm
    have hx : HasVal (Fresh.ang o n) idx (x.angle n) := by
      cases n
      · exact hs.t0
      · have := hs.tex
        unfold Fresh.tex at this
        rw [if_neg (by simp [hm'])] at this
        exact this
      · exact hs.p0
      · have := hs.pex
        unfold Fresh.pex at this
        rw [if_neg (by simp [hm'])] at this
        exact this
    show o.geom.entry n = if n ∈ o.fixed then _ else _
    rcases h.bi hm' n with ⟨h1, h2⟩ | ⟨r, h1, h2, h3⟩
    · rw [if_neg h1]; exact h2
    · rw [if_pos h3, h1, (HasVal.of_arr1 h2 idx).unique hx]

theorem ReachableP.step {w : World} (h : ReachableP w) {op : Op} (hop : op.Proper) :
    ReachableP (step op w).2 := by
  obtain ⟨b, ops, hp, rfl⟩ := h
  refine ⟨b, ops ++ [op], ?_, by rw [run_append]; rfl⟩
  intro op' h'
  rcases List.mem_append.mp h' with h' | h'
  · exact hp op' h'
  · simp only [List.mem_singleton] at h'; rw [h']; exact hop

/-- Value of an observed interaction contribution in terms of the geometry entries. -/
theorem ObservesP.geom {c : Cfg} {md : Mode} {x : Site} {r : XR} (h : ObservesP c md x r)
    {nV nS : ℕ} (hV : c.V.ncoefs = .ok (nV + 1)) (hS : c.SRF.ncoefs = .ok (nS + 1))
    (hx : x.Oblique) (hI : c.sig0 = true → x.I0 ≠ 0) :
    ∃ g : Geom4, GeomAt md g x ∧ r = x.inUnits c.sig0 c.dB (geomInteraction c.V c.SRF g x) := by
  obtain ⟨w, id, kw, arr, w', idx, hw, hcall, hv, rfl, hs, o, ho, rfl, rfl, k, hal⟩ := h
  have hobs := obs_of (full := true) (F := Fresh.interaction) hw.reachable.inv hcall
    (fun _ _ _ h => interaction_none h _)
    (fun _ _ _ _ hw ho => interaction_eq hw ho _) (fun _ _ _ h => fresh_interaction_filled h) hs
    ho rfl (arr.get idx)
  have hw' : ReachableP w' := by
    have := hw.step (op := .interaction id kw) trivial
    have e : (RT1.step (.interaction id kw) w).2 = (interaction id kw w).2 := bind_pure_state _ _
    rw [e, hcall] at this
    exact this
  have hgeo := hw'.geomOK ho
  refine ⟨o.geom, hgeo.at hobs.site, ?_⟩
  obtain ⟨z, hz, hz'⟩ := ok_bind hobs.ok
  obtain ⟨a1, ha1, e1⟩ := hobs.site.t0.obtain
  have hm0 : Fresh.mu0 o = .ok (Arr.cos a1) := by unfold Fresh.mu0; rw [ha1]; rfl
  have hl : k ≤ idx.length := by
    have h1 := (Below.convert (Below.interaction_mu0 hm0 z hz) arr hz').length
    rw [hv.length]
    have h2 : (Arr.cos a1).shape.length = k := hal.t0 a1 (ang_ok ha1)
    omega
  have hval := interaction_at (hobs.objOK rfl) hgeo.fnI hgeo.fneI hgeo.named hz hV hS hal hl hobs.site hx
  have := PW.convert hval arr hz'
  rw [Arr.at'_valid hv, hobs.site.x_convert (s := o.sig0) hI] at this
  exact this

end

end RT1
