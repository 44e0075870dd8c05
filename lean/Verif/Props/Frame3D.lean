import Verif.Props.Analyze3D
import Verif.Lemmas.EnergyObs
import Verif.Props.Scatter

/-!
# Axes limits and rays of the 3D analyzer (C85)
-/

namespace RT1

noncomputable section
open Classical

/-- `v` is the first or second coordinate of a point that the analyzer draws. -/
def Analyzer3D.Horizontal (A : Analyzer3D) (v : XR) : Prop :=
  ∃ x y z, (x, y, z) ∈ A.surfaces ∧
    ((∃ idx, Arr.Valid x.shape idx ∧ x.get idx = v) ∨ ∃ idx, Arr.Valid y.shape idx ∧ y.get idx = v)

/-- `v` is the height of a point that the analyzer draws. -/
def Analyzer3D.Height (A : Analyzer3D) (v : XR) : Prop :=
  ∃ x y z, (x, y, z) ∈ A.surfaces ∧ ∃ idx, Arr.Valid z.shape idx ∧ z.get idx = v

/-- Only finite limits are accepted: then no coordinate is infinite. -/
theorem frame3d_isFin {l : List (Arr × Arr × Arr)} (h : (frame3d l).isFin = true) :
    Coords (l.flatMap fun s => s.1.entries) ∧
    ∀ v ∈ l.flatMap fun s => s.2.1.entries, v = .nan ∨ ∃ r, v = .fin r := by
  have key : ∀ a b c d : XR, (let lo := if XR.lt b a then b else a
      let hi := if XR.lt c d then d else c
      if lo = .nan ∨ hi = .nan then XR.nan else if XR.lt lo.abs hi.abs then hi.abs else lo.abs).isFin = true →
      a ≠ .ninf ∧ b ≠ .ninf ∧ c ≠ .pinf ∧ d ≠ .pinf := by
    intro a b c d h
    cases a <;> cases b <;> cases c <;> cases d <;> simp_all [XR.lt, XR.abs, XR.isFin]
    all_goals (split_ifs at h <;> simp_all [XR.abs, XR.isFin])
  obtain ⟨h1, h2, h3, h4⟩ := key _ _ _ _ h
  have hx : ∀ v ∈ l.flatMap fun s => s.1.entries, v = .nan ∨ ∃ r, v = .fin r := fun v hv => by
    cases v with
    | fin r => exact .inr ⟨r, rfl⟩
    | nan => exact .inl rfl
    | pinf => exact (h3 (nanmax_pinf hv)).elim
    | ninf => exact (h1 (nanmin_ninf hv)).elim
  refine ⟨⟨hx, ?_⟩, fun v hv => ?_⟩
  · by_contra hno
    rw [frame3d_nan fun v hv => ?_] at h
    · cases h
    · rcases hx v hv with e | ⟨r, rfl⟩
      · exact e
      · exact (hno ⟨r, hv⟩).elim
  · cases v with
    | fin r => exact .inr ⟨r, rfl⟩
    | nan => exact .inl rfl
    | pinf => exact (h4 (nanmax_pinf hv)).elim
    | ninf => exact (h2 (nanmin_ninf hv)).elim

/-- If no second coordinate is a number the limits are those of the first coordinates. -/
theorem frame3d_noY {l : List (Arr × Arr × Arr)} (h : ∀ v ∈ l.flatMap fun s => s.2.1.entries, v = .nan) :
    frame3d l = frame3d (l.map fun s => (s.1, s.1, s.2.2)) := by
  have e1 : ((l.map fun s => (s.1, s.1, s.2.2)).flatMap fun s => s.1.entries) = l.flatMap fun s => s.1.entries := by
    rw [List.flatMap_map]
  have e2 : ((l.map fun s => (s.1, s.1, s.2.2)).flatMap fun s => s.2.1.entries) = l.flatMap fun s => s.1.entries := by
    rw [List.flatMap_map]
  have hlt : ∀ v, ¬ XR.lt .nan v := fun v => by cases v <;> simp [XR.lt]
  have hlt' : ∀ v, ¬ XR.lt v .nan := fun v => by cases v <;> simp [XR.lt]
  have hlt2 : ∀ v, ¬ XR.lt v v := fun v => by cases v <;> simp [XR.lt]
  unfold frame3d
  simp only [e1, e2, nanmin_nan h, nanmax_nan h, if_neg (hlt _), if_neg (hlt' _), if_neg (hlt2 _)]

theorem analyze3d_frame {w w' : World} {id n : ℕ} {cs : List Char} {ps : List (String × List SliderArg)} {A : Analyzer3D}
    (h : analyze3d id n cs ps w = (.ok A, w')) : (frame3d A.surfaces).isFin = true := by
  unfold analyze3d at h
  obtain ⟨u1, w1, h1, h⟩ := bind_ok_inv h
  obtain ⟨u2, w2, h2, h⟩ := bind_ok_inv h
  obtain ⟨idx, w2', hi, h⟩ := bind_ok_inv h
  obtain ⟨u3, w3, h3, h⟩ := bind_ok_inv h
  obtain ⟨u4, w4, h4, h⟩ := bind_ok_inv h
  obtain ⟨sl, w5, h5, h⟩ := bind_ok_inv h
  exact (first3_ok h).2

/-- **C85** (limits): the axes of a new 3D analyzer extend from `-L` to `L`, where `L` is the largest
horizontal coordinate of the drawn points. -/
theorem C85_limits {w w' : World} {id n : ℕ} {cs : List Char} {ps : List (String × List SliderArg)} {A : Analyzer3D}
    (h : analyze3d id n cs ps w = (.ok A, w')) : ∃ L, frame3d A.surfaces = .fin L ∧
      (∀ v, A.Horizontal v → v = .nan ∨ ∃ r, v = .fin r ∧ |r| ≤ L) ∧ ∃ r, A.Horizontal (.fin r) ∧ |r| = L := by
  have hf := analyze3d_frame h
  obtain ⟨hx, hy⟩ := frame3d_isFin hf
  have hor : ∀ v, A.Horizontal v ↔ ∃ s ∈ A.surfaces, v ∈ s.1.entries ∨ v ∈ s.2.1.entries := by
    intro v
    simp only [Arr.mem_entries]
    constructor
    · rintro ⟨x, y, z, h, h'⟩; exact ⟨_, h, h'⟩
    · rintro ⟨⟨x, y, z⟩, h, h'⟩; exact ⟨x, y, z, h, h'⟩
  have hfin : ∀ v, A.Horizontal v → v = .nan ∨ ∃ r, v = .fin r := by
    intro v hv
    obtain ⟨s, hs, h | h⟩ := (hor v).mp hv
    · exact hx.val v (List.mem_flatMap.mpr ⟨s, hs, h⟩)
    · exact hy v (List.mem_flatMap.mpr ⟨s, hs, h⟩)
  by_cases hyy : ∃ r, XR.fin r ∈ A.surfaces.flatMap fun s => s.2.1.entries
  · obtain ⟨L, h1, h2, s, hs, r, h3, h4⟩ := frame3d_fin hx ⟨hy, hyy⟩
    refine ⟨L, h1, fun v hv => ?_, r, (hor _).mpr ⟨s, hs, h3⟩, h4⟩
    rcases hfin v hv with e | ⟨r, rfl⟩
    · exact .inl e
    · obtain ⟨s, hs, hh⟩ := (hor _).mp hv
      exact .inr ⟨r, rfl, h2 s hs r hh⟩
  · have hn : ∀ v ∈ A.surfaces.flatMap fun s => s.2.1.entries, v = .nan := fun v hv => by
      rcases hy v hv with e | ⟨r, rfl⟩
      · exact e
      · exact (hyy ⟨r, hv⟩).elim
    have hx' : Coords ((A.surfaces.map fun s => (s.1, s.1, s.2.2)).flatMap fun s => s.1.entries) := by
      rw [List.flatMap_map]; exact hx
    have hy' : Coords ((A.surfaces.map fun s => (s.1, s.1, s.2.2)).flatMap fun s => s.2.1.entries) := by
      rw [List.flatMap_map]; exact hx
    obtain ⟨L, h1, h2, s, hs, r, h3, h4⟩ := frame3d_fin hx' hy'
    rw [← frame3d_noY hn] at h1
    obtain ⟨s', hs', rfl⟩ := List.mem_map.mp hs
    refine ⟨L, h1, fun v hv => ?_, r, (hor _).mpr ⟨s', hs', .inl (by simpa using h3)⟩, h4⟩
    rcases hfin v hv with e | ⟨r, rfl⟩
    · exact .inl e
    · obtain ⟨s, hs, hh⟩ := (hor _).mp hv
      rcases hh with hh | hh
      · exact .inr ⟨r, rfl, h2 _ (List.mem_map_of_mem hs) r (.inl hh)⟩
      · exact (hyy ⟨r, List.mem_flatMap.mpr ⟨s, hs, hh⟩⟩).elim

theorem XR.fin_of_mul {v : XR} {a r : ℝ} (h : v * .fin a = .fin r) : ∃ v', v = .fin v' := by
  cases v with
  | fin v => exact ⟨v, rfl⟩
  | nan => cases h
  | pinf =>
    have h : XR.mul .pinf (.fin a) = .fin r := h
    simp only [XR.mul, XR.infOfSign, XR.sgn] at h
    split_ifs at h
  | ninf =>
    have h : XR.mul .ninf (.fin a) = .fin r := h
    simp only [XR.mul, XR.infOfSign, XR.sgn] at h
    split_ifs at h

/-- **C85** (something to see): if the 3D analyzer was created, `calc` returns a number for some requested
contribution in some direction of the grid; otherwise the creation fails. -/
theorem C85_visible {w w' : World} {id n : ℕ} {cs : List Char} {ps : List (String × List SliderArg)} {A : Analyzer3D}
    (hw : Reachable w) (h : analyze3d id n cs ps w = (.ok A, w')) : ∃ res,
      (calcOp id [] (step (.setIntQ id (decide ('i' ∈ cs))) w').2).1 = .ok res ∧
      ∃ c ∈ cs, ∃ k idx r, Shows c k ∧ Arr.Valid res.shape (idx ++ [k]) ∧ res.get (idx ++ [k]) = .fin r := by
  have hr := (Runs.analyze3d id n cs ps).reachable (fun _ h => h.plain) hw
  rw [h] at hr
  have hc := (analyze3d_fields h).2
  obtain ⟨sl, w3, o3, r3, ho3, g3, hu⟩ := analyze3d_ok hw h
  obtain ⟨o', res, x, y, z, ks, hU⟩ := update3_ok r3 ho3 g3 hu
  have ha := (hU.again r3 hr).2
  rw [hc] at ha
  refine ⟨res, ha, ?_⟩
  obtain ⟨r, hr⟩ := (frame3d_isFin (analyze3d_frame h)).1.some
  obtain ⟨s, hs, hv⟩ := List.mem_flatMap.mp hr
  obtain ⟨i, hi, hir⟩ := Arr.mem_entries.mp hv
  obtain ⟨S, s1, s2, s3, s4⟩ := hU.picture
  obtain ⟨j, hj, rfl⟩ := List.getElem_of_mem hs
  have hj' : j < A.contribs.length := by rw [← s3]; exact hj
  obtain ⟨k, x, y, z, k1, k2, k3, k4, -, k5⟩ := s4 j A.contribs[j] (List.getElem?_eq_getElem hj')
  rw [List.getElem?_eq_getElem hj] at k2
  have e := Option.some.inj k2
  rw [e] at hi hir
  rw [show (x, y, z).1.shape = S from k3] at hi
  have hir : x.get i = _ := hir
  rw [(k5 i hi).1] at hir
  obtain ⟨a, ha⟩ := XR.fin_of_mul hir
  obtain ⟨a', ha'⟩ := XR.fin_of_mul ha
  exact ⟨_, by rw [← hc]; exact List.getElem_mem hj', k, i, a', k1,
    (hU.valid s1 (List.getElem_mem hj') k1 i).mpr hi, ha'⟩

/-- The hypotheses of `C85_limits` and `C85_visible` are met. -/
example (b : Backend) (q s d : Bool) {I : ℝ} (hI : s = true → I ≠ 0) (t p τ ω N : ℝ) {n : ℕ} (hn : n ≠ 0) : ∃ w A w',
    Reachable w ∧ analyze3d 0 n ['t', 's', 'v'] [("tau", [.number 0, .number 1])] w = (.ok A, w') := by
  obtain ⟨A, w', h⟩ := num_slides b q s d hI t p τ ω N hn []
  obtain ⟨A1, w1, h1, h⟩ := bind_ok_inv h
  exact ⟨_, A1, w1, num_reachable .., h1⟩

/-- The HG_nadirnorm function with `t = 0`. -/
def nadir0 : Scatter := .prim (.srfHGnadirnorm (.num 0)) srfA none

theorem nadir0_plain : nadir0.Plain := by
  intro n hn
  simp [nadir0, Scatter.phase, Scatter.primPhase, Scatter.nadirHemreflect, Scatter.hgExpr, Scatter.angleExpr, srfA,
    Expr.free] at hn
  aesop

theorem nadir0_nan (x : Site) : nadir0.phase.evalX (fun n => XR.fin (x.env n)) = .nan := by
  obtain ⟨⟨r, hr⟩, h⟩ := C44_nadirnorm_nan none ⟨x.t0, x.tex, x.p0, x.pex, x.ρ⟩
  have := h r hr
  rw [hr.eval] at this
  exact this

/-- **C85** (nothing to see): an object for which the 3D analyzer cannot be created: the surface function
HG_nadirnorm with `t = 0` (C44), only the surface contribution requested; whatever the other values. -/
theorem C85_blank (b : Backend) (q s d : Bool) (I t p τ ω N : ℝ) {n : ℕ} (hn : n ≠ 0) :
    (analyze3d 0 n ['s'] [("tau", [.number 0, .number 1])] (numW b isoV nadir0 q s d I t p τ ω N)).1 =
      .error .valueError := by
  obtain ⟨v, w3, o3, A1, w1, ⟨r3, ho3, hv, hst, h3⟩, he, e1, r1, c1⟩ := num_start b isoV_plain nadir0_plain q s d I t p τ ω N hn
    (cs := ['s']) (by simp) (fun c hc => by rw [List.mem_singleton.mp hc]; exact ⟨1, .surface⟩) (by simp)
  obtain ⟨o', res, x, y, z, ks, hU⟩ := update3_ok r3 ho3 h3.grid e1
  have hcc := h3.complete [("tau", v)] 45 (decide ('i' ∈ ['s'])) rfl
  obtain ⟨res', hres', hs⟩ := hcc.calcAll_three w3.backend (a := fullLike (analyze3dTex n) (deg2rad 45))
    (by simp [Obj.at3d]) rfl (by simp [Obj.at3d])
  have hcalc : Fresh.calcAll w3.backend ((Fresh.update o3 (sliderVals (noInc [("tau", v)]))).at3d n 45
    (decide ('i' ∈ ['s']))) = .ok res := hU.calc_
  have : res' = res := by
    have := hres'.symm.trans hcalc
    cases this; rfl
  subst this
  rw [he, first3_run e1, hU.noframe ?_]
  · rfl
  · intro c hc k idx hk hv
    rw [c1, List.mem_singleton] at hc
    subst hc
    cases hk
    obtain ⟨Is, Iv, Ii, hp⟩ := calc_parts hcalc
    obtain ⟨h1, h2, h3', h4⟩ := hp.rows
    have hvs := hv
    rw [h1] at hv
    obtain ⟨hv1, hk⟩ := Arr.valid_append_iff.mp hv
    have hvn : Arr.Valid [n, n] idx := by
      rw [hs] at hvs
      exact (Arr.valid_append_iff (s := [n, n]) (n := 3)|>.mp hvs).1
    rw [h4 1 hk idx hv1]
    have hf := num_fsite w3.backend hst h3.grid 45 (decide ('i' ∈ ['s'])) hcc hvn
    have hS : ((Fresh.update o3 (sliderVals (noInc [("tau", v)]))).at3d n 45 (decide ('i' ∈ ['s']))).SRF = nadir0 := by
      simp only [Obj.still, Prod.mk.injEq] at hst
      exact hst.2.1
    have hsrf := PW.srfCalc (b := w3.backend) (dv := fun _ => .error .attributeError) (ds := fun _ => .error .attributeError)
      (idx := idx) fun n hn => hf.x_env hn
    rw [hS, nadir0_nan] at hsrf
    have := PW.surface hsrf Is hp.surf
    rw [Arr.at'_valid hv1] at this
    show XSite.convert _ _ _ (Is.get idx) = _
    rw [this]
    unfold XSite.surface XSite.convert
    simp only [XR.nan_mul, XR.mul_nan, XR.nan_add, XR.add_nan]
    split_ifs <;> rfl

/-- **C85** (cut off): the limits do not take the heights into account.  For an isotropic surface below a
layer, the top of the drawn surface is outside of the axes, for every number of samples. -/
theorem C85_tall (b : Backend) (q s d : Bool) {I N : ℝ} (hI : 0 < I) (hN : 0 < N) (t p τ ω : ℝ) {n : ℕ} (hn : n ≠ 0) :
    ∃ A w' L r, analyze3d 0 n ['s'] [("tau", [.number 0, .number 1])] (numW b isoV isoS q s d I t p τ ω N) = (.ok A, w') ∧
      frame3d A.surfaces = .fin L ∧ A.Height (.fin r) ∧ L < r := by
  have hcs : ∀ c ∈ ['s'], ∃ k, Shows c k := fun c hc => by rw [List.mem_singleton.mp hc]; exact ⟨1, .surface⟩
  obtain ⟨v, w3, o3, A, w1, ⟨r3, ho3, hv, hst, h3⟩, he, e1, r1, c1⟩ := num_start b isoV_plain isoS_plain q s d I t p τ ω N hn
    (cs := ['s']) (by simp) hcs (by simp)
  obtain ⟨o', res, x, y, z, ks, hU⟩ := update3_ok r3 ho3 h3.grid e1
  have hcc := h3.complete [("tau", v)] 45 (decide ('i' ∈ ['s'])) rfl
  obtain ⟨res', hres', hs⟩ := hcc.calcAll_three w3.backend (a := fullLike (analyze3dTex n) (deg2rad 45))
    (by simp [Obj.at3d]) rfl (by simp [Obj.at3d])
  have hcalc : Fresh.calcAll w3.backend ((Fresh.update o3 (sliderVals (noInc [("tau", v)]))).at3d n 45
    (decide ('i' ∈ ['s']))) = .ok res := hU.calc_
  have : res' = res := by
    have := hres'.symm.trans hcalc
    cases this; rfl
  subst this
  have h0 : 0 < Real.cos (deg2rad 45) := cos45
  -- the drawn values
  obtain ⟨K, hK, hval⟩ : ∃ K, 0 < K ∧ ∀ idx, Arr.Valid [n, n] idx → res'.get (idx ++ [1]) =
      .fin (K * Real.exp (-(1 / 2) / Real.cos (gridPolar n (idx.getD 0 0)))) := by
    obtain ⟨Is, Iv, Ii, hp⟩ := calc_parts hcalc
    obtain ⟨h1, h2, h3', h4⟩ := hp.rows
    have hSh : Is.shape = [n, n] := by
      rw [hs] at h1
      exact (List.append_inj' h1 rfl).1.symm
    refine ⟨I * Real.cos (deg2rad 45) * (1 / Real.pi) * N * Real.exp (-(1 / 2) / Real.cos (deg2rad 45)) *
      (if s = true then 4 * Real.pi * Real.cos (deg2rad 45) / I else 1), ?_, fun idx hi => ?_⟩
    · have := Real.pi_pos
      split_ifs <;> positivity
    · have hf := num_fsite w3.backend hst h3.grid 45 (decide ('i' ∈ ['s'])) hcc hi
      have hlt : idx.getD 0 0 < n := by rcases hi with _ | ⟨h, _⟩; exact h
      have h1' : 0 < (numSite n 45 I v.val ω N idx).mu0 := cos45
      have h2' : 0 < (numSite n 45 I v.val ω N idx).muEx := gridPolar_cos hlt
      simp only [Obj.still, Prod.mk.injEq] at hst
      have hk : 1 < nrows (decide ('i' ∈ ['s'])) := by simp [nrows]
      have hvi : Arr.Valid Is.shape idx := by rw [hSh]; exact hi
      have hinfo : RowInfo 1 _ _ (res'.get (idx ++ [1])) idx w3.backend _ Is Iv Ii res' :=
        ⟨hf, rfl, hp, hvi, hk, h4 1 hk idx hvi, by rw [h2]; exact hvi, fun h => by simp [Obj.at3d] at h⟩
      have e : Is.get idx = _ := hinfo.srf (f := 1 / Real.pi) (by
        show o3.SRF.ValueAt _ _
        rw [hst.2.1]
        rfl) h1'.ne' h2'.ne'
      rw [h4 1 hk idx hvi]
      show XSite.convert _ o3.sig0 o3.dB (Is.get idx) = _
      rw [e, hst.2.2.2.1, hst.2.2.2.2.2.1, hf.x_convert (fun _ => hI.ne')]
      unfold Site.inUnits
      simp only [Bool.false_eq_true, if_false]
      refine congrArg XR.fin ?_
      unfold Site.surface Site.signorm
      simp only [numSite, hv, Site.mu0, Site.muEx, show (numObj isoV isoS q s d I t p τ ω N).sig0 = s from rfl]
      rw [show -(1 / 2 / Real.cos (deg2rad 45)) - 1 / 2 / Real.cos (gridPolar n (idx.getD 0 0)) =
        -(1 / 2) / Real.cos (deg2rad 45) + -(1 / 2) / Real.cos (gridPolar n (idx.getD 0 0)) by ring, Real.exp_add]
      split_ifs <;> ring
  have hd : Drawable A.contribs res' := by
    rw [c1]
    refine ⟨⟨'s', by simp, 1, [0, 0], _, .surface, ?_, hval [0, 0] ?_⟩, fun c hc k idx hk hvk => ?_⟩
    · rw [hs]
      exact .cons (Nat.pos_of_ne_zero hn) (.cons (Nat.pos_of_ne_zero hn) (.cons (by norm_num) .nil))
    · exact .cons (Nat.pos_of_ne_zero hn) (.cons (Nat.pos_of_ne_zero hn) .nil)
    · rw [List.mem_singleton] at hc
      subst hc
      cases hk
      rw [hs] at hvk
      rw [hval idx (Arr.valid_append_iff (s := [n, n]) (n := 3) |>.mp hvk).1]
      simp
  have hA : analyze3d 0 n ['s'] [("tau", [.number 0, .number 1])] (numW b isoV isoS q s d I t p τ ω N) = (.ok A, w1) := by
    obtain ⟨f1, f2⟩ := hU.frame hd
    obtain ⟨L, hL, -⟩ := frame3d_fin f1 f2
    rw [he, first3_run e1, hL]
    rfl
  obtain ⟨L, hL, -, r, ⟨X, Y, Z, hm, hor⟩, hr⟩ := C85_limits hA
  obtain ⟨S, s1, s2, s3, s4⟩ := hU.picture
  have hSn : S = [n, n] := by
    rw [hs, c1] at s1
    exact (List.append_inj' s1 rfl).1.symm
  subst hSn
  obtain ⟨k, X', Y', Z', k1, k2, k3, k4, k5, k6⟩ := s4 0 's' (by rw [c1]; rfl)
  cases k1
  have hX : (X, Y, Z) = (X', Y', Z') := by
    obtain ⟨j, hj, e⟩ := List.getElem_of_mem hm
    rw [c1] at s3
    have : j = 0 := by simp at s3; omega
    subst this
    rw [List.getElem?_eq_getElem hj, e] at k2
    exact Option.some.inj k2
  cases hX
  have h00 : Arr.Valid [n, n] [0, 0] := .cons (Nat.pos_of_ne_zero hn) (.cons (Nat.pos_of_ne_zero hn) .nil)
  have g0 : gridPolar n 0 = 0 := by simp [gridPolar]
  refine ⟨A, w1, L, K * Real.exp (-(1 / 2)), hA, hL, ⟨X, Y, Z, hm, [0, 0], by rw [k5]; exact h00, ?_⟩, ?_⟩
  · rw [(k6 _ h00).2.2, hval _ h00]
    show XR.fin _ * XR.fin (Real.cos (gridPolar n 0)) = _
    rw [XR.fin_mul]
    simp [g0]
  · rw [← hr]
    have key : ∀ idx, Arr.Valid [n, n] idx → ∀ c : ℝ, |c| ≤ 1 →
        |K * Real.exp (-(1 / 2) / Real.cos (gridPolar n (idx.getD 0 0))) * Real.sin (gridPolar n (idx.getD 0 0)) * c| <
          K * Real.exp (-(1 / 2)) := by
      intro idx hi c hc
      have hlt : idx.getD 0 0 < n := by rcases hi with _ | ⟨h, _⟩; exact h
      have hcos := gridPolar_cos hlt
      generalize gridPolar n (idx.getD 0 0) = θ at hcos
      have hs1 : |Real.sin θ| < 1 := by
        rw [← sq_lt_one_iff_abs_lt_one]
        nlinarith [Real.sin_sq_add_cos_sq θ]
      have he : Real.exp (-(1 / 2) / Real.cos θ) ≤ Real.exp (-(1 / 2)) := by
        refine Real.exp_le_exp.mpr ?_
        rw [div_le_iff₀ hcos]
        nlinarith [Real.cos_le_one θ]
      rw [abs_mul, abs_mul, abs_of_pos (by positivity : 0 < K * Real.exp (-(1 / 2) / Real.cos θ))]
      have hE := Real.exp_pos (-(1 / 2) / Real.cos θ)
      calc _ ≤ K * Real.exp (-(1 / 2) / Real.cos θ) * |Real.sin θ| * 1 := by gcongr
        _ < K * Real.exp (-(1 / 2) / Real.cos θ) * 1 * 1 := by gcongr
        _ ≤ K * Real.exp (-(1 / 2)) := by rw [mul_one, mul_one]; gcongr
    rcases hor with ⟨idx, hi, e⟩ | ⟨idx, hi, e⟩
    · rw [k3] at hi
      rw [(k6 idx hi).1, hval idx hi, XR.fin_mul, XR.fin_mul] at e
      rw [← XR.fin.inj e]
      exact key idx hi _ (Real.abs_cos_le_one _)
    · rw [k4] at hi
      rw [(k6 idx hi).2.1, hval idx hi, XR.fin_mul, XR.fin_mul] at e
      rw [← XR.fin.inj e]
      exact key idx hi _ (Real.abs_sin_le_one _)

/-! ### Rays -/

/-- **C85** (rays): the dashed line ends in the direction of specular reflection, the solid line in the
direction the incident ray comes from; both have the length of the largest drawn height. -/
theorem C85_rays {P : Op → Prop} {id n : ℕ} (hP : ∀ op, P op → ¬ MovesAngles id op) {w : World} {A : Analyzer3D}
    (h : Drawn3D P id n w A)
    (hd : ∀ res, (calcOp id [] (step (.setIntQ id (decide ('i' ∈ A.contribs))) w).2).1 = .ok res → Drawable A.contribs res) :
    ∃ R, (∀ r, A.Height (.fin r) → |r| ≤ R) ∧ (∃ r, A.Height (.fin r) ∧ |r| = R) ∧
      A.arrows = ((.fin (R * Real.sin (A.inc * Real.pi / 180)), .fin 0, .fin (R * Real.cos (A.inc * Real.pi / 180))),
        (.fin (-(R * Real.sin (A.inc * Real.pi / 180))), .fin 0, .fin (R * Real.cos (A.inc * Real.pi / 180)))) := by
  obtain ⟨w0, A0, o, o', res, x, y, z, ks, hw, g, hU⟩ := h.upd hP
  obtain ⟨hw', -⟩ := h.session.grid hP
  have hd := hd res (hU.again hw hw').2
  have hz : Coords (A.surfaces.flatMap fun s => s.2.2.entries) := hU.frameZ hd
  have hgt : ∀ v, A.Height v ↔ v ∈ A.surfaces.flatMap fun s => s.2.2.entries := by
    intro v
    simp only [List.mem_flatMap, Arr.mem_entries]
    constructor
    · rintro ⟨x, y, z, h, h'⟩; exact ⟨_, h, h'⟩
    · rintro ⟨⟨x, y, z⟩, h, h'⟩; exact ⟨x, y, z, h, h'⟩
  have hm : ∀ v, v ∈ (A.surfaces.flatMap fun s => s.2.2.entries.map XR.abs) ↔ ∃ u, A.Height u ∧ v = XR.abs u := by
    intro v
    simp only [hgt, List.mem_flatMap, List.mem_map]
    constructor
    · rintro ⟨s, hs, u, hu, rfl⟩; exact ⟨u, ⟨s, hs, hu⟩, rfl⟩
    · rintro ⟨u, ⟨s, hs, hu⟩, rfl⟩; exact ⟨s, hs, u, hu, rfl⟩
  obtain ⟨R, h1, h2, h3⟩ := nanmax_fin (l := A.surfaces.flatMap fun s => s.2.2.entries.map XR.abs) (fun v hv => by
    obtain ⟨u, hu, rfl⟩ := (hm v).mp hv
    rcases hz.val u ((hgt u).mp hu) with rfl | ⟨r, rfl⟩
    · exact .inl rfl
    · exact .inr ⟨_, rfl⟩) (by
    obtain ⟨r, hr⟩ := hz.some
    exact ⟨|r|, (hm _).mpr ⟨_, (hgt _).mpr hr, rfl⟩⟩)
  refine ⟨R, fun r hr => h3 _ ((hm _).mpr ⟨_, hr, rfl⟩), ?_, ?_⟩
  · obtain ⟨u, hu, e⟩ := (hm _).mp h2
    rcases hz.val u ((hgt u).mp hu) with rfl | ⟨r, rfl⟩
    · cases e
    · exact ⟨r, hu, (XR.fin.inj e).symm⟩
  · unfold Analyzer3D.arrows getarrow
    rw [h1]
    have e1 : deg2rad A.inc = A.inc * Real.pi / 180 := by unfold deg2rad; ring
    have e2 : deg2rad (-A.inc) = -(A.inc * Real.pi / 180) := by unfold deg2rad; ring
    rw [e1, e2, Real.sin_neg, Real.cos_neg]
    simp [XR.fin_mul]

/-- The hypotheses of `C85_rays` are met. -/
example (b : Backend) (q s d : Bool) {I : ℝ} (hI : s = true → I ≠ 0) (t p τ ω N : ℝ) {n : ℕ} (hn : n ≠ 0) : ∃ w A,
    Drawn3D (fun _ => False) 0 n w A ∧ A.contribs = ['t', 's', 'v'] ∧
    ∀ res, (calcOp 0 [] (step (.setIntQ 0 (decide ('i' ∈ A.contribs))) w).2).1 = .ok res → Drawable A.contribs res := by
  obtain ⟨A, w', h⟩ := num_slides b q s d hI t p τ ω N hn []
  obtain ⟨A1, w1, h1, h⟩ := bind_ok_inv h
  have hc : A1.contribs = _ := (analyze3d_fields h1).2
  refine ⟨w1, A1, .start (num_reachable ..) h1, hc, fun res hres => ?_⟩
  have := num_drawable b q s d hI t p τ ω N hn (cs := ['t', 's', 'v']) (by simp) (fun c hc => by
    simp only [List.mem_cons, List.not_mem_nil, or_false] at hc
    rcases hc with rfl | rfl | rfl
    · exact ⟨0, .total⟩
    · exact ⟨1, .surface⟩
    · exact ⟨2, .volume⟩) (by simp) res
  rw [h1] at this
  rw [hc] at hres ⊢
  exact this hres

/-! ### Lobes -/

theorem unit_dot_le (u v : ℝ × ℝ × ℝ) (hu : Phase.dot u u = 1) (hv : Phase.dot v v = 1) :
    Phase.dot u v ≤ 1 ∧ (Phase.dot u v = 1 ↔ v = u) := by
  obtain ⟨a, b, c⟩ := u
  obtain ⟨d, e, f⟩ := v
  simp only [Phase.dot, Prod.mk.injEq] at *
  have key : (a - d) ^ 2 + (b - e) ^ 2 + (c - f) ^ 2 = 2 - 2 * (a * d + b * e + c * f) := by nlinarith
  refine ⟨by nlinarith [sq_nonneg (a - d), sq_nonneg (b - e), sq_nonneg (c - f)], fun h => ?_, ?_⟩
  · rw [h] at key
    have h1 : (a - d) ^ 2 = 0 := by nlinarith [sq_nonneg (a - d), sq_nonneg (b - e), sq_nonneg (c - f)]
    have h2 : (b - e) ^ 2 = 0 := by nlinarith [sq_nonneg (a - d), sq_nonneg (b - e), sq_nonneg (c - f)]
    have h3 : (c - f) ^ 2 = 0 := by nlinarith [sq_nonneg (a - d), sq_nonneg (b - e), sq_nonneg (c - f)]
    rw [sq_eq_zero_iff, sub_eq_zero] at h1 h2 h3
    exact ⟨h1.symm, h2.symm, h3.symm⟩
  · rintro ⟨rfl, rfl, rfl⟩
    linarith

theorem unitVec_dot (t p : ℝ) : Phase.dot (Phase.unitVec t p) (Phase.unitVec t p) = 1 := by
  simp only [Phase.dot, Phase.unitVec]
  nlinarith [Real.sin_sq_add_cos_sq t, Real.sin_sq_add_cos_sq p,
    show Real.sin t * Real.cos p * (Real.sin t * Real.cos p) + Real.sin t * Real.sin p * (Real.sin t * Real.sin p)
      = Real.sin t ^ 2 * (Real.sin p ^ 2 + Real.cos p ^ 2) by ring]

/-- The Henyey-Greenstein function grows with the cosine if `t` is positive, and falls if it is
negative. -/
theorem hg_lt {c t x y : ℝ} (hc : 0 < c) (ht : |t| < 1) (hx : |x| ≤ 1) (hy : |y| ≤ 1) (h : t * x < t * y) :
    Phase.hg c t x < Phase.hg c t y := by
  have h1 := hg_base_pos ht hx
  have h2 := hg_base_pos ht hy
  have ht2 : 0 < 1 - t ^ 2 := by nlinarith [sq_abs t, abs_nonneg t]
  unfold Phase.hg
  refine mul_lt_mul_of_pos_left ?_ (by positivity)
  refine div_lt_div_of_pos_left ht2 (Real.rpow_pos_of_pos h2 _) (Real.rpow_lt_rpow h2.le (by linarith) (by norm_num))

/-- **C85** (specular lobe): the default Henyey-Greenstein surface function with `0 < t` is largest in the
direction of the dashed line and nowhere else. -/
theorem C85_specular {te : Expr} {nc : Option ℕ} {x : Site} {t f f0 : ℝ} (ht0 : 0 < t) (ht1 : t < 1)
    (hx : te.Is x.env t) (hx0 : te.Is (x.toward x.t0 x.p0).env t)
    (hf : (Scatter.prim (.srfHG te) srfA nc).ValueAt x f)
    (hf0 : (Scatter.prim (.srfHG te) srfA nc).ValueAt (x.toward x.t0 x.p0) f0) :
    f ≤ f0 ∧ (f = f0 ↔ Phase.unitVec x.tex x.pex = Phase.unitVec x.t0 x.p0) := by
  have habs : |t| < 1 := abs_lt.mpr ⟨by linarith, ht1⟩
  have ha : ∀ y : Site, srfA.Is y.env 1 1 1 := fun y => ⟨⟨trivial, rfl⟩, ⟨trivial, rfl⟩, ⟨trivial, rfl⟩⟩
  have v1 := Kind.valueAt (k := .srfHG te) (nc := nc) (ha x) (by simp) hx habs (fun h => h)
  have v2 := Kind.valueAt (k := .srfHG te) (nc := nc) (ha (x.toward x.t0 x.p0)) (by simp) hx0 habs (fun h => h)
  have e1 : f = Phase.hg Real.pi t (Phase.cosTheta 1 1 1 x.t0 x.tex x.p0 x.pex) := XR.fin.inj (hf.symm.trans v1)
  have e2 : f0 = Phase.hg Real.pi t (Phase.cosTheta 1 1 1 x.t0 x.t0 x.p0 x.p0) := XR.fin.inj (hf0.symm.trans v2)
  have d : ∀ a b, Phase.cosTheta 1 1 1 x.t0 a x.p0 b = Phase.dot (Phase.unitVec x.t0 x.p0) (Phase.unitVec a b) := by
    intro a b
    simp only [Phase.cosTheta, Phase.dot, Phase.unitVec]
    ring
  have c1 := cosTheta_le (a0 := 1) (by simp) x.t0 x.tex x.p0 x.pex
  have c2 := cosTheta_le (a0 := 1) (by simp) x.t0 x.t0 x.p0 x.p0
  obtain ⟨k1, k2⟩ := unit_dot_le (Phase.unitVec x.t0 x.p0) (Phase.unitVec x.tex x.pex) (unitVec_dot _ _) (unitVec_dot _ _)
  rw [e1, e2]
  rw [← k2]
  rw [d] at c1 c2 ⊢
  rw [d, unitVec_dot] at *
  rcases k1.eq_or_lt with h | h
  · rw [h]; simp
  · have := hg_lt Real.pi_pos habs c1 c2 (mul_lt_mul_of_pos_left h ht0)
    exact ⟨this.le, fun e => absurd e this.ne, fun e => absurd e h.ne⟩

/-- **C85** (back lobe): the default Henyey-Greenstein volume function is smallest in the direction of the
solid line if `0 < t`, and largest there if `t < 0`. -/
theorem C85_backscatter {te : Expr} {nc : Option ℕ} {x : Site} {t f f0 : ℝ} (ht : t ≠ 0) (ht1 : |t| < 1)
    (hx : te.Is x.env t) (hx0 : te.Is (x.toward x.t0 (x.p0 + Real.pi)).env t)
    (hf : (Scatter.prim (.volHG te) volA nc).ValueAt x f)
    (hf0 : (Scatter.prim (.volHG te) volA nc).ValueAt (x.toward x.t0 (x.p0 + Real.pi)) f0) :
    (0 < t → f0 ≤ f) ∧ (t < 0 → f ≤ f0) ∧
      (f = f0 ↔ Phase.unitVec x.tex x.pex = Phase.unitVec x.t0 (x.p0 + Real.pi)) := by
  have ha : ∀ y : Site, volA.Is y.env (-1) 1 1 := fun y => ⟨⟨trivial, rfl⟩, ⟨trivial, rfl⟩, ⟨trivial, rfl⟩⟩
  have v1 := Kind.valueAt (k := .volHG te) (nc := nc) (ha x) (by simp) hx ht1 (fun h => h)
  have v2 := Kind.valueAt (k := .volHG te) (nc := nc) (ha (x.toward x.t0 (x.p0 + Real.pi))) (by simp) hx0 ht1 (fun h => h)
  have e1 : f = Phase.hg (4 * Real.pi) t (Phase.cosTheta (-1) 1 1 x.t0 x.tex x.p0 x.pex) := XR.fin.inj (hf.symm.trans v1)
  have e2 : f0 = Phase.hg (4 * Real.pi) t (Phase.cosTheta (-1) 1 1 x.t0 x.t0 x.p0 (x.p0 + Real.pi)) :=
    XR.fin.inj (hf0.symm.trans v2)
  have d : ∀ a b, Phase.cosTheta (-1) 1 1 x.t0 a x.p0 b =
      -Phase.dot (Phase.unitVec x.t0 (x.p0 + Real.pi)) (Phase.unitVec a b) := by
    intro a b
    simp only [Phase.cosTheta, Phase.dot, Phase.unitVec, Real.cos_add_pi, Real.sin_add_pi]
    ring
  have c1 := cosTheta_le (a0 := -1) (by simp) x.t0 x.tex x.p0 x.pex
  have c2 := cosTheta_le (a0 := -1) (by simp) x.t0 x.t0 x.p0 (x.p0 + Real.pi)
  obtain ⟨k1, k2⟩ := unit_dot_le (Phase.unitVec x.t0 (x.p0 + Real.pi)) (Phase.unitVec x.tex x.pex) (unitVec_dot _ _)
    (unitVec_dot _ _)
  rw [e1, e2, ← k2]
  rw [d] at c1 c2 ⊢
  rw [d, unitVec_dot] at *
  rcases k1.eq_or_lt with h | h
  · rw [h]; simp
  · rcases lt_or_gt_of_ne ht with h0 | h0
    · have := hg_lt (c := 4 * Real.pi) (by positivity) ht1 c1 c2 (by nlinarith)
      exact ⟨fun h => absurd h h0.not_gt, fun _ => this.le, fun e => absurd e this.ne, fun e => absurd e h.ne⟩
    · have := hg_lt (c := 4 * Real.pi) (by positivity) ht1 c2 c1 (by nlinarith)
      exact ⟨fun _ => this.le, fun h => absurd h h0.not_gt, fun e => absurd e this.ne', fun e => absurd e h.ne⟩

/-- The hypotheses of `C85_specular` and `C85_backscatter` are met: at every site, for every `t`. -/
example (x : Site) {t : ℝ} (ht0 : 0 < t) (ht1 : t < 1) :
    (∃ f f0, (Scatter.prim (.srfHG (.num t)) srfA none).ValueAt x f ∧
      (Scatter.prim (.srfHG (.num t)) srfA none).ValueAt (x.toward x.t0 x.p0) f0 ∧
      (Expr.num t).Is x.env t ∧ (Expr.num t).Is (x.toward x.t0 x.p0).env t) ∧
    ∃ f f0, (Scatter.prim (.volHG (.num t)) volA none).ValueAt x f ∧
      (Scatter.prim (.volHG (.num t)) volA none).ValueAt (x.toward x.t0 (x.p0 + Real.pi)) f0 := by
  have habs : |t| < 1 := abs_lt.mpr ⟨by linarith, ht1⟩
  have ha : ∀ y : Site, srfA.Is y.env 1 1 1 := fun y => ⟨⟨trivial, rfl⟩, ⟨trivial, rfl⟩, ⟨trivial, rfl⟩⟩
  have hb : ∀ y : Site, volA.Is y.env (-1) 1 1 := fun y => ⟨⟨trivial, rfl⟩, ⟨trivial, rfl⟩, ⟨trivial, rfl⟩⟩
  have ht : ∀ y : Site, (Expr.num t).Is y.env t := fun y => ⟨trivial, rfl⟩
  exact ⟨⟨_, _, Kind.valueAt (k := .srfHG (.num t)) (ha x) (by simp) (ht x) habs (fun h => h),
    Kind.valueAt (k := .srfHG (.num t)) (ha _) (by simp) (ht _) habs (fun h => h), ht x, ht _⟩,
    _, _, Kind.valueAt (k := .volHG (.num t)) (hb x) (by simp) (ht x) habs (fun h => h),
    Kind.valueAt (k := .volHG (.num t)) (hb _) (by simp) (ht _) habs (fun h => h)⟩

end

end RT1
