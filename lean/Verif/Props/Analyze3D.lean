import Verif.Props.Analyze
import Verif.Lemmas.DrawNum

/-!
# The surfaces of the 3D analyzer (C68)
-/

namespace RT1

noncomputable section
open Classical

/-- **C68**: a 3D analyzer shows one surface for each requested contribution, in the given order.
The point of the surface for the exit angle `t` and the azimuth `p` of the grid lies in this direction
(`x = r sin t cos p`, `y = r sin t sin p`, `z = r cos t`) at the distance `r`, the entry of the row
that belongs to the contribution of what `calc` returns for the values of the sliders, with
`int_Q` set to whether the interaction term is requested.  The object has the incidence angle of
the slider everywhere and the angles of the grid as exit angles. -/
theorem C68_surfaces {P : Op → Prop} {id n : ℕ} (hP : ∀ op, P op → ¬ MovesAngles id op) {w : World} {A : Analyzer3D}
    (h : Drawn3D P id n w A) : ∃ res S o a,
      (calcOp id ((A.sliders.filter fun p => decide (p.1 ≠ "inc")).map fun p => (p.1, Arr.lit p.2.val))
        (step (.setIntQ id (decide ('i' ∈ A.contribs))) w).2).1 = .ok res ∧
      res.shape = S ++ [if 'i' ∈ A.contribs then 4 else 3] ∧ Arr.Fits [n, n] S ∧
      w.objs id = some o ∧ o.ang .t0 = some a ∧ a.shape = [n, n] ∧ (∀ i, a.get i = XR.fin (A.inc * (Real.pi / 180))) ∧
      A.surfaces.length = A.contribs.length ∧
      ∀ (j : ℕ) (c : Char), A.contribs[j]? = some c → ∃ (k : ℕ) (x y z : Arr), Shows c k ∧ A.surfaces[j]? = some (x, y, z) ∧
        x.shape = S ∧ y.shape = S ∧ z.shape = S ∧ ∀ idx, Arr.Valid S idx →
          x.get idx = res.get (idx ++ [k]) * XR.fin (Real.sin (gridPolar n (idx.getD 0 0))) *
            XR.fin (Real.cos (gridAzimuth n (idx.getD 1 0))) ∧
          y.get idx = res.get (idx ++ [k]) * XR.fin (Real.sin (gridPolar n (idx.getD 0 0))) *
            XR.fin (Real.sin (gridAzimuth n (idx.getD 1 0))) ∧
          z.get idx = res.get (idx ++ [k]) * XR.fin (Real.cos (gridPolar n (idx.getD 0 0))) := by
  obtain ⟨w0, A0, o, o', res, x, y, z, ks, hw, g, hU⟩ := h.upd hP
  obtain ⟨hw', -⟩ := h.session.grid hP
  obtain ⟨S, s1, s2, s3, s4⟩ := hU.picture
  have e : nrows (decide ('i' ∈ A.contribs)) = if 'i' ∈ A.contribs then 4 else 3 := by
    unfold nrows
    simp
  refine ⟨res, S, _, fullLike (analyze3dTex n) (deg2rad A0.inc), (hU.again hw hw').1, by rw [← e]; exact s1, s2,
    hU.after, ?_, rfl, fun _ => ?_, s3, s4⟩
  · show o'.ang .t0 = some (fullLike (analyze3dTex n) (deg2rad A0.inc))
    rw [hU.filled.ang]
    simp [Obj.at3d]
  · rw [hU.inc]
    rfl

/-- **C68** (distance): where the row has a finite value, the drawn point has this distance from the
origin. -/
theorem C68_distance {P : Op → Prop} {id n : ℕ} (hP : ∀ op, P op → ¬ MovesAngles id op) {w : World} {A : Analyzer3D}
    (h : Drawn3D P id n w A) {j : ℕ} {c : Char} (hj : A.contribs[j]? = some c) : ∃ (res : Arr) (S : List ℕ) (k : ℕ)
      (x y z : Arr),
      (calcOp id ((A.sliders.filter fun p => decide (p.1 ≠ "inc")).map fun p => (p.1, Arr.lit p.2.val))
        (step (.setIntQ id (decide ('i' ∈ A.contribs))) w).2).1 = .ok res ∧ Shows c k ∧
      res.shape.dropLast = S ∧ A.surfaces[j]? = some (x, y, z) ∧
      ∀ idx r, Arr.Valid S idx → res.get (idx ++ [k]) = XR.fin r →
        ∃ a b c, x.get idx = XR.fin a ∧ y.get idx = XR.fin b ∧ z.get idx = XR.fin c ∧ a ^ 2 + b ^ 2 + c ^ 2 = r ^ 2 := by
  obtain ⟨res, S, o, a, h1, h2, -, -, -, -, -, -, h3⟩ := C68_surfaces hP h
  obtain ⟨k, x, y, z, e1, e2, -, -, -, e3⟩ := h3 j c hj
  refine ⟨res, S, k, x, y, z, h1, e1, by rw [h2]; simp, e2, fun idx r hv hr => ?_⟩
  obtain ⟨f1, f2, f3⟩ := e3 idx hv
  rw [hr] at f1 f2 f3
  refine ⟨_, _, _, f1, f2, f3, ?_⟩
  have s1 := Real.sin_sq_add_cos_sq (gridPolar n (idx.getD 0 0))
  have s2 := Real.sin_sq_add_cos_sq (gridAzimuth n (idx.getD 1 0))
  generalize Real.sin (gridPolar n (idx.getD 0 0)) = a at *
  generalize Real.cos (gridPolar n (idx.getD 0 0)) = b at *
  generalize Real.sin (gridAzimuth n (idx.getD 1 0)) = c at *
  generalize Real.cos (gridAzimuth n (idx.getD 1 0)) = d at *
  linear_combination r ^ 2 * a ^ 2 * s2 + r ^ 2 * s1

/-- **C64** (3D): if a symbol of the model has neither a slider nor a value, creating the analyzer
fails with a message that lists exactly these symbols. -/
theorem C64_missing3d {w : World} (hw : Reachable w) {id n : ℕ} {o : Obj} (ho : w.objs id = some o)
    {cs : List Char} {ps : List (String × List SliderArg)} (hcs : ∀ c ∈ cs, ∃ k, Shows c k)
    (hm : ∃ s, o.Needs s ∧ s ∉ ps.map Prod.fst ∧ s ∉ o.params.keys) :
    ∃ l, (analyze3d id n cs ps w).1 = .error (.assertMissing l) ∧
      ∀ s, s ∈ l ↔ o.Needs s ∧ s ∉ ps.map Prod.fst ∧ s ∉ o.params.keys := by
  obtain ⟨w2, o2, r2, ho2, -, hst, -, e⟩ := analyze3d_start (n := n) (ps := ps) hw ho hcs
  have hp : o2.params = o.params := (params_still hst :)
  have hN : ∀ s, o2.Needs s ↔ o.Needs s := fun s => (needs_still hst s :)
  obtain ⟨l, hl, hl'⟩ := checkParams_missing r2 ho2 (names := ps.map Prod.fst)
    (by simpa only [hN, hp] using hm)
  refine ⟨l, ?_, fun n => by rw [hl' n, hN, hp]⟩
  rw [e]
  have : (analyzerSliders id ps w2) = (.error (.assertMissing l), (checkParams id (ps.map Prod.fst) w2).2) := by
    unfold analyzerSliders
    rw [bind_error (Prod.ext hl rfl : checkParams id (ps.map Prod.fst) w2 = (.error (.assertMissing l), _))]
  rw [bind_error this]

/-- The case is met: only tau has a value, omega has a slider; NormBRDF is missing. -/
example (n : ℕ) (t p : ℝ) : ∃ l, (analyze3d 0 n ['t', 'v'] [("omega", [.number 0, .number 1])]
    (demoW .sympy isoV isoS false false false (arr1 1) (arr1 t) (arr1 p) [("tau", Arr.lit 1)])).1 =
      .error (.assertMissing l) ∧ "NormBRDF" ∈ l := by
  have ho := demo_objs .sympy isoV isoS false false false (arr1 1) (arr1 t) (arr1 p) [("tau", Arr.lit 1)]
  have hn := needs_default (o := demoObj isoV isoS false false false (arr1 1) (arr1 t) (arr1 p) [("tau", Arr.lit 1)])
    rfl isoV_plain isoS_plain
  have hk : (demoObj isoV isoS false false false (arr1 1) (arr1 t) (arr1 p) [("tau", Arr.lit 1)]).params.keys =
      ["bsf", "tau"] := by simp [demoObj, Dict.update, Dict.set, Dict.keys]
  obtain ⟨l, h1, h2⟩ := C64_missing3d (n := n) (cs := ['t', 'v']) (ps := [("omega", [.number 0, .number 1])])
    (demo_reachable ..) ho (by
      intro c hc
      simp only [List.mem_cons, List.not_mem_nil, or_false] at hc
      rcases hc with rfl | rfl
      · exact ⟨_, .total⟩
      · exact ⟨_, .volume⟩)
    ⟨"NormBRDF", (hn _).mpr (by simp), by simp, by rw [hk]; simp⟩
  exact ⟨l, h1, (h2 _).mpr ⟨(hn _).mpr (by simp), by simp, by rw [hk]; simp⟩⟩

/-- **C64** (3D): an analyzer that was created has sliders for exactly those supplied parameters that
the model uses, in the order given, with the given ranges and start values; all other symbols have a
value in the object.  The incidence angle starts at 45°. -/
theorem C64_sliders3d {w w' : World} (hw : Reachable w) {id n : ℕ} {o : Obj} (ho : w.objs id = some o)
    {cs : List Char} {ps : List (String × List SliderArg)} {A : Analyzer3D}
    (h : analyze3d id n cs ps w = (.ok A, w')) :
    List.Forall₂ (fun p q => q.1 = p.1 ∧ SliderFor p.2 q.2)
      (ps.filter fun p => decide (o.Needs p.1)) A.sliders ∧
    (∀ s, o.Needs s → s ∈ A.sliders.map Prod.fst ∨ s ∈ o.params.keys) ∧ A.inc = 45 := by
  obtain ⟨hinc, -⟩ := analyze3d_fields h
  obtain ⟨w2, o2, r2, ho2, -, hst, -, e⟩ := analyze3d_start (n := n) (ps := ps) hw ho (analyze3d_shows h)
  rw [e] at h
  obtain ⟨sl, w5, hsl, h⟩ := bind_ok_inv h
  have hs : A.sliders = sl := (update3_fields (first3_ok h).1).2.1
  have hp : o2.params = o.params := (params_still hst :)
  have hN : ∀ s, o2.Needs s ↔ o.Needs s := fun s => (needs_still hst s :)
  obtain ⟨h1, l, h2, h3⟩ := analyzerSliders_ok r2 ho2 hsl
  have hf := mkSliders_for h2 h3
  simp only [hN] at h1 hf
  rw [hp] at h1
  have hnames : ∀ n, n ∈ sl.map Prod.fst ↔ n ∈ ps.map Prod.fst ∧ o.Needs n := by
    intro n
    rw [mkSliders_keys h3, parseParameters_keys h2]
    simp only [hN, List.mem_map, List.mem_filter, decide_eq_true_eq]
    constructor
    · rintro ⟨p, ⟨hp, hn⟩, rfl⟩; exact ⟨⟨p, hp, rfl⟩, hn⟩
    · rintro ⟨⟨p, hp, rfl⟩, hn⟩; exact ⟨p, ⟨hp, hn⟩, rfl⟩
  rw [hs]
  exact ⟨hf, fun n hn => (h1 n hn).imp (fun h => (hnames n).mpr ⟨h, hn⟩) fun h => h, hinc⟩

/-- **C64** (3D, partial): if every symbol of the model has a slider (not named "inc") or a value in the
object, all tuples are numeric, the values that have no slider fit the angles of the grid, the letters
are known, the interaction term is not requested, and of the values to draw at the start some are numbers
and none is infinite (C85), then the 3D analyzer can be created and no sequence of moved sliders raises
an exception. -/
theorem C64_works3d_partial {w : World} (hw : Reachable w) {id n : ℕ} (hn : n ≠ 0) {o : Obj} (ho : w.objs id = some o)
    {cs : List Char} {ps : List (String × List SliderArg)} (hne : cs ≠ []) (hcs : ∀ c ∈ cs, ∃ k, Shows c k)
    (hi : 'i' ∉ cs)
    (hneeds : ∀ s, o.Needs s → (s ∈ ps.map Prod.fst ∧ s ≠ "inc") ∨ s ∈ o.params.keys)
    (hnum : ∀ p ∈ ps, ∃ a b rest, p.2 = .number a :: .number b :: rest ∧
      (rest = [] ∨ ∃ c r, rest = .number c :: r))
    (hI : Arr.Fits o.I0.shape [n, n])
    (hpar : ∀ k x, o.params.get? k = some x → k ∉ ps.map Prod.fst ∨ ¬ o.Needs k ∨ k = "inc" → Arr.Fits x.shape [n, n])
    (hdef : ∀ p, match o.pdef p with
      | .val x => Arr.Fits x.shape [n, n]
      | .str e => ∀ s ∈ e.free, s ∉ ["theta_0", "theta_ex", "phi_0", "phi_ex"]
      | .basic e => e.free = [])
    (hdraw : ∀ res, (calcOp id [] (step (.setIntQ id (decide ('i' ∈ cs))) (analyze3d id n cs ps w).2).2).1 = .ok res →
      Drawable cs res) (evs : List (String × ℝ)) :
    ∃ A w', (analyze3d id n cs ps >>= fun A => evs.foldlM (fun A e => A.slide id e.1 e.2) A) w = (.ok A, w') := by
  obtain ⟨sl, w3, o3, A1, w1, o1, ⟨r3, ho3, -, -, h3⟩, -, he, e1, r1, ho1, c1, h1⟩ :=
    works3_start hw hn ho hne hcs hi hneeds hnum hI hpar hdef
  obtain ⟨A, w', e2⟩ := Ready3.slides (evs := evs) hn r1 ho1 h1 (by rw [c1]; exact hne) (by rw [c1]; exact hcs)
    (by rw [c1]; exact hi)
  have he1 := created3 r3 ho3 h3.grid he e1 r1 c1 hdraw
  exact ⟨A, w', by rw [bind_ok he1]; exact e2⟩

/-- Numbers as parameters: what the 3D analyzer draws first can be drawn. -/
theorem num_drawable (b : Backend) (q s d : Bool) {I : ℝ} (hI : s = true → I ≠ 0) (t p τ ω N : ℝ) {n : ℕ} (hn : n ≠ 0)
    {cs : List Char} (hne : cs ≠ []) (hcs : ∀ c ∈ cs, ∃ k, Shows c k) (hi : 'i' ∉ cs) (res : Arr)
    (hres : (calcOp 0 [] (step (.setIntQ 0 (decide ('i' ∈ cs)))
      (analyze3d 0 n cs [("tau", [.number 0, .number 1])] (numW b isoV isoS q s d I t p τ ω N)).2).2).1 = .ok res) :
    Drawable cs res := by
  obtain ⟨v, w3, o3, A1, w1, ⟨r3, ho3, hv, hst, h3⟩, he, e1, r1, c1⟩ :=
    num_start b isoV_plain isoS_plain q s d I t p τ ω N hn hne hcs hi
  have hcalc := drawn_of r3 ho3 h3.grid he e1 r1 c1 hres
  have hc := h3.complete [("tau", v)] 45 (decide ('i' ∈ cs)) rfl
  obtain ⟨res', hres', hs⟩ := hc.calcAll_three w3.backend (a := fullLike (analyze3dTex n) (deg2rad 45))
    (by simp [Obj.at3d]) rfl (by simp [Obj.at3d, hi])
  have : res' = res := by
    have := hres'.symm.trans hcalc
    cases this; rfl
  subst this
  refine firstOrder_drawable hcalc (by simp [Obj.at3d, hi]) ?_ hs ⟨[0, 0], ?_⟩ (fun idx hi => ?_) hcs hi hne
  · simp only [Obj.still, Prod.mk.injEq] at hst
    exact hst.2.2.2.2.2.1
  · exact .cons (Nat.pos_of_ne_zero hn) (.cons (Nat.pos_of_ne_zero hn) .nil)
  · have hf := num_fsite w3.backend hst h3.grid 45 _ hc hi
    simp only [Obj.still, Prod.mk.injEq] at hst
    have hlt : idx.getD 0 0 < n := by rcases hi with _ | ⟨h, _⟩; exact h
    have h1 : 0 < (numSite n 45 I v.val ω N idx).mu0 := cos45
    have h2 : 0 < (numSite n 45 I v.val ω N idx).muEx := gridPolar_cos hlt
    refine ⟨_, 1 / Real.pi, 1 / (4 * Real.pi), hf, ?_, ?_, ⟨h1.ne', h2.ne', (add_pos h1 h2).ne', ?_⟩, ?_⟩
    · show o3.SRF.ValueAt _ _
      rw [hst.2.1]
      rfl
    · show o3.V.ValueAt _ _
      rw [hst.1]
      rfl
    · show o3.sig0 = true → I ≠ 0
      rw [hst.2.2.2.1]
      exact hI
    · show 0 ≤ v.val
      rw [hv]
      norm_num

/-- Numbers as parameters: every sequence of moved sliders succeeds. -/
theorem num_slides (b : Backend) (q s d : Bool) {I : ℝ} (hI : s = true → I ≠ 0) (t p τ ω N : ℝ) {n : ℕ} (hn : n ≠ 0)
    (evs : List (String × ℝ)) :
    ∃ A w', (analyze3d 0 n ['t', 's', 'v'] [("tau", [.number 0, .number 1])] >>= fun A =>
      evs.foldlM (fun A e => A.slide 0 e.1 e.2) A) (numW b isoV isoS q s d I t p τ ω N) = (.ok A, w') := by
  have hcs : ∀ c ∈ ['t', 's', 'v'], ∃ k, Shows c k := fun c hc => by
    simp only [List.mem_cons, List.not_mem_nil, or_false] at hc
    rcases hc with rfl | rfl | rfl
    · exact ⟨0, .total⟩
    · exact ⟨1, .surface⟩
    · exact ⟨2, .volume⟩
  have hneeds : ∀ k, (numObj isoV isoS q s d I t p τ ω N).Needs k →
      (k ∈ [("tau", [SliderArg.number 0, SliderArg.number 1])].map Prod.fst ∧ k ≠ "inc") ∨
      k ∈ (numObj isoV isoS q s d I t p τ ω N).params.keys := fun n h => by
    rw [num_needs isoV isoS q s d I t p τ ω N isoV_plain isoS_plain] at h
    rw [num_keys]
    rcases h with rfl | rfl | rfl | rfl <;> simp
  have hnum : ∀ p ∈ [("tau", [SliderArg.number 0, SliderArg.number 1])], ∃ a b rest,
      p.2 = .number a :: .number b :: rest ∧ (rest = [] ∨ ∃ c r, rest = .number c :: r) := fun p hp => by
    rw [List.mem_singleton.mp hp]
    exact ⟨0, 1, [], rfl, .inl rfl⟩
  have hpar : ∀ k x, (numObj isoV isoS q s d I t p τ ω N).params.get? k = some x →
      k ∉ [("tau", [SliderArg.number 0, SliderArg.number 1])].map Prod.fst ∨
      ¬ (numObj isoV isoS q s d I t p τ ω N).Needs k ∨ k = "inc" → Arr.Fits x.shape [n, n] := fun k x hx _ => by
    rw [num_params] at hx
    have := Dict.mem_of_get? hx
    simp only [List.mem_cons, Prod.mk.injEq, List.not_mem_nil, or_false] at this
    rcases this with ⟨-, rfl⟩ | ⟨-, rfl⟩ | ⟨-, rfl⟩ | ⟨-, rfl⟩
    · trivial
    all_goals exact ⟨Or.inl rfl, trivial⟩
  have hdef : ∀ p', match (numObj isoV isoS q s d I t p τ ω N).pdef p' with
      | .val x => Arr.Fits x.shape [n, n]
      | .str e => ∀ s ∈ e.free, s ∉ ["theta_0", "theta_ex", "phi_0", "phi_ex"]
      | .basic e => e.free = [] := fun p => by
    rw [num_pdef]
    cases p <;> simp [defaultDefs, Expr.free]
  have hw : Reachable (numW b isoV isoS q s d I t p τ ω N) := num_reachable ..
  have hIs : Arr.Fits (numObj isoV isoS q s d I t p τ ω N).I0.shape [n, n] := ⟨Or.inl rfl, trivial⟩
  refine C64_works3d_partial hw hn (num_objs ..) (by simp) hcs (by simp) hneeds hnum hIs hpar hdef (num_drawable b q s d hI t p τ ω N hn
    (by simp) hcs (by simp)) evs

/-- The hypotheses of `C68_surfaces` and `C68_distance` are met: after the incidence angle was set to
30°, with `n` samples; there are three surfaces with `n * n` points each. -/
example (b : Backend) (q s d : Bool) {I : ℝ} (hI : s = true → I ≠ 0) (t p τ ω N : ℝ) {n : ℕ} (hn : n ≠ 0) :
    ∃ (w : World) (A : Analyzer3D)
    (x y z : Arr), Drawn3D (fun _ => False) 0 n w A ∧ A.inc = 30 ∧ A.surfaces.length = 3 ∧
    A.surfaces[2]? = some (x, y, z) ∧ Arr.Fits [n, n] x.shape := by
  obtain ⟨A, w', h⟩ := num_slides b q s d hI t p τ ω N hn [("inc", 30)]
  obtain ⟨A1, w1, h1, h⟩ := bind_ok_inv h
  rw [List.foldlM_cons] at h
  obtain ⟨A2, w2, h2, h⟩ := bind_ok_inv h
  have h : (.ok A2, w2) = ((.ok A, w') : Py Analyzer3D × World) := h
  cases h
  have hD : Drawn3D (fun _ => False) 0 n w' A := .slide "inc" 30 (.start (num_reachable ..) h1) h2
  have f1 := analyze3d_fields h1
  have f2 := update3_fields h2
  rw [if_pos rfl] at f2
  have hc : A.contribs = ['t', 's', 'v'] := f2.2.2.trans f1.2
  obtain ⟨res, S, o, a, -, -, e1, -, -, -, -, e2, e3⟩ := C68_surfaces (fun _ h => h.elim) hD
  obtain ⟨k, x, y, z, -, e4, e5, -⟩ := e3 2 'v' (by rw [hc]; rfl)
  exact ⟨w', A, x, y, z, hD, f2.1, by rw [e2, hc]; rfl, e4, by rw [e5]; exact e1⟩

end

end RT1
