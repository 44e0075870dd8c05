import Verif.Lemmas.Draw3
import Verif.Lemmas.AnalyzeY

/-!
# What the 3D analyzer draws for numbers as parameters
-/

namespace RT1

noncomputable section
open Classical

/-- The slider of the examples. -/
theorem num_slider {o : Obj} (h : o.Needs "tau") {l : List (String × SliderParams)} {sl : List (String × Slider)}
    (h1 : parseParameters ([("tau", [SliderArg.number 0, SliderArg.number 1])].filter fun p => decide (o.Needs p.1)) = .ok l)
    (h2 : mkSliders l = .ok sl) : ∃ v : Slider, sl = [("tau", v)] ∧ v.val = 1 / 2 := by
  rw [List.filter_cons_of_pos (by simpa using h)] at h1
  have e : l = [("tau", ⟨.number 0, .number 1, .number ((1 - 0) / 2), "tau"⟩)] := by
    have h1 : (Except.ok _ : Py _) = Except.ok l := h1
    exact (Except.ok.inj h1).symm
  subst e
  have h2 : (Except.ok _ : Py _) = Except.ok sl := h2
  rw [← Except.ok.inj h2]
  exact ⟨_, rfl, by norm_num⟩

theorem gridPolar_range {n i : ℕ} (hi : i < n) : 0 ≤ gridPolar n i ∧ gridPolar n i ≤ 89 * (Real.pi / 180) := by
  have hpi := Real.pi_pos
  have h0 : (0 : ℝ) ≤ i := Nat.cast_nonneg i
  have h1 : (i : ℝ) ≤ n - 1 := by
    have : i + 1 ≤ n := hi
    have : ((i + 1 : ℕ) : ℝ) ≤ n := by exact_mod_cast this
    push_cast at this
    linarith
  unfold gridPolar
  have h2 : 89 * i / (n - 1 : ℝ) ≤ 89 := by
    rcases (h0.trans h1).eq_or_lt with h | h
    · rw [← h]; simp
    · rw [div_le_iff₀ h]; nlinarith
  have h3 : 0 ≤ 89 * i / (n - 1 : ℝ) := div_nonneg (by linarith) (h0.trans h1)
  exact ⟨mul_nonneg h3 (by positivity), mul_le_mul_of_nonneg_right h2 (by positivity)⟩

theorem gridPolar_cos {n i : ℕ} (hi : i < n) : 0 < Real.cos (gridPolar n i) := by
  have hpi := Real.pi_pos
  obtain ⟨h1, h2⟩ := gridPolar_range hi
  exact Real.cos_pos_of_mem_Ioo ⟨by linarith, by linarith⟩

theorem cos45 : 0 < Real.cos (deg2rad 45) := by
  have hpi := Real.pi_pos
  unfold deg2rad
  exact Real.cos_pos_of_mem_Ioo ⟨by linarith, by linarith⟩

/-- Directions and parameters at a point of the grid. -/
def numSite (n : ℕ) (inc I τ ω N : ℝ) (idx : List ℕ) : Site :=
  ⟨deg2rad inc, gridPolar n (idx.getD 0 0), 0, gridAzimuth n (idx.getD 1 0), I, τ, ω, N, 0,
    fun k => if k = "tau" then τ else if k = "omega" then ω else if k = "NormBRDF" then N else 0⟩

theorem num_fsite (b : Backend) {V SRF : Scatter} {q s d : Bool} {I t p τ ω N : ℝ} {n : ℕ} {o3 : Obj}
    (hst : o3.still = Obj.still { numObj V SRF q s d I t p τ ω N with dB := false }) (g : Grid n o3) {v : Slider}
    (inc : ℝ) (q' : Bool)
    (hc : Complete ((Fresh.update o3 (sliderVals (noInc [("tau", v)]))).at3d n inc q') [n, n]) {idx : List ℕ}
    (hv : Arr.Valid [n, n] idx) :
    FSite b ((Fresh.update o3 (sliderVals (noInc [("tau", v)]))).at3d n inc q') idx (numSite n inc I v.val ω N idx) := by
  simp only [Obj.still, Prod.mk.injEq] at hst
  obtain ⟨-, -, hI, -, -, -, hpd, hpar⟩ := hst
  have hpar : o3.params = _ := hpar.trans (num_params V SRF q s d I t p τ ω N)
  have hpd : o3.pdef = defaultDefs := hpd
  have e : noInc [("tau", v)] = [("tau", v)] := by simp [noInc]
  have hP : ((Fresh.update o3 (sliderVals (noInc [("tau", v)]))).at3d n inc q').params =
      [("bsf", Arr.lit 0), ("tau", arr1 v.val), ("omega", arr1 ω), ("NormBRDF", arr1 N)] := by
    rw [Fresh.update_eq (by rw [hpar]; simp [Dict.keys]), e]
    simp [Obj.at3d, hpar, sliderVals, Dict.update, Dict.set, arr1]
  have hvals : ∀ k a, ((Fresh.update o3 (sliderVals (noInc [("tau", v)]))).at3d n inc q').params.get? k = some a →
      a.at' idx = XR.fin ((numSite n inc I v.val ω N idx).ρ k) := by
    intro k a hk
    rw [hP] at hk
    have := Dict.mem_of_get? hk
    simp only [List.mem_cons, Prod.mk.injEq, List.not_mem_nil, or_false] at this
    rcases this with ⟨rfl, rfl⟩ | ⟨rfl, rfl⟩ | ⟨rfl, rfl⟩ | ⟨rfl, rfl⟩
    · simp [numSite, Arr.at', Arr.lit, Arr.num]
    · simp [numSite, arr1_at]
    · simp [numSite, arr1_at]
    · simp [numSite, arr1_at]
  generalize ho : (Fresh.update o3 (sliderVals (noInc [("tau", v)]))).at3d n inc q' = oF at *
  have hpdF : oF.pdef = defaultDefs := by rw [← ho]; exact hpd
  have hkeys : oF.params.keys = ["bsf", "tau", "omega", "NormBRDF"] := by rw [hP]; rfl
  have hparv : ∀ (p : PName) (k : String), defaultDefs p = .str (.sym k) → k ∈ oF.params.keys →
      HasVal (Fresh.par b oF p) idx ((numSite n inc I v.val ω N idx).ρ k) := by
    intro p k hp hk
    refine HasVal.of_succ (hc.s_par b p) ?_
    have h1 := PW.parStr (b := b) (e := .sym k) (by rw [hpdF, hp]) idx
    refine fun z hz => (h1 z hz).trans ?_
    obtain ⟨a, ha⟩ := Dict.get?_of_mem hk
    show Dict.valAt _ _ _ = _
    unfold Dict.valAt
    rw [ha]
    exact hvals k a ha
  have hmono : oF.mono = false := by rw [← ho]; exact g.mono
  obtain ⟨g1, g2⟩ := grid_polar n idx (Arr.Fits.refl _) hv
  have ht0 : oF.ang .t0 = some (fullLike (analyze3dTex n) (deg2rad inc)) := by rw [← ho]; simp [Obj.at3d]
  have htex : oF.ang .tex = some (analyze3dTex n) := by rw [← ho]; simp [Obj.at3d]; exact g.tex
  have hpex : oF.ang .pex = some (analyze3dPex n) := by rw [← ho]; simp [Obj.at3d]; exact g.pex
  have hp0 : oF.ang .p0 = some (arr1 0) := by rw [← ho]; simp [Obj.at3d]; exact g.p0
  refine ⟨⟨_, by unfold Fresh.ang; rw [ht0], rfl⟩, ⟨analyze3dTex n, ?_, g1⟩, ⟨arr1 0, by unfold Fresh.ang; rw [hp0], arr1_at _ _⟩,
    ⟨analyze3dPex n, ?_, g2⟩, hparv .tau "tau" rfl (by rw [hkeys]; simp), hparv .omega "omega" rfl (by rw [hkeys]; simp),
    hparv .NormBRDF "NormBRDF" rfl (by rw [hkeys]; simp), hparv .bsf "bsf" rfl (by rw [hkeys]; simp), ?_, hvals⟩
  · unfold Fresh.tex Fresh.ang
    rw [if_neg (by simp [hmono]), htex]
  · unfold Fresh.pex Fresh.ang
    rw [if_neg (by simp [hmono]), hpex]
  · rw [← ho]
    show o3.I0.at' idx = _
    rw [hI]
    exact arr1_at _ _

/-- The start of the 3D analyzer for numbers as parameters. -/
theorem num_start (b : Backend) {V SRF : Scatter} (hV : V.Plain) (hS : SRF.Plain) (q s d : Bool) (I t p τ ω N : ℝ) {n : ℕ}
    (hn : n ≠ 0) {cs : List Char} (hne : cs ≠ []) (hcs : ∀ c ∈ cs, ∃ k, Shows c k) (hi : 'i' ∉ cs) :
    ∃ v w3 o3 A1 w1, (Reachable w3 ∧ w3.objs 0 = some o3 ∧ v.val = 1 / 2 ∧
      o3.still = Obj.still { numObj V SRF q s d I t p τ ω N with dB := false } ∧ Ready3 n ["tau"] o3) ∧
      analyze3d 0 n cs [("tau", [.number 0, .number 1])] (numW b V SRF q s d I t p τ ω N) =
        Analyzer3D.first 0 ⟨[("tau", v)], 45, cs, []⟩ w3 ∧
      Analyzer3D.update 0 ⟨[("tau", v)], 45, cs, []⟩ w3 = (.ok A1, w1) ∧ Reachable w1 ∧ A1.contribs = cs := by
  have hneeds : ∀ k, (numObj V SRF q s d I t p τ ω N).Needs k →
      (k ∈ [("tau", [SliderArg.number 0, SliderArg.number 1])].map Prod.fst ∧ k ≠ "inc") ∨
      k ∈ (numObj V SRF q s d I t p τ ω N).params.keys := fun n h => by
    rw [num_needs V SRF q s d I t p τ ω N hV hS] at h
    rw [num_keys]
    rcases h with rfl | rfl | rfl | rfl <;> simp
  have hnum : ∀ p ∈ [("tau", [SliderArg.number 0, SliderArg.number 1])], ∃ a b rest,
      p.2 = .number a :: .number b :: rest ∧ (rest = [] ∨ ∃ c r, rest = .number c :: r) := fun p hp => by
    rw [List.mem_singleton.mp hp]
    exact ⟨0, 1, [], rfl, .inl rfl⟩
  have hpar : ∀ k x, (numObj V SRF q s d I t p τ ω N).params.get? k = some x →
      k ∉ [("tau", [SliderArg.number 0, SliderArg.number 1])].map Prod.fst ∨
      ¬ (numObj V SRF q s d I t p τ ω N).Needs k ∨ k = "inc" → Arr.Fits x.shape [n, n] := fun k x hx _ => by
    rw [num_params] at hx
    have := Dict.mem_of_get? hx
    simp only [List.mem_cons, Prod.mk.injEq, List.not_mem_nil, or_false] at this
    rcases this with ⟨-, rfl⟩ | ⟨-, rfl⟩ | ⟨-, rfl⟩ | ⟨-, rfl⟩
    · trivial
    all_goals exact ⟨Or.inl rfl, trivial⟩
  have hdef : ∀ p', match (numObj V SRF q s d I t p τ ω N).pdef p' with
      | .val x => Arr.Fits x.shape [n, n]
      | .str e => ∀ s ∈ e.free, s ∉ ["theta_0", "theta_ex", "phi_0", "phi_ex"]
      | .basic e => e.free = [] := fun p => by
    rw [num_pdef]
    cases p <;> simp [defaultDefs, Expr.free]
  have hw : Reachable (numW b V SRF q s d I t p τ ω N) := num_reachable ..
  have hIs : Arr.Fits (numObj V SRF q s d I t p τ ω N).I0.shape [n, n] := ⟨Or.inl rfl, trivial⟩
  obtain ⟨sl, w3, o3, A1, w1, o1, ⟨r3, ho3, -, hst, h3⟩, ⟨l, l1, l2⟩, he, e1, r1, -, c1, -⟩ :=
    works3_start hw hn (num_objs ..) hne hcs hi hneeds hnum hIs hpar hdef
  obtain ⟨v, rfl, hv⟩ := num_slider (num_needs V SRF q s d I t p τ ω N hV hS _ |>.mpr (.inl rfl)) l1 l2
  exact ⟨v, w3, o3, A1, w1, ⟨r3, ho3, hv, hst, h3⟩, he, e1, r1, c1⟩

end

end RT1
