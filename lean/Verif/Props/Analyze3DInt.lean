import Verif.Props.Analyze3D
import Verif.Lemmas.DrawInt

/-!
# 3D analyzers that show the interaction term (C64)
-/

namespace RT1

noncomputable section
open Classical

/-- **C64** (3D, partial), also if the interaction term is requested: in addition to the conditions of
`C64_works3d_partial` no expansion coefficients were supplied, they can be computed for the geometry of
the widget, and the backend is symengine or some coefficient depends on an angle or a parameter
(otherwise `calc` fails for this number of axes, see C57).  As there, the values to draw first contain a
number and no infinity. -/
theorem C64_works3d_interaction_partial {w : World} (hw : Reachable w) {id n : ℕ} (hn : n ≠ 0) {o : Obj}
    (ho : w.objs id = some o) {cs : List Char} {ps : List (String × List SliderArg)} (hne : cs ≠ [])
    (hcs : ∀ c ∈ cs, ∃ k, Shows c k)
    (hneeds : ∀ s, o.Needs s → (s ∈ ps.map Prod.fst ∧ s ≠ "inc") ∨ s ∈ o.params.keys)
    (hnum : ∀ p ∈ ps, ∃ a b rest, p.2 = .number a :: .number b :: rest ∧
      (rest = [] ∨ ∃ c r, rest = .number c :: r))
    (hI : Arr.Fits o.I0.shape [n, n])
    (hpar : ∀ k x, o.params.get? k = some x → k ∉ ps.map Prod.fst ∨ ¬ o.Needs k ∨ k = "inc" → Arr.Fits x.shape [n, n])
    (hdef : ∀ p, match o.pdef p with
      | .val x => Arr.Fits x.shape [n, n]
      | .str e => ∀ s ∈ e.free, s ∉ ["theta_0", "theta_ex", "phi_0", "phi_ex"]
      | .basic e => e.free = [])
    (hfi : o.fnInput = none) (hfei : o.fnevalsInput = none)
    (hnV : ∃ n, o.V.ncoefs = .ok (n + 1)) (hnS : ∃ n, o.SRF.ncoefs = .ok (n + 1)) {fs : List P}
    (hfn : fnCoefs o.V o.SRF ⟨.sym "theta_0", .sym "theta_ex", .num 0, .sym "phi_ex"⟩ = .ok fs)
    (hcst : w.backend = .symengine ∨ ∃ p ∈ fs, ¬ isConstFn p)
    (hdraw : ∀ res, (calcOp id [] (step (.setIntQ id (decide ('i' ∈ cs))) (analyze3d id n cs ps w).2).2).1 = .ok res →
      Drawable cs res) (evs : List (String × ℝ)) :
    ∃ A w', (analyze3d id n cs ps >>= fun A => evs.foldlM (fun A e => A.slide id e.1 e.2) A) w = (.ok A, w') := by
  obtain ⟨sl, w3, o3, A1, w1, o1, ⟨r3, ho3, -, -, h3, -⟩, -, he, e1, r1, bk1, ho1, c1, h1⟩ :=
    works3_start_int hw hn ho hne hcs hneeds hnum hI hpar hdef hfi hfei hnV hnS hfn hcst
  have he1 := created3 r3 ho3 h3.base.grid he e1 r1 c1 hdraw
  obtain ⟨A, w', e2⟩ := Ready3I.slides (evs := evs) hn r1 bk1 ho1 h1 (by rw [c1]; exact hne) (by rw [c1]; exact hcs)
  exact ⟨A, w', by rw [bind_ok he1]; exact e2⟩

/-- The case is met by isotropic scattering and symengine. -/
theorem num_slides_int (q s d : Bool) {I : ℝ} (hI : s = true → I ≠ 0) (t p τ ω N : ℝ) {n : ℕ} (hn : n ≠ 0)
    (evs : List (String × ℝ)) :
    ∃ A w', (analyze3d 0 n ['t', 's', 'v', 'i'] [("tau", [.number 0, .number 1])] >>= fun A =>
      evs.foldlM (fun A e => A.slide 0 e.1 e.2) A) (numW .symengine isoV isoS q s d I t p τ ω N) = (.ok A, w') := by
  obtain ⟨fs, hfs⟩ := iso_fnCoefs ⟨.sym "theta_0", .sym "theta_ex", .num 0, .sym "phi_ex"⟩
  have hcs : ∀ c ∈ ['t', 's', 'v', 'i'], ∃ k, Shows c k := fun c hc => by
    simp only [List.mem_cons, List.not_mem_nil, or_false] at hc
    rcases hc with rfl | rfl | rfl | rfl
    · exact ⟨0, .total⟩
    · exact ⟨1, .surface⟩
    · exact ⟨2, .volume⟩
    · exact ⟨3, .interaction⟩
  have hneeds : ∀ k, (numObj isoV isoS q s d I t p τ ω N).Needs k →
      (k ∈ [("tau", [SliderArg.number 0, SliderArg.number 1])].map Prod.fst ∧ k ≠ "inc") ∨
      k ∈ (numObj isoV isoS q s d I t p τ ω N).params.keys := fun n h => by
    replace h := (num_needs isoV isoS q s d I t p τ ω N isoV_plain isoS_plain n).mp h
    rw [num_keys]
    rcases h with rfl | rfl | rfl | rfl <;> simp
  have hnum : ∀ p ∈ [("tau", [SliderArg.number 0, SliderArg.number 1])], ∃ a b rest,
      p.2 = .number a :: .number b :: rest ∧ (rest = [] ∨ ∃ c r, rest = .number c :: r) := fun p hp => by
    rw [List.mem_singleton.mp hp]
    exact ⟨0, 1, [], rfl, .inl rfl⟩
  have hpar : ∀ k x, (numObj isoV isoS q s d I t p τ ω N).params.get? k = some x →
      k ∉ [("tau", [SliderArg.number 0, SliderArg.number 1])].map Prod.fst ∨
      ¬ (numObj isoV isoS q s d I t p τ ω N).Needs k ∨ k = "inc" → Arr.Fits x.shape [n, n] := fun k x hx _ => by
    rw [num_params] at hx
    have := Dict.mem_of_get? hx
    simp only [List.mem_cons, Prod.mk.injEq, List.not_mem_nil, or_false] at this
    rcases this with ⟨-, rfl⟩ | ⟨-, rfl⟩ | ⟨-, rfl⟩ | ⟨-, rfl⟩
    · trivial
    all_goals exact ⟨Or.inl rfl, trivial⟩
  have hdef : ∀ p', match (numObj isoV isoS q s d I t p τ ω N).pdef p' with
      | .val x => Arr.Fits x.shape [n, n]
      | .str e => ∀ s ∈ e.free, s ∉ ["theta_0", "theta_ex", "phi_0", "phi_ex"]
      | .basic e => e.free = [] := fun p => by
    rw [num_pdef]
    cases p <;> simp [defaultDefs, Expr.free]
  have hw : Reachable (numW .symengine isoV isoS q s d I t p τ ω N) := num_reachable ..
  have hIs : Arr.Fits (numObj isoV isoS q s d I t p τ ω N).I0.shape [n, n] := ⟨Or.inl rfl, trivial⟩
  have hnV : ∃ n, (numObj isoV isoS q s d I t p τ ω N).V.ncoefs = .ok (n + 1) := ⟨0, isoV_ncoefs⟩
  have hnS : ∃ n, (numObj isoV isoS q s d I t p τ ω N).SRF.ncoefs = .ok (n + 1) := ⟨0, isoS_ncoefs⟩
  refine C64_works3d_interaction_partial (o := numObj isoV isoS q s d I t p τ ω N) hw hn (num_objs ..) (by simp) hcs
    hneeds hnum hIs hpar hdef rfl rfl hnV hnS hfs (Or.inl (num_backend ..)) (fun res hres => ?_) evs
  obtain ⟨sl, w3, o3, A1, w1, o1, ⟨r3, ho3, -, hst, h3, hg3⟩, ⟨l, l1, l2⟩, he, e1, r1, -, -, c1, -⟩ :=
    works3_start_int (o := numObj isoV isoS q s d I t p τ ω N) hw hn (num_objs ..) (by simp) hcs hneeds hnum hIs hpar hdef
      rfl rfl hnV hnS hfs (Or.inl (num_backend ..))
  have hcalc := drawn_of r3 ho3 h3.base.grid he e1 r1 c1 hres
  obtain ⟨v, rfl, hv⟩ := num_slider (num_needs isoV isoS q s d I t p τ ω N isoV_plain isoS_plain _ |>.mpr (.inl rfl)) l1 l2
  have hc := h3.base.complete [("tau", v)] 45 true rfl
  have hci := h3.at3d r3 ho3 45
  have hq : decide ('i' ∈ ['t', 's', 'v', 'i']) = true := by simp
  rw [hq] at hcalc
  obtain ⟨res', hres', hs⟩ := hci.calcAll (a := fullLike (analyze3dTex n) (deg2rad 45)) (by simp [Obj.at3d]) rfl
  have : res' = res := by
    have := hres'.symm.trans hcalc
    cases this; rfl
  subst this
  refine int_drawable hci ?_ hcalc ?_ (by rw [hs]) ⟨[0, 0], ?_⟩ (fun idx hi => ?_) (by simp)
  · show o3.geom.Named
    rw [hg3]
    intro e he s hs
    simp only [List.mem_cons, List.not_mem_nil, or_false] at he
    rcases he with rfl | rfl | rfl | rfl <;> cases hs <;> simp
  · simp only [Obj.still, Prod.mk.injEq] at hst
    exact hst.2.2.2.2.2.1
  · exact .cons (Nat.pos_of_ne_zero hn) (.cons (Nat.pos_of_ne_zero hn) .nil)
  · have hf := num_fsite w3.backend hst h3.base.grid 45 true hc hi
    simp only [Obj.still, Prod.mk.injEq] at hst
    have hlt : idx.getD 0 0 < n := by rcases hi with _ | ⟨h, _⟩; exact h
    refine ⟨_, 1 / Real.pi, 1 / (4 * Real.pi), hf, ?_, ?_, cos45, gridPolar_cos hlt, ?_, ?_⟩
    · show o3.SRF.ValueAt _ _
      rw [hst.2.1]
      rfl
    · show o3.V.ValueAt _ _
      rw [hst.1]
      rfl
    · show 0 < v.val
      rw [hv]
      norm_num
    · show o3.sig0 = true → I ≠ 0
      rw [hst.2.2.2.1]
      exact hI

end

end RT1
