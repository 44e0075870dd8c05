import Verif.Lemmas.JacMatrix

/-!
# The matrix of `jacobian(format="scipy_least_squares")` is the Jacobian of the totals of `calc` (C87)

`C49`, `C52` and `C53` say what single entries mean and where they are.  Here both are put together
and compared with the numbers that `calc` returns when a single fitted number is changed.
-/

namespace RT1

noncomputable section
open Classical

section
variable {w : World} {id : ℕ} {o : Obj} {n k : ℕ} {t : Arr} {site : ℕ → ℕ → Site}

/-- The derivative of the total at one observation when the entry changes there. -/
theorem column_entry (hw : Reachable w) (ho : w.objs id = some o)
    (hq : o.intQ = false) (hc : Complete o [k, n]) (ht : o.ang .t0 = some t) (hts : t.shape = [k, n])
    {key : String} (ha : key ∉ ["theta_0", "theta_ex", "phi_0", "phi_ex"]) (hu : ¬ (o.pdef .tau).Uses key)
    {r i : ℕ} (hr : r < n) (hi : i < k) {x : Site} (hx : FSite w.backend o [i, r] x)
    (hs : x.SmoothIn o.cfg o.pdef key) (hreg : x.Regular o.sig0) (h0 : 0 ≤ x.tau) {v : ℝ → Arr}
    (hv : ∀ ε, Arr.Fits (v ε).atleast1d.shape [k, n]) (hat : ∀ ε, (v ε).at' [i, r] = XR.fin (x.ρ key + ε))
    {d : XR} (hd : HasXDeriv (fun t => (x.vary o.pdef key t).signalX o.cfg) d (x.ρ key)) :
    HasXDeriv (fun ε => totalAt (calcOp id [(key, v ε)] w).1 [i, r]) d 0 := by
  have hb := (ReachableAny.bsfOK hw.keeps.any ho).1
  refine hd.shift.congr ?_
  have hk : x.env key = x.ρ key := x.env_other' ha
  have eF := hs.SRF.eventually_def
  have eP := hs.V.eventually_def
  rw [hk] at eF eP
  have eD : ∀ p, ∀ᶠ u in nhds (x.ρ key), ∀ e, o.pdef p = .str e → e.Def (Function.update x.ρ key u) := by
    intro p
    cases hp : o.pdef p with
    | str e =>
      have := hs.defs p
      rw [hp] at this
      filter_upwards [this.1.eventually_def] with u hu e' he'
      cases he'; exact hu
    | val a => exact Filter.Eventually.of_forall fun u e he => by cases he
    | basic e => exact Filter.Eventually.of_forall fun u e he => by cases he
  have hlim : Filter.Tendsto (fun ε : ℝ => x.ρ key + ε) (nhds 0) (nhds (x.ρ key)) := by
    have : Continuous fun ε : ℝ => x.ρ key + ε := by fun_prop
    simpa using this.tendsto 0
  filter_upwards [hlim.eventually eF, hlim.eventually eP, hlim.eventually (eD .tau), hlim.eventually (eD .omega),
    hlim.eventually (eD .NormBRDF), hlim.eventually (eD .bsf)] with ε f1 f2 d1 d2 d3 d4
  have hc' : Complete (Fresh.update o [(key, v ε)]) [k, n] :=
    hc.updated (Arr.Fits.refl _) hb fun p hp => by
      rw [List.mem_singleton] at hp; subst hp; exact hv ε
  have hy := hx.varied hb (hat ε) hc' fun p => by cases p <;> assumption
  have hF : o.SRF.ValueAt (x.vary o.pdef key (x.ρ key + ε)) (o.SRF.phase.evalR (Function.update x.env key (x.ρ key + ε))) := by
    show o.SRF.phase.evalX _ = _
    rw [x.vary_env _ ha]; exact Expr.evalX_of_def f1
  have hP : o.V.ValueAt (x.vary o.pdef key (x.ρ key + ε)) (o.V.phase.evalR (Function.update x.env key (x.ρ key + ε))) := by
    show o.V.phase.evalX _ = _
    rw [x.vary_env _ ha]; exact Expr.evalX_of_def f2
  have htau : (x.vary o.pdef key (x.ρ key + ε)).tau = x.tau := by
    show (o.pdef .tau).value _ _ = _
    rw [PDef.value_of_not_uses hu]
    exact hx.value_self .tau (hs.defs _)
  rw [totalAt_calc hw ho hq hc' ht hts hr hi hy hF hP ⟨hreg.mu0, hreg.muEx, hreg.sum, hreg.I0⟩ (htau ▸ h0)]
  exact (Site.signalX_eq (c := o.cfg) hF hP).symm

/-- The total at an observation where the entry does not change. -/
theorem column_zero (hw : Reachable w) (ho : w.objs id = some o)
    (hq : o.intQ = false) (hc : Complete o [k, n]) (ht : o.ang .t0 = some t) (hts : t.shape = [k, n])
    {key : String} {r i : ℕ} (hr : r < n) (hi : i < k) {x : Site} (hx : FSite w.backend o [i, r] x)
    (hs : x.SmoothIn o.cfg o.pdef key) (hreg : x.Regular o.sig0) (h0 : 0 ≤ x.tau)
    (hpos : x.Positive o.sig0 o.dB (x.lin (o.SRF.phase.evalR x.env) (o.V.phase.evalR x.env))) {v : ℝ → Arr}
    (hv : ∀ ε, Arr.Fits (v ε).atleast1d.shape [k, n]) (hat : ∀ ε, (v ε).at' [i, r] = XR.fin (x.ρ key)) :
    HasXDeriv (fun ε => totalAt (calcOp id [(key, v ε)] w).1 [i, r]) (XR.fin 0) 0 := by
  have hb := (ReachableAny.bsfOK hw.keeps.any ho).1
  have hconst := hasXDeriv_units (L := fun _ => x.lin (o.SRF.phase.evalR x.env) (o.V.phase.evalR x.env))
    (L' := 0) (t0 := 0) (hasDerivAt_const _ _) (X := fun _ => x) (fun _ => rfl) hpos
  rw [zero_mul] at hconst
  refine hconst.congr (Filter.Eventually.of_forall fun ε => ?_)
  have hc' : Complete (Fresh.update o [(key, v ε)]) [k, n] :=
    hc.updated (Arr.Fits.refl _) hb fun p hp => by
      rw [List.mem_singleton] at hp; subst hp; exact hv ε
  have hy := hx.varied hb (hat ε) hc' fun p e hp => by
    rw [Function.update_eq_self]
    have := hs.defs p
    rw [hp] at this
    exact this.1.def
  rw [hx.vary_self hs.defs] at hy
  exact totalAt_calc hw ho hq hc' ht hts hr hi hy (Expr.evalX_of_def hs.SRF.def) (Expr.evalX_of_def hs.V.def)
    hreg h0

/-- **C87** (partial).  Observations with `n` timestamps and `k` values each (the shape of the
incidence angles), no interaction term, a nonnegative optical depth, smooth definitions and scattering
functions: the matrix of `jacobian(param_list, "scipy_least_squares")` consists of one group of columns per
name; for a parameter that is a number the column holds the derivatives of the ravelled totals of `calc`
with respect to that number, for a timeseries there are `n` columns with the derivatives with respect to the
number of each timestamp (all other entries of `param_dict` kept).
Partial: not for tau (`C50`) and for names that are used several times (`C52`), in linear sigma0 units
only for `I0 = 1` (`C51`). -/
theorem C87_matrix_partial (hw : Reachable w) (ho : w.objs id = some o) (hq : o.intQ = false) (hn : 0 < n)
    (hc : Complete o [k, n]) (ht : o.ang .t0 = some t) (hts : t.shape = [k, n]) {keys : List String}
    (hne : keys ≠ []) (hkeys : ∀ key ∈ keys, key ∈ o.params.keys)
    (hder : ∀ key ∈ keys, Derivable w.backend o.cfg o.pdef key)
    (hval : ∀ key ∈ keys, ∀ p, o.params.get? key = some p → p.sizeOne = true ∨ p.shape = [1, n])
    (hsite : ∀ r < n, ∀ i < k, SiteAt w id [i, r] (site r i))
    (hsm : ∀ r < n, ∀ i < k, ∀ key ∈ keys, (site r i).SmoothIn o.cfg o.pdef key)
    (hreg : ∀ r < n, ∀ i < k, (site r i).Regular o.sig0 ∧ 0 ≤ (site r i).tau)
    (hpos : ∀ r < n, ∀ i < k, (site r i).Positive o.sig0 o.dB
      ((site r i).lin (o.SRF.phase.evalR (site r i).env) (o.V.phase.evalR (site r i).env)))
    (hI : o.sig0 = true → o.dB = false → ∀ r < n, ∀ i < k, (site r i).I0 = 1) :
    ∃ cols w', jacobian id keys "scipy_least_squares" w = (.ok (.inr cols), w') ∧
      ∃ groups : List (List (List XR)), cols = groups.flatten ∧ groups.length = keys.length ∧
        ∀ (m : ℕ) (key : String), keys[m]? = some key →
          ∃ p g, o.params.get? key = some p ∧ groups[m]? = some g ∧
            ((p.sizeOne = true ∧ ∃ col, g = [col] ∧ IsColumn w id key p.shiftAll n k col) ∨
             (p.sizeOne = false ∧ g.length = n ∧
              ∀ t < n, ∃ col, g[t]? = some col ∧ IsColumn w id key (p.shiftAt t) n k col)) := by
  have hk : ∀ key ∈ keys, builtin key ∨ w.backend = .symengine ∧ key ∈ o.params.keys := by
    intro key hkey
    rcases hder key hkey with ⟨q, hm, -⟩ | ⟨hb, -⟩
    · left
      simp only [List.mem_cons, Prod.mk.injEq, List.not_mem_nil, or_false] at hm
      unfold builtin
      tauto
    · exact Or.inr ⟨hb, hkeys key hkey⟩
  obtain ⟨l, w1, hl⟩ := jacobianList_succ hw ho hc hk
  have hm : Fresh.mu0 o = .ok (Arr.cos t) := by
    unfold Fresh.mu0 Fresh.ang
    rw [ht]; rfl
  have hsh := jac_shapes hw ho hc hm hts hk hl
  obtain ⟨cols, w', h1, -, groups, h3, h4, h5⟩ := C53_partial hw ho (jacobian_list.mpr hl) (k := k) hn
    hne hkeys fun j hj => ⟨_, Or.inl ⟨hsh j hj, rfl⟩⟩
  refine ⟨cols, w', h1, groups, h3, h4, fun m key hm' => ?_⟩
  have hmem : key ∈ keys := List.mem_of_getElem? hm'
  have hfs : ∀ r < n, ∀ i < k, FSite w.backend o [i, r] (site r i) := fun r hr i hi => (hsite r hr i hi).fsite hw.inv ho
  have hD := (jacobianList_spec hw ho keys).2
  rw [hl] at hD
  obtain ⟨o1, ho1, hf1⟩ := hD.1.obj
  have hlen : keys.length = l.length := by
    have e1 := (jacobianList_spec hw ho keys).1
    rw [hl] at e1
    cases hn : (Fresh.acc0 w.backend o).jacNorm with
    | error e => rw [hn] at e1; cases e1
    | ok norm =>
      rw [hn] at e1
      exact (show JacSpec w.backend o norm keys (.ok l) from e1).get.1
  have hml : m < l.length := by
    rw [← hlen]
    exact (List.getElem?_eq_some_iff.mp hm').1
  have hj : l[m]? = some l[m] := List.getElem?_eq_getElem hml
  have hjs : (l[m]).shape = [k, n] := hsh _ (List.getElem_mem hml)
  obtain ⟨p, g, hp, hg, hcol⟩ := h5 m key l[m] _ hm' hj (Or.inl ⟨hjs, rfl⟩)
  have hobs : ∀ r < n, ∀ i < k, ObservesJac key o.cfg o.pdef (site r i) ((l[m]).get [i, r]) := fun r hr i hi => by
    refine ⟨w, id, keys, l, w1, m, l[m], [i, r], hw, jacobian_list.mpr hl, hm', hj, ?_, rfl, ?_, o1, ho1,
      hf1.cfg, hf1.pdef⟩
    · rw [hjs]; exact .cons hi (.cons hr .nil)
    · refine SiteAt.of_fsite hD.1.inv ho1 ?_
      rw [hD.1.backend]
      exact FSite.filled hf1 (hfs r hr i hi)
  have hdv : key ∉ ["theta_0", "theta_ex", "phi_0", "phi_ex"] ∧ ¬ (o.pdef .tau).Uses key ∧
      ∀ r < n, ∀ i < k, HasXDeriv (fun t => ((site r i).vary o.pdef key t).signalX o.cfg) ((l[m]).get [i, r])
        ((site r i).ρ key) := by
    rcases hder key hmem with ⟨q, hkq, hq1, hq2, hV, hS⟩ | ⟨-, hnb, hna, huse⟩
    · refine ⟨?_, hq2 .tau ?_, fun r hr i hi => jac_named hkq (hobs r hr i hi) hq1 hq2 hV hS (hsm r hr i hi key hmem)
        (hreg r hr i hi).1 (hpos r hr i hi) fun a b => hI a b r hr i hi⟩
      · simp only [List.mem_cons, Prod.mk.injEq, List.not_mem_nil, or_false] at hkq
        rcases hkq with ⟨rfl, -⟩ | ⟨rfl, -⟩ | ⟨rfl, -⟩ <;> simp
      · simp only [List.mem_cons, Prod.mk.injEq, List.not_mem_nil, or_false] at hkq
        rcases hkq with ⟨-, rfl⟩ | ⟨-, rfl⟩ | ⟨-, rfl⟩ <;> simp
    · exact ⟨hna, huse.tau, fun r hr i hi => C52_partial (hobs r hr i hi) hnb hna huse (hsm r hr i hi key hmem)
        (hreg r hr i hi).1 (hpos r hr i hi) fun a b => hI a b r hr i hi⟩
  obtain ⟨hna, htu, hdv⟩ := hdv
  have hpfit : Arr.Fits p.shape [k, n] := hc.params key p hp
  have hfit : ∀ a : Arr, a.shape = p.shape → Arr.Fits a.atleast1d.shape [k, n] := by
    intro a ha
    have : a.atleast1d.shape = if p.shape = [] then [1] else p.shape := by
      unfold Arr.atleast1d
      rw [← ha]
      cases a with
      | mk s g => cases s <;> rfl
    rw [this]
    split_ifs
    · exact ⟨Or.inl rfl, trivial⟩
    · exact hpfit
  refine ⟨p, g, hp, hg, ?_⟩
  rcases hcol with ⟨hs1, col, rfl, hr1, hr2⟩ | ⟨hs1, hg1, hg2⟩
  · refine Or.inl ⟨hs1, col, rfl, hr1, fun r hr i hi => ⟨_, hr2 r hr i hi, ?_⟩⟩
    refine column_entry (v := p.shiftAll) hw ho hq hc ht hts hna htu hr hi (hfs r hr i hi) (hsm r hr i hi key hmem) (hreg r hr i hi).1
      (hreg r hr i hi).2 (fun ε => hfit _ rfl) (fun ε => ?_) (hdv r hr i hi)
    show p.at' [i, r] + XR.fin ε = _
    rw [(hfs r hr i hi).params key p hp, XR.fin_add]
  · have hps : p.shape = [1, n] := by
      rcases hval key hmem p hp with h | h
      · rw [hs1] at h; cases h
      · exact h
    have hn1 : n ≠ 1 := by
      intro h
      rw [h] at hps
      unfold Arr.sizeOne at hs1
      rw [hps] at hs1
      simp at hs1
    have hbi : ∀ i r, Arr.bidx [1, n] [i, r] = [0, r] := fun i r => by simp [Arr.bidx, hn1]
    refine Or.inr ⟨hs1, hg1, fun t ht' => ?_⟩
    obtain ⟨col, hcol, hl1, hl2⟩ := hg2 t ht'
    refine ⟨col, hcol, hl1, fun r hr i hi => ⟨_, hl2 r hr i hi, ?_⟩⟩
    have hpa : p.get [0, r] = XR.fin ((site r i).ρ key) := by
      have := (hfs r hr i hi).params key p hp
      unfold Arr.at' at this
      rw [hps, hbi] at this
      exact this
    have hat : ∀ ε, (p.shiftAt t ε).at' [i, r] = if r = t then p.get [0, r] + XR.fin ε else p.get [0, r] := by
      intro ε
      unfold Arr.at' Arr.shiftAt
      simp only [hps, hbi]
      simp
    by_cases hrt : r = t
    · simp only [if_pos hrt]
      refine column_entry (v := p.shiftAt t) hw ho hq hc ht hts hna htu hr hi (hfs r hr i hi) (hsm r hr i hi key hmem) (hreg r hr i hi).1
        (hreg r hr i hi).2 (fun ε => hfit _ rfl) (fun ε => ?_) (hdv r hr i hi)
      rw [hat, if_pos hrt, hpa, XR.fin_add]
    · simp only [if_neg hrt]
      refine column_zero (v := p.shiftAt t) hw ho hq hc ht hts hr hi (hfs r hr i hi) (hsm r hr i hi key hmem) (hreg r hr i hi).1
        (hreg r hr i hi).2 (hpos r hr i hi) (fun ε => hfit _ rfl) (fun ε => ?_)
      rw [hat, if_neg hrt, hpa]

end

/-! ### example -/

theorem ts_fsite (b : Backend) (s d : Bool) {r i : ℕ} (hr : r < 2) (hi : i < 3) :
    FSite b (demoObj exS exS false s d (Arr.lit 1) ang23 (Arr.lit 0) tsKw) [i, r]
      (demoSite 1 (i / 4) 0 1 (r + 1) 1 0) := by
  have hc := ts_complete exS_plain exS_plain false s d ang23 3 (by simp [ang23, Arr.atleast1d, Arr.Fits])
  have h1 : ∀ v, (arr1 v).at' [i, r] = XR.fin v := fun v => by
    unfold arr1; rw [Arr.at'_atleast1d]; rfl
  have h2 : ts2.at' [i, r] = XR.fin (r + 1) := by
    simp [ts2, Arr.at', Arr.bidx]
  have h3 : ang23.atleast1d.at' [i, r] = XR.fin (i / 4) := by
    rw [Arr.at'_atleast1d]
    simp [ang23, Arr.at', Arr.bidx]
  have hpar : ∀ pn k v, defaultDefs pn = .str (.sym k) →
      Dict.valAt [("bsf", arr1 0), ("tau", arr1 1), ("omega", ts2), ("NormBRDF", arr1 1)] [i, r] k = XR.fin v →
      HasVal (Fresh.par b (demoObj exS exS false s d (Arr.lit 1) ang23 (Arr.lit 0) tsKw) pn) [i, r] v := by
    intro pn k v hd hv
    refine HasVal.of_succ (hc.s_par b pn) ?_
    have := PW.parStr (b := b) (o := demoObj exS exS false s d (Arr.lit 1) ang23 (Arr.lit 0) tsKw) (p := pn)
      (e := .sym k) hd [i, r]
    rw [ts_params] at this
    simp only [Expr.evalX] at this
    rw [hv] at this
    exact this
  refine ⟨⟨_, by simp [Fresh.ang, demoObj], h3⟩, ⟨_, by simp [Fresh.tex, Fresh.ang, demoObj], h3⟩,
    ⟨arr1 0, by simp [Fresh.ang, demoObj, arr1], h1 0⟩, ?_, ?_, ?_, ?_, ?_, rfl, ?_⟩
  · refine HasVal.of_succ hc.s_pex ?_
    unfold Fresh.pex
    have hm : (demoObj exS exS false s d (Arr.lit 1) ang23 (Arr.lit 0) tsKw).mono = true := rfl
    rw [if_pos hm]
    refine PW.bind fun a ha => ?_
    have ha' : a = arr1 0 := by simp [Fresh.ang, demoObj] at ha; exact ha.symm
    subst ha'
    exact PW.map2 (u := XR.fin 0) (v := XR.fin Real.pi) (h1 0) rfl
  · exact hpar .tau "tau" 1 rfl (by simp [Dict.valAt, Dict.get?, h1])
  · exact hpar .omega "omega" (r + 1) rfl (by simp [Dict.valAt, Dict.get?, h2])
  · exact hpar .NormBRDF "NormBRDF" 1 rfl (by simp [Dict.valAt, Dict.get?, h1])
  · exact hpar .bsf "bsf" 0 rfl (by simp [Dict.valAt, Dict.get?, h1])
  · intro k a hk
    rw [ts_params] at hk
    simp only [Dict.get?, List.find?_cons] at hk
    simp only [demoSite]
    split at hk
    · rename_i h; simp only [decide_eq_true_eq] at h; subst h; cases hk; simp [h1]
    split at hk
    · rename_i h; simp only [decide_eq_true_eq] at h; subst h; cases hk; simp [h1]
    split at hk
    · rename_i h; simp only [decide_eq_true_eq] at h; subst h; cases hk; simp [h2]
    split at hk
    · rename_i h; simp only [decide_eq_true_eq] at h; subst h; cases hk; simp [h1]
    · cases hk

theorem ts_cos {i : ℕ} (hi : i < 3) : 0 < Real.cos ((i : ℝ) / 4) := by
  have h1 : (i : ℝ) ≤ 2 := by exact_mod_cast Nat.le_of_lt_succ hi
  have h2 : (0 : ℝ) ≤ i := Nat.cast_nonneg i
  refine Real.cos_pos_of_mem_Ioo ⟨?_, ?_⟩ <;> linarith [Real.pi_gt_three]

/-- Three angles for each of two timestamps, in dB: NormBRDF and bsf are numbers, omega is a timeseries;
all hypotheses of `C87_matrix_partial` hold for every selection of these names. -/
example (b : Backend) (keys : List String) (hne : keys ≠ [])
    (hk : ∀ key ∈ keys, key ∈ ["omega", "NormBRDF", "bsf"]) :
    ∃ cols w', jacobian 0 keys "scipy_least_squares"
        (demoW b exS exS false true true (Arr.lit 1) ang23 (Arr.lit 0) tsKw) = (.ok (.inr cols), w') ∧
      ∃ groups : List (List (List XR)), cols = groups.flatten ∧ groups.length = keys.length ∧
        ∀ (m : ℕ), keys[m]? = some "omega" → ∃ g, groups[m]? = some g ∧ g.length = 2 ∧
          ∀ t < 2, ∃ col, g[t]? = some col ∧ IsColumn (demoW b exS exS false true true (Arr.lit 1) ang23
            (Arr.lit 0) tsKw) 0 "omega" (ts2.shiftAt t) 2 3 col := by
  have hc := ts_complete exS_plain exS_plain false true true ang23 3 (by simp [ang23, Arr.atleast1d, Arr.Fits])
  have ho := demo_objs b exS exS false true true (Arr.lit 1) ang23 (Arr.lit 0) tsKw
  have hr := demo_reachable b exS exS false true true (Arr.lit 1) ang23 (Arr.lit 0) tsKw
  have hb := demo_backend b exS exS false true true (Arr.lit 1) ang23 (Arr.lit 0) tsKw
  have hp := ts_params exS exS false true true (Arr.lit 1) ang23 (Arr.lit 0)
  have hkey : ∀ key ∈ keys, key ∈ (demoObj exS exS false true true (Arr.lit 1) ang23 (Arr.lit 0) tsKw).params.keys := by
    intro key h
    rw [hp]
    have := hk key h
    simp only [List.mem_cons, List.not_mem_nil, or_false] at this
    rcases this with rfl | rfl | rfl <;> simp [Dict.keys]
  have hom : (demoObj exS exS false true true (Arr.lit 1) ang23 (Arr.lit 0) tsKw).params.get? "omega" = some ts2 := by
    rw [hp]; simp [Dict.get?]
  have hpi := Real.pi_pos
  refine Exists.elim (C87_matrix_partial (n := 2) (k := 3)
    (site := fun r i => demoSite 1 (i / 4) 0 1 (r + 1) 1 0) hr ho rfl (by norm_num) hc
    (t := ang23.atleast1d) (by simp [demoObj]) (by simp [ang23, Arr.atleast1d]) hne hkey ?_ ?_ ?_ ?_ ?_ ?_ ?_)
    fun cols H => ?_
  rotate_right
  · obtain ⟨w', h1, groups, h2, h3, h4⟩ := H
    refine ⟨cols, w', h1, groups, h2, h3, fun m hm => ?_⟩
    obtain ⟨p, g, e1, e2, e3⟩ := h4 m "omega" hm
    rw [hom] at e1
    cases e1
    rcases e3 with ⟨h, -⟩ | ⟨-, e4, e5⟩
    · simp [ts2, Arr.sizeOne] at h
    · exact ⟨g, e2, e4, e5⟩
  · intro key h
    have := hk key h
    simp only [List.mem_cons, List.not_mem_nil, or_false] at this
    refine Or.inl ?_
    rcases this with rfl | rfl | rfl
    · refine ⟨.omega, by simp, rfl, fun q' hq' => ?_, (by intro h; cases h), (by intro h; cases h)⟩
      cases q' <;> simp [demoObj, defaultDefs, PDef.Uses, Expr.free] at hq' ⊢
    · refine ⟨.NormBRDF, by simp, rfl, fun q' hq' => ?_, (by intro h; cases h), (by intro h; cases h)⟩
      cases q' <;> simp [demoObj, defaultDefs, PDef.Uses, Expr.free] at hq' ⊢
    · refine ⟨.bsf, by simp, rfl, fun q' hq' => ?_, (by intro h; cases h), (by intro h; cases h)⟩
      cases q' <;> simp [demoObj, defaultDefs, PDef.Uses, Expr.free] at hq' ⊢
  · intro key h p hpp
    rw [hp] at hpp
    have := hk key h
    simp only [List.mem_cons, List.not_mem_nil, or_false] at this
    rcases this with rfl | rfl | rfl
    · have e : ts2 = p := by simpa [Dict.get?] using hpp
      subst e; exact Or.inr rfl
    · have e : arr1 1 = p := by simpa [Dict.get?] using hpp
      subst e; exact Or.inl (by simp [arr1, Arr.atleast1d, Arr.lit, Arr.num, Arr.sizeOne])
    · have e : arr1 0 = p := by simpa [Dict.get?] using hpp
      subst e; exact Or.inl (by simp [arr1, Arr.atleast1d, Arr.lit, Arr.num, Arr.sizeOne])
  · intro r hr' i hi
    refine SiteAt.of_fsite hr.inv ho ?_
    rw [hb]
    exact ts_fsite b true true hr' hi
  · intro r hr' i hi key h
    have ha : key ∉ ["theta_0", "theta_ex", "phi_0", "phi_ex"] := by
      have := hk key h
      simp only [List.mem_cons, List.not_mem_nil, or_false] at this
      rcases this with rfl | rfl | rfl <;> simp
    refine ⟨fun p => ?_, trivial, trivial⟩
    cases p <;> simp [demoObj, defaultDefs, PDef.Smooth, Expr.Smooth, Expr.free]
  · intro r hr' i hi
    have h0 := ts_cos hi
    refine ⟨⟨h0.ne', h0.ne', (add_pos h0 h0).ne', fun _ => ?_⟩, ?_⟩
    · simp [demoSite]
    · simp [demoSite]
  · intro r hr' i hi _
    have h0 := ts_cos hi
    rw [show (demoObj exS exS false true true (Arr.lit 1) ang23 (Arr.lit 0) tsKw).sig0 = true from rfl, if_pos rfl]
    show 0 < Site.lin _ (1 / Real.pi) (1 / Real.pi) * _
    have h3 : Real.exp (-(1 / Real.cos ((i : ℝ) / 4))) < 1 :=
      Real.exp_lt_one_iff.mpr (neg_lt_zero.mpr (by positivity))
    have h5 := Real.exp_pos (-(1 / Real.cos ((i : ℝ) / 4)))
    have h6 : 0 < 1 - Real.exp (-(1 / Real.cos ((i : ℝ) / 4))) * Real.exp (-(1 / Real.cos ((i : ℝ) / 4))) := by nlinarith
    simp only [demoSite, Site.lin, Site.surface, Site.volume, Site.signorm, Site.mu0, Site.muEx]
    have h7 := Real.exp_pos (-(1 / Real.cos ((i : ℝ) / 4)) - 1 / Real.cos ((i : ℝ) / 4))
    have h8 : (0 : ℝ) < r + 1 := by positivity
    positivity
  · intro _ h; cases h

end

end RT1
