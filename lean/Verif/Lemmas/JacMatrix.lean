import Verif.Spec.JacMatrix
import Verif.Props.JacKeys
import Verif.Props.JacLayout
import Verif.Lemmas.AnalyzeX
import Verif.Lemmas.EnergyObs
import Verif.Props.Arrays

/-! Totals of `calc` when one entry of `param_dict` is changed. -/

namespace RT1

noncomputable section
open Classical

theorem FSite.hasPar {b : Backend} {o : Obj} {idx : List ℕ} {x : Site} (h : FSite b o idx x) (p : PName) :
    HasVal (Fresh.par b o p) idx (x.par p) := by
  cases p
  · exact h.tau
  · exact h.omega
  · exact h.NormBRDF
  · exact h.bsf

theorem get?_update_one (d : Dict) (key : String) (a : Arr) (n : String) :
    (d.update [(key, a)]).get? n = if n = key then some a else d.get? n := by
  rw [Dict.get?_update, lastValue_cons, lastValue_nil]
  by_cases h : n = key
  · subst h; simp
  · have h' : ¬ key = n := fun e => h e.symm
    simp [h, h']

/-- The site after an entry of `param_dict` was changed. -/
theorem FSite.varied {b : Backend} {o : Obj} {idx : List ℕ} {x : Site} (h : FSite b o idx x)
    (hb : "bsf" ∈ o.params.keys) {key : String} {a : Arr} {v : ℝ} (ha : a.at' idx = XR.fin v) {S : List ℕ}
    (hc : Complete (Fresh.update o [(key, a)]) S)
    (hd : ∀ p e, o.pdef p = .str e → e.Def (Function.update x.ρ key v)) :
    FSite b (Fresh.update o [(key, a)]) idx (x.vary o.pdef key v) := by
  have hpar : ∀ n z, (Fresh.update o [(key, a)]).params.get? n = some z →
      z.at' idx = XR.fin (Function.update x.ρ key v n) := by
    intro n z hz
    rw [Fresh.update_eq hb] at hz
    have hz' : (o.params.update [(key, a.atleast1d)]).get? n = some z := hz
    rw [get?_update_one] at hz'
    by_cases hn : n = key
    · subst hn
      rw [if_pos rfl] at hz'
      cases hz'
      rw [Function.update_self, Arr.at'_atleast1d, ha]
    · rw [if_neg hn] at hz'
      rw [Function.update_of_ne hn]
      exact h.params n z hz'
  have hp : ∀ p, HasVal (Fresh.par b (Fresh.update o [(key, a)]) p) idx
      ((o.pdef p).value (Function.update x.ρ key v) (x.par p)) := by
    intro p
    have e0 : (Fresh.update o [(key, a)]).pdef = o.pdef := by rw [Fresh.update_eq hb]
    cases hp : o.pdef p with
    | str e =>
      obtain ⟨z, hz, -⟩ := hc.s_par b p
      refine ⟨z, hz, ?_⟩
      have h1 := PW.parStr (b := b) (o := Fresh.update o [(key, a)]) (p := p) (e := e) (by rw [e0, hp]) idx z hz
      rw [h1]
      show _ = XR.fin (e.evalR (Function.update x.ρ key v))
      rw [← Expr.evalX_of_def (hd p e hp)]
      refine Expr.evalX_congr fun n hn => ?_
      have hk : n ∈ (Fresh.update o [(key, a)]).params.keys := by
        have := hc.defs p
        rw [e0, hp] at this
        exact this n hn
      obtain ⟨u, hu⟩ := Dict.get?_of_mem hk
      unfold Dict.valAt
      rw [hu]
      exact hpar n u hu
    | val z =>
      have h1 : Fresh.par b (Fresh.update o [(key, a)]) p = Fresh.par b o p := by
        unfold Fresh.par Fresh.pfun
        rw [e0, hp]
        rfl
      rw [h1]
      exact h.hasPar p
    | basic e =>
      have h1 : Fresh.par b (Fresh.update o [(key, a)]) p = Fresh.par b o p := by
        unfold Fresh.par Fresh.pfun Fresh.symbs
        rw [e0, hp]
        rfl
      rw [h1]
      exact h.hasPar p
  refine ⟨?_, ?_, ?_, ?_, hp .tau, hp .omega, hp .NormBRDF, hp .bsf, ?_, hpar⟩
  · rw [Fresh.update_eq hb]; exact h.t0
  · rw [Fresh.update_eq hb]; exact h.tex
  · rw [Fresh.update_eq hb]; exact h.p0
  · rw [Fresh.update_eq hb]; exact h.pex
  · rw [Fresh.update_eq hb]; exact h.I0

/-- The total that `calc` returns for a changed entry. -/
theorem totalAt_calc {w : World} (hw : Reachable w) {id : ℕ} {o : Obj} (ho : w.objs id = some o)
    (hq : o.intQ = false) {n k : ℕ} {kw : Dict} (hc : Complete (Fresh.update o kw) [k, n]) {t : Arr}
    (ht : o.ang .t0 = some t) (hts : t.shape = [k, n]) {r i : ℕ} (hr : r < n) (hi : i < k) {y : Site}
    (hy : FSite w.backend (Fresh.update o kw) [i, r] y) {f p : ℝ} (hf : o.SRF.ValueAt y f)
    (hp : o.V.ValueAt y p) (hx : y.Regular o.sig0) (h0 : 0 ≤ y.tau) :
    totalAt (calcOp id kw w).1 [i, r] = y.inUnits o.sig0 o.dB (y.lin f p) := by
  obtain ⟨arr, w', hcall, hs⟩ := C57_calc_partial hw ho kw hq hc ht hts
  obtain ⟨w2, h1, h2, o2, ho2, hc2⟩ := observes_of (call := calcOp) (F := Fresh.calcAll) hw ho kw
    (fun w id o kw h1 h2 => calcOp_eq h1 h2 kw) (arr := arr)
    (by rw [← (calcOp_eq hw.inv ho kw).1, hcall]) hy
  have hobs : ObservesRow 0 o.cfg y (arr.get ([i, r] ++ [0])) :=
    ⟨w, id, kw, arr, w2, [i, r], hw, h1, by rw [hs]; exact .cons hi (.cons hr (.cons (by norm_num) .nil)), rfl, h2, o2, ho2, hc2⟩
  rw [hcall]
  exact hobs.total_val hq hf hp hx h0

/-- The entry of a parameter that is defined by its name. -/
theorem jac_named {key : String} {q : PName}
    (hkq : (key, q) ∈ [("omega", PName.omega), ("NormBRDF", PName.NormBRDF), ("bsf", PName.bsf)])
    {c : Cfg} {d : PName → PDef} {x : Site} {r : XR} (h : ObservesJac key c d x r)
    (hq : d q = .str (.sym key)) (hq' : ∀ q', q' ≠ q → ¬ (d q').Uses key) (hV : key ∉ c.V.phase.free)
    (hS : key ∉ c.SRF.phase.free) (hs : x.SmoothIn c d key) (hx : x.Regular c.sig0)
    (hpos : x.Positive c.sig0 c.dB (x.lin (c.SRF.phase.evalR x.env) (c.V.phase.evalR x.env)))
    (hI : c.sig0 = true → c.dB = false → x.I0 = 1) :
    HasXDeriv (fun t => (x.vary d key t).signalX c) r (x.ρ key) := by
  have ha : key ∉ ["theta_0", "theta_ex", "phi_0", "phi_ex"] := by
    simp only [List.mem_cons, Prod.mk.injEq, List.not_mem_nil, or_false] at hkq
    rcases hkq with ⟨rfl, -⟩ | ⟨rfl, -⟩ | ⟨rfl, -⟩ <;> simp
  have hself : x.vary d key (x.ρ key) = x := by
    obtain ⟨b, o, idx, hf, -, rfl, -⟩ := h.elim
    exact hf.vary_self hs.defs
  have h3 := hasXDeriv_key ha hs hself hx hpos
  have hSv : c.SRF.ValueAt x (c.SRF.phase.evalR x.env) := Expr.evalX_of_def hs.SRF.def
  have hVv : c.V.ValueAt x (c.V.phase.evalR x.env) := Expr.evalX_of_def hs.V.def
  obtain ⟨v1, -, v3, v4⟩ := jac_value h hSv hVv hx hpos
  rw [codeNorm_eq _ hI] at v1 v3 v4
  have zS : (c.SRF.phase.diff key).evalR x.env = 0 := hs.SRF.diff_zero hS
  have zV : (c.V.phase.diff key).evalR x.env = 0 := hs.V.diff_zero hV
  have z1 : (d q).deriv key x.ρ = 1 := by
    rw [hq]
    simp [PDef.deriv, Expr.diff]
  have z0 : ∀ q', q' ≠ q → (d q').deriv key x.ρ = 0 := fun q' h' => (hs.defs q').deriv_zero (hq' q' h')
  have zs : x.surface 0 = 0 := by rw [Site.surface_att, mul_zero]
  have zv : x.volume 0 = 0 := by rw [Site.volume_att, mul_zero]
  rw [zS, zV] at h3
  simp only [List.mem_cons, Prod.mk.injEq, List.not_mem_nil, or_false] at hkq
  rcases hkq with ⟨rfl, rfl⟩ | ⟨rfl, rfl⟩ | ⟨rfl, rfl⟩
  · rw [v1 rfl]
    rw [z1, z0 .tau (by simp), z0 .NormBRDF (by simp), z0 .bsf (by simp)] at h3
    refine (congrArg (fun v => HasXDeriv _ (XR.fin (v * _)) _) ?_).mp h3
    unfold Site.dKey; rw [zs, zv]; ring
  · rw [v3 rfl]
    rw [z1, z0 .tau (by simp), z0 .omega (by simp), z0 .bsf (by simp)] at h3
    refine (congrArg (fun v => HasXDeriv _ (XR.fin (v * _)) _) ?_).mp h3
    unfold Site.dKey; rw [zs, zv]; ring
  · rw [v4 rfl]
    rw [z1, z0 .tau (by simp), z0 .omega (by simp), z0 .NormBRDF (by simp)] at h3
    refine (congrArg (fun v => HasXDeriv _ (XR.fin (v * _)) _) ?_).mp h3
    unfold Site.dKey; rw [zs, zv]; ring

theorem HasXDeriv.shift {F : ℝ → XR} {r : XR} {a : ℝ} (h : HasXDeriv F r a) :
    HasXDeriv (fun ε => F (a + ε)) r 0 := by
  obtain ⟨g, g', h1, h2, h3⟩ := h
  have hc : Filter.Tendsto (fun ε : ℝ => a + ε) (nhds 0) (nhds a) := by
    have : Continuous fun ε : ℝ => a + ε := by fun_prop
    simpa using this.tendsto 0
  refine ⟨fun ε => g (a + ε), g', hc.eventually h1, ?_, h3⟩
  have := HasDerivAt.comp_const_add a 0 (f := g) (f' := g') (by simpa using h2)
  exact this

theorem HasXDeriv.congr {F G : ℝ → XR} {r : XR} {a : ℝ} (h : HasXDeriv F r a) (he : ∀ᶠ t in nhds a, G t = F t) :
    HasXDeriv G r a := by
  obtain ⟨g, g', h1, h2, h3⟩ := h
  refine ⟨g, g', ?_, h2, h3⟩
  filter_upwards [h1, he] with t e1 e2
  rw [e2, e1]

end

end RT1
