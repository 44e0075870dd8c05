import Verif.Lemmas.HemColsL
import Verif.Props.HemReflect

/-!
# The numerical hemispherical reflectance for several values of the parameters
-/

namespace RT1

noncomputable section
open Classical Filter

/-! ## C70 -/

/-- What `hemreflect` returned for `n` points: one number per incidence angle `k` (first axis) and value `i` of the
parameters (second axis), and the warning exactly if one of them exceeds 1. -/
def HemOut.ReportsAll (out : HemOut) (m c : ℕ) (v : ℕ → ℕ → ℝ) : Prop :=
  out.sol.shape = [m, c] ∧ (∀ i < m, ∀ k < c, out.sol.get [i, k] = XR.fin (v i k)) ∧
    (out.warned ↔ ∃ i < m, ∃ k < c, 1 < v i k)

/-- Parameters given as arrays of shape `(m, 1, 1)`: the result has the shape (number of incidence angles, `m`), and
its columns converge to `NormBRDF` times the hemispherical reflectances for the `m` values of the parameters. -/
theorem C70_columns_partial (r : EvenRule) {w : World} {s : Scatter} {pd : Dict} {m : ℕ} {ρ : ℕ → String → ℝ}
    (hp : pd.Stacked m ρ) (hg : s.Given pd) (hphi : w.backend = .symengine ∨ "phi_ex" ∈ s.phase.free)
    {key : String} {ka : Arr} (hk : pd.get? key = some ka) (hks : ka.shape = [1, 1, m])
    (hku : w.backend = .symengine ∨ key ∈ s.phase.free) {g : HemArgs} (hs : g.step ≠ 0) (hc : 0 < g.count)
    {f : ℕ → ℝ → ℝ → ℝ → ℝ} (hf : ∀ i, s.Brdf g.phi0 (ρ i) (f i)) (hcont : ∀ i t0, Continuous (Function.uncurry (f i t0)))
    {N : ℝ} (hN : pd.get? "NormBRDF" = some (Arr.num (XR.fin N)) ∨ "NormBRDF" ∉ pd.keys ∧ N = 1) :
    ∃ v : ℕ → ℕ → ℕ → ℝ,
      (∀ n > 0, ∃ out, hemreflect r (.SRF s) pd (g.points n) w = (.ok out, w) ∧ out.ReportsAll m g.count (v n)) ∧
      ∀ i < m, ∀ k < g.count, Tendsto (fun n => v n i k) atTop (nhds (N * hemReflectance (f i (g.angle k)))) := by
  refine ⟨fun n i k => simps2R r (fun t p => Real.sin t * Real.cos t * f i (g.angle k) t p) (Real.pi / 2)
    (2 * Real.pi) n * N, fun n hn => ?_, fun i _ k _ => hem_limit r (hcont _ _) N⟩
  have hNa : (pd.get? "NormBRDF").getD (Arr.lit 1) = Arr.lit N := by
    rcases hN with h | ⟨h, rfl⟩
    · rw [h]; rfl
    · cases hk : pd.get? "NormBRDF" with
      | some a => exact absurd (Lam.mem_of_get? hk) h
      | none => rfl
  obtain ⟨out, ho, h1, h2, h3⟩ := hemLoop_columns r hp hg hphi hk hks hku (g := g.points n) hn hs hc (f := f)
    (fun i t0 t p => (hf i t0 t p).eval.symm) (N := Arr.lit N) (Nv := fun _ _ => N) trivial fun _ _ _ _ => rfl
  refine ⟨out, ?_, h1, h2, h3⟩
  show (liftPy (hemLoop r w.backend s pd ((pd.get? "NormBRDF").getD (Arr.lit 1)) (g.points n)) : M HemOut) w = _
  rw [hNa, ho]; rfl

/-- The same for `hemreflect(R=R)`; `R.NormBRDF` may have a value per incidence angle and per value of the
parameters. -/
theorem C70_object_columns_partial (r : EvenRule) {w : World} (hw : Reachable w) {id : ℕ} {o : Obj}
    (ho : w.objs id = some o) {pd : Dict} {m : ℕ} {ρ : ℕ → String → ℝ}
    (hp : pd.Stacked m ρ) (hg : o.SRF.Given pd) (hphi : w.backend = .symengine ∨ "phi_ex" ∈ o.SRF.phase.free)
    {key : String} {ka : Arr} (hk : pd.get? key = some ka) (hks : ka.shape = [1, 1, m])
    (hku : w.backend = .symengine ∨ key ∈ o.SRF.phase.free) {g : HemArgs} (hs : g.step ≠ 0) (hc : 0 < g.count)
    {f : ℕ → ℝ → ℝ → ℝ → ℝ} (hf : ∀ i, o.SRF.Brdf g.phi0 (ρ i) (f i))
    (hcont : ∀ i t0, Continuous (Function.uncurry (f i t0))) {N : Arr} {Nv : ℕ → ℕ → ℝ}
    (hN : (Self.evalParam id .NormBRDF w).1 = .ok N) (hNf : Arr.Fits N.shape [m, g.count])
    (hNv : ∀ i < m, ∀ k < g.count, N.at' [i, k] = XR.fin (Nv i k)) :
    ∃ v : ℕ → ℕ → ℕ → ℝ,
      (∀ n > 0, ∃ out, (hemreflect r (.R id) pd (g.points n) w).1 = .ok out ∧ out.ReportsAll m g.count (v n)) ∧
      ∀ i < m, ∀ k < g.count,
        Tendsto (fun n => v n i k) atTop (nhds (Nv i k * hemReflectance (f i (g.angle k)))) := by
  refine ⟨fun n i k => simps2R r (fun t p => Real.sin t * Real.cos t * f i (g.angle k) t p) (Real.pi / 2)
    (2 * Real.pi) n * Nv i k, fun n hn => ?_, fun i _ k _ => hem_limit r (hcont _ _) _⟩
  rw [evalParam_eq hw.inv ho] at hN
  obtain ⟨out, ho', h1, h2, h3⟩ := hemLoop_columns r hp hg hphi hk hks hku (g := g.points n) hn hs hc (f := f)
    (fun i t0 t p => (hf i t0 t p).eval.symm) hNf hNv
  refine ⟨out, ?_, h1, h2, h3⟩
  rw [hemreflect_R r hw.inv ho, hN]
  exact ho'

/-- A one-dimensional array of values for a parameter of the surface function raises ValueError, unless it has one element or as many
as there are points: one reflectance per value is only returned for arrays of shape `(m, 1, 1)`. -/
theorem C70_list_negation (r : EvenRule) {w : World} {s : Scatter} {pd : Dict} (hg : s.Given pd)
    (hphi : w.backend = .symengine ∨ "phi_ex" ∈ s.phase.free) {key : String} {ka : Arr} {m : ℕ}
    (hk : pd.get? key = some ka) (hks : ka.shape = [m]) (hku : w.backend = .symengine ∨ key ∈ s.phase.free)
    {g : HemArgs} (hn : g.n ≠ 1) (hm : m ≠ 1) (hmn : m ≠ g.n) (hs : g.step ≠ 0) (hc : 0 < g.count) :
    hemreflect r (.SRF s) pd g w = (.error .valueError, w) := by
  show (liftPy (hemLoop r w.backend s pd ((pd.get? "NormBRDF").getD (Arr.lit 1)) g) : M HemOut) w = _
  rw [hemLoop_list r hg hphi hk hks hku hn hm hmn hs hc]
  rfl

/-- `HG_nadirnorm(t="t")`. -/
def nadirT : Scatter := .prim (.srfHGnadirnorm (.sym "t")) srfA (some 8)

theorem nadirT_given {pd : Dict} (h : "t" ∈ pd.keys) : nadirT.Given pd := by
  intro n hn
  simp only [nadirT, Scatter.phase, Scatter.primPhase, Scatter.hgExpr, Scatter.nadirHemreflect, Scatter.angleExpr, srfA,
    Expr.free, List.mem_append, List.mem_cons, List.not_mem_nil, or_false, false_or] at hn
  simp only [List.mem_append, List.mem_cons, List.not_mem_nil, or_false]
  aesop

theorem nadirT_uses : "phi_ex" ∈ nadirT.phase.free ∧ "t" ∈ nadirT.phase.free := by
  constructor <;> simp [nadirT, Scatter.phase, Scatter.primPhase, Scatter.hgExpr, Scatter.angleExpr, Expr.free]

/-- `HG_nadirnorm(t="t").hemreflect(param_dict={"t": np.array([0.1, 0.2, 0.3])})` raises ValueError. -/
theorem C70_list_counterexample (r : EvenRule) (w : World) (v : List ℕ → XR) :
    hemreflect r (.SRF nadirT) [("t", ⟨[3], v⟩)] {} w = (.error .valueError, w) := by
  refine C70_list_negation r (nadirT_given (by simp [Dict.keys])) (Or.inr nadirT_uses.1) (key := "t") (ka := ⟨[3], v⟩)
    (by simp [Dict.get?]) rfl (Or.inr nadirT_uses.2) ?_ ?_ ?_ ?_ ?_ <;> simp [HemArgs.count]

/-- With the shape `(3, 1, 1)` instead, the values at nadir converge to 1 for all three. -/
theorem nadirT_columns (r : EvenRule) (w : World) (t : ℕ → ℝ) (ht : ∀ i, 0 < t i ∧ t i < 1) : ∃ v : ℕ → ℕ → ℕ → ℝ,
    (∀ n > 0, ∃ out, hemreflect r (.SRF nadirT) [("t", ⟨[1, 1, 3], fun idx => XR.fin (t (idx.getD 2 0))⟩)] { n := n } w =
      (.ok out, w) ∧ out.ReportsAll 3 18 (v n)) ∧ ∀ i < 3, Tendsto (fun n => v n i 0) atTop (nhds 1) := by
  have h1 : ∀ i, |t i| < 1 := fun i => by rw [abs_of_pos (ht i).1]; exact (ht i).2
  have hk : Dict.get? [("t", (⟨[1, 1, 3], fun idx => XR.fin (t (idx.getD 2 0))⟩ : Arr))] "t" =
      some ⟨[1, 1, 3], fun idx => XR.fin (t (idx.getD 2 0))⟩ := by simp [Dict.get?]
  have hp : Dict.Stacked [("t", ⟨[1, 1, 3], fun idx => XR.fin (t (idx.getD 2 0))⟩)] 3 fun i _ => t i := by
    intro k a h
    simp only [Dict.get?, List.find?_cons, List.find?_nil] at h
    by_cases hk : "t" = k
    · subst hk
      simp at h
      subst h
      refine ⟨Or.inr rfl, fun i hi => ?_⟩
      simp [Arr.at', Arr.bidx]
    · simp [hk] at h
  have hT : ∀ i t0 tex pex, (Kind.srfHGnadirnorm (.sym "t")).TIs
      (Dirs.env ⟨t0, tex, 0, pex, fun _ => t i⟩) (t i) := fun i t0 tex pex =>
    ⟨trivial, by simp [Expr.evalR, Dirs.env]⟩
  have hg : nadirT.Given [("t", Arr.num (XR.fin 0))] := nadirT_given (by simp [Dict.keys])
  have hb := fun i => Kind.brdf (k := .srfHGnadirnorm (.sym "t")) (a := srfA) (nc := some 8) (p0 := 0) (t := t i)
    (ρ := fun _ => t i) hg (fun _ _ _ => srfA_is _) (hT i) (by simp) (by simp) (by simp) (h1 i)
    (fun h => ⟨one_ne_zero, (ht i).1.ne'⟩)
  have hcont : ∀ i t0, Continuous (Function.uncurry fun tex pex =>
      Kind.val 1 (t i) (Phase.cosTheta 1 1 1 t0 tex 0 pex) (Kind.srfHGnadirnorm (Expr.sym "t"))) := fun i t0 =>
    Kind.val_continuous (.srfHGnadirnorm (.sym "t")) (a0 := 1) (h1 i) (cosTheta_continuous 1 1 1 t0 0)
      fun q => Phase.cosTheta_abs_le (by simp) (by simp) (by simp) _ _ _ _
  have hd : HemArgs.count {} = 18 := by
    unfold HemArgs.count
    norm_num
  obtain ⟨v, h3, h4⟩ := C70_columns_partial r (w := w) hp (nadirT_given (by simp [Dict.keys])) (Or.inr nadirT_uses.1) hk rfl
    (Or.inr nadirT_uses.2) (g := {}) (by norm_num) (by rw [hd]; norm_num) hb
    hcont (N := 1) (Or.inr ⟨by simp [Dict.keys], rfl⟩)
  rw [hd] at h3 h4
  refine ⟨v, h3, fun i hi => ?_⟩
  have h5 := h4 i hi 0 (by norm_num)
  have ha : HemArgs.angle {} 0 = 0 := by simp [HemArgs.angle, deg2rad]
  rw [ha, C40_nadirnorm_partial (te := .sym "t") (a := srfA) (fun tex pex => srfA_is _) (fun tex pex => hT i 0 tex pex)
    one_ne_zero (by simp) (ht i).1.ne' (h1 i) (fun tex pex => hb i 0 tex pex), mul_one] at h5
  exact h5

end

end RT1
