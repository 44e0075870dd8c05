import Verif.Lemmas.RenameL
import Verif.Model.HemReflect

/-!
# The names of the parameters of scattering functions

C91: how the parameters of a scattering function are called does not matter.
-/

namespace RT1

noncomputable section
open Classical

/-- Value of `legendre_expansion(...).doit()` (_scatter.py 107-147, 272-291) for numbers. -/
def Scatter.sumAt (o : Scatter) (ρ : String → ℝ) (t0 tex p0 pex : ℝ) : Py ℝ :=
  o.symExpansion (fun e => e.evalR ρ) ⟨Real.cos t0, Real.sin t0⟩ ⟨Real.cos tex, Real.sin tex⟩
    ⟨Real.cos p0, Real.sin p0⟩ ⟨Real.cos pex, Real.sin pex⟩

/-- `calc` returns the same arrays, or raises the same exception, with other names for the parameters. -/
theorem C91_calc {σ : String → String} (h : Renaming σ) (b : Backend) (o : Scatter) (t0 tex p0 pex : Arr) (pd : Dict) :
    (o.rename σ).calcVal b t0 tex p0 pex (pd.rename σ) = o.calcVal b t0 tex p0 pex pd :=
  Scatter.calcVal_rename h b o t0 tex p0 pex pd

/-- The hemispherical reflectance of a surface function does not depend on the names of its parameters (the
name `NormBRDF` in `param_dict` is the factor of the result). -/
theorem C91_hemreflect {σ : String → String} (h : Renaming σ) (hN : σ "NormBRDF" = "NormBRDF") (r : EvenRule)
    (s : Scatter) (pd : Dict) (g : HemArgs) :
    hemreflect r (.SRF (s.rename σ)) (pd.rename σ) g = hemreflect r (.SRF s) pd g := by
  have h1 : Dict.get? (pd.rename σ) "NormBRDF" = Dict.get? pd "NormBRDF" := by
    have := Dict.get?_rename h.inj pd "NormBRDF"
    rwa [hN] at this
  unfold hemreflect hemLoop hemAt hemIntegrand
  simp only [h1, Scatter.calcVal_rename h]

/-- The same for the value of the Legendre expansion.  Partial: neither of the names may be `n`. -/
theorem C91_expansion_partial {σ : String → String} (h : Renaming σ) {o : Scatter} (hn : "n" ∉ o.names)
    (hn' : "n" ∉ (o.rename σ).names) (ρ : String → ℝ) (t0 tex p0 pex : ℝ) :
    (o.rename σ).sumAt ρ t0 tex p0 pex = o.sumAt (fun s => ρ (σ s)) t0 tex p0 pex := by
  unfold Scatter.sumAt
  rw [Scatter.symExpansion_absent _ hn, Scatter.symExpansion_absent _ hn', Scatter.legExpansion_rename _ h.inj]
  simp only [Expr.evalR_rename]

/-- Without a parameter `n` the expansion is the one that all other claims on expansions are about. -/
theorem C91_index_partial {o : Scatter} (hn : "n" ∉ o.names) (ρ : String → ℝ) (t0 tex p0 pex : ℝ) :
    o.sumAt ρ t0 tex p0 pex = o.expansionAt ρ t0 tex p0 pex :=
  Scatter.symExpansion_absent _ hn _ _ _ _

theorem evalR_pow_sym (ρ : String → ℝ) (n : ℕ) (c : ℝ) :
    (((Expr.num c) * .pow (.sym "n") (n : ℝ)).subs "n" (n : ℝ)).evalR ρ = c * (n : ℝ) ^ n := by
  show c * ((Expr.subs "n" (n : ℝ) (.sym "n")).evalR ρ) ^ (n : ℝ) = _
  simp only [Expr.subs, if_pos, Expr.evalR, Real.rpow_natCast]

/-- The asymmetry parameter called `n`: its value has no influence on the expansion.  In place of the powers of
the parameter the powers `n ** n` of the index are summed up. -/
theorem C91_index_counterexample {N : ℕ} (hN : 0 < N) (ρ : String → ℝ) (t0 tex : ℝ) :
    (Scatter.prim (.volHG (.sym "n")) volA (some N)).sumAt ρ t0 tex 0 0 =
      .ok (∑ k ∈ Finset.range N, 1 / (4 * Real.pi) * (2 * k + 1) * (k : ℝ) ^ k
        * Polynomial.aeval (-Real.cos (t0 + tex)) (legendre k)) := by
  unfold Scatter.sumAt Scatter.symExpansion
  show (if 0 < N then _ else _) = _
  rw [if_pos hN]
  refine congrArg Except.ok ?_
  unfold Scatter.sumIndex
  refine Finset.sum_congr rfl fun k _ => ?_
  have h1 : Scatter.indexed (fun e => e.evalR ρ) k (Scatter.primCoef volA (.volHG (.sym "n")) k) =
      1 / (4 * Real.pi) * (2 * k + 1) * (k : ℝ) ^ k := evalR_pow_sym ρ k _
  have h2 : Scatter.angleR (Scatter.indexed (fun e => e.evalR ρ) k) ⟨Real.cos t0, Real.sin t0⟩
      ⟨Real.cos tex, Real.sin tex⟩ ⟨Real.cos 0, Real.sin 0⟩ ⟨Real.cos 0, Real.sin 0⟩ volA = -Real.cos (t0 + tex) := by
    simp only [Scatter.angleR, Scatter.indexed, volA, Expr.subs, Expr.evalR, Real.cos_zero, Real.sin_zero, Real.cos_add]
    ring
  beta_reduce
  rw [h1, h2]

/-- `t` and `n` exchanged. -/
def swapTN (s : String) : String := if s = "t" then "n" else if s = "n" then "t" else s

theorem swapTN_renaming : Renaming swapTN := by
  constructor
  · intro a b h
    unfold swapTN at h
    split_ifs at h with h1 h2 h3 h4 h5 h6 <;> simp_all
  · intro n hn
    simp only [List.mem_cons, List.not_mem_nil, or_false] at hn
    rcases hn with rfl | rfl | rfl | rfl <;> simp [swapTN]

/-- So the value of the expansion depends on the names: with `t = 0` the expansion of the Henyey-Greenstein
function is the isotropic function if the parameter is called `t`, and becomes negative if it is called `n`. -/
theorem C91_index_negation : ¬ ∀ (σ : String → String), Renaming σ → ∀ (o : Scatter) (ρ : String → ℝ) (t0 tex p0 pex : ℝ),
    (o.rename σ).sumAt ρ t0 tex p0 pex = o.sumAt (fun s => ρ (σ s)) t0 tex p0 pex := by
  intro H
  have h := H swapTN swapTN_renaming (.prim (.volHG (.sym "t")) volA (some 2)) (fun _ => 0) 0 0 0 0
  have e1 : (Scatter.prim (.volHG (.sym "t")) volA (some 2)).rename swapTN = .prim (.volHG (.sym "n")) volA (some 2) := by
    simp [Scatter.rename, Kind.rename, Expr.rename, A3.rename, volA, swapTN]
  have e2 : (Scatter.prim (.volHG (.sym "t")) volA (some 2)).sumAt (fun _ => 0) 0 0 0 0 = .ok (1 / (4 * Real.pi)) := by
    rw [C91_index_partial (by simp [Scatter.names, Kind.names, A3.names, volA, Expr.free])]
    unfold Scatter.expansionAt Scatter.legExpansion
    show (if (0 : ℕ) < 2 then Except.ok _ else Except.error PyErr.assertionError) = _
    rw [if_pos (by norm_num)]
    refine congrArg Except.ok ?_
    simp only [Scatter.legSum, Finset.sum_range_succ, Finset.sum_range_zero, Scatter.primCoef]
    show 0 + (1 / (4 * Real.pi) * (2 * ((0 : ℕ) : ℝ) + 1)) * (0 : ℝ) ^ ((0 : ℕ) : ℝ) * _ +
      (1 / (4 * Real.pi) * (2 * ((1 : ℕ) : ℝ) + 1)) * (0 : ℝ) ^ ((1 : ℕ) : ℝ) * _ = _
    simp [legendre]
  rw [e1, C91_index_counterexample (by norm_num), e2] at h
  have h' := Except.ok.inj h
  simp only [Finset.sum_range_succ, Finset.sum_range_zero, legendre] at h'
  norm_num at h'

/-- Exchanged names, also of weights and in combinations. -/
example : ∃ (o : Scatter), o.rename swapTN ≠ o ∧ ((o.rename (fun s => if s = "t" then "u" else s)).names = ["w", "u"]) ∧
    "n" ∉ o.names :=
  ⟨.lin [.sym "w"] [.prim (.volHG (.sym "t")) volA (some 5)] volA,
    by simp [Scatter.rename, Scatter.renameL, Kind.rename, Expr.rename, A3.rename, volA, swapTN],
    by simp [Scatter.rename, Scatter.renameL, Kind.rename, Expr.rename, A3.rename, volA, Scatter.names, Scatter.namesL,
      Kind.names, A3.names, Expr.free],
    by simp [Scatter.names, Scatter.namesL, Kind.names, A3.names, Expr.free, volA]⟩

end

end RT1
