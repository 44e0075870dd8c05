import Verif.Spec.Jac
import Verif.Lemmas.ExprL
import Mathlib.Analysis.SpecialFunctions.Pow.Deriv
import Mathlib.Analysis.SpecialFunctions.Trigonometric.Deriv
import Mathlib.Analysis.SpecialFunctions.ExpDeriv

/-! Derivatives of expressions. -/

namespace RT1

noncomputable section
open Classical

namespace Expr
variable {key : String} {ρ : String → ℝ}

theorem evalR_congr' {e : Expr} {ρ ρ' : String → ℝ} (h : ∀ n ∈ e.free, ρ n = ρ' n) :
    e.evalR ρ = e.evalR ρ' := by
  induction e with
  | num r => rfl
  | sym s => exact h s (by simp [free])
  | add a b iha ihb =>
    simp only [evalR]
    rw [iha fun n hn => h n (by simp [free, hn]), ihb fun n hn => h n (by simp [free, hn])]
  | mul a b iha ihb =>
    simp only [evalR]
    rw [iha fun n hn => h n (by simp [free, hn]), ihb fun n hn => h n (by simp [free, hn])]
  | pow a r iha => simp only [evalR]; rw [iha h]
  | sin a iha => simp only [evalR]; rw [iha h]
  | cos a iha => simp only [evalR]; rw [iha h]
  | sign a iha => simp only [evalR]; rw [iha h]
  | exp a iha => simp only [evalR]; rw [iha h]

theorem Smooth.def {e : Expr} (h : e.Smooth key ρ) : e.Def ρ := by
  induction e with
  | num r => trivial
  | sym s => trivial
  | add a b iha ihb => exact ⟨iha h.1, ihb h.2⟩
  | mul a b iha ihb => exact ⟨iha h.1, ihb h.2⟩
  | pow a r iha =>
    refine ⟨iha h.1, ?_⟩
    rcases h.2 with h' | ⟨n, h'⟩ | h'
    · exact Or.inl h'
    · exact Or.inr (Or.inl ⟨n + 1, by rw [h']; push_cast; ring⟩)
    · exact Or.inr (Or.inr h')
  | sin a iha => exact iha h
  | cos a iha => exact iha h
  | sign a iha => exact iha h.1
  | exp a iha => exact iha h

theorem Smooth.diff_def {e : Expr} (h : e.Smooth key ρ) : (e.diff key).Def ρ := by
  induction e with
  | num r => trivial
  | sym s =>
    simp only [Expr.diff]
    split_ifs <;> trivial
  | add a b iha ihb => exact ⟨iha h.1, ihb h.2⟩
  | mul a b iha ihb => exact ⟨⟨iha h.1, h.2.def⟩, h.1.def, ihb h.2⟩
  | pow a r iha =>
    refine ⟨⟨trivial, h.1.def, ?_⟩, iha h.1⟩
    rcases h.2 with h' | ⟨n, h'⟩ | ⟨h1, k, h2⟩
    · exact Or.inl h'
    · exact Or.inr (Or.inl ⟨n, by rw [h']; ring⟩)
    · exact Or.inr (Or.inr ⟨h1, k - 1, by rw [h2]; push_cast; ring⟩)
  | sin a iha => exact ⟨Smooth.def (e := a) h, iha h⟩
  | cos a iha => exact ⟨⟨trivial, Smooth.def (e := a) h⟩, iha h⟩
  | sign a iha => trivial
  | exp a iha => exact ⟨Smooth.def (e := a) h, iha h⟩

theorem evalR_update_of_not_free {e : Expr} (h : key ∉ e.free) (t : ℝ) :
    e.evalR (Function.update ρ key t) = e.evalR ρ :=
  evalR_congr' fun n hn => Function.update_of_ne (a := n) (a' := key) (by rintro rfl; exact h hn) _ _

theorem Smooth.hasDerivAt {e : Expr} (h : e.Smooth key ρ) :
    HasDerivAt (fun t => e.evalR (Function.update ρ key t)) ((e.diff key).evalR ρ) (ρ key) := by
  have self : ∀ a : Expr, a.evalR (Function.update ρ key (ρ key)) = a.evalR ρ := fun a => by
    rw [Function.update_eq_self]
  induction e with
  | num r => exact hasDerivAt_const _ _
  | sym s =>
    simp only [Expr.diff]
    by_cases hs : s = key
    · subst hs
      rw [if_pos rfl]
      have e : (fun t => (sym s).evalR (Function.update ρ s t)) = fun t => t := by
        funext t; simp [evalR]
      rw [e]
      exact hasDerivAt_id _
    · rw [if_neg hs]
      have e : (fun t => (sym s).evalR (Function.update ρ key t)) = fun _ => ρ s := by
        funext t; simp [evalR, Function.update_of_ne hs]
      rw [e]
      exact hasDerivAt_const _ _
  | add a b iha ihb => exact (iha h.1).add (ihb h.2)
  | mul a b iha ihb =>
    have := (iha h.1).mul (ihb h.2)
    refine HasDerivAt.congr_deriv this ?_
    rw [self, self]
    rfl
  | pow a r iha =>
    have h1 := iha h.1
    have h2 : HasDerivAt (fun x : ℝ => x ^ r) (r * a.evalR ρ ^ (r - 1))
        (a.evalR (Function.update ρ key (ρ key))) := by
      rw [self]
      refine Real.hasDerivAt_rpow_const ?_
      rcases h.2 with h' | ⟨n, h'⟩ | h'
      · exact Or.inl h'.ne'
      · right; rw [h']; have : (0:ℝ) ≤ n := Nat.cast_nonneg n; linarith
      · exact Or.inl h'.1
    exact h2.comp (ρ key) h1
  | sin a iha =>
    have := (iha h).sin
    rw [self] at this
    exact this
  | cos a iha =>
    have := (iha h).cos
    rw [self] at this
    refine HasDerivAt.congr_deriv this ?_
    simp only [Expr.diff, evalR]
    ring
  | sign a iha =>
    have h1 := iha h.1
    rcases h.2 with h2 | h2
    · have hcont := h1.continuousAt
      rcases lt_or_gt_of_ne h2 with h3 | h3
      · have hev : ∀ᶠ t in nhds (ρ key), a.evalR (Function.update ρ key t) < 0 :=
          hcont.eventually (gt_mem_nhds (by beta_reduce; rw [self]; exact h3))
        refine (hasDerivAt_const (ρ key) (-1 : ℝ)).congr_of_eventuallyEq ?_
        filter_upwards [hev] with t ht
        simp only [evalR]
        rw [if_neg (not_lt.mpr ht.le), if_pos ht]
      · have hev : ∀ᶠ t in nhds (ρ key), 0 < a.evalR (Function.update ρ key t) :=
          hcont.eventually (lt_mem_nhds (by beta_reduce; rw [self]; exact h3))
        refine (hasDerivAt_const (ρ key) (1 : ℝ)).congr_of_eventuallyEq ?_
        filter_upwards [hev] with t ht
        simp only [evalR]
        rw [if_pos ht]
    · have e : (fun t => (sign a).evalR (Function.update ρ key t)) = fun _ => (sign a).evalR ρ := by
        funext t
        exact evalR_update_of_not_free (e := sign a) h2 t
      rw [e]
      exact hasDerivAt_const _ _
  | exp a iha =>
    have := (iha h).exp
    rw [self] at this
    exact this

/-- Near the value the expression stays defined. -/
theorem Smooth.eventually_def {e : Expr} (h : e.Smooth key ρ) :
    ∀ᶠ t in nhds (ρ key), e.Def (Function.update ρ key t) := by
  have self : ∀ a : Expr, a.evalR (Function.update ρ key (ρ key)) = a.evalR ρ := fun a => by
    rw [Function.update_eq_self]
  induction e with
  | num r => exact Filter.Eventually.of_forall fun _ => trivial
  | sym s => exact Filter.Eventually.of_forall fun _ => trivial
  | add a b iha ihb => exact (iha h.1).and (ihb h.2)
  | mul a b iha ihb => exact (iha h.1).and (ihb h.2)
  | pow a r iha =>
    have hcont := h.1.hasDerivAt.continuousAt
    refine (iha h.1).and ?_
    rcases h.2 with h' | ⟨n, h'⟩ | ⟨h1, k, h2⟩
    · have hev : ∀ᶠ t in nhds (ρ key), 0 < a.evalR (Function.update ρ key t) :=
        hcont.eventually (lt_mem_nhds (by beta_reduce; rw [self]; exact h'))
      exact hev.mono fun t ht => Or.inl ht
    · exact Filter.Eventually.of_forall fun t =>
        Or.inr (Or.inl ⟨n + 1, by rw [h']; push_cast; ring⟩)
    · have hev : ∀ᶠ t in nhds (ρ key), a.evalR (Function.update ρ key t) ≠ 0 :=
        hcont.eventually_ne (by beta_reduce; rw [self]; exact h1)
      exact hev.mono fun t ht => Or.inr (Or.inr ⟨ht, k, h2⟩)
  | sin a iha => exact iha h
  | cos a iha => exact iha h
  | sign a iha => exact iha h.1
  | exp a iha => exact iha h

theorem Smooth.diff_zero {e : Expr} (h : e.Smooth key ρ) (hk : key ∉ e.free) :
    (e.diff key).evalR ρ = 0 := by
  have h1 := h.hasDerivAt
  have e : (fun t => e.evalR (Function.update ρ key t)) = fun _ => e.evalR ρ := by
    funext t; exact evalR_update_of_not_free hk t
  rw [e] at h1
  exact h1.unique (hasDerivAt_const _ _)

end Expr

end

end RT1
