import Verif.Lemmas.FnL
import Verif.Lemmas.LamL

/-! What the truncated expansions depend on. -/

namespace RT1

noncomputable section
open Classical

namespace Scatter

section
variable {R : Type} [CommRing R] [Algebra ℝ R] {emb : Expr → R}

theorem groupsExpansion_angle {t0 tex p0 pex t0' tex' p0' pex' : Trig R}
    (h : ∀ a, angleR emb t0 tex p0 pex a = angleR emb t0' tex' p0' pex' a)
    (gs : List (A3 × List (Expr × Scatter))) :
    groupsExpansion emb t0 tex p0 pex gs = groupsExpansion emb t0' tex' p0' pex' gs := by
  induction gs with
  | nil => rfl
  | cons g gs ih =>
    obtain ⟨a, l⟩ := g
    unfold groupsExpansion
    simp only [h, ih]

/-- The expansion depends on the angles only through the scattering angle. -/
theorem legExpansion_angle {t0 tex p0 pex t0' tex' p0' pex' : Trig R}
    (h : ∀ a, angleR emb t0 tex p0 pex a = angleR emb t0' tex' p0' pex' a) (o : Scatter) :
    legExpansion emb t0 tex p0 pex o = legExpansion emb t0' tex' p0' pex' o := by
  cases o with
  | prim k a nc =>
    unfold legExpansion
    simp only [h]
  | lin ws os a => exact groupsExpansion_angle h _
end

/-- Does the expansion depend on the scattering angle? -/
def isoKind : Kind → Prop
  | .volIsotropic => True
  | .srfIsotropic => True
  | _ => False

theorem free_of_nodes {k : Kind} (hk : ¬ isoKind k) (a : A3) :
    ∀ s ∈ a.a0.free ++ a.a1.free ++ a.a2.free, s ∈ (primPhase a k).free := by
  have hang : ∀ s ∈ a.a0.free ++ a.a1.free ++ a.a2.free, s ∈ (angleExpr a).free := by
    intro s hs
    simp only [List.mem_append] at hs
    simp only [angleExpr, Expr.free, HAdd.hAdd, Add.add, HMul.hMul, Mul.mul, List.mem_append]
    tauto
  intro s hs
  have h := hang s hs
  cases k <;> first
    | exact absurd trivial hk
    | (simp only [primPhase, hgExpr, Expr.free, HAdd.hAdd, Add.add, HMul.hMul, Mul.mul,
        HSub.hSub, Sub.sub, HDiv.hDiv, Div.div, Neg.neg, List.mem_append]
       tauto)

theorem coef_free (k : Kind) (a : A3) (n : ℕ) :
    ∀ s ∈ (primCoef a k n).free, s ∈ (primPhase a k).free := by
  intro s hs
  cases k with
  | volHGRayleigh t =>
    unfold primCoef at hs
    by_cases h : n < 2
    all_goals
      simp only [h, if_true, if_false] at hs
      simp only [primPhase, angleExpr, Expr.free, HAdd.hAdd, Add.add, HMul.hMul, Mul.mul,
        HSub.hSub, Sub.sub, HDiv.hDiv, Div.div, Neg.neg, List.mem_append, List.not_mem_nil] at hs ⊢
      tauto
  | _ =>
    simp only [primCoef, primPhase, hgExpr, nadirHemreflect, angleExpr, Expr.free, HAdd.hAdd,
      Add.add, HMul.hMul, Mul.mul, HSub.hSub, Sub.sub, HDiv.hDiv, Div.div, Neg.neg,
      List.mem_append, List.not_mem_nil] at hs ⊢
    try tauto

/-- The members of an a-group have these `a`. -/
theorem addGroup_a (gs : List (A3 × List (Expr × Scatter))) (p : Expr × Scatter)
    (h : ∀ g ∈ gs, ∀ q ∈ g.2, q.2.a = g.1) : ∀ g ∈ addGroup gs p, ∀ q ∈ g.2, q.2.a = g.1 := by
  induction gs with
  | nil =>
    intro g hg q hq
    simp only [addGroup, List.mem_singleton] at hg
    subst hg
    simp at hq
    rw [hq]
  | cons g0 gs ih =>
    obtain ⟨k, l⟩ := g0
    have h' := ih fun g hg => h g (List.mem_cons_of_mem _ hg)
    intro g hg q hq
    unfold addGroup at hg
    by_cases hk : k = p.2.a
    · rw [if_pos hk] at hg
      rcases List.mem_cons.mp hg with rfl | hg
      · simp at hq
        rcases hq with hq | hq
        · exact h (k, l) (by simp) q hq
        · rw [hq]; exact hk.symm
      · exact h g (List.mem_cons_of_mem _ hg) q hq
    · rw [if_neg hk] at hg
      rcases List.mem_cons.mp hg with rfl | hg
      · exact h (k, l) (by simp) q hq
      · exact h' g hg q hq

theorem aGroups_a (ws : List Expr) (os : List Scatter) :
    ∀ g ∈ aGroups ws os, ∀ q ∈ g.2, q.2.a = g.1 := by
  have key : ∀ (ps : List (Expr × Scatter)) (gs : List (A3 × List (Expr × Scatter))),
      (∀ g ∈ gs, ∀ q ∈ g.2, q.2.a = g.1) → ∀ g ∈ ps.foldl addGroup gs, ∀ q ∈ g.2, q.2.a = g.1 := by
    intro ps
    induction ps with
    | nil => intro gs h; exact h
    | cons p ps ih => intro gs h; exact ih _ (addGroup_a gs p h)
  exact key _ _ (by simp)

theorem phaseL_free {ws : List Expr} {os : List Scatter} {q : Expr × Scatter} (hq : q ∈ ws.zip os) :
    (∀ s ∈ q.1.free, s ∈ (phaseL ws os).free) ∧ ∀ s ∈ q.2.phase.free, s ∈ (phaseL ws os).free := by
  induction ws generalizing os with
  | nil => simp at hq
  | cons w ws ih =>
    cases os with
    | nil => simp at hq
    | cons o os =>
      rw [List.zip_cons_cons] at hq
      have e : phaseL (w :: ws) (o :: os) = Expr.add (Expr.mul w (phase o)) (phaseL ws os) := by
        rw [phaseL]; rfl
      rw [e]
      simp only [Expr.free, List.mem_append]
      rcases List.mem_cons.mp hq with rfl | hq
      · exact ⟨fun s hs => .inl (.inl hs), fun s hs => .inl (.inr hs)⟩
      · exact ⟨fun s hs => .inr ((ih hq).1 s hs), fun s hs => .inr ((ih hq).2 s hs)⟩

section
variable {ρ ρ' : String → ℝ}

theorem groupCoefs_congr {l : List (Expr × Scatter)}
    (h : ∀ q ∈ l, (∀ s ∈ q.1.free, ρ s = ρ' s) ∧ ∀ s ∈ q.2.phase.free, ρ s = ρ' s) {f : ℕ → ℝ}
    (hf : groupCoefs (fun e => e.evalR ρ) l = .ok f) :
    groupCoefs (fun e => e.evalR ρ') l = .ok f ∧ ∀ q ∈ l, ∃ k a nc, q.2 = prim k a nc := by
  induction l generalizing f with
  | nil => cases hf; exact ⟨rfl, by simp⟩
  | cons p l ih =>
    obtain ⟨w, o⟩ := p
    unfold groupCoefs at hf ⊢
    cases o with
    | lin _ _ _ => cases hf
    | prim k a nc =>
      cases h2 : groupCoefs (fun e => e.evalR ρ) l with
      | error e =>
        simp only [legCoef, h2] at hf
        cases hf
      | ok g =>
        simp only [legCoef, h2] at hf
        cases hf
        obtain ⟨i1, i2⟩ := ih (fun q hq => h q (List.mem_cons_of_mem _ hq)) h2
        obtain ⟨h3, h4⟩ := h (w, prim k a nc) (by simp)
        constructor
        · simp only [legCoef, i1]
          show Except.ok _ = Except.ok _
          congr 1
          funext n
          rw [Expr.evalR_congr h3, Expr.evalR_congr (e := primCoef a k n) fun s hs =>
            h4 s (by show s ∈ (phase (prim k a nc)).free; rw [phase]; exact coef_free k a n s hs)]
        · intro q hq
          rcases List.mem_cons.mp hq with rfl | hq
          · exact ⟨k, a, nc, rfl⟩
          · exact i2 q hq

theorem legSum_const {N : ℕ} (hN : N ≤ 1) (c : ℕ → ℝ) (x y : ℝ) : legSum N c x = legSum N c y := by
  unfold legSum
  refine Finset.sum_congr rfl fun n hn => ?_
  rw [Finset.mem_range] at hn
  have : n = 0 := by omega
  subst this
  simp [legendre]

theorem angleR_congr {a : A3} (h : ∀ s ∈ a.a0.free ++ a.a1.free ++ a.a2.free, ρ s = ρ' s)
    (t0 tex p0 pex : Trig ℝ) :
    angleR (fun e => e.evalR ρ) t0 tex p0 pex a = angleR (fun e => e.evalR ρ') t0 tex p0 pex a := by
  unfold angleR
  simp only [List.mem_append] at h
  show a.a0.evalR ρ * _ * _ + a.a1.evalR ρ * _ * _ * _ * _ + a.a2.evalR ρ * _ * _ * _ * _ = _
  rw [Expr.evalR_congr (e := a.a0) fun s hs => h s (by tauto),
    Expr.evalR_congr (e := a.a1) fun s hs => h s (by tauto),
    Expr.evalR_congr (e := a.a2) fun s hs => h s (by tauto)]

theorem iso_ncoefs {k : Kind} (hk : isoKind k) (a : A3) (nc : Option ℕ) : (prim k a nc).ncoefs = .ok 1 := by
  cases k <;> first | (unfold ncoefs; rfl) | exact hk.elim

theorem groups_congr {t0 tex p0 pex : Trig ℝ} {gs : List (A3 × List (Expr × Scatter))}
    (ha : ∀ g ∈ gs, ∀ q ∈ g.2, q.2.a = g.1)
    (h : ∀ g ∈ gs, ∀ q ∈ g.2, (∀ s ∈ q.1.free, ρ s = ρ' s) ∧ ∀ s ∈ q.2.phase.free, ρ s = ρ' s) {r : ℝ}
    (hr : groupsExpansion (fun e => e.evalR ρ) t0 tex p0 pex gs = .ok r) :
    groupsExpansion (fun e => e.evalR ρ') t0 tex p0 pex gs = .ok r := by
  induction gs generalizing r with
  | nil => exact hr
  | cons g gs ih =>
    obtain ⟨a, l⟩ := g
    unfold groupsExpansion at hr ⊢
    cases h1 : groupNcoefs l with
    | error e => rw [h1] at hr; cases hr
    | ok N =>
      cases h2 : groupCoefs (fun e => e.evalR ρ) l with
      | error e => rw [h1, h2] at hr; cases hr
      | ok f =>
        cases h3 : groupsExpansion (fun e => e.evalR ρ) t0 tex p0 pex gs with
        | error e => rw [h1, h2, h3] at hr; cases hr
        | ok r' =>
          rw [h1, h2, h3] at hr
          cases hr
          obtain ⟨e2, hprim⟩ := groupCoefs_congr (h (a, l) (by simp)) h2
          have e3 := ih (fun g hg => ha g (List.mem_cons_of_mem _ hg))
            (fun g hg => h g (List.mem_cons_of_mem _ hg)) h3
          rw [e2, e3]
          show Except.ok _ = Except.ok _
          congr 2
          by_cases hiso : ∀ q ∈ l, ∀ k a' nc, q.2 = prim k a' nc → isoKind k
          · refine legSum_const ?_ _ _ _
            unfold groupNcoefs at h1
            cases h4 : ncoefsL (l.map Prod.snd) with
            | error e => rw [h4] at h1; cases h1
            | ok ns =>
              rw [h4] at h1
              simp only [okb] at h1
              by_cases he : ns = []
              · rw [if_pos he] at h1; cases h1
              · rw [if_neg he] at h1
                cases h1
                refine foldr_max_le fun k hk => ?_
                obtain ⟨q, hq, hq'⟩ := ncoefsL_mem h4 hk
                obtain ⟨kk, aa, nc, hp⟩ := hprim q hq
                rw [hp, iso_ncoefs (hiso q hq _ _ _ hp)] at hq'
                cases hq'
                exact le_rfl
          · push Not at hiso
            obtain ⟨q, hq, k, a', nc, hp, hk⟩ := hiso
            congr 1
            refine (angleR_congr (fun s hs => ?_) _ _ _ _).symm
            refine (h (a, l) (by simp) q hq).2 s ?_
            have hqa := ha (a, l) (by simp) q hq
            rw [hp] at hqa ⊢
            have hqa' : a' = a := hqa
            rw [phase, hqa']
            exact free_of_nodes hk a s hs

/-- The expansion depends only on the values of the symbols of the phase function. -/
theorem expansion_congr {o : Scatter} (h : ∀ s ∈ o.phase.free, ρ s = ρ' s) {t0 tex p0 pex v : ℝ}
    (hv : o.expansionAt ρ t0 tex p0 pex = .ok v) : o.expansionAt ρ' t0 tex p0 pex = .ok v := by
  cases o with
  | prim k a nc =>
    rw [phase] at h
    unfold expansionAt legExpansion at hv ⊢
    cases hN : (prim k a nc).ncoefs with
    | error e => rw [hN] at hv; cases hv
    | ok N =>
      rw [hN] at hv
      simp only [okb] at hv ⊢
      by_cases h0 : 0 < N
      · rw [if_pos h0] at hv ⊢
        rw [← hv]
        congr 1
        have e1 : (fun n => (primCoef a k n).evalR ρ') = fun n => (primCoef a k n).evalR ρ := by
          funext n
          exact (Expr.evalR_congr fun s hs => h s (coef_free k a n s hs)).symm
        rw [e1]
        by_cases hk : isoKind k
        · refine legSum_const ?_ _ _ _
          rw [iso_ncoefs hk] at hN
          cases hN; exact le_rfl
        · congr 1
          exact (angleR_congr (fun s hs => h s (free_of_nodes hk a s hs)) _ _ _ _).symm
      · rw [if_neg h0] at hv; cases hv
  | lin ws os a =>
    rw [phase] at h
    unfold expansionAt legExpansion at hv ⊢
    refine groups_congr (aGroups_a ws os) (fun g hg q hq => ?_) hv
    have := phaseL_free (aGroups_mem hg hq)
    exact ⟨fun s hs => h s (this.1 s hs), fun s hs => h s (this.2 s hs)⟩

theorem expVal_of_ok {o : Scatter} {t0 tex p0 pex v : ℝ} (h : o.expansionAt ρ t0 tex p0 pex = .ok v) :
    o.expVal ρ t0 tex p0 pex = v := by
  unfold expVal; rw [h]

/-- Value of the expansion for other angles with the same scattering angle. -/
theorem expVal_angle {o : Scatter} {t0 tex p0 pex t0' tex' p0' pex' : ℝ}
    (h1 : Real.cos t0 * Real.cos tex = Real.cos t0' * Real.cos tex')
    (h2 : Real.sin t0 * Real.sin tex * Real.cos p0 * Real.cos pex =
      Real.sin t0' * Real.sin tex' * Real.cos p0' * Real.cos pex')
    (h3 : Real.sin t0 * Real.sin tex * Real.sin p0 * Real.sin pex =
      Real.sin t0' * Real.sin tex' * Real.sin p0' * Real.sin pex') :
    o.expVal ρ t0 tex p0 pex = o.expVal ρ t0' tex' p0' pex' := by
  have : o.expansionAt ρ t0 tex p0 pex = o.expansionAt ρ t0' tex' p0' pex' := by
    unfold expansionAt
    refine legExpansion_angle (fun a => ?_) o
    unfold angleR
    simp only
    linear_combination a.a0.evalR ρ * h1 + a.a1.evalR ρ * h2 + a.a2.evalR ρ * h3
  unfold expVal
  rw [this]

end

end Scatter

end

end RT1
