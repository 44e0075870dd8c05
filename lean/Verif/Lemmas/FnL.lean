import Verif.Spec.Interaction
import Verif.Lemmas.FnPoly

/-! The fn-coefficients: degrees of the expansions, extraction, defining equation. -/

namespace RT1

noncomputable section
open Classical MvPolynomial

theorem okb {α β : Type} (a : α) (f : α → Py β) : ((Except.ok a : Py α) >>= f) = f a := rfl

/-! ### expansions under ring homomorphisms -/

namespace Scatter

variable {R S : Type} [CommRing R] [Algebra ℝ R] [CommRing S] [Algebra ℝ S]

/-- Image of an angle. -/
def Trig.map (f : R → S) (t : Trig R) : Trig S := ⟨f t.c, f t.s⟩

theorem angleR_map (f : R →ₐ[ℝ] S) (emb : Expr → R) (t0 tex p0 pex : Trig R) (a : A3) :
    f (angleR emb t0 tex p0 pex a) = angleR (fun e => f (emb e)) (t0.map f) (tex.map f) (p0.map f)
      (pex.map f) a := by
  simp [angleR, Trig.map]

theorem legSum_map (f : R →ₐ[ℝ] S) (N : ℕ) (c : ℕ → R) (x : R) :
    f (legSum N c x) = legSum N (fun n => f (c n)) (f x) := by
  simp [legSum, map_sum, Polynomial.aeval_algHom_apply]

theorem groupCoefs_map (f : R →ₐ[ℝ] S) (emb : Expr → R) (l : List (Expr × Scatter)) :
    groupCoefs (fun e => f (emb e)) l = (groupCoefs emb l).map fun c n => f (c n) := by
  induction l with
  | nil => simp [groupCoefs, Except.map]
  | cons p l ih =>
    obtain ⟨w, o⟩ := p
    unfold groupCoefs
    rw [ih]
    cases o.legCoef with
    | error e => rfl
    | ok g =>
      cases groupCoefs emb l with
      | error e => rfl
      | ok h =>
        show Except.ok _ = Except.ok _
        simp

theorem groupsExpansion_map (f : R →ₐ[ℝ] S) (emb : Expr → R) (t0 tex p0 pex : Trig R)
    (gs : List (A3 × List (Expr × Scatter))) :
    groupsExpansion (fun e => f (emb e)) (t0.map f) (tex.map f) (p0.map f) (pex.map f) gs =
      (groupsExpansion emb t0 tex p0 pex gs).map f := by
  induction gs with
  | nil => simp [groupsExpansion, Except.map]
  | cons p l ih =>
    obtain ⟨a, o⟩ := p
    unfold groupsExpansion
    rw [ih, groupCoefs_map]
    cases groupNcoefs o with
    | error e => rfl
    | ok N =>
      cases groupCoefs emb o with
      | error e => rfl
      | ok c =>
        cases groupsExpansion emb t0 tex p0 pex l with
        | error e => rfl
        | ok r =>
          show Except.ok _ = Except.ok _
          rw [map_add, legSum_map, angleR_map]

theorem legExpansion_map (f : R →ₐ[ℝ] S) (emb : Expr → R) (t0 tex p0 pex : Trig R) (o : Scatter) :
    legExpansion (fun e => f (emb e)) (t0.map f) (tex.map f) (p0.map f) (pex.map f) o =
      (legExpansion emb t0 tex p0 pex o).map f := by
  cases o with
  | prim k a nc =>
    unfold legExpansion
    cases (prim k a nc).ncoefs with
    | error e => rfl
    | ok N =>
      show (if 0 < N then _ else _) = Except.map f (if 0 < N then _ else _)
      by_cases h : 0 < N
      · rw [if_pos h, if_pos h]
        show Except.ok _ = Except.ok _
        rw [legSum_map, angleR_map]
      · rw [if_neg h, if_neg h]; rfl
  | lin ws os a => exact groupsExpansion_map f emb t0 tex p0 pex _

end Scatter

/-! ### degrees -/

theorem Good.add {d e : ℕ} {m n : Atom →₀ ℕ} (hm : Good d m) (hn : Good e n) : Good (d + e) (m + n) := by
  obtain ⟨h1, h2⟩ := hm
  obtain ⟨h3, h4⟩ := hn
  refine ⟨?_, ?_⟩ <;> simp only [Finsupp.add_apply] <;> omega

theorem Good.mono {d e : ℕ} (h : d ≤ e) {m : Atom →₀ ℕ} (hm : Good d m) : Good e m :=
  ⟨hm.1, hm.2.trans h⟩

theorem good_zero (d : ℕ) : Good d 0 := by simp [Good]

theorem algebraMap_P (r : ℝ) : algebraMap ℝ P r = C (fun _ => r) := rfl

theorem sup_legendre {x : P} (hx : Sup (Good 1) x) (n : ℕ) :
    Sup (Good n) (Polynomial.aeval x (legendre n)) := by
  induction n using Nat.strong_induction_on with
  | _ n ih =>
    match n with
    | 0 => simpa [legendre] using Sup.one (good_zero 0)
    | 1 => simpa [legendre] using hx
    | n + 2 =>
      simp only [legendre, map_sub, map_mul, Polynomial.aeval_C, Polynomial.aeval_X, algebraMap_P]
      refine Sup.sub ?_ ?_
      · have h1 : Sup (Good 1) (C (fun _ => ((2 * n + 3 : ℕ) : ℝ) / ((n + 2 : ℕ) : ℝ)) * x) :=
          (Sup.C (good_zero 0) _).mul hx fun m n hm hn => by simpa using hm.add hn
        exact h1.mul (ih (n + 1) (by omega)) fun a b ha hb => (ha.add hb).mono (by omega)
      · exact (Sup.C (good_zero 0) _).mul (ih n (by omega)) fun a b ha hb =>
          (ha.add hb).mono (by omega)

theorem sup_legSum {N : ℕ} {c : ℕ → K} {x : P} (hx : Sup (Good 1) x) :
    Sup (Good (N - 1)) (Scatter.legSum N (fun n => C (c n)) x) := by
  refine Sup.sum fun n hn => ?_
  rw [Finset.mem_range] at hn
  exact (Sup.C (good_zero 0) _).mul (sup_legendre hx n) fun a b ha hb =>
    (ha.add hb).mono (by omega)

theorem groupCoefs_C (l : List (Expr × Scatter)) {f : ℕ → P} (h : Scatter.groupCoefs embP l = .ok f) :
    ∃ c : ℕ → K, f = fun n => C (c n) := by
  induction l generalizing f with
  | nil => cases h; exact ⟨fun _ => 0, by simp⟩
  | cons p l ih =>
    obtain ⟨w, o⟩ := p
    unfold Scatter.groupCoefs at h
    cases h1 : o.legCoef with
    | error e => rw [h1] at h; cases h
    | ok g =>
      cases h2 : Scatter.groupCoefs embP l with
      | error e => rw [h1, h2] at h; cases h
      | ok g2 =>
        rw [h1, h2] at h
        obtain ⟨c, rfl⟩ := ih h2
        cases h
        refine ⟨fun n => (fun ρ => w.evalR ρ) * (fun ρ => (g n).evalR ρ) + c n, ?_⟩
        funext n
        rw [C_add, C_mul]
        rfl

theorem ncoefsL_mem {l : List (Expr × Scatter)} {ns : List ℕ}
    (h : Scatter.ncoefsL (l.map Prod.snd) = .ok ns) {k : ℕ} (hk : k ∈ ns) :
    ∃ p ∈ l, p.2.ncoefs = .ok k := by
  induction l generalizing ns with
  | nil => simp [Scatter.ncoefsL] at h; subst h; simp at hk
  | cons p l ih =>
    simp only [List.map_cons] at h
    unfold Scatter.ncoefsL at h
    cases h1 : p.2.ncoefs with
    | error e => rw [h1] at h; cases h
    | ok n =>
      cases h2 : Scatter.ncoefsL (l.map Prod.snd) with
      | error e => rw [h1, h2] at h; cases h
      | ok ns' =>
        rw [h1, h2] at h
        cases h
        rcases List.mem_cons.mp hk with rfl | hk
        · exact ⟨p, by simp, h1⟩
        · obtain ⟨q, hq, hq'⟩ := ih h2 hk
          exact ⟨q, by simp [hq], hq'⟩

theorem ncoefsL_of_mem {os : List Scatter} {ns : List ℕ} (h : Scatter.ncoefsL os = .ok ns)
    {o : Scatter} (ho : o ∈ os) : ∃ k ∈ ns, o.ncoefs = .ok k := by
  induction os generalizing ns with
  | nil => simp at ho
  | cons p l ih =>
    unfold Scatter.ncoefsL at h
    cases h1 : p.ncoefs with
    | error e => rw [h1] at h; cases h
    | ok n =>
      cases h2 : Scatter.ncoefsL l with
      | error e => rw [h1, h2] at h; cases h
      | ok ns' =>
        rw [h1, h2] at h
        cases h
        rcases List.mem_cons.mp ho with rfl | hk
        · exact ⟨n, by simp, h1⟩
        · obtain ⟨q, hq, hq'⟩ := ih h2 hk
          exact ⟨q, by simp [hq], hq'⟩

theorem le_foldr_max {l : List ℕ} {k : ℕ} (h : k ∈ l) : k ≤ l.foldr max 0 := by
  induction l with
  | nil => simp at h
  | cons a l ih =>
    rcases List.mem_cons.mp h with rfl | h
    · simp
    · simp only [List.foldr_cons]; exact (ih h).trans (le_max_right _ _)

theorem foldr_max_le {l : List ℕ} {b : ℕ} (h : ∀ k ∈ l, k ≤ b) : l.foldr max 0 ≤ b := by
  induction l with
  | nil => simp
  | cons a l ih =>
    simp only [List.foldr_cons]
    exact max_le (h a (by simp)) (ih fun k hk => h k (by simp [hk]))

theorem addGroup_mem (gs : List (A3 × List (Expr × Scatter))) (p : Expr × Scatter) (g) 
    (hg : g ∈ Scatter.addGroup gs p) (q) (hq : q ∈ g.2) : q = p ∨ ∃ g' ∈ gs, q ∈ g'.2 := by
  induction gs with
  | nil =>
    simp only [Scatter.addGroup, List.mem_singleton] at hg
    subst hg
    simp at hq
    exact .inl hq
  | cons g0 gs ih =>
    obtain ⟨k, l⟩ := g0
    unfold Scatter.addGroup at hg
    by_cases h : k = p.2.a
    · rw [if_pos h] at hg
      rcases List.mem_cons.mp hg with rfl | hg
      · simp at hq
        rcases hq with hq | hq
        · exact .inr ⟨(k, l), by simp, hq⟩
        · exact .inl hq
      · exact .inr ⟨g, by simp [hg], hq⟩
    · rw [if_neg h] at hg
      rcases List.mem_cons.mp hg with rfl | hg
      · exact .inr ⟨(k, l), by simp, hq⟩
      · rcases ih hg with h | ⟨g', hg', hq'⟩
        · exact .inl h
        · exact .inr ⟨g', by simp [hg'], hq'⟩

theorem foldl_addGroup_mem (ps : List (Expr × Scatter)) (gs : List (A3 × List (Expr × Scatter))) (g)
    (hg : g ∈ ps.foldl Scatter.addGroup gs) (q) (hq : q ∈ g.2) : q ∈ ps ∨ ∃ g' ∈ gs, q ∈ g'.2 := by
  induction ps generalizing gs with
  | nil => exact .inr ⟨g, hg, hq⟩
  | cons p ps ih =>
    rcases ih _ hg with h | ⟨g', hg', hq'⟩
    · exact .inl (by simp [h])
    · rcases addGroup_mem gs p g' hg' q hq' with h | h
      · exact .inl (by simp [h])
      · exact .inr h

theorem aGroups_mem {ws : List Expr} {os : List Scatter} {g} (hg : g ∈ Scatter.aGroups ws os) {q}
    (hq : q ∈ g.2) : q ∈ ws.zip os := by
  rcases foldl_addGroup_mem _ _ g hg q hq with h | ⟨g', hg', _⟩
  · exact h
  · simp at hg'

/-- Degree of the Legendre expansion if the scattering angle is linear in the directions. -/
theorem sup_legExpansion {t0 tex p0 pex : Scatter.Trig P}
    (hx : ∀ a, Sup (Good 1) (Scatter.angleR embP t0 tex p0 pex a)) {o : Scatter} {N : ℕ}
    (hN : o.ncoefs = .ok N) {r : P} (h : o.legExpansion embP t0 tex p0 pex = .ok r) :
    Sup (Good (N - 1)) r ∧ (N = 0 → r = 0) := by
  cases o with
  | prim k a nc =>
    unfold Scatter.legExpansion at h
    rw [hN] at h
    simp only [RT1.okb] at h
    by_cases h0 : 0 < N
    · rw [if_pos h0] at h
      cases h
      exact ⟨sup_legSum (c := fun n ρ => (Scatter.primCoef a k n).evalR ρ) (hx a), by omega⟩
    · rw [if_neg h0] at h; cases h
  | lin ws os a =>
    have key : ∀ gs : List (A3 × List (Expr × Scatter)), (∀ g ∈ gs, ∀ q ∈ g.2, q.2 ∈ os) → ∀ r,
        Scatter.groupsExpansion embP t0 tex p0 pex gs = .ok r →
        Sup (Good (N - 1)) r ∧ (N = 0 → r = 0) := by
      intro gs
      induction gs with
      | nil => intro _ r hr; cases hr; exact ⟨Sup.zero, fun _ => rfl⟩
      | cons g gs ih =>
        intro hg r hr
        obtain ⟨a', l⟩ := g
        unfold Scatter.groupsExpansion at hr
        cases h1 : Scatter.groupNcoefs l with
        | error e => rw [h1] at hr; cases hr
        | ok n =>
          cases h2 : Scatter.groupCoefs embP l with
          | error e => rw [h1, h2] at hr; cases hr
          | ok f =>
            cases h3 : Scatter.groupsExpansion embP t0 tex p0 pex gs with
            | error e => rw [h1, h2, h3] at hr; cases hr
            | ok r' =>
              rw [h1, h2, h3] at hr
              cases hr
              obtain ⟨c, rfl⟩ := groupCoefs_C l h2
              obtain ⟨i1, i2⟩ := ih (fun g hg' => hg g (by simp [hg'])) r' h3
              have hn : n ≤ N := by
                unfold Scatter.groupNcoefs at h1
                cases h4 : Scatter.ncoefsL (l.map Prod.snd) with
                | error e => rw [h4] at h1; cases h1
                | ok ns =>
                  rw [h4] at h1
                  simp only [RT1.okb] at h1
                  by_cases he : ns = []
                  · rw [if_pos he] at h1; cases h1
                  · rw [if_neg he] at h1
                    cases h1
                    refine foldr_max_le fun k hk => ?_
                    obtain ⟨q, hq, hq'⟩ := ncoefsL_mem h4 hk
                    have hqo := hg (a', l) (by simp) q hq
                    unfold Scatter.ncoefs at hN
                    cases h5 : Scatter.ncoefsL os with
                    | error e => rw [h5] at hN; cases hN
                    | ok ns' =>
                      rw [h5] at hN
                      simp only [RT1.okb] at hN
                      by_cases he' : ns' = []
                      · rw [if_pos he'] at hN; cases hN
                      · rw [if_neg he'] at hN
                        cases hN
                        obtain ⟨k', hk', e⟩ := ncoefsL_of_mem h5 hqo
                        rw [hq'] at e
                        cases e
                        exact le_foldr_max hk'
              refine ⟨((sup_legSum (hx a')).mono fun m hm => hm.mono (by omega)).add i1, fun h0 => ?_⟩
              rw [i2 h0]
              have : n = 0 := by omega
              subst this
              simp [Scatter.legSum]
    refine key _ (fun g hg q hq => ?_) r h
    exact (List.of_mem_zip (aGroups_mem hg hq)).2

/-! ### the two scattering angles -/

/-- A constant angle. -/
def ConstTrig (t : Scatter.Trig P) : Prop := ∃ c s : K, t = ⟨C c, C s⟩

theorem AngS.const (x : AngS) : ConstTrig x.trig := ⟨_, _, rfl⟩
theorem ConstTrig.piSub {t : Scatter.Trig P} (h : ConstTrig t) : ConstTrig t.piSub := by
  obtain ⟨c, s, rfl⟩ := h
  exact ⟨-c, s, by simp [Scatter.Trig.piSub]⟩
theorem ConstTrig.addPi {t : Scatter.Trig P} (h : ConstTrig t) : ConstTrig t.addPi := by
  obtain ⟨c, s, rfl⟩ := h
  exact ⟨-c, -s, by simp [Scatter.Trig.addPi]⟩

theorem sup_C_mul {d : ℕ} {p : P} (c : K) (h : Sup (Good d) p) : Sup (Good d) (C c * p) :=
  (Sup.C (good_zero 0) c).mul h fun a b ha hb => (ha.add hb).mono (by omega)

theorem good_cosT : Sup (Good 1) (X .cosT : P) := by
  refine Sup.monomial ?_ 1
  simp [Good]

theorem good_sinT_mul (x : Atom) (hx : x = .cosP ∨ x = .sinP) : Sup (Good 1) (X .sinT * X x : P) := by
  unfold X
  rw [monomial_mul]
  refine Sup.monomial ?_ _
  rcases hx with rfl | rfl <;> simp [Good]

theorem good_angle_out {t0 p0 : Scatter.Trig P} (h0 : ConstTrig t0) (h1 : ConstTrig p0) (a : A3) :
    Sup (Good 1) (Scatter.angleR embP t0 thetaS p0 phiS a) := by
  obtain ⟨c, s, rfl⟩ := h0
  obtain ⟨c', s', rfl⟩ := h1
  have e : Scatter.angleR embP ⟨C c, C s⟩ thetaS ⟨C c', C s'⟩ phiS a =
      C ((fun ρ => a.a0.evalR ρ) * c) * X .cosT
        + C ((fun ρ => a.a1.evalR ρ) * s * c') * (X .sinT * X .cosP)
        + C ((fun ρ => a.a2.evalR ρ) * s * s') * (X .sinT * X .sinP) := by
    simp only [C_mul, Scatter.angleR, thetaS, phiS, embP]
    ring
  rw [e]
  exact ((sup_C_mul _ good_cosT).add (sup_C_mul _ (good_sinT_mul _ (.inl rfl)))).add
    (sup_C_mul _ (good_sinT_mul _ (.inr rfl)))

theorem good_angle_in {t0 p0 : Scatter.Trig P} (h0 : ConstTrig t0) (h1 : ConstTrig p0) (a : A3) :
    Sup (Good 1) (Scatter.angleR embP thetaS t0 phiS p0 a) := by
  obtain ⟨c, s, rfl⟩ := h0
  obtain ⟨c', s', rfl⟩ := h1
  have e : Scatter.angleR embP thetaS ⟨C c, C s⟩ phiS ⟨C c', C s'⟩ a =
      C ((fun ρ => a.a0.evalR ρ) * c) * X .cosT
        + C ((fun ρ => a.a1.evalR ρ) * s * c') * (X .sinT * X .cosP)
        + C ((fun ρ => a.a2.evalR ρ) * s * s') * (X .sinT * X .sinP) := by
    simp only [C_mul, Scatter.angleR, thetaS, phiS, embP]
    ring
  rw [e]
  exact ((sup_C_mul _ good_cosT).add (sup_C_mul _ (good_sinT_mul _ (.inl rfl)))).add
    (sup_C_mul _ (good_sinT_mul _ (.inr rfl)))

/-! ### numerical values -/

/-- An angle as its cosine and sine. -/
def trigR (t : ℝ) : Scatter.Trig ℝ := ⟨Real.cos t, Real.sin t⟩

/-- `evP` as algebra homomorphism. -/
def evA (ρ : String → ℝ) (θ φ : ℝ) : P →ₐ[ℝ] ℝ :=
  { evP ρ θ φ with
    commutes' := fun r => by
      show evP ρ θ φ (algebraMap ℝ P r) = r
      rw [algebraMap_P, evP_C] }

theorem evA_apply (ρ : String → ℝ) (θ φ : ℝ) (p : P) : evA ρ θ φ p = evP ρ θ φ p := rfl

theorem evA_emb (ρ : String → ℝ) (θ φ : ℝ) : (fun e => evA ρ θ φ (embP e)) = fun e => e.evalR ρ := by
  funext e
  rw [evA_apply]
  exact evP_C ρ θ φ _

theorem expansionAt_eq (o : Scatter) (ρ : String → ℝ) (t0 tex p0 pex : ℝ) :
    o.expansionAt ρ t0 tex p0 pex =
      o.legExpansion (fun e => e.evalR ρ) (trigR t0) (trigR tex) (trigR p0) (trigR pex) := rfl

theorem trig_val (x : AngS) (ρ : String → ℝ) (θ φ : ℝ) :
    x.trig.map (evA ρ θ φ) = trigR (x.val ρ) := by
  unfold AngS.trig Scatter.Trig.map trigR
  rw [evA_apply, evA_apply, evP_C, evP_C]

theorem trig_piSub (x : AngS) (ρ : String → ℝ) (θ φ : ℝ) :
    x.trig.piSub.map (evA ρ θ φ) = trigR (Real.pi - x.val ρ) := by
  unfold AngS.trig Scatter.Trig.map trigR Scatter.Trig.piSub
  simp only [map_neg, evA_apply, evP_C, Real.cos_pi_sub, Real.sin_pi_sub]

theorem trig_addPi (x : AngS) (ρ : String → ℝ) (θ φ : ℝ) :
    x.trig.addPi.map (evA ρ θ φ) = trigR (x.val ρ + Real.pi) := by
  unfold AngS.trig Scatter.Trig.map trigR Scatter.Trig.addPi
  simp only [map_neg, evA_apply, evP_C, Real.cos_add_pi, Real.sin_add_pi]

theorem trig_thetaS (ρ : String → ℝ) (θ φ : ℝ) : thetaS.map (evA ρ θ φ) = trigR θ := by
  unfold thetaS Scatter.Trig.map trigR
  rw [evA_apply, evA_apply, evP_X, evP_X]; rfl

theorem trig_phiS (ρ : String → ℝ) (θ φ : ℝ) : phiS.map (evA ρ θ φ) = trigR φ := by
  unfold phiS Scatter.Trig.map trigR
  rw [evA_apply, evA_apply, evP_X, evP_X]; rfl

/-- The product of the expansions: it succeeds iff both do, its value and its degree. -/
theorem fPoly_spec {V SRF : Scatter} {g : Geom4} {p : P} (h : fPoly V SRF g = .ok p) :
    ∃ s v : P, p = numP (2 * Real.pi) * v * s ∧
      SRF.legExpansion embP thetaS g.tex.trig phiS g.pex.trig.addPi = .ok s ∧
      V.legExpansion embP g.t0.trig.piSub thetaS g.p0.trig phiS = .ok v := by
  unfold fPoly at h
  cases h1 : SRF.legExpansion embP thetaS g.tex.trig phiS g.pex.trig.addPi with
  | error e => rw [h1] at h; cases h
  | ok s =>
    cases h2 : V.legExpansion embP g.t0.trig.piSub thetaS g.p0.trig phiS with
    | error e => rw [h1, h2] at h; cases h
    | ok v =>
      rw [h1, h2] at h
      cases h
      exact ⟨s, v, rfl, rfl, rfl⟩

theorem srf_value {SRF : Scatter} {g : Geom4} {s : P}
    (h : SRF.legExpansion embP thetaS g.tex.trig phiS g.pex.trig.addPi = .ok s) (ρ : String → ℝ)
    (θ φ : ℝ) : SRF.expansionAt ρ θ (g.tex.val ρ) φ (g.pex.val ρ + Real.pi) = .ok (evP ρ θ φ s) := by
  rw [expansionAt_eq, ← evA_emb ρ θ φ, ← trig_thetaS ρ θ φ, ← trig_phiS ρ θ φ, ← trig_val g.tex ρ θ φ,
    ← trig_addPi g.pex ρ θ φ, Scatter.legExpansion_map, h]
  rfl

theorem vol_value {V : Scatter} {g : Geom4} {v : P}
    (h : V.legExpansion embP g.t0.trig.piSub thetaS g.p0.trig phiS = .ok v) (ρ : String → ℝ)
    (θ φ : ℝ) : V.expansionAt ρ (Real.pi - g.t0.val ρ) θ (g.p0.val ρ) φ = .ok (evP ρ θ φ v) := by
  rw [expansionAt_eq, ← evA_emb ρ θ φ, ← trig_thetaS ρ θ φ, ← trig_phiS ρ θ φ, ← trig_piSub g.t0 ρ θ φ,
    ← trig_val g.p0 ρ θ φ, Scatter.legExpansion_map, h]
  rfl

/-! ### extraction -/

theorem xreplace_good3 {d : ℕ} {q : P} (hq : Sup (Good3 d) q) (D : ℕ → Option P) :
    xreplace .cosT D q = ∑ n ∈ Finset.range (d + 1),
      C (coeff (Finsupp.single .cosT n) q) * replPow .cosT D n := by
  unfold xreplace
  have hform : ∀ m ∈ q.support, m = Finsupp.single .cosT (m .cosT) := by
    intro m hm
    have h1 := hq m hm
    ext x
    cases x <;> simp [h1.1, h1.2.1, h1.2.2.1]
  have hinj : Set.InjOn (fun m : Atom →₀ ℕ => m .cosT) q.support := by
    intro m hm m' hm' h
    simp only at h
    rw [hform m hm, hform m' hm', h]
  have h1 : ∑ m ∈ q.support, monomial (m.erase .cosT) (coeff m q) * replPow .cosT D (m .cosT) =
      ∑ m ∈ q.support, (fun n => C (coeff (Finsupp.single .cosT n) q) * replPow .cosT D n)
        (m .cosT) := by
    refine Finset.sum_congr rfl fun m hm => ?_
    have e : m.erase .cosT = 0 := by
      rw [hform m hm]; simp
    simp only
    rw [← hform m hm, e]
    rfl
  rw [h1, ← Finset.sum_image
    (f := fun n => C (coeff (Finsupp.single .cosT n) q) * replPow .cosT D n) hinj]
  refine Finset.sum_subset ?_ ?_
  · intro n hn
    obtain ⟨m, hm, rfl⟩ := Finset.mem_image.mp hn
    have := (hq m hm).2.2.2
    simp; omega
  · intro n _ hn
    have : coeff (Finsupp.single Atom.cosT n) q = 0 := by
      by_contra h
      refine hn (Finset.mem_image.mpr ⟨Finsupp.single .cosT n, mem_support_iff.mpr h, by simp⟩)
    rw [this]; simp

theorem coeff_good3 {d : ℕ} {q : P} (hq : Sup (Good3 d) q) {n : ℕ} (hn : d < n) :
    coeff (Finsupp.single .cosT n) q = 0 := by
  by_contra h
  have := (hq _ (mem_support_iff.mpr h)).2.2.2
  simp at this
  omega

theorem replPow_repl0 (n : ℕ) : replPow .cosT repl0 n = if n = 0 then 1 else 0 := by
  unfold replPow
  by_cases h : n = 0
  · simp [h]
  · rw [if_neg h, if_neg h]
    by_cases h1 : n = 1
    · subst h1; simp [repl0]
    · have : repl0 n = none := by simp [repl0, h1]
      rw [this]
      simp [repl0, h]

theorem xreplace_repl0 {d : ℕ} {q : P} (hq : Sup (Good3 d) q) :
    xreplace .cosT repl0 q = C (coeff 0 q) := by
  rw [xreplace_good3 hq, Finset.sum_eq_single 0]
  · simp [replPow_repl0]
  · intro n _ hn; simp [replPow_repl0, hn]
  · intro h; simp at h

theorem xreplace_replF1 {d N : ℕ} {q : P} (hq : Sup (Good3 d) q) (hd : d ≤ N) :
    xreplace .cosT (replF1 N) q = C (coeff 0 q) + C (coeff (Finsupp.single .cosT 1) q) := by
  have e : ∀ n ∈ Finset.range (d + 1), C (coeff (Finsupp.single .cosT n) q) *
      replPow .cosT (replF1 N) n = (if n = 0 then C (coeff 0 q) else 0) +
        (if n = 1 then C (coeff (Finsupp.single .cosT 1) q) else 0) := by
    intro n hn
    rw [Finset.mem_range] at hn
    unfold replPow
    by_cases h : n = 0
    · subst h; simp
    · rw [if_neg h, if_neg h]
      by_cases h1 : n = 1
      · subst h1; simp [replF1]
      · have : replF1 N n = some 0 := by
          unfold replF1
          rw [if_neg h1, if_pos ⟨by omega, by omega⟩]
        rw [this]
        simp [h1]
  rw [xreplace_good3 hq, Finset.sum_congr rfl e, Finset.sum_add_distrib, Finset.sum_ite_eq',
    Finset.sum_ite_eq', if_pos (by simp)]
  by_cases h1 : 1 ≤ d
  · rw [if_pos (by simp; omega)]
  · rw [if_neg (by simp; omega), coeff_good3 hq (by omega)]
    simp

theorem xreplace_cosT_mul (D : ℕ → Option P) (c : K) (k : ℕ) :
    xreplace .cosT D (C c * X .cosT ^ k) = C c * replPow .cosT D k := by
  have hS : Sup (Good3 k) (C c * X .cosT ^ k) := by
    rw [C_mul_X_pow_eq_monomial]
    refine Sup.monomial ?_ c
    simp [Good3]
  rw [xreplace_good3 hS, Finset.sum_eq_single k]
  · rw [C_mul_X_pow_eq_monomial, coeff_monomial, if_pos rfl]
  · intro n _ hn
    rw [C_mul_X_pow_eq_monomial, coeff_monomial, if_neg]
    · simp
    · intro h
      have := congrArg (fun m : Atom →₀ ℕ => m .cosT) h
      simp at this
      exact hn this.symm
  · intro h; simp at h

theorem xreplace_replFn {d n : ℕ} {q : P} (hq : Sup (Good3 d) q) (hn : 2 ≤ n) :
    xreplace .cosT repl0 (xreplace .cosT (replFn n) q) =
      C (coeff 0 q) + C (coeff (Finsupp.single .cosT n) q) := by
  have e : ∀ k ∈ Finset.range (d + 1), xreplace .cosT repl0 (C (coeff (Finsupp.single .cosT k) q) *
      replPow .cosT (replFn n) k) = (if k = 0 then C (coeff 0 q) else 0) +
        (if k = n then C (coeff (Finsupp.single .cosT n) q) else 0) := by
    intro k hk
    by_cases h : k = 0
    · subst h
      have := xreplace_cosT_mul repl0 (coeff 0 q) 0
      rw [pow_zero, mul_one, replPow_repl0] at this
      have hn0 : ¬ (0 = n) := by omega
      simp only [replPow, if_true, hn0, if_false, Finsupp.single_zero]
      simpa using this
    · by_cases h1 : k = n
      · subst h1
        have := xreplace_cosT_mul repl0 (coeff (Finsupp.single .cosT k) q) 0
        rw [pow_zero, mul_one, replPow_repl0] at this
        have hr : replPow .cosT (replFn k) k = 1 := by
          unfold replPow
          rw [if_neg h]
          have : replFn k k = some 1 := by simp [replFn]
          rw [this]
        rw [hr, mul_one, this]
        simp [h]
      · have hr : replPow .cosT (replFn n) k = X .cosT ^ k := by
          unfold replPow
          rw [if_neg h]
          have h2 : replFn n k = none := by simp [replFn, h1]
          have h3 : replFn n 1 = none := by
            unfold replFn
            rw [if_neg (by omega)]
          rw [h2, h3]
        rw [hr, xreplace_cosT_mul, replPow_repl0]
        simp [h, h1]
  rw [xreplace_good3 hq, xreplace_sum, Finset.sum_congr rfl e, Finset.sum_add_distrib,
    Finset.sum_ite_eq', Finset.sum_ite_eq', if_pos (by simp)]
  by_cases h1 : n ≤ d
  · rw [if_pos (by simp; omega)]
  · rw [if_neg (by simp; omega), coeff_good3 hq (by omega)]
    simp

/-- Number of entries of the list of coefficients. -/
def nFn (nS nV : ℕ) : ℕ := 2 + (nS + nV - 1 - 2)

theorem extract_spec {nS nV d : ℕ} (hd : d ≤ nS + nV - 1) {q : P} (hq : Sup (Good3 d) q) :
    extractCoefficients nS nV q =
      (List.range (nFn nS nV)).map fun n => C (coeff (Finsupp.single .cosT n) q) := by
  unfold extractCoefficients nFn
  rw [List.range_add, List.map_append]
  simp only
  have e1 : ∀ (a b c d : List P), a = c → b = d → a ++ b = c ++ d := by
    rintro a b c d rfl rfl; rfl
  refine e1 _ _ _ _ ?_ ?_
  · rw [xreplace_repl0 hq, xreplace_replF1 hq hd]
    simp [List.range_succ]
  · rw [List.map_map]
    refine List.map_congr_left fun j _ => ?_
    rw [xreplace_replFn hq (by omega), xreplace_repl0 hq]
    simp [add_comm]

/-- Everything about the computed coefficients: they are free of atoms, and their sum is the
azimuth integral of the product of the two expansions. -/
theorem fnCoefs_spec {V SRF : Scatter} {g : Geom4} {fs : List P} (h : fnCoefs V SRF g = .ok fs) :
    ∃ (nS nV : ℕ) (c : ℕ → K), SRF.ncoefs = .ok nS ∧ V.ncoefs = .ok nV ∧
      fs = (List.range (nFn nS nV)).map (fun n => C (c n)) ∧
      (∀ n, nS + nV - 1 ≤ n → c n = 0 ∨ n = 0) ∧
      ∃ s v : P,
        SRF.legExpansion embP thetaS g.tex.trig phiS g.pex.trig.addPi = .ok s ∧
        V.legExpansion embP g.t0.trig.piSub thetaS g.p0.trig phiS = .ok v ∧
        ∀ ρ θ, ∑ n ∈ Finset.range (nFn nS nV), c n ρ * Real.cos θ ^ n =
          ∫ φ in (0 : ℝ)..(2 * Real.pi), evP ρ θ φ v * evP ρ θ φ s := by
  unfold fnCoefs interactionExpansion at h
  cases h1 : fPoly V SRF g with
  | error e => rw [h1] at h; cases h
  | ok p =>
    cases h2 : SRF.ncoefs with
    | error e => rw [h1, h2] at h; cases h
    | ok nS =>
      cases h3 : V.ncoefs with
      | error e => rw [h1, h2, h3] at h; cases h
      | ok nV =>
        rw [h1, h2, h3] at h
        simp only [okb] at h
        cases h
        obtain ⟨s, v, rfl, hs, hv⟩ := fPoly_spec h1
        obtain ⟨gs, gs0⟩ := sup_legExpansion (good_angle_in g.tex.const g.pex.const.addPi) h2 hs
        obtain ⟨gv, gv0⟩ := sup_legExpansion (good_angle_out g.t0.const.piSub g.p0.const) h3 hv
        -- degree of the product
        obtain ⟨d, hd, hp⟩ : ∃ d, (d < nS + nV - 1 ∨ d = 0) ∧ 
            Sup (Good d) (numP (2 * Real.pi) * v * s) := by
          by_cases h0 : nS = 0 ∨ nV = 0
          · refine ⟨0, .inr rfl, ?_⟩
            rcases h0 with h0 | h0
            · rw [gs0 h0, mul_zero]; exact Sup.zero
            · rw [gv0 h0, mul_zero, zero_mul]; exact Sup.zero
          · refine ⟨(nV - 1) + (nS - 1), .inl (by omega), ?_⟩
            exact (sup_C_mul _ gv).mul gs fun a b ha hb => ha.add hb
        have hd' : d ≤ nS + nV := by omega
        obtain ⟨q1, q2⟩ := expansion_value hd hd' hp
        have ex := extract_spec (nS := nS) (nV := nV) (show d ≤ nS + nV - 1 by omega) q1
        refine ⟨nS, nV, fun n => coeff (Finsupp.single Atom.cosT n) _, rfl, rfl, ex, ?_, s, v, hs, hv,
          fun ρ θ => ?_⟩
        · intro n hn
          by_cases h0 : n = 0
          · exact .inr h0
          · exact .inl (coeff_good3 q1 (by omega))
        · have hle : d + 1 ≤ nFn nS nV := by unfold nFn; omega
          rw [← Finset.sum_subset (Finset.range_subset_range.mpr hle), ← evP_good3 q1 ρ θ 0, q2]
          · unfold azMean
            have : ∀ φ, evP ρ θ φ (numP (2 * Real.pi) * v * s) =
                (2 * Real.pi) * (evP ρ θ φ v * evP ρ θ φ s) := by
              intro φ
              rw [map_mul, map_mul]
              unfold numP
              rw [evP_C]
              ring
            simp_rw [this]
            rw [intervalIntegral.integral_const_mul]
            have := Real.pi_ne_zero
            field_simp
          · intro n _ hn
            have e := coeff_good3 q1 (n := n) (by simp at hn; omega)
            simp only [e]
            simp

end

end RT1
