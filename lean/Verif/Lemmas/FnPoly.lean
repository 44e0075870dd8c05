import Verif.Model.Fn
import Mathlib.Analysis.SpecialFunctions.Integrals.Basic
import Mathlib.Data.Nat.Choose.Central

/-! The symbolic expansion: supports, replacements, integration over the azimuth. -/

namespace RT1

noncomputable section
open Classical MvPolynomial

/-! ### azimuth integrals -/

theorem integral_cos_pow_period (n : ℕ) :
    ∫ φ in (0 : ℝ)..(2 * Real.pi), Real.cos φ ^ n = 2 * Real.pi * cosintegral n := by
  induction n using Nat.strong_induction_on with
  | _ n ih =>
    match n with
    | 0 => simp [cosintegral]
    | 1 => simp [cosintegral]
    | n + 2 =>
      rw [integral_cos_pow, ih n (by omega)]
      simp only [Real.sin_two_pi, Real.sin_zero, mul_zero, sub_self, zero_div, zero_add]
      unfold cosintegral
      have hmod : (n + 2) % 2 = n % 2 := by omega
      rw [hmod]
      by_cases h : n % 2 = 0
      · simp only [h, if_true]
        obtain ⟨k, rfl⟩ : ∃ k, n = 2 * k := ⟨n / 2, by omega⟩
        have e1 : 2 * k / 2 = k := by omega
        have e2 : (2 * k + 2) / 2 = k + 1 := by omega
        rw [e1, e2]
        have hc := Nat.succ_mul_centralBinom_succ k
        rw [Nat.centralBinom_eq_two_mul_choose, Nat.centralBinom_eq_two_mul_choose] at hc
        have e3 : 2 * (k + 1) = 2 * k + 2 := by ring
        rw [e3] at hc
        have hc' : ((k : ℝ) + 1) * ((2 * k + 2).choose (k + 1) : ℝ) = 2 * (2 * k + 1) * ((2 * k).choose k : ℝ) := by
          exact_mod_cast hc
        have hp : (2 : ℝ) ^ (-((2 * k + 2 : ℕ) : ℤ)) = 2 ^ (-((2 * k : ℕ) : ℤ)) / 4 := by
          rw [show (-((2 * k + 2 : ℕ) : ℤ)) = -((2 * k : ℕ) : ℤ) + (-2 : ℤ) by push_cast; ring,
            zpow_add₀ (by norm_num)]
          norm_num
          ring
        rw [hp]
        have hk : ((k : ℝ) + 1) ≠ 0 := by positivity
        have hc'' : ((2 * k + 2).choose (k + 1) : ℝ) = 2 * (2 * k + 1) * ((2 * k).choose k : ℝ) / (k + 1) := by
          field_simp
          linarith
        rw [hc'']
        push_cast
        field_simp
        ring
      · simp only [h, if_false, mul_zero]

theorem integral_sin_odd (k b : ℕ) :
    ∫ φ in (0 : ℝ)..(2 * Real.pi), Real.sin φ ^ (2 * k + 1) * Real.cos φ ^ b = 0 := by
  rw [integral_sin_pow_odd_mul_cos_pow]
  simp

/-! ### supports -/

/-- All exponents of the polynomial satisfy `S`. -/
def Sup (S : (Atom →₀ ℕ) → Prop) (p : P) : Prop := ∀ m ∈ p.support, S m

namespace Sup
variable {S T U : (Atom →₀ ℕ) → Prop} {p q : P}

theorem zero : Sup S (0 : P) := fun m hm => by simp at hm

theorem mono (h : Sup S p) (hST : ∀ m, S m → T m) : Sup T p := fun m hm => hST m (h m hm)

theorem add (h : Sup S p) (h' : Sup S q) : Sup S (p + q) := fun m hm => by
  rcases Finset.mem_union.mp (support_add hm) with hm | hm
  · exact h m hm
  · exact h' m hm

theorem neg (h : Sup S p) : Sup S (-p) := fun m hm => h m (by rwa [support_neg] at hm)

theorem sub (h : Sup S p) (h' : Sup S q) : Sup S (p - q) := by
  rw [sub_eq_add_neg]; exact h.add h'.neg

theorem sum {ι : Type} {s : Finset ι} {f : ι → P} (h : ∀ i ∈ s, Sup S (f i)) :
    Sup S (∑ i ∈ s, f i) := by
  induction s using Finset.induction_on with
  | empty => simpa using zero
  | insert a s ha ih =>
    rw [Finset.sum_insert ha]
    exact (h a (by simp)).add (ih fun i hi => h i (by simp [hi]))

theorem mul (h : Sup S p) (h' : Sup T q) (hU : ∀ m n, S m → T n → U (m + n)) : Sup U (p * q) := by
  intro m hm
  obtain ⟨a, ha, b, hb, rfl⟩ := Finset.mem_add.mp (support_mul p q hm)
  exact hU a b (h a ha) (h' b hb)

theorem monomial {m : Atom →₀ ℕ} (h : S m) (c : K) : Sup S (MvPolynomial.monomial m c) := by
  intro n hn
  have := support_monomial_subset hn
  rw [Finset.mem_singleton] at this
  rw [this]; exact h

theorem C (h : S 0) (c : K) : Sup S (MvPolynomial.C c) := monomial h c

theorem one (h : S 0) : Sup S (1 : P) := by rw [← C_1]; exact C h 1

end Sup

/-! ### replacements -/

theorem xreplace_superset (x : Atom) (d : ℕ → Option P) (p : P) {s : Finset (Atom →₀ ℕ)}
    (hs : p.support ⊆ s) : xreplace x d p =
      ∑ m ∈ s, monomial (m.erase x) (coeff m p) * replPow x d (m x) := by
  unfold xreplace
  refine Finset.sum_subset hs fun m _ hm => ?_
  rw [notMem_support_iff.mp hm]
  simp

theorem xreplace_zero (x : Atom) (d : ℕ → Option P) : xreplace x d 0 = 0 := by
  simp [xreplace]

theorem xreplace_add (x : Atom) (d : ℕ → Option P) (p q : P) :
    xreplace x d (p + q) = xreplace x d p + xreplace x d q := by
  rw [xreplace_superset x d (p + q) support_add,
    xreplace_superset x d p (Finset.subset_union_left (s₂ := q.support)),
    xreplace_superset x d q (Finset.subset_union_right (s₁ := p.support)), ← Finset.sum_add_distrib]
  refine Finset.sum_congr rfl fun m _ => ?_
  rw [coeff_add, ← add_mul]
  congr 1
  exact (monomial (m.erase x)).map_add _ _

theorem xreplace_sum (x : Atom) (d : ℕ → Option P) {ι : Type} (s : Finset ι) (f : ι → P) :
    xreplace x d (∑ i ∈ s, f i) = ∑ i ∈ s, xreplace x d (f i) := by
  induction s using Finset.induction_on with
  | empty => simp [xreplace_zero]
  | insert a s ha ih => rw [Finset.sum_insert ha, Finset.sum_insert ha, xreplace_add, ih]

theorem Sup.xreplace {S T : (Atom →₀ ℕ) → Prop} {p : P} {x : Atom} {d : ℕ → Option P}
    (h : Sup S p) (hT : ∀ m c, S m →
      Sup T (MvPolynomial.monomial (m.erase x) c * replPow x d (m x))) :
    Sup T (RT1.xreplace x d p) :=
  Sup.sum fun m hm => hT m _ (h m hm)

/-! ### evaluation -/

/-- Values of the atoms. -/
def atomVal (θ φ : ℝ) : Atom → ℝ
  | .sinT => Real.sin θ
  | .cosT => Real.cos θ
  | .sinP => Real.sin φ
  | .cosP => Real.cos φ

/-- Value of a polynomial for given symbols, theta_s and phi_s. -/
def evP (ρ : String → ℝ) (θ φ : ℝ) : P →+* ℝ :=
  eval₂Hom (Pi.evalRingHom (fun _ => ℝ) ρ) (atomVal θ φ)

@[simp] theorem evP_C (ρ : String → ℝ) (θ φ : ℝ) (c : K) : evP ρ θ φ (C c) = c ρ := by
  simp [evP]
@[simp] theorem evP_X (ρ : String → ℝ) (θ φ : ℝ) (x : Atom) : evP ρ θ φ (X x) = atomVal θ φ x := by
  simp [evP]

theorem atoms_prod {M : Type} [CommMonoid M] (f : Atom → M) {s : Finset Atom}
    (hs : ∀ x, x ∉ s → f x = 1) : ∏ x ∈ s, f x = f .sinT * f .cosT * f .sinP * f .cosP := by
  have : ∏ x ∈ s, f x = ∏ x ∈ ({.sinT, .cosT, .sinP, .cosP} : Finset Atom), f x := by
    refine Finset.prod_subset (fun x _ => by cases x <;> simp) fun x _ hx => hs x hx
  rw [this]
  simp [mul_assoc]

theorem evP_monomial (ρ : String → ℝ) (θ φ : ℝ) (m : Atom →₀ ℕ) (c : K) :
    evP ρ θ φ (monomial m c) = c ρ * (Real.sin θ ^ m .sinT * Real.cos θ ^ m .cosT
      * Real.sin φ ^ m .sinP * Real.cos φ ^ m .cosP) := by
  unfold evP
  rw [coe_eval₂Hom, eval₂_monomial]
  congr 1
  rw [Finsupp.prod, atoms_prod (fun x => atomVal θ φ x ^ m x)]
  · rfl
  · intro x hx
    simp [Finsupp.notMem_support_iff.mp hx]

theorem evP_sum (ρ : String → ℝ) (θ φ : ℝ) (p : P) :
    evP ρ θ φ p = ∑ m ∈ p.support, coeff m p ρ * (Real.sin θ ^ m .sinT * Real.cos θ ^ m .cosT
      * Real.sin φ ^ m .sinP * Real.cos φ ^ m .cosP) := by
  conv_lhs => rw [← support_sum_monomial_coeff p]
  rw [map_sum]
  exact Finset.sum_congr rfl fun m _ => evP_monomial ρ θ φ m _

theorem evP_continuous (ρ : String → ℝ) (θ : ℝ) (p : P) : Continuous fun φ => evP ρ θ φ p := by
  simp_rw [evP_sum]
  fun_prop

/-- Mean over the azimuth. -/
def azMean (ρ : String → ℝ) (θ : ℝ) (p : P) : ℝ :=
  1 / (2 * Real.pi) * ∫ φ in (0 : ℝ)..(2 * Real.pi), evP ρ θ φ p

theorem azMean_sum (ρ : String → ℝ) (θ : ℝ) {ι : Type} (s : Finset ι) (f : ι → P) :
    azMean ρ θ (∑ i ∈ s, f i) = ∑ i ∈ s, azMean ρ θ (f i) := by
  unfold azMean
  simp_rw [map_sum]
  rw [intervalIntegral.integral_finsetSum fun i _ =>
    (evP_continuous ρ θ (f i)).intervalIntegrable _ _, Finset.mul_sum]

/-- Exponents without sin(phi_s), with a bounded power of cos(phi_s). -/
def CosOnly (M : ℕ) (m : Atom →₀ ℕ) : Prop := m .sinP = 0 ∧ m .cosP ≤ M

theorem azMean_monomial (ρ : String → ℝ) (θ : ℝ) {m : Atom →₀ ℕ} (hm : m .sinP = 0) (c : K) :
    azMean ρ θ (monomial m c) = c ρ * (Real.sin θ ^ m .sinT * Real.cos θ ^ m .cosT)
      * cosintegral (m .cosP) := by
  unfold azMean
  simp_rw [evP_monomial, hm, pow_zero, mul_one, ← mul_assoc]
  rw [intervalIntegral.integral_const_mul, integral_cos_pow_period]
  have := Real.pi_ne_zero
  field_simp

/-- Replacing powers of cos(phi_s) by their mean values is the mean over the azimuth. -/
theorem evP_repl3 {nS nV : ℕ} {q : P} (hq : Sup (CosOnly (nS + nV)) q) (ρ : String → ℝ) (θ φ : ℝ) :
    evP ρ θ φ (xreplace .cosP (repl3 nS nV) q) = azMean ρ θ q := by
  conv_rhs => rw [← support_sum_monomial_coeff q]
  rw [azMean_sum]
  unfold xreplace
  rw [map_sum]
  refine Finset.sum_congr rfl fun m hm => ?_
  obtain ⟨h1, h2⟩ := hq m hm
  rw [azMean_monomial ρ θ h1, map_mul, evP_monomial]
  have e : evP ρ θ φ (replPow .cosP (repl3 nS nV) (m .cosP)) = cosintegral (m .cosP) := by
    unfold replPow
    by_cases h0 : m .cosP = 0
    · rw [if_pos h0, h0, map_one]; simp [cosintegral]
    · rw [if_neg h0]
      have : repl3 nS nV (m .cosP) = some (numP (cosintegral (m .cosP))) := by
        unfold repl3; rw [if_pos ⟨by omega, by omega⟩]
      rw [this]
      simp [numP]
  rw [e]
  simp [Finsupp.erase_ne, h1]

/-- Exponents with equal degree in phi_s and sin(theta_s), of total degree at most `d`. -/
def Good (d : ℕ) (m : Atom →₀ ℕ) : Prop :=
  m .sinP + m .cosP = m .sinT ∧ m .sinT + m .cosT ≤ d

/-- Exponents after the elimination of sin(phi_s). -/
def Good1 (d : ℕ) (m : Atom →₀ ℕ) : Prop :=
  m .sinP = 0 ∧ m .cosP ≤ d ∧ m .cosP % 2 = m .sinT % 2 ∧ m .sinT + m .cosT ≤ d

/-- Exponents after the integration over phi_s. -/
def Good2 (d : ℕ) (m : Atom →₀ ℕ) : Prop :=
  m .sinP = 0 ∧ m .cosP = 0 ∧ m .sinT % 2 = 0 ∧ m .sinT + m .cosT ≤ d

/-- Exponents of a polynomial in cos(theta_s). -/
def Good3 (d : ℕ) (m : Atom →₀ ℕ) : Prop :=
  m .sinP = 0 ∧ m .cosP = 0 ∧ m .sinT = 0 ∧ m .cosT ≤ d

theorem sup_one_sub_sq (x : Atom) (k : ℕ) : Sup (fun m => (∀ y, y ≠ x → m y = 0) ∧ m x ≤ 2 * k ∧
    m x % 2 = 0) ((1 - X x ^ 2) ^ k : P) := by
  induction k with
  | zero => simpa using Sup.one (S := fun m => (∀ y, y ≠ x → m y = 0) ∧ m x ≤ 0 ∧ m x % 2 = 0) (by simp)
  | succ k ih =>
    rw [pow_succ]
    have h1 : Sup (fun m => (∀ y, y ≠ x → m y = 0) ∧ m x ≤ 2 ∧ m x % 2 = 0) (1 - X x ^ 2 : P) := by
      refine Sup.sub (Sup.one (by simp)) ?_
      rw [X_pow_eq_monomial]
      refine Sup.monomial ⟨fun y hy => ?_, by simp, by simp⟩ 1
      rw [Finsupp.single_apply, if_neg (Ne.symm hy)]
    refine ih.mul h1 fun m n hm hn => ⟨fun y hy => ?_, ?_, ?_⟩
    · rw [Finsupp.add_apply, hm.1 y hy, hn.1 y hy]
    · rw [Finsupp.add_apply]; have := hm.2.1; have := hn.2.1; omega
    · rw [Finsupp.add_apply]; have := hm.2.2; have := hn.2.2; omega

theorem repl1_pow {nS nV a : ℕ} (ha : a ≤ nS + nV) :
    replPow .sinP (repl1 nS nV) a = if a % 2 = 1 then 0 else (1 - X .cosP ^ 2) ^ (a / 2) := by
  unfold replPow
  by_cases h0 : a = 0
  · subst h0; simp
  · rw [if_neg h0]
    by_cases ho : a % 2 = 1
    · have : repl1 nS nV a = some 0 := by
        unfold repl1; rw [if_pos ⟨by omega, by omega, ho⟩]
      rw [this, if_pos ho]
    · have : repl1 nS nV a = some ((1 - X .cosP ^ 2) ^ (a / 2)) := by
        unfold repl1
        rw [if_neg (fun h => ho h.2.2), if_pos ⟨by omega, by omega, by omega⟩]
      rw [this, if_neg ho]

theorem sup_repl1 {nS nV d : ℕ} (hd : d ≤ nS + nV) {p : P} (hp : Sup (Good d) p) :
    Sup (Good1 d) (xreplace .sinP (repl1 nS nV) p) := by
  refine hp.xreplace fun m c hm => ?_
  obtain ⟨h1, h2⟩ := hm
  rw [repl1_pow (by omega)]
  by_cases ho : m .sinP % 2 = 1
  · rw [if_pos ho, mul_zero]; exact Sup.zero
  · rw [if_neg ho]
    refine (Sup.monomial (S := fun n => n = m.erase .sinP) rfl c).mul (sup_one_sub_sq .cosP _) ?_
    rintro _ n rfl ⟨hn1, hn2, hn3⟩
    have e1 := hn1 .sinP (by simp)
    have e2 := hn1 .sinT (by simp)
    have e3 := hn1 .cosT (by simp)
    refine ⟨?_, ?_, ?_, ?_⟩ <;>
      simp only [Finsupp.add_apply, Finsupp.erase_same, Finsupp.erase_apply, e1, e2, e3,
        reduceCtorEq, if_false, if_true] <;> omega

theorem evP_repl1 {nS nV d : ℕ} (hd : d ≤ nS + nV) {p : P} (hp : Sup (Good d) p)
    (ρ : String → ℝ) (θ : ℝ) :
    azMean ρ θ (xreplace .sinP (repl1 nS nV) p) = azMean ρ θ p := by
  conv_rhs => rw [← support_sum_monomial_coeff p]
  unfold xreplace
  rw [azMean_sum, azMean_sum]
  refine Finset.sum_congr rfl fun m hm => ?_
  obtain ⟨h1, h2⟩ := hp m hm
  rw [repl1_pow (by omega)]
  by_cases ho : m .sinP % 2 = 1
  · rw [if_pos ho, mul_zero]
    obtain ⟨k, hk⟩ : ∃ k, m .sinP = 2 * k + 1 := ⟨m .sinP / 2, by omega⟩
    unfold azMean
    have : ∀ φ, evP ρ θ φ (monomial m (coeff m p)) = (coeff m p ρ
        * (Real.sin θ ^ m .sinT * Real.cos θ ^ m .cosT))
        * (Real.sin φ ^ (2 * k + 1) * Real.cos φ ^ m .cosP) := by
      intro φ; rw [evP_monomial, hk]; ring
    simp_rw [this]
    rw [intervalIntegral.integral_const_mul, integral_sin_odd]
    simp
  · rw [if_neg ho]
    unfold azMean
    congr 1
    refine intervalIntegral.integral_congr fun φ _ => ?_
    rw [map_mul, evP_monomial, evP_monomial]
    have e : evP ρ θ φ ((1 - X .cosP ^ 2) ^ (m .sinP / 2)) = Real.sin φ ^ m .sinP := by
      simp only [map_pow, map_sub, map_one, evP_X, atomVal]
      rw [← Real.sin_sq, ← pow_mul]
      congr 1
      omega
    rw [e]
    simp [Finsupp.erase_ne]
    ring

theorem sup_repl3 {nS nV d : ℕ} (hd : d ≤ nS + nV) {p : P} (hp : Sup (Good1 d) p) :
    Sup (Good2 d) (xreplace .cosP (repl3 nS nV) p) := by
  refine hp.xreplace fun m c hm => ?_
  obtain ⟨h1, h2, h3, h4⟩ := hm
  by_cases h0 : m .cosP % 2 = 0
  · have hT : Sup (fun n => n = 0) (replPow .cosP (repl3 nS nV) (m .cosP)) := by
      unfold replPow
      by_cases h0 : m .cosP = 0
      · rw [if_pos h0]; exact Sup.one rfl
      · rw [if_neg h0]
        have : repl3 nS nV (m .cosP) = some (numP (cosintegral (m .cosP))) := by
          unfold repl3; rw [if_pos ⟨by omega, by omega⟩]
        rw [this]
        exact Sup.C (S := fun n => n = 0) rfl _
    refine (Sup.monomial (S := fun n => n = m.erase .cosP) rfl c).mul hT ?_
    rintro _ n rfl rfl
    refine ⟨?_, ?_, ?_, ?_⟩ <;>
      simp only [add_zero, Finsupp.erase_same, Finsupp.erase_apply, reduceCtorEq, if_false,
        if_true] <;> omega
  · have : replPow .cosP (repl3 nS nV) (m .cosP) = 0 := by
      unfold replPow
      rw [if_neg (by omega)]
      have : repl3 nS nV (m .cosP) = some (numP (cosintegral (m .cosP))) := by
        unfold repl3; rw [if_pos ⟨by omega, by omega⟩]
      rw [this]
      have : cosintegral (m .cosP) = 0 := by unfold cosintegral; rw [if_neg h0]
      rw [this]
      show numP 0 = 0
      unfold numP
      exact C_0
    rw [this, mul_zero]
    exact Sup.zero

theorem replSinT_pow {nS nV a : ℕ} (ha : a < nS + nV - 1 ∨ a = 0) (h2 : a % 2 = 0) :
    replPow .sinT (replSinT nS nV) a = (1 - X .cosT ^ 2) ^ (a / 2) := by
  unfold replPow
  by_cases h0 : a = 0
  · subst h0; simp
  · rw [if_neg h0]
    have : replSinT nS nV a = some ((1 - X .cosT ^ 2) ^ (a / 2)) := by
      unfold replSinT
      rw [if_pos ⟨by omega, by omega, by omega⟩]
    rw [this]

theorem sup_replSinT {nS nV d : ℕ} (hd : d < nS + nV - 1 ∨ d = 0) {p : P} (hp : Sup (Good2 d) p) :
    Sup (Good3 d) (xreplace .sinT (replSinT nS nV) p) := by
  refine hp.xreplace fun m c hm => ?_
  obtain ⟨h1, h2, h3, h4⟩ := hm
  rw [replSinT_pow (by omega) h3]
  refine (Sup.monomial (S := fun n => n = m.erase .sinT) rfl c).mul (sup_one_sub_sq .cosT _) ?_
  rintro _ n rfl ⟨hn1, hn2, hn3⟩
  have e1 := hn1 .sinP (by simp)
  have e2 := hn1 .sinT (by simp)
  have e3 := hn1 .cosP (by simp)
  refine ⟨?_, ?_, ?_, ?_⟩ <;>
    simp only [Finsupp.add_apply, Finsupp.erase_same, Finsupp.erase_apply, e1, e2, e3,
      reduceCtorEq, if_false, if_true] <;> omega

theorem evP_replSinT {nS nV d : ℕ} (hd : d < nS + nV - 1 ∨ d = 0) {p : P} (hp : Sup (Good2 d) p)
    (ρ : String → ℝ) (θ φ : ℝ) :
    evP ρ θ φ (xreplace .sinT (replSinT nS nV) p) = evP ρ θ φ p := by
  conv_rhs => rw [← support_sum_monomial_coeff p]
  unfold xreplace
  rw [map_sum, map_sum]
  refine Finset.sum_congr rfl fun m hm => ?_
  obtain ⟨h1, h2, h3, h4⟩ := hp m hm
  rw [replSinT_pow (by omega) h3, map_mul, evP_monomial, evP_monomial]
  have e : evP ρ θ φ ((1 - X .cosT ^ 2) ^ (m .sinT / 2)) = Real.sin θ ^ m .sinT := by
    simp only [map_pow, map_sub, map_one, evP_X, atomVal]
    rw [← Real.sin_sq, ← pow_mul]
    congr 1
    omega
  rw [e]
  simp [Finsupp.erase_ne]
  ring

/-- The polynomial left after integration and elimination of the sines: value and form. -/
theorem expansion_value {nS nV d : ℕ} (hd : d < nS + nV - 1 ∨ d = 0) (hd' : d ≤ nS + nV) {p : P}
    (hp : Sup (Good d) p) :
    Sup (Good3 d) (xreplace .sinT (replSinT nS nV) (integratePhi nS nV p)) ∧
    ∀ ρ θ φ, evP ρ θ φ (xreplace .sinT (replSinT nS nV) (integratePhi nS nV p)) = azMean ρ θ p := by
  have s1 := sup_repl1 hd' hp
  have s2 := sup_repl3 hd' s1
  refine ⟨sup_replSinT hd s2, fun ρ θ φ => ?_⟩
  unfold integratePhi
  rw [evP_replSinT hd s2]
  rw [evP_repl3 (s1.mono fun m hm => ⟨hm.1, hm.2.1.trans hd'⟩), evP_repl1 hd' hp]

/-! ### extraction of the coefficients -/

theorem evP_good3 {d : ℕ} {q : P} (hq : Sup (Good3 d) q) (ρ : String → ℝ) (θ φ : ℝ) :
    evP ρ θ φ q = ∑ n ∈ Finset.range (d + 1), coeff (Finsupp.single .cosT n) q ρ * Real.cos θ ^ n := by
  rw [evP_sum]
  have hinj : Set.InjOn (fun m : Atom →₀ ℕ => m .cosT) q.support := by
    intro m hm m' hm' h
    have h1 := hq m hm
    have h2 := hq m' hm'
    ext x
    cases x
    · rw [h1.2.2.1, h2.2.2.1]
    · exact h
    · rw [h1.1, h2.1]
    · rw [h1.2.1, h2.2.1]
  have hform : ∀ m ∈ q.support, m = Finsupp.single .cosT (m .cosT) := by
    intro m hm
    have h1 := hq m hm
    ext x
    cases x <;> simp [h1.1, h1.2.1, h1.2.2.1]
  have h1 : ∑ m ∈ q.support, coeff m q ρ * (Real.sin θ ^ m .sinT * Real.cos θ ^ m .cosT
      * Real.sin φ ^ m .sinP * Real.cos φ ^ m .cosP) =
      ∑ m ∈ q.support, (fun n => coeff (Finsupp.single .cosT n) q ρ * Real.cos θ ^ n) (m .cosT) := by
    refine Finset.sum_congr rfl fun m hm => ?_
    have h := hq m hm
    simp only
    rw [← hform m hm, h.1, h.2.1, h.2.2.1]
    simp
  rw [h1, ← Finset.sum_image (f := fun n => coeff (Finsupp.single .cosT n) q ρ * Real.cos θ ^ n) hinj]
  refine Finset.sum_subset ?_ ?_
  · intro n hn
    obtain ⟨m, hm, rfl⟩ := Finset.mem_image.mp hn
    have := (hq m hm).2.2.2
    simp; omega
  · intro n _ hn
    have : coeff (Finsupp.single Atom.cosT n) q = 0 := by
      by_contra h
      refine hn (Finset.mem_image.mpr ⟨Finsupp.single .cosT n, mem_support_iff.mpr h, by simp⟩)
    rw [this]; simp

end

end RT1
