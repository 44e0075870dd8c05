import Verif.Lemmas.ScatterL
import Verif.Lemmas.FnL

/-! Linear combinations. -/

namespace RT1

noncomputable section
open Classical

namespace Scatter

/-- The parts are predefined functions with `ncoefs > 0`. -/
theorem IsPart.ncoefs {o : Scatter} {n : ℕ} (h : o.IsPart n) : o.ncoefs = .ok n := h.2.2

/-- Coefficients of a part. -/
def coefOf : Scatter → ℕ → Expr
  | prim k a _ => primCoef a k
  | lin _ _ _ => fun _ => .num 0

/-- Number of coefficients of a part. -/
def ncOf (o : Scatter) : ℕ :=
  match o.ncoefs with
  | .ok n => n
  | .error _ => 0

theorem IsPart.ncOf {o : Scatter} {n : ℕ} (h : o.IsPart n) : o.ncOf = n := by
  unfold Scatter.ncOf; rw [h.ncoefs]

theorem IsPart.legCoef {o : Scatter} {n : ℕ} (h : o.IsPart n) : o.legCoef = .ok o.coefOf := by
  obtain ⟨⟨k, a, nc, rfl⟩, -, -⟩ := h
  rfl

theorem ncoefsL_parts {l : List Scatter} (h : ∀ o ∈ l, ∃ n, o.IsPart n) : ncoefsL l = .ok (l.map ncOf) := by
  induction l with
  | nil => rw [ncoefsL]; rfl
  | cons o l ih =>
    obtain ⟨n, hn⟩ := h o (by simp)
    rw [ncoefsL, hn.ncoefs, ih fun q hq => h q (List.mem_cons_of_mem _ hq), List.map_cons, hn.ncOf]
    rfl

/-- Largest number of coefficients. -/
def maxN (l : List (Expr × Scatter)) : ℕ := (l.map fun q => q.2.ncOf).foldr max 0

theorem le_foldr_max {l : List ℕ} {n : ℕ} (h : n ∈ l) : n ≤ l.foldr max 0 := by
  induction l with
  | nil => cases h
  | cons a l ih =>
    rw [List.foldr_cons]
    rcases List.mem_cons.mp h with rfl | h
    · exact le_max_left _ _
    · exact (ih h).trans (le_max_right _ _)

theorem foldr_max_mem {l : List ℕ} (h : l ≠ []) : l.foldr max 0 ∈ l := by
  induction l with
  | nil => exact absurd rfl h
  | cons a l ih =>
    rw [List.foldr_cons]
    by_cases hl : l = []
    · subst hl; simp
    · rcases max_choice a (l.foldr max 0) with h1 | h1
      · rw [h1]; simp
      · rw [h1]; exact List.mem_cons_of_mem _ (ih hl)

theorem le_maxN {l : List (Expr × Scatter)} {q : Expr × Scatter} (h : q ∈ l) : q.2.ncOf ≤ maxN l :=
  le_foldr_max (List.mem_map.mpr ⟨q, h, rfl⟩)

theorem maxN_mem {l : List (Expr × Scatter)} (h : l ≠ []) : ∃ q ∈ l, q.2.ncOf = maxN l := by
  have := foldr_max_mem (l := l.map fun q => q.2.ncOf) (by simpa using h)
  obtain ⟨q, hq, he⟩ := List.mem_map.mp this
  exact ⟨q, hq, he⟩

theorem groupNcoefs_parts {l : List (Expr × Scatter)} (h : ∀ q ∈ l, ∃ n, q.2.IsPart n) (hl : l ≠ []) :
    groupNcoefs l = .ok (maxN l) := by
  unfold groupNcoefs
  rw [ncoefsL_parts (by
    intro o ho
    obtain ⟨q, hq, rfl⟩ := List.mem_map.mp ho
    exact h q hq)]
  simp only [okb]
  rw [if_neg (by simpa using hl)]
  unfold maxN
  rw [List.map_map]
  rfl

section
variable {R : Type} [CommRing R] [Algebra ℝ R] (emb : Expr → R)

theorem groupCoefs_parts {l : List (Expr × Scatter)} (h : ∀ q ∈ l, ∃ n, q.2.IsPart n) :
    groupCoefs emb l = .ok fun n => (l.map fun q => emb q.1 * emb (q.2.coefOf n)).sum := by
  induction l with
  | nil => rfl
  | cons q l ih =>
    obtain ⟨w, o⟩ := q
    obtain ⟨n, hn⟩ := h (w, o) (by simp)
    unfold groupCoefs
    have hn' : o.IsPart n := hn
    rw [hn'.legCoef, ih fun q hq => h q (List.mem_cons_of_mem _ hq)]
    simp only [okb, List.map_cons, List.sum_cons]

/-- Value of one group. -/
def groupSum (t0 tex p0 pex : Trig R) (g : A3 × List (Expr × Scatter)) : R :=
  legSum (maxN g.2) (fun n => (g.2.map fun q => emb q.1 * emb (q.2.coefOf n)).sum) (angleR emb t0 tex p0 pex g.1)

theorem groupsExpansion_parts {gs : List (A3 × List (Expr × Scatter))} (t0 tex p0 pex : Trig R)
    (h : ∀ g ∈ gs, ∀ q ∈ g.2, ∃ n, q.2.IsPart n) (hne : ∀ g ∈ gs, g.2 ≠ []) :
    groupsExpansion emb t0 tex p0 pex gs = .ok (gs.map (groupSum emb t0 tex p0 pex)).sum := by
  induction gs with
  | nil => rfl
  | cons g gs ih =>
    obtain ⟨a, l⟩ := g
    unfold groupsExpansion
    rw [groupNcoefs_parts (h (a, l) (by simp)) (hne (a, l) (by simp)), groupCoefs_parts emb (h (a, l) (by simp)),
      ih (fun g hg => h g (List.mem_cons_of_mem _ hg)) (fun g hg => hne g (List.mem_cons_of_mem _ hg))]
    simp only [okb, List.map_cons, List.sum_cons, groupSum]

theorem legSum_list (N : ℕ) (l : List (Expr × Scatter)) (x : R) :
    legSum N (fun n => (l.map fun q => emb q.1 * emb (q.2.coefOf n)).sum) x =
      (l.map fun q => emb q.1 * legSum N (fun n => emb (q.2.coefOf n)) x).sum := by
  induction l with
  | nil => simp [legSum]
  | cons q l ih =>
    simp only [List.map_cons, List.sum_cons]
    rw [← ih]
    unfold legSum
    rw [Finset.mul_sum, ← Finset.sum_add_distrib]
    refine Finset.sum_congr rfl fun n _ => ?_
    ring

theorem legSum_vanish {n N : ℕ} (h : n ≤ N) (c : ℕ → R) (x : R) (hc : ∀ j, n ≤ j → j < N → c j = 0) :
    legSum N c x = legSum n c x := by
  unfold legSum
  refine (Finset.sum_subset (Finset.range_subset_range.mpr h) fun j hj hj' => ?_).symm
  rw [hc j (by simpa using hj') (by simpa using hj), zero_mul]

/-- The weighted expansion of one part. -/
def partVal (t0 tex p0 pex : Trig R) (q : Expr × Scatter) : R :=
  emb q.1 * legSum q.2.ncOf (fun n => emb (q.2.coefOf n)) (angleR emb t0 tex p0 pex q.2.a)

theorem groupSum_parts {t0 tex p0 pex : Trig R} {g : A3 × List (Expr × Scatter)} (ha : ∀ q ∈ g.2, q.2.a = g.1)
    (hv : ∀ q ∈ g.2, ∀ q' ∈ g.2, ∀ j, q.2.ncOf ≤ j → j < q'.2.ncOf → emb (q.2.coefOf j) = 0) :
    groupSum emb t0 tex p0 pex g = (g.2.map (partVal emb t0 tex p0 pex)).sum := by
  unfold groupSum
  rw [legSum_list]
  congr 1
  refine List.map_congr_left fun q hq => ?_
  unfold partVal
  obtain ⟨q', hq', he⟩ := maxN_mem (l := g.2) (List.ne_nil_of_mem hq)
  rw [ha q hq, legSum_vanish (le_maxN hq)]
  intro j h1 h2
  exact hv q hq q' hq' j h1 (by rw [he]; exact h2)

end

theorem addGroup_mem {gs : List (A3 × List (Expr × Scatter))} {p : Expr × Scatter} {g} (hg : g ∈ addGroup gs p) :
    g.2 ≠ [] ∨ g ∈ gs := by
  induction gs with
  | nil => simp [addGroup] at hg; left; rw [hg]; simp
  | cons g0 gs ih =>
    obtain ⟨k, l⟩ := g0
    unfold addGroup at hg
    by_cases hk : k = p.2.a
    · rw [if_pos hk] at hg
      rcases List.mem_cons.mp hg with rfl | hg
      · left; simp
      · right; exact List.mem_cons_of_mem _ hg
    · rw [if_neg hk] at hg
      rcases List.mem_cons.mp hg with rfl | hg
      · right; simp
      · rcases ih hg with h | h
        · exact .inl h
        · right; exact List.mem_cons_of_mem _ h

theorem addGroup_sub {gs : List (A3 × List (Expr × Scatter))} {p : Expr × Scatter} {g} (hg : g ∈ addGroup gs p)
    {q} (hq : q ∈ g.2) : q = p ∨ ∃ g' ∈ gs, q ∈ g'.2 := by
  induction gs with
  | nil =>
    simp [addGroup] at hg
    rw [hg] at hq
    left; simpa using hq
  | cons g0 gs ih =>
    obtain ⟨k, l⟩ := g0
    unfold addGroup at hg
    by_cases hk : k = p.2.a
    · rw [if_pos hk] at hg
      rcases List.mem_cons.mp hg with rfl | hg
      · simp at hq
        rcases hq with hq | hq
        · exact .inr ⟨(k, l), by simp, hq⟩
        · exact .inl hq
      · exact .inr ⟨g, List.mem_cons_of_mem _ hg, hq⟩
    · rw [if_neg hk] at hg
      rcases List.mem_cons.mp hg with rfl | hg
      · exact .inr ⟨(k, l), by simp, hq⟩
      · rcases ih hg with h | ⟨g', h1, h2⟩
        · exact .inl h
        · exact .inr ⟨g', List.mem_cons_of_mem _ h1, h2⟩

theorem addGroup_sum {R : Type} [AddCommMonoid R] (T : Expr × Scatter → R) (gs : List (A3 × List (Expr × Scatter)))
    (p : Expr × Scatter) : ((addGroup gs p).map fun g => (g.2.map T).sum).sum =
      (gs.map fun g => (g.2.map T).sum).sum + T p := by
  induction gs with
  | nil => simp [addGroup]
  | cons g0 gs ih =>
    obtain ⟨k, l⟩ := g0
    unfold addGroup
    by_cases hk : k = p.2.a
    · rw [if_pos hk]
      simp only [List.map_cons, List.sum_cons, List.map_append, List.sum_append, List.map_nil, List.sum_nil, add_zero]
      abel
    · rw [if_neg hk]
      simp only [List.map_cons, List.sum_cons, ih]
      abel

theorem aGroups_facts (ps : List (Expr × Scatter)) (gs : List (A3 × List (Expr × Scatter)))
    (hne : ∀ g ∈ gs, g.2 ≠ []) :
    (∀ g ∈ ps.foldl addGroup gs, g.2 ≠ []) ∧
    ∀ g ∈ ps.foldl addGroup gs, ∀ q ∈ g.2, q ∈ ps ∨ ∃ g' ∈ gs, q ∈ g'.2 := by
  induction ps generalizing gs with
  | nil => exact ⟨hne, fun g hg q hq => .inr ⟨g, hg, hq⟩⟩
  | cons p ps ih =>
    rw [List.foldl_cons]
    obtain ⟨h1, h2⟩ := ih (addGroup gs p) fun g hg => (addGroup_mem hg).elim id (hne g)
    refine ⟨h1, fun g hg q hq => ?_⟩
    rcases h2 g hg q hq with h | ⟨g', hg', hq'⟩
    · exact .inl (List.mem_cons_of_mem _ h)
    · rcases addGroup_sub hg' hq' with rfl | h
      · exact .inl (by simp)
      · exact .inr h

theorem foldl_addGroup_sum {R : Type} [AddCommMonoid R] (T : Expr × Scatter → R) (ps : List (Expr × Scatter))
    (gs : List (A3 × List (Expr × Scatter))) : ((ps.foldl addGroup gs).map fun g => (g.2.map T).sum).sum =
      (gs.map fun g => (g.2.map T).sum).sum + (ps.map T).sum := by
  induction ps generalizing gs with
  | nil => simp
  | cons p ps ih =>
    rw [List.foldl_cons, ih, addGroup_sum, List.map_cons, List.sum_cons, add_assoc]

section
variable {R : Type} [CommRing R] [Algebra ℝ R] (emb : Expr → R)

theorem zip_part {ws : List Expr} {os : List Scatter} (h : ∀ o ∈ os, ∃ n, o.IsPart n) :
    ∀ q ∈ ws.zip os, ∃ n, q.2.IsPart n := fun q hq => h _ (List.of_mem_zip (a := q.1) (b := q.2) hq).2

/-- The expansion of a combination of predefined functions exists. -/
theorem lin_expansion {ws : List Expr} {os : List Scatter} {a : A3} (t0 tex p0 pex : Trig R)
    (h : ∀ o ∈ os, ∃ n, o.IsPart n) : ∃ v, legExpansion emb t0 tex p0 pex (lin ws os a) = .ok v := by
  obtain ⟨h1, h2⟩ := aGroups_facts (ws.zip os) [] (by simp)
  unfold legExpansion
  exact ⟨_, groupsExpansion_parts emb t0 tex p0 pex (fun g hg q hq => by
    rcases h2 g hg q hq with h3 | ⟨g', hg', _⟩
    · exact zip_part h q h3
    · cases hg') h1⟩

theorem lin_expansion_sum {ws : List Expr} {os : List Scatter} {a : A3} (t0 tex p0 pex : Trig R)
    (h : ∀ o ∈ os, ∃ n, o.IsPart n)
    (hv : ∀ o ∈ os, ∀ o' ∈ os, o.a = o'.a → ∀ j, o.ncOf ≤ j → j < o'.ncOf → emb (o.coefOf j) = 0) :
    legExpansion emb t0 tex p0 pex (lin ws os a) =
      .ok ((ws.zip os).map (partVal emb t0 tex p0 pex)).sum := by
  obtain ⟨h1, h2⟩ := aGroups_facts (ws.zip os) [] (by simp)
  have h3 : ∀ g ∈ aGroups ws os, ∀ q ∈ g.2, q ∈ ws.zip os := fun g hg q hq =>
    (h2 g hg q hq).elim id fun ⟨g', hg', _⟩ => by cases hg'
  have ha := aGroups_a ws os
  unfold legExpansion
  simp only
  rw [groupsExpansion_parts emb t0 tex p0 pex (fun g hg q hq => zip_part h q (h3 g hg q hq)) h1]
  congr 1
  have := foldl_addGroup_sum (partVal emb t0 tex p0 pex) (ws.zip os) []
  rw [List.map_nil, List.sum_nil, zero_add] at this
  rw [← this]
  congr 1
  refine List.map_congr_left fun g hg => groupSum_parts emb (ha g hg) fun q hq q' hq' => ?_
  exact hv _ (List.of_mem_zip (a := q.1) (b := q.2) (h3 g hg q hq)).2 _
    (List.of_mem_zip (a := q'.1) (b := q'.2) (h3 g hg q' hq')).2 ((ha g hg q hq).trans (ha g hg q' hq').symm)

theorem IsPart.expansion {o : Scatter} {n : ℕ} (h : o.IsPart n) (t0 tex p0 pex : Trig R) :
    legExpansion emb t0 tex p0 pex o =
      .ok (legSum o.ncOf (fun n => emb (o.coefOf n)) (angleR emb t0 tex p0 pex o.a)) := by
  have h1 := h.ncoefs
  have h2 := h.ncOf
  obtain ⟨⟨k, a, nc, rfl⟩, hp, -⟩ := h
  unfold legExpansion
  simp only [h1, okb, h2]
  rw [if_pos hp]
  rfl

end

/-- A predefined function with coefficients, or a combination of such. -/
theorem Simple.expansion {s : Scatter} (h : s.Simple) {R : Type} [CommRing R] [Algebra ℝ R] (emb : Expr → R)
    (t0 tex p0 pex : Trig R) : ∃ v, legExpansion emb t0 tex p0 pex s = .ok v := by
  rcases h with ⟨n, h⟩ | ⟨ws, os, a, rfl, hne, hp⟩
  · exact ⟨_, h.expansion emb t0 tex p0 pex⟩
  · exact lin_expansion emb t0 tex p0 pex hp

theorem Simple.ncoefs {s : Scatter} (h : s.Simple) : ∃ n, s.ncoefs = .ok (n + 1) := by
  rcases h with ⟨n, h⟩ | ⟨ws, os, a, rfl, hne, hp⟩
  · obtain ⟨m, rfl⟩ : ∃ m, n = m + 1 := ⟨n - 1, by have := h.2.1; omega⟩
    exact ⟨m, h.ncoefs⟩
  · have hm := foldr_max_mem (l := os.map ncOf) (by simpa using hne)
    obtain ⟨o, ho, he⟩ := List.mem_map.mp hm
    obtain ⟨n, hn⟩ := hp o ho
    refine ⟨(os.map ncOf).foldr max 0 - 1, ?_⟩
    rw [Scatter.ncoefs, ncoefsL_parts hp]
    simp only [okb]
    rw [if_neg (by simpa using hne)]
    have := hn.2.1
    rw [hn.ncOf] at he
    congr 1
    omega

theorem Simple.fnCoefs {V S : Scatter} (hV : V.Simple) (hS : S.Simple) (g : Geom4) :
    ∃ fs, fnCoefs V S g = .ok fs := by
  obtain ⟨nV, h1⟩ := hV.ncoefs
  obtain ⟨nS, h2⟩ := hS.ncoefs
  obtain ⟨v, h3⟩ := hV.expansion embP g.t0.trig.piSub thetaS g.p0.trig phiS
  obtain ⟨s, h4⟩ := hS.expansion embP thetaS g.tex.trig phiS g.pex.trig.addPi
  unfold RT1.fnCoefs interactionExpansion fPoly
  simp only [h1, h2, h3, h4, okb]
  exact ⟨_, rfl⟩

end Scatter

end

end RT1
