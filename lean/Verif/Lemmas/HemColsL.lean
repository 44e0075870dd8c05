import Verif.Lemmas.HemL
import Verif.Lemmas.Rows

/-! Values of `hemreflect` for parameters given as arrays of shape (m, 1, 1). -/

namespace RT1

noncomputable section
open Classical

/-- The values given for the parameters: numbers, or `m` values along an axis before the two axes of the grid
(numpy shape `(m, 1, 1)`); `ρ i` are the values number `i`. -/
def Dict.Stacked (pd : Dict) (m : ℕ) (ρ : ℕ → String → ℝ) : Prop :=
  ∀ k a, Dict.get? pd k = some a → (a.shape = [] ∨ a.shape = [1, 1, m]) ∧
    ∀ i < m, a.at' [0, 0, i] = XR.fin (ρ i k)

theorem mapM_zip {pd : Dict} {k : String} {a : Arr} (hk : Dict.get? pd k = some a) : ∀ {ks : List String}
    {vals : List Arr}, ks.mapM (fun k => Dict.get? pd k) = some vals → k ∈ ks → (k, a) ∈ ks.zip vals
  | [], _, _, h => by cases h
  | x :: ks, vals, hm, h => by
    rw [List.mapM_cons] at hm
    cases hx : Dict.get? pd x with
    | none => rw [hx] at hm; simp at hm
    | some y =>
      rw [hx] at hm
      cases hv : ks.mapM (fun k => Dict.get? pd k) with
      | none => rw [hv] at hm; simp at hm
      | some vs =>
        rw [hv] at hm
        simp only [Option.pure_def, Option.bind_eq_bind, Option.bind_some, Option.some.injEq] at hm
        subst hm
        rcases List.mem_cons.mp h with rfl | h
        · rw [hk] at hx
          cases hx
          simp
        · exact List.mem_cons_of_mem _ (mapM_zip hk hv h)

theorem mapM_keys {pd : Dict} : ∀ {ks : List String}, (∀ k ∈ ks, k ∈ pd.keys) →
    ∃ vals, ks.mapM (fun k => Dict.get? pd k) = some vals ∧ vals.length = ks.length
  | [], _ => ⟨[], rfl, rfl⟩
  | k :: ks, h => by
    obtain ⟨vals, h1, h2⟩ := mapM_keys fun k' hk' => h k' (List.mem_cons_of_mem _ hk')
    obtain ⟨v, hv⟩ := Dict.get?_of_mem (h k (List.mem_cons_self ..))
    refine ⟨v :: vals, ?_, by simp [h2]⟩
    rw [List.mapM_cons, hv, h1]; rfl

/-- The arguments of the phase function. -/
theorem Scatter.calcVal_bound {b : Backend} {s : Scatter} {pd : Dict} (hg : s.Given pd) (a1 a2 a3 a4 : Arr) :
    ∃ vals, pd.keys.mapM (fun k => Dict.get? pd k) = some vals ∧ vals.length = pd.keys.length ∧
      s.calcVal b a1 a2 a3 a4 pd = Lam.evalBound b s.phase
        ((["theta_0", "theta_ex", "phi_0", "phi_ex"] ++ pd.keys).zip ([a1, a2, a3, a4] ++ vals)) := by
  obtain ⟨vals, hv, hl⟩ := mapM_keys (pd := pd) (ks := pd.keys) fun _ h => h
  refine ⟨vals, hv, hl, ?_⟩
  unfold Scatter.calcVal
  rw [Lam.compile_of_free hg]
  show Lam.call b _ _ _ = _
  unfold Lam.call
  have hb : Lam.bindArgs b (["theta_0", "theta_ex", "phi_0", "phi_ex"] ++ pd.keys) [a1, a2, a3, a4] pd =
      .ok ((["theta_0", "theta_ex", "phi_0", "phi_ex"] ++ pd.keys).zip ([a1, a2, a3, a4] ++ vals)) := by
    have hd : (["theta_0", "theta_ex", "phi_0", "phi_ex"] ++ pd.keys).drop [a1, a2, a3, a4].length = pd.keys := by simp
    unfold Lam.bindArgs
    rw [hd]
    cases b with
    | sympy =>
      simp only
      rw [if_neg (by simp), if_neg, hv]
      rintro ⟨p, hp, hp'⟩
      exact hp' (List.mem_map.mpr ⟨p, hp, rfl⟩)
    | symengine =>
      simp only
      rw [hv]
      simp only
      rw [if_neg (by simp)]
  simp only
  rw [hb]
  rfl

/-- The arguments that are used are broadcast to a common shape. -/
theorem Scatter.calcVal_shape {b : Backend} {s : Scatter} {pd : Dict} (hg : s.Given pd) {a1 a2 a3 a4 : Arr} :
    s.calcVal b a1 a2 a3 a4 pd = .error .valueError ∨ ∃ z, s.calcVal b a1 a2 a3 a4 pd = .ok z ∧
      (b = .symengine ∨ "phi_ex" ∈ s.phase.free → Arr.Fits a4.shape z.shape) ∧
      ∀ k a, Dict.get? pd k = some a → b = .symengine ∨ k ∈ s.phase.free → Arr.Fits a.shape z.shape := by
  obtain ⟨vals, hv, hl, he⟩ := Scatter.calcVal_bound (b := b) hg a1 a2 a3 a4
  have hm : ("phi_ex", a4) ∈ (["theta_0", "theta_ex", "phi_0", "phi_ex"] ++ pd.keys).zip ([a1, a2, a3, a4] ++ vals) := by
    simp
  have hm' : ∀ k a, Dict.get? pd k = some a →
      (k, a) ∈ (["theta_0", "theta_ex", "phi_0", "phi_ex"] ++ pd.keys).zip ([a1, a2, a3, a4] ++ vals) := by
    intro k a hk
    have := mapM_zip hk hv (Lam.mem_of_get? hk)
    simp only [List.cons_append, List.nil_append, List.zip_cons_cons, List.mem_cons]
    exact Or.inr (Or.inr (Or.inr (Or.inr this)))
  have hnames : ((["theta_0", "theta_ex", "phi_0", "phi_ex"] ++ pd.keys).zip ([a1, a2, a3, a4] ++ vals)).map Prod.fst =
      ["theta_0", "theta_ex", "phi_0", "phi_ex"] ++ pd.keys := by
    rw [List.map_fst_zip]
    simp [hl]
  rw [he]
  generalize (["theta_0", "theta_ex", "phi_0", "phi_ex"] ++ pd.keys).zip ([a1, a2, a3, a4] ++ vals) = bnd at hm hm' hnames
  cases b with
  | sympy =>
    simp only [Lam.evalBound]
    have hg' : ∀ n ∈ s.phase.free, n ∈ ["theta_0", "theta_ex", "phi_0", "phi_ex"] ++ pd.keys := hg
    rw [hnames, if_pos hg']
    cases hs : Arr.bshapes ((bnd.filter fun p => decide (p.1 ∈ s.phase.free)).map fun p => p.2.shape) with
    | none => exact Or.inl rfl
    | some sh =>
      refine Or.inr ⟨_, rfl, fun h => ?_, fun k a hk h => ?_⟩
      · exact Arr.bshapes_fits hs (List.mem_map.mpr ⟨_, List.mem_filter.mpr ⟨hm, by simpa using h⟩, rfl⟩)
      · exact Arr.bshapes_fits hs (List.mem_map.mpr ⟨_, List.mem_filter.mpr ⟨hm' k a hk, by simpa using h⟩, rfl⟩)
  | symengine =>
    simp only [Lam.evalBound]
    cases hs : Arr.bshapes (bnd.map fun p => p.2.shape) with
    | none => exact Or.inl rfl
    | some sh =>
      refine Or.inr ⟨_, rfl, fun _ => ?_, fun k a hk _ => ?_⟩
      · exact Arr.bshapes_fits hs (List.mem_map.mpr ⟨_, hm, rfl⟩)
      · exact Arr.bshapes_fits hs (List.mem_map.mpr ⟨_, hm' k a hk, rfl⟩)

theorem Dict.Stacked.at_grid {pd : Dict} {m : ℕ} {ρ : ℕ → String → ℝ} (hp : pd.Stacked m ρ) {k : String} {a : Arr}
    (hk : Dict.get? pd k = some a) (j l : ℕ) {i : ℕ} (hi : i < m) : a.at' [j, l, i] = XR.fin (ρ i k) := by
  obtain ⟨hs, hv⟩ := hp k a hk
  rw [← hv i hi]
  unfold Arr.at'
  rcases hs with hs | hs <;> rw [hs] <;> simp [Arr.bidx]

theorem Dict.Stacked.fits {pd : Dict} {m : ℕ} {ρ : ℕ → String → ℝ} (hp : pd.Stacked m ρ) (x y : ℕ) (k : String) (a : Arr)
    (hk : Dict.get? pd k = some a) : Arr.Fits a.shape [x, y, m] := by
  rcases (hp k a hk).1 with h | h <;> rw [h]
  · trivial
  · exact ⟨Or.inl rfl, Or.inl rfl, Or.inr rfl, trivial⟩

/-- The phase function at given angles. -/
theorem Scatter.calcVal_at_grid {b : Backend} {s : Scatter} {pd : Dict} {m : ℕ} {ρ : ℕ → String → ℝ} (hp : pd.Stacked m ρ)
    {a1 a2 a3 a4 z : Arr} (h : s.calcVal b a1 a2 a3 a4 pd = .ok z) {j l i : ℕ} (hi : i < m) {x : Dirs} (hρ : x.ρ = ρ i)
    (h1 : a1.at' [j, l, i] = XR.fin x.t0) (h2 : a2.at' [j, l, i] = XR.fin x.tex) (h3 : a3.at' [j, l, i] = XR.fin x.p0)
    (h4 : a4.at' [j, l, i] = XR.fin x.pex) : z.at' [j, l, i] = s.phase.evalX fun n => XR.fin (x.env n) := by
  refine PW.calcVal' s (fun n hn => ?_) z h
  unfold angEnv Dirs.env
  rw [h1, h2, h3, h4]
  split_ifs with n1 n2 n3 n4
  · rfl
  · rfl
  · rfl
  · rfl
  · have hk : n ∈ pd.keys := by
      rcases hn with hn | hn
      · simp [n1, n2, n3, n4] at hn
      · exact hn
    obtain ⟨a, ha⟩ := Dict.get?_of_mem hk
    unfold Dict.valAt
    rw [ha, hρ]
    exact hp.at_grid ha j l hi

theorem Arr.at'_short {a : Arr} (idx ext : List ℕ) (h : a.shape.length ≤ idx.length) : a.at' (idx ++ ext) = a.at' idx := by
  have key : ∀ (s idx : List ℕ), s.length ≤ idx.length → Arr.bidx s (idx ++ ext) = Arr.bidx s idx := by
    intro s
    induction s with
    | nil => intro idx _; cases idx <;> cases ext <;> rfl
    | cons x s ih =>
      intro idx h
      cases idx with
      | nil => simp at h
      | cons y idx =>
        simp only [List.cons_append, Arr.bidx]
        rw [ih idx (by simpa using h)]
  unfold Arr.at'
  rw [key _ _ h]

/-- One pass of the loop computes Simpson's rule in two variables for all values of the parameters. -/
theorem hemAt_columns (r : EvenRule) {b : Backend} {s : Scatter} {pd : Dict} {m : ℕ} {ρ : ℕ → String → ℝ}
    (hp : pd.Stacked m ρ) (hg : s.Given pd) (hphi : b = .symengine ∨ "phi_ex" ∈ s.phase.free) {key : String} {ka : Arr}
    (hk : Dict.get? pd key = some ka) (hks : ka.shape = [1, 1, m]) (hku : b = .symengine ∨ key ∈ s.phase.free)
    {n : ℕ} (hn : 0 < n) {p0 t0 : ℝ} {f : ℕ → ℝ → ℝ → ℝ}
    (hf : ∀ i t p, s.phase.evalX (fun k => XR.fin (Dirs.env ⟨t0, t, p0, p, ρ i⟩ k)) = XR.fin (f i t p)) :
    ∃ a, hemAt r b s pd n p0 t0 = .ok a ∧ a.shape = [m] ∧ ∀ i < m, a.get [i] =
      XR.fin (simps2R r (fun t p => Real.sin t * Real.cos t * f i t p) (Real.pi / 2) (2 * Real.pi) n) := by
  obtain ⟨w, hw, hws, hwv⟩ := hemWeights n
  have f2 : Arr.Fits (thetaGrid n).shape [n, n, m] := ⟨Or.inl rfl, Or.inr rfl, trivial⟩
  have f4 : Arr.Fits (phiGrid n).shape [n, n, m] := ⟨Or.inr rfl, trivial⟩
  obtain ⟨y, hy, hyf⟩ := Scatter.calcVal_succ (b := b) (S := [n, n, m]) hg (a1 := Arr.lit t0) (a2 := thetaGrid n)
    (a3 := Arr.lit p0) (a4 := phiGrid n) trivial f2 trivial f4 (hp.fits n n)
  obtain ⟨S, hS, hSf⟩ := Arr.bshape_of_fits (s := w.shape) (t := y.shape) (u := [n, n, m]) (by rw [hws]; exact f2) hyf
  have hbs := Arr.bshape_fits hS
  have hy3 : Arr.Fits [n] y.shape ∧ Arr.Fits [1, 1, m] y.shape := by
    rcases Scatter.calcVal_shape (b := b) hg (a1 := Arr.lit t0) (a2 := thetaGrid n) (a3 := Arr.lit p0) (a4 := phiGrid n)
      with h | ⟨z, hz, h1, h2⟩
    · rw [hy] at h; cases h
    · rw [hy] at hz; cases hz
      exact ⟨h1 hphi, hks ▸ h2 key ka hk hku⟩
  have hSe : S = [n, n, m] := by
    have e1 := hy3.1.trans hbs.2
    have e2 := hy3.2.trans hbs.2
    have e3 : Arr.Fits [1, n] S := by rw [← hws]; exact hbs.1
    match S, e1, e2, e3, hSf with
    | [x, y, z], e1, e2, e3, e4 =>
      simp only [Arr.Fits, and_true] at e1 e2 e3 e4
      simp only [List.cons.injEq, and_true]
      omega
  obtain ⟨z, hz⟩ : ∃ z, Arr.mul w y = .ok z := by
    unfold Arr.mul Arr.map2; rw [hS]; exact ⟨_, rfl⟩
  have hzs : z.shape = [n, n, m] := by
    have := (Arr.shape_map2 hz).symm.trans hS
    rw [hSe] at this
    simpa using this
  have hzv : ∀ l j i, l < n → j < n → i < m → z.get [j, l, i] = XR.fin (Real.sin (linspace 0 (Real.pi / 2) n l) *
      Real.cos (linspace 0 (Real.pi / 2) n l) * f i (linspace 0 (Real.pi / 2) n l) (linspace 0 (2 * Real.pi) n j)) := by
    intro l j i hl hj hi
    have hv : Arr.Valid z.shape [j, l, i] := by rw [hzs]; exact .cons hj (.cons hl (.cons hi .nil))
    have e1 : w.at' [j, l, i] = w.at' [j, l] := Arr.at'_short [j, l] [i] (by rw [hws]; simp)
    have e2 : (thetaGrid n).at' [j, l, i] = (thetaGrid n).at' [j, l] := Arr.at'_short [j, l] [i] (by simp [thetaGrid])
    have e3 : (phiGrid n).at' [j, l, i] = (phiGrid n).at' [j, l] := Arr.at'_short [j, l] [i] (by simp [phiGrid])
    rw [← Arr.at'_valid hv, Arr.at'_map2 hz, e1, hwv l j hl, Scatter.calcVal_at_grid hp hy hi
      (x := ⟨t0, linspace 0 (Real.pi / 2) n l, p0, linspace 0 (2 * Real.pi) n j, ρ i⟩) rfl rfl
      (e2.trans (thetaGrid_at n l j hl)) rfl (e3.trans (phiGrid_at n l j hj)), hf]
    rfl
  have hI : hemIntegrand b s pd n t0 p0 = .ok z := by
    unfold hemIntegrand
    simp only
    rw [hw]; simp only [okb]; rw [hy]; simp only [okb]; exact hz
  unfold hemAt
  rw [hI]
  simp only [okb]
  have hn' : n ≠ 0 := by omega
  have h1 : simpsArr r z n (stepOf 0 (2 * Real.pi) n) =
      .ok ⟨[n, m], fun i => simpsX r (fun j => z.get (j :: i)) (stepOf 0 (2 * Real.pi) n) n⟩ := by
    unfold simpsArr
    rw [hzs]
    simp [hn']
  rw [h1]
  simp only [okb]
  refine ⟨⟨[m], fun i => simpsX r (fun k => simpsX r (fun j => z.get (j :: k :: i)) (stepOf 0 (2 * Real.pi) n) n)
    (stepOf 0 (Real.pi / 2) n) n⟩, by simp [simpsArr, hn'], rfl, fun i hi => ?_⟩
  refine simpsX_fin (fun k hk => ?_) hn r _
  exact simpsX_fin (fun j hj => hzv k j i hk hj hi) hn r _

theorem hemLoop_columns (r : EvenRule) {b : Backend} {s : Scatter} {pd : Dict} {m : ℕ} {ρ : ℕ → String → ℝ}
    (hp : pd.Stacked m ρ) (hgv : s.Given pd) (hphi : b = .symengine ∨ "phi_ex" ∈ s.phase.free) {key : String} {ka : Arr}
    (hk : Dict.get? pd key = some ka) (hks : ka.shape = [1, 1, m]) (hku : b = .symengine ∨ key ∈ s.phase.free)
    {g : HemArgs} (hn : 0 < g.n) (hs : g.step ≠ 0) (hc : 0 < g.count) {f : ℕ → ℝ → ℝ → ℝ → ℝ}
    (hf : ∀ i t0 t p, s.phase.evalX (fun k => XR.fin (Dirs.env ⟨t0, t, g.phi0, p, ρ i⟩ k)) = XR.fin (f i t0 t p))
    {N : Arr} {Nv : ℕ → ℕ → ℝ} (hN : Arr.Fits N.shape [m, g.count])
    (hNv : ∀ i < m, ∀ k < g.count, N.at' [i, k] = XR.fin (Nv i k)) :
    ∃ out, hemLoop r b s pd N g = .ok out ∧ out.sol.shape = [m, g.count] ∧
      (∀ i < m, ∀ k < g.count, out.sol.get [i, k] = XR.fin (simps2R r
        (fun t p => Real.sin t * Real.cos t * f i (g.angle k) t p) (Real.pi / 2) (2 * Real.pi) g.n * Nv i k)) ∧
      (out.warned ↔ ∃ i < m, ∃ k < g.count, 1 < simps2R r (fun t p => Real.sin t * Real.cos t * f i (g.angle k) t p)
        (Real.pi / 2) (2 * Real.pi) g.n * Nv i k) := by
  have hr : arange g.tmin g.tmax g.step = .ok ((List.range g.count).map fun (k : ℕ) => g.tmin + k * g.step) := by
    unfold arange; rw [if_neg hs]; rfl
  have hval := fun t0 => hemAt_columns r hp hgv hphi hk hks hku hn (p0 := g.phi0) (f := fun i => f i t0)
    fun i => hf i t0
  obtain ⟨l, hl⟩ := mapM_each (f := fun d => hemAt r b s pd g.n g.phi0 (deg2rad d))
    (l := (List.range g.count).map fun (k : ℕ) => g.tmin + k * g.step) fun d _ => by
      obtain ⟨a, ha, -⟩ := hval (deg2rad d)
      exact ⟨a, ha⟩
  have h2 := mapM_ok hl
  have hlen : l.length = g.count := by rw [← h2.length_eq]; simp
  have hget : ∀ k < g.count, ∃ a : Arr, l[k]? = some a ∧ a.shape = [m] ∧ ∀ i < m, a.get [i] = XR.fin (simps2R r
      (fun t p => Real.sin t * Real.cos t * f i (g.angle k) t p) (Real.pi / 2) (2 * Real.pi) g.n) := by
    intro k hk'
    have h3 := (List.forall₂_iff_get.mp h2).2 k (by simpa using hk') (by omega)
    obtain ⟨a', ha', h4, h5⟩ := hval (g.angle k)
    have h3' : hemAt r b s pd g.n g.phi0 (g.angle k) = .ok (l[k]'(by omega)) := by simpa [HemArgs.angle] using h3
    have : a' = l[k]'(by omega) := by
      have := ha'.symm.trans h3'
      simpa using this
    exact ⟨l[k]'(by omega), by simp [hlen, hk'], this ▸ h4, this ▸ h5⟩
  have hsame : ∀ y ∈ l, y.shape = [m] := by
    intro a ha
    obtain ⟨k, hk', rfl⟩ := List.mem_iff_getElem.mp ha
    obtain ⟨a', h1, h2, -⟩ := hget k (by omega)
    rw [List.getElem?_eq_getElem hk'] at h1
    simp only [Option.some.injEq] at h1
    rw [h1]; exact h2
  have hne : l ≠ [] := by intro h; rw [h] at hlen; simp at hlen; omega
  obtain ⟨st, hst, hsh⟩ := Arr.stack_same hne hsame
  have hsv : ∀ (k : ℕ) (y : Arr), l[k]? = some y → ∀ idx, st.get (idx ++ [k]) = y.get idx := by
    cases l with
    | nil => exact absurd rfl hne
    | cons x l => exact (Arr.stack_ok hst).2.2
  rw [hlen] at hsh
  have hbs : Arr.bshape st.shape N.shape = some [m, g.count] := by
    rw [hsh, Arr.bshape_comm]; exact Arr.bshape_eq_of_fits hN
  obtain ⟨sol, hsol⟩ : ∃ z, Arr.mul st N = .ok z := by
    unfold Arr.mul Arr.map2; rw [hbs]; exact ⟨_, rfl⟩
  have hss : sol.shape = [m, g.count] := by
    have := (Arr.shape_map2 hsol).symm.trans hbs
    simpa using this
  have hsv' : ∀ i < m, ∀ k < g.count, sol.get [i, k] = XR.fin (simps2R r
      (fun t p => Real.sin t * Real.cos t * f i (g.angle k) t p) (Real.pi / 2) (2 * Real.pi) g.n * Nv i k) := by
    intro i hi k hk'
    obtain ⟨a, h1, h2, h3⟩ := hget k hk'
    have hv : Arr.Valid sol.shape [i, k] := by rw [hss]; exact .cons hi (.cons hk' .nil)
    have hv' : Arr.Valid st.shape [i, k] := by rw [hsh]; exact .cons hi (.cons hk' .nil)
    have h4 : st.get [i, k] = a.get [i] := hsv k a h1 [i]
    rw [← Arr.at'_valid hv, Arr.at'_map2 hsol, Arr.at'_valid hv', h4, h3 i hi, hNv i hi k hk']
    rfl
  refine ⟨⟨sol, ∃ i, Arr.Valid sol.shape i ∧ (sol.get i).gtOne⟩, ?_, hss, hsv', ?_⟩
  · unfold hemLoop
    rw [hr]; simp only [okb]; rw [hl]; simp only [okb]; rw [hst]; simp only [okb]; rw [hsol]; rfl
  · show (∃ i, Arr.Valid sol.shape i ∧ (sol.get i).gtOne) ↔ _
    rw [hss]
    constructor
    · rintro ⟨i, hi, h⟩
      cases hi with
      | cons hi hi' =>
        cases hi' with
        | cons hk' hi' =>
          cases hi'
          rw [hsv' _ hi _ hk'] at h
          exact ⟨_, hi, _, hk', h⟩
    · rintro ⟨i, hi, k, hk', h⟩
      exact ⟨[i, k], .cons hi (.cons hk' .nil), by rw [hsv' i hi k hk']; exact h⟩

/-- A one-dimensional array whose length is not that of the grid. -/
theorem hemAt_list (r : EvenRule) {b : Backend} {s : Scatter} {pd : Dict} (hg : s.Given pd)
    (hphi : b = .symengine ∨ "phi_ex" ∈ s.phase.free) {key : String} {ka : Arr} {m : ℕ}
    (hk : Dict.get? pd key = some ka) (hks : ka.shape = [m]) (hku : b = .symengine ∨ key ∈ s.phase.free)
    {n : ℕ} (hn : n ≠ 1) (hm : m ≠ 1) (hmn : m ≠ n) (p0 t0 : ℝ) : hemAt r b s pd n p0 t0 = .error .valueError := by
  obtain ⟨w, hw, hws, hwv⟩ := hemWeights n
  have hI : hemIntegrand b s pd n t0 p0 = .error .valueError := by
    unfold hemIntegrand
    simp only
    rw [hw]; simp only [okb]
    rcases Scatter.calcVal_shape (b := b) hg (a1 := Arr.lit t0) (a2 := thetaGrid n) (a3 := Arr.lit p0) (a4 := phiGrid n)
      with h | ⟨z, hz, h1, h2⟩
    · rw [h]; rfl
    · exfalso
      have e1 : Arr.Fits [n] z.shape := h1 hphi
      have e2 : Arr.Fits [m] z.shape := hks ▸ h2 key ka hk hku
      match hzs : z.shape, e1, e2 with
      | x :: S, e1, e2 =>
        simp only [Arr.Fits] at e1 e2
        omega
  unfold hemAt
  rw [hI]
  rfl

theorem hemLoop_list (r : EvenRule) {b : Backend} {s : Scatter} {pd : Dict} (hgv : s.Given pd)
    (hphi : b = .symengine ∨ "phi_ex" ∈ s.phase.free) {key : String} {ka : Arr} {m : ℕ}
    (hk : Dict.get? pd key = some ka) (hks : ka.shape = [m]) (hku : b = .symengine ∨ key ∈ s.phase.free)
    {g : HemArgs} (hn : g.n ≠ 1) (hm : m ≠ 1) (hmn : m ≠ g.n) (hs : g.step ≠ 0) (hc : 0 < g.count) (N : Arr) :
    hemLoop r b s pd N g = .error .valueError := by
  have hr : arange g.tmin g.tmax g.step = .ok ((List.range g.count).map fun (k : ℕ) => g.tmin + k * g.step) := by
    unfold arange; rw [if_neg hs]; rfl
  unfold hemLoop
  rw [hr]
  simp only [okb]
  have hne : ((List.range g.count).map fun (k : ℕ) => g.tmin + k * g.step) ≠ [] := by
    simp; omega
  cases hl : (List.range g.count).map fun (k : ℕ) => g.tmin + k * g.step with
  | nil => exact absurd hl hne
  | cons d l =>
    rw [List.mapM_cons, hemAt_list r hgv hphi hk hks hku hn hm hmn]
    rfl

end

end RT1
