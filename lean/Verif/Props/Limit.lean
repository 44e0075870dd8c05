import Verif.Lemmas.LimitL
import Verif.Lemmas.Pinned
import Verif.Props.Energy
import Verif.Props.IntRows
import Verif.Props.Scatter

/-!
# C75: the interaction contribution converges as the number of coefficients grows

The interaction contribution is computed from truncated expansions of the scattering functions.  With
a growing number of coefficients the returned values converge to the documented double integral of
the scattering functions themselves.
-/

namespace RT1

noncomputable section
open Filter Topology

/-! ### families of objects -/

theorem Family.growing {x : Site} {o : ℕ → Scatter} {P : Bidir} (h : Family x o P) : Growing o x P := by
  cases h with
  | prim h => exact h.growing
  | lin l a _ => exact comb_growing l a

theorem Family.simple {x : Site} {o : ℕ → Scatter} {P : Bidir} (h : Family x o P) (N : ℕ) : (o N).Simple := by
  cases h with
  | prim h => exact .inl ⟨_, Kind.isPart _ _ N⟩
  | lin l a hl => exact .inr ⟨_, _, _, rfl, by simpa using hl, comb_part l N⟩

theorem Kind.Admissible.valueAt {k : Kind} {a : A3} {x : Site} {a0 a1 a2 t : ℝ} (h : k.Admissible a x a0 a1 a2 t)
    (nc : Option ℕ) {y : Site} (hy : y.ρ = x.ρ) :
    (Scatter.prim k a nc).ValueAt y (k.dirs a0 a1 a2 t y.t0 y.tex y.p0 y.pex) :=
  (Kind.is (x := ⟨y.t0, y.tex, y.p0, y.pex, y.ρ⟩) (h.aIs y hy) (h.tIs y hy)
    (hg_base_pos h.lt (h.cos_le _ _ _ _)) h.nadirOK).evalX

theorem Family.valueAt {x : Site} {o : ℕ → Scatter} {P : Bidir} (h : Family x o P) (N : ℕ) :
    (o N).ValueAt x (P x.t0 x.tex x.p0 x.pex) := by
  cases h with
  | prim h => exact h.valueAt _ rfl
  | lin l a _ =>
    have key := ValueAt.lin (x := x) (a := a) (ws := l.map (·.w)) (cs := l.map (·.c))
      (os := l.map fun s => Scatter.prim s.k s.a (s.k.order N))
      (vs := l.map fun s => s.k.dirs s.a0 s.a1 s.a2 s.t x.t0 x.tex x.p0 x.pex)
      (by rw [List.forall₂_map_left_iff, List.forall₂_map_right_iff]
          exact List.forall₂_same.mpr fun s _ => s.weight x rfl)
      (by rw [List.forall₂_map_left_iff, List.forall₂_map_right_iff]
          exact List.forall₂_same.mpr fun s _ => s.ok.valueAt _ rfl)
    rw [List.zipWith_map, List.zipWith_self] at key
    exact key

/-! ### units -/

theorem dBValue_fin {v l : ℝ} (h : dBValue v = XR.fin l) : 0 < v ∧ l = 10 * Real.logb 10 v := by
  unfold dBValue at h
  split_ifs at h with h1
  exact ⟨h1, (XR.fin.inj h).symm⟩

theorem approach_units {x : Site} {s d : Bool} {u : ℕ → ℝ} {v l : ℝ} (hu : Tendsto u atTop (𝓝 v))
    (hl : x.inUnits s d v = XR.fin l) : Approach (fun N => x.inUnits s d (u N)) l := by
  unfold Site.inUnits at hl ⊢
  have hw : Tendsto (fun N => if s = true then u N * x.signorm else u N) atTop
      (𝓝 (if s = true then v * x.signorm else v)) := by
    split_ifs
    · exact hu.mul_const _
    · exact hu
  cases d with
  | false => exact ⟨_, Eventually.of_forall fun N => rfl, (XR.fin.inj hl) ▸ hw⟩
  | true =>
    obtain ⟨h1, rfl⟩ := dBValue_fin hl
    refine ⟨fun N => 10 * Real.logb 10 (if s = true then u N * x.signorm else u N), ?_, (hw.logb h1.ne').const_mul 10⟩
    filter_upwards [hw.eventually (lt_mem_nhds h1)] with N hN
    exact if_pos hN

/-! ### theorems -/

/-- Monostatic: the values returned by `interaction()`, and the fourth row of `calc()`, converge to the
documented interaction contribution of the scattering functions themselves as the number of
coefficients grows. -/
theorem C75_monostatic {x : Site} {V S : ℕ → Scatter} {P F : Bidir} (hV : Family x V P) (hS : Family x S F)
    {q s d : Bool} {md : Mode} (hm : md.mono = true) (hx : x.Oblique) (hI : s = true → x.I0 ≠ 0) {r : ℕ → XR}
    (h : ∀ N, ObservesAny ⟨V N, S N, q, s, d⟩ md x (r N)) {l : ℝ}
    (hl : x.inUnits s d (x.interactionOf P F 0) = XR.fin l) : Approach r l := by
  have e : r = fun N => x.inUnits s d (x.interactionAz (V N) (S N) 0) := funext fun N => by
    obtain ⟨nV, h1⟩ := (hV.simple N).ncoefs
    obtain ⟨nS, h2⟩ := (hS.simple N).ncoefs
    obtain ⟨g, hg, h3⟩ := (h N).geom h1 h2 hx hI
    rw [h3, geomInteraction_mono hg hm, Site.interactionAz_zero]
  rw [e]
  exact approach_units (hV.growing.interaction hS.growing hx 0) hl

/-- Bistatic without fixed angles: the limit is the contribution with the exit azimuth of the surface
function shifted by pi.  (The full claim C75 asks for the documented contribution; that the shift is
wrong is shown in C36.) -/
theorem C75_bistatic_partial {x : Site} {V S : ℕ → Scatter} {P F : Bidir} (hV : Family x V P) (hS : Family x S F)
    {q s d : Bool} (hx : x.Oblique) (hI : s = true → x.I0 ≠ 0) {r : ℕ → XR}
    (h : ∀ N, ObservesAny ⟨V N, S N, q, s, d⟩ ⟨false, []⟩ x (r N)) {l : ℝ}
    (hl : x.inUnits s d (x.interactionOf P F Real.pi) = XR.fin l) : Approach r l := by
  have e : r = fun N => x.inUnits s d (x.interactionAz (V N) (S N) Real.pi) := funext fun N => by
    obtain ⟨nV, h1⟩ := (hV.simple N).ncoefs
    obtain ⟨nS, h2⟩ := (hS.simple N).ncoefs
    obtain ⟨g, hg, h3⟩ := (h N).geom h1 h2 hx hI
    rw [h3, geomInteraction_bi hg rfl rfl]
  rw [e]
  exact approach_units (hV.growing.interaction hS.growing hx Real.pi) hl

/-- Monostatic, the first row of `calc()`: the total converges to the sum of the three documented
contributions of the scattering functions. -/
theorem C75_total {x : Site} {V S : ℕ → Scatter} {P F : Bidir} (hV : Family x V P) (hS : Family x S F)
    {s d : Bool} {md : Mode} (hm : md.mono = true) (hx : x.Oblique) (hI : s = true → x.I0 ≠ 0) {r : ℕ → XR}
    (h : ∀ N, ObservesRowP 0 ⟨V N, S N, true, s, d⟩ md x (r N)) {l : ℝ}
    (hl : x.inUnits s d (x.surface (F x.t0 x.tex x.p0 x.pex) + x.volume (P x.t0 x.tex x.p0 x.pex)
      + x.interactionOf P F 0) = XR.fin l) : Approach r l := by
  have e : r = fun N => x.inUnits s d (x.surface (F x.t0 x.tex x.p0 x.pex) + x.volume (P x.t0 x.tex x.p0 x.pex)
      + x.interactionAz (V N) (S N) 0) := funext fun N => by
    obtain ⟨nV, h1⟩ := (hV.simple N).ncoefs
    obtain ⟨nS, h2⟩ := (hS.simple N).ncoefs
    obtain ⟨g, hg, h3⟩ := (h N).total_val rfl (hS.valueAt N) (hV.valueAt N) h1 h2 hx hI
    rw [h3, geomInteraction_mono hg hm, Site.interactionAz_zero]
  rw [e]
  exact approach_units ((hV.growing.interaction hS.growing hx 0).const_add _) hl

/-- The same for bistatic objects without fixed angles, with the shifted azimuth of C36. -/
theorem C75_total_bistatic_partial {x : Site} {V S : ℕ → Scatter} {P F : Bidir} (hV : Family x V P) (hS : Family x S F)
    {s d : Bool} (hx : x.Oblique) (hI : s = true → x.I0 ≠ 0) {r : ℕ → XR}
    (h : ∀ N, ObservesRowP 0 ⟨V N, S N, true, s, d⟩ ⟨false, []⟩ x (r N)) {l : ℝ}
    (hl : x.inUnits s d (x.surface (F x.t0 x.tex x.p0 x.pex) + x.volume (P x.t0 x.tex x.p0 x.pex)
      + x.interactionOf P F Real.pi) = XR.fin l) : Approach r l := by
  have e : r = fun N => x.inUnits s d (x.surface (F x.t0 x.tex x.p0 x.pex) + x.volume (P x.t0 x.tex x.p0 x.pex)
      + x.interactionAz (V N) (S N) Real.pi) := funext fun N => by
    obtain ⟨nV, h1⟩ := (hV.simple N).ncoefs
    obtain ⟨nS, h2⟩ := (hS.simple N).ncoefs
    obtain ⟨g, hg, h3⟩ := (h N).total_val rfl (hS.valueAt N) (hV.valueAt N) h1 h2 hx hI
    rw [h3, geomInteraction_bi hg rfl rfl]
  rw [e]
  exact approach_units ((hV.growing.interaction hS.growing hx Real.pi).const_add _) hl

/-- Bistatic with fixed angles, in the same angles for all orders: the limit is the contribution with the
shifted azimuth of C36, for which fixed angles keep their values along the reverse path. -/
theorem C75_fixed_partial {x : Site} {V S : ℕ → Scatter} {P F : Bidir} (hV : Family x V P) (hS : Family x S F)
    {q s d : Bool} {md : ℕ → Mode} (hm : ∀ N, (md N).mono = false) {fixed : List AngN} (hf : ∀ N n, n ∈ (md N).fixed ↔ n ∈ fixed)
    (hx : x.Oblique) (hI : s = true → x.I0 ≠ 0) {r : ℕ → XR}
    (h : ∀ N, ObservesAny ⟨V N, S N, q, s, d⟩ (md N) x (r N)) {l : ℝ}
    (hl : x.inUnits s d (x.interactionPinned fixed P F Real.pi) = XR.fin l) : Approach r l := by
  have key : ∀ N, ∃ g, GeomAt (md N) g x ∧ r N = x.inUnits s d (geomInteraction (V N) (S N) g x) := fun N => by
    obtain ⟨nV, h1⟩ := (hV.simple N).ncoefs
    obtain ⟨nS, h2⟩ := (hS.simple N).ncoefs
    exact (h N).geom h1 h2 hx hI
  choose g hg hr using key
  rw [show r = _ from funext hr]
  exact approach_units (hV.growing.pinned hS.growing hx hg hm hf) hl

/-- The same for the first row of `calc()`. -/
theorem C75_total_fixed_partial {x : Site} {V S : ℕ → Scatter} {P F : Bidir} (hV : Family x V P) (hS : Family x S F)
    {s d : Bool} {md : ℕ → Mode} (hm : ∀ N, (md N).mono = false) {fixed : List AngN} (hf : ∀ N n, n ∈ (md N).fixed ↔ n ∈ fixed)
    (hx : x.Oblique) (hI : s = true → x.I0 ≠ 0) {r : ℕ → XR}
    (h : ∀ N, ObservesRowP 0 ⟨V N, S N, true, s, d⟩ (md N) x (r N)) {l : ℝ}
    (hl : x.inUnits s d (x.surface (F x.t0 x.tex x.p0 x.pex) + x.volume (P x.t0 x.tex x.p0 x.pex)
      + x.interactionPinned fixed P F Real.pi) = XR.fin l) : Approach r l := by
  have key : ∀ N, ∃ g, GeomAt (md N) g x ∧ r N = x.inUnits s d (x.surface (F x.t0 x.tex x.p0 x.pex) +
      x.volume (P x.t0 x.tex x.p0 x.pex) + geomInteraction (V N) (S N) g x) := fun N => by
    obtain ⟨nV, h1⟩ := (hV.simple N).ncoefs
    obtain ⟨nS, h2⟩ := (hS.simple N).ncoefs
    exact (h N).total_val rfl (hS.valueAt N) (hV.valueAt N) h1 h2 hx hI
  choose g hg hr using key
  rw [show r = _ from funext hr]
  exact approach_units ((hV.growing.pinned hS.growing hx hg hm hf).const_add _) hl

/-- The limit is not negative if the scattering functions are not: the values returned for truncated
expansions are negative at most by an amount that tends to zero. -/
theorem C75_nonneg {x : Site} {V S : ℕ → Scatter} {P F : Bidir} (hV : Family x V P) (hS : Family x S F)
    (hP : ∀ a b u v, 0 ≤ P a b u v) (hF : ∀ a b u v, 0 ≤ F a b u v) {q s : Bool} {md : Mode} (hm : md.mono = true)
    (hx : x.Oblique) (hp : x.Physical) (hI : s = true → x.I0 ≠ 0) {r : ℕ → XR}
    (h : ∀ N, ObservesAny ⟨V N, S N, q, s, false⟩ md x (r N)) {ε : ℝ} (hε : 0 < ε) :
    ∃ M, ∀ N, M ≤ N → ∃ v, r N = XR.fin v ∧ -ε < v := by
  obtain ⟨u, h1, h2⟩ := C75_monostatic hV hS hm hx hI h rfl
  have hf : ∀ y : Site, 0 < y.mu0 → 0 ≤ y.tau → 0 ≤ y.FintOf P F 0 := fun y h0 h1 =>
    hemi_nonneg h0 h1 fun θ φ => mul_nonneg (hP _ _ _ _) (hF _ _ _ _)
  have h0 : 0 ≤ x.interactionOf P F 0 := by
    have hb : 0 ≤ 1 - x.bsf := by linarith [hp.bsf1]
    refine mul_nonneg (mul_nonneg (mul_nonneg (mul_nonneg (mul_nonneg hp.NormBRDF hb) hp.I0) hx.mu0.le) hp.omega) ?_
    exact add_nonneg (mul_nonneg (Real.exp_pos _).le (hf x hx.mu0 hp.tau))
      (mul_nonneg (Real.exp_pos _).le (hf x.swap hx.muEx hp.tau))
  have h3 : 0 ≤ (if s = true then x.interactionOf P F 0 * x.signorm else x.interactionOf P F 0) := by
    split_ifs
    · refine mul_nonneg h0 (div_nonneg (mul_nonneg (by positivity) hx.mu0.le) hp.I0)
    · exact h0
  obtain ⟨M, hM⟩ := eventually_atTop.mp (h1.and (h2.eventually (lt_mem_nhds (show -ε < _ by linarith))))
  exact ⟨M, fun N hN => ⟨u N, hM N hN⟩⟩

/-! ### examples -/

/-- Henyey-Greenstein functions with `N + 1` coefficients. -/
def growV (t : ℝ) (N : ℕ) : Scatter := .prim (.volHG (.num t)) volA (some (N + 1))
/-- A cosine lobe with `N + 1` coefficients. -/
def growS (i N : ℕ) : Scatter := .prim (.srfCosineLobe i) srfA (some (N + 1))

theorem growV_family {t : ℝ} (ht : |t| < 1) (x : Site) : Family x (growV t) (Kind.dirs (.volHG (.num t)) (-1) 1 1 t) :=
  .prim (k := .volHG (.num t)) ⟨fun _ _ => ⟨Expr.Is.num _, Expr.Is.num _, Expr.Is.num _⟩, by simp, by simp, by simp,
    fun _ _ => Expr.Is.num _, ht, fun h => h.elim, by simp⟩

theorem growS_family {i : ℕ} (hi : i ≠ 0) (x : Site) : Family x (growS i) (Kind.dirs (.srfCosineLobe i) 1 1 1 0) :=
  .prim (k := .srfCosineLobe i) ⟨fun _ _ => ⟨Expr.Is.num _, Expr.Is.num _, Expr.Is.num _⟩, by simp, by simp, by simp,
    fun _ _ => trivial, by simp, fun h => h.elim, by simpa using hi⟩

theorem growV_plain (t : ℝ) (N : ℕ) : (growV t N).Plain := fun k hk => hgV_free t k hk

theorem growS_plain (i N : ℕ) : (growS i N).Plain := by
  intro k hk
  simp [growS, Scatter.phase, Scatter.primPhase, Scatter.angleExpr, srfA] at hk
  simp
  tauto

/-- A linear combination of a cosine lobe and a Henyey-Greenstein function. -/
def growSummands (i : ℕ) (hi : i ≠ 0) (x : Site) : List (Summand x) :=
  [⟨.num (1/2), .srfCosineLobe i, srfA, 1/2, 1, 1, 1, 0, fun _ _ => Expr.Is.num _,
      ⟨fun _ _ => ⟨Expr.Is.num _, Expr.Is.num _, Expr.Is.num _⟩, by simp, by simp, by simp,
        fun _ _ => trivial, by simp, fun h => h.elim, by simpa using hi⟩⟩,
    ⟨.num (1/4), .srfHG (.num (1/3)), srfA, 1/4, 1, 1, 1, 1/3, fun _ _ => Expr.Is.num _,
      ⟨fun _ _ => ⟨Expr.Is.num _, Expr.Is.num _, Expr.Is.num _⟩, by simp, by simp, by simp,
        fun _ _ => Expr.Is.num _, by rw [abs_of_pos] <;> norm_num, fun h => h.elim, by simp⟩⟩]

theorem growSummands_plain (i : ℕ) (hi : i ≠ 0) (x : Site) (N : ℕ) : (comb (growSummands i hi x) srfA N).Plain := by
  intro k hk
  simp [growSummands, comb, Scatter.phase, Scatter.phaseL, Scatter.primPhase, Scatter.angleExpr, Scatter.hgExpr, srfA] at hk
  simp
  tauto

theorem wit_oblique (p0 pex : ℝ) : (witSite (Real.pi / 3) (Real.pi / 3) p0 pex).Oblique := by
  have hπ := Real.pi_pos
  exact witSite_oblique (by positivity) (by linarith) (by positivity) (by linarith)

/-- Monostatic objects. -/
theorem grow_observed (b : Backend) {x : Site} {V S : ℕ → Scatter} {P F : Bidir} (hV : Family x V P) (hS : Family x S F)
    (pV : ∀ N, (V N).Plain) (pS : ∀ N, (S N).Plain) (s d : Bool) (hr : x.Reports [])
    (hm : x.tex = x.t0 ∧ x.pex = x.p0 + Real.pi) :
    ∃ r : ℕ → XR, ∀ N, ObservesAny ⟨V N, S N, true, s, d⟩ ⟨true, []⟩ x (r N) := by
  have key : ∀ N, ∃ r, ObservesP ⟨V N, S N, true, s, d⟩ ⟨true, []⟩ x r := fun N => by
    obtain ⟨r, F, -, h2, -, h⟩ := scalar_interaction b s d (mono := true) (fun _ => false) (l := []) (fun _ => hm) hr
      (fun k hk => List.mem_append_left _ (pV N k hk)) (fun k hk => List.mem_append_left _ (pS N k hk))
      (Scatter.Simple.fnCoefs (hV.simple N) (hS.simple N)) (hV.simple N).ncoefs (hS.simple N).ncoefs
    rw [h2 fun _ => rfl] at h
    exact ⟨r, h⟩
  choose r hr using key
  exact ⟨r, fun N => .inl (hr N)⟩

example : ∃ r : ℕ → XR, (∀ N, ObservesAny ⟨growV (1/4) N, growS 5 N, true, true, false⟩ ⟨true, []⟩
      (witSite (Real.pi / 3) (Real.pi / 3) 0 Real.pi) (r N)) ∧
    ∃ l, Approach r l := by
  obtain ⟨r, h⟩ := grow_observed .sympy (x := witSite (Real.pi / 3) (Real.pi / 3) 0 Real.pi)
    (growV_family (t := 1/4) (by rw [abs_of_pos] <;> norm_num) _) (growS_family (i := 5) (by norm_num) _)
    (growV_plain _) (growS_plain _) true false (witSite_reports _ _ _ _) ⟨rfl, by simp [witSite]⟩
  exact ⟨r, h, _, C75_monostatic (growV_family (t := 1/4) (by rw [abs_of_pos] <;> norm_num) _)
    (growS_family (i := 5) (by norm_num) _) rfl (wit_oblique _ _) (by simp [witSite]) h rfl⟩

example : ∃ r : ℕ → XR, (∀ N, ObservesAny ⟨growV (1/4) N, comb (growSummands 5 (by norm_num) (witSite (Real.pi / 3) (Real.pi / 3) 0 Real.pi)) srfA N, true, false, false⟩ ⟨true, []⟩
      (witSite (Real.pi / 3) (Real.pi / 3) 0 Real.pi) (r N)) ∧
    ∃ l, Approach r l := by
  have hS : Family (witSite (Real.pi / 3) (Real.pi / 3) 0 Real.pi) _ _ :=
    .lin (growSummands 5 (by norm_num) _) srfA (by simp [growSummands])
  obtain ⟨r, h⟩ := grow_observed .sympy (x := witSite (Real.pi / 3) (Real.pi / 3) 0 Real.pi)
    (growV_family (t := 1/4) (by rw [abs_of_pos] <;> norm_num) _) hS
    (growV_plain _) (growSummands_plain _ _ _) false false (witSite_reports _ _ _ _) ⟨rfl, by simp [witSite]⟩
  exact ⟨r, h, _, C75_monostatic (growV_family (t := 1/4) (by rw [abs_of_pos] <;> norm_num) _)
    hS rfl (wit_oblique _ _) (fun h => by cases h) h rfl⟩

theorem Kind.Admissible.dirs_nonneg {k : Kind} {a : A3} {x : Site} {a0 a1 a2 t : ℝ} (h : k.Admissible a x a0 a1 a2 t)
    (t0 tex p0 pex : ℝ) : 0 ≤ k.dirs a0 a1 a2 t t0 tex p0 pex := Kind.val_nonneg h.le0 h.lt (h.cos_le _ _ _ _) h.nadir

/-- The returned value is a finite number greater than -1/10 for all sufficiently large orders. -/
example : ∃ r : ℕ → XR, (∀ N, ObservesAny ⟨growV (1/4) N, growS 5 N, true, true, false⟩ ⟨true, []⟩
      (witSite (Real.pi / 3) (Real.pi / 3) 0 Real.pi) (r N)) ∧
    ∃ M, ∀ N, M ≤ N → ∃ v, r N = XR.fin v ∧ -(1/10) < v := by
  have hV := growV_family (t := 1/4) (by rw [abs_of_pos] <;> norm_num) (witSite (Real.pi / 3) (Real.pi / 3) 0 Real.pi)
  have hS := growS_family (i := 5) (by norm_num) (witSite (Real.pi / 3) (Real.pi / 3) 0 Real.pi)
  obtain ⟨r, h⟩ := grow_observed .sympy hV hS
    (growV_plain _) (growS_plain _) true false (witSite_reports _ _ _ _) ⟨rfl, by simp [witSite]⟩
  have ho := wit_oblique 0 Real.pi
  refine ⟨r, h, C75_nonneg hV hS (fun a b u v => Kind.val_nonneg (by simp) (by rw [abs_of_pos] <;> norm_num)
      (Phase.cosTheta_abs_le (by simp) (by simp) (by simp) _ _ _ _) fun h => h.elim)
    (fun a b u v => Kind.val_nonneg (by simp) (by simp)
      (Phase.cosTheta_abs_le (by simp) (by simp) (by simp) _ _ _ _) fun h => h.elim) rfl ho ?_ (by simp [witSite]) h
    (by norm_num)⟩
  exact ⟨by simp [witSite], by simp [witSite], by simp [witSite], by simp [witSite], by simp [witSite], by simp [witSite],
    ho.mu0, ho.muEx⟩

/-- Monostatic objects, the first row of `calc()`. -/
example : ∃ r : ℕ → XR, (∀ N, ObservesRowP 0 ⟨growV (1/4) N, growS 5 N, true, true, false⟩ ⟨true, []⟩
      (witSite (Real.pi / 3) (Real.pi / 3) 0 Real.pi) (r N)) ∧
    ∃ l, Approach r l := by
  have hV := growV_family (t := 1/4) (by rw [abs_of_pos] <;> norm_num) (witSite (Real.pi / 3) (Real.pi / 3) 0 Real.pi)
  have hS := growS_family (i := 5) (by norm_num) (witSite (Real.pi / 3) (Real.pi / 3) 0 Real.pi)
  have key : ∀ N, ∃ r, ObservesRowP 0 ⟨growV (1/4) N, growS 5 N, true, true, false⟩ ⟨true, []⟩
      (witSite (Real.pi / 3) (Real.pi / 3) 0 Real.pi) r := fun N => by
    obtain ⟨arr, h1, h2⟩ := tens_calc true false 1 [] (fun _ => witSite (Real.pi / 3) (Real.pi / 3) 0 Real.pi) .sympy
      (growV_plain (1/4) N) (growS_plain 5 N) (.inl rfl) (Scatter.Simple.fnCoefs (hV.simple N) (hS.simple N) _)
      (hV.simple N).ncoefs (hS.simple N).ncoefs fun _ _ => ⟨rfl, by simp [witSite], witSite_reports _ _ _ _⟩
    exact ⟨_, h2.row (idx := [0]) (k := 0) (by simp [Arr.Valid]) (by rw [h1]; simp [Arr.Valid])⟩
  choose r hr using key
  exact ⟨r, hr, _, C75_total hV hS rfl (wit_oblique _ _) (by simp [witSite]) hr rfl⟩

/-- Bistatic objects, the first row of `calc()`. -/
example : ∃ r : ℕ → XR, (∀ N, ObservesRowP 0 ⟨growV (1/4) N, growS 5 N, true, true, false⟩ ⟨false, []⟩
      (witSite (Real.pi / 3) (Real.pi / 3) 0 1) (r N)) ∧
    ∃ l, Approach r l := by
  have hV := growV_family (t := 1/4) (by rw [abs_of_pos] <;> norm_num) (witSite (Real.pi / 3) (Real.pi / 3) 0 1)
  have hS := growS_family (i := 5) (by norm_num) (witSite (Real.pi / 3) (Real.pi / 3) 0 1)
  have key : ∀ N, ∃ r, ObservesRowP 0 ⟨growV (1/4) N, growS 5 N, true, true, false⟩ ⟨false, []⟩
      (witSite (Real.pi / 3) (Real.pi / 3) 0 1) r := fun N =>
    scalar_total .sympy true true false (witSite_reports _ _ _ _) (growV_plain _ _) (growS_plain _ _)
      (fun _ => Scatter.Simple.fnCoefs (hV.simple N) (hS.simple N)) (fun _ => (hV.simple N).ncoefs) (fun _ => (hS.simple N).ncoefs)
  choose r hr using key
  exact ⟨r, hr, _, C75_total_bistatic_partial hV hS (wit_oblique _ _) (by simp [witSite]) hr rfl⟩

/-- A bistatic object with a fixed exit zenith angle. -/
example : ∃ r : ℕ → XR, ∃ md : ℕ → Mode, (∀ N, (md N).mono = false ∧ ∀ n, n ∈ (md N).fixed ↔ n ∈ [AngN.tex]) ∧
    (∀ N, ObservesAny ⟨growV (1/4) N, growS 5 N, true, true, false⟩ (md N) (witSite (Real.pi / 3) (Real.pi / 3) 0 1) (r N)) ∧
    ∃ l, Approach r l := by
  have hV := growV_family (t := 1/4) (by rw [abs_of_pos] <;> norm_num) (witSite (Real.pi / 3) (Real.pi / 3) 0 1)
  have hS := growS_family (i := 5) (by norm_num) (witSite (Real.pi / 3) (Real.pi / 3) 0 1)
  have key : ∀ N, ∃ r F, (∀ n, n ∈ F ↔ n ∈ [AngN.tex]) ∧ ObservesP ⟨growV (1/4) N, growS 5 N, true, true, false⟩ ⟨false, F⟩
      (witSite (Real.pi / 3) (Real.pi / 3) 0 1) r := fun N => by
    obtain ⟨r, F, h1, -, -, h⟩ := scalar_interaction .sympy true false (mono := false) (fun n => n = .tex) (l := []) (by simp)
      (witSite_reports _ _ _ _) (fun k hk => List.mem_append_left _ (growV_plain (1/4) N k hk))
      (fun k hk => List.mem_append_left _ (growS_plain 5 N k hk))
      (Scatter.Simple.fnCoefs (hV.simple N) (hS.simple N)) (hV.simple N).ncoefs (hS.simple N).ncoefs
    exact ⟨r, F, fun n => by simp [h1], h⟩
  choose r Fs h1 h2 using key
  exact ⟨r, fun N => ⟨false, Fs N⟩, fun N => ⟨rfl, h1 N⟩, fun N => .inl (h2 N), _,
    C75_fixed_partial hV hS (fun _ => rfl) h1 (wit_oblique _ _) (by simp [witSite]) (fun N => .inl (h2 N)) rfl⟩

end

end RT1
