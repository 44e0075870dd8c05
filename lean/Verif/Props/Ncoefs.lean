import Verif.Lemmas.ParSym
import Verif.Lemmas.Stale
import Verif.Lemmas.IntSucc
import Verif.Lemmas.ScalarCall
import Verif.Props.Assign
import Verif.Props.Backend
import Verif.Props.Extend
import Verif.Props.IntRows
import Verif.Props.Contrib

/-!
# C58: the number of coefficients is only needed for the interaction term
-/

namespace RT1

noncomputable section
open Classical

namespace Scatter

/-- A predefined function. -/
def IsPrim (s : Scatter) : Prop := ∃ k a n, s = prim k a n

/-- A predefined function or a linear combination of predefined functions. -/
def Flat : Scatter → Prop
  | prim _ _ _ => True
  | lin ws os _ => ws.length = os.length ∧ ∀ o ∈ os, o.IsPrim

theorem IsPrim.ncoefs {s : Scatter} (h : s.IsPrim) : s.ncoefs = .error .attributeError ∨ ∃ n, s.ncoefs = .ok n := by
  obtain ⟨k, a, n, rfl⟩ := h
  cases k <;> cases n <;> simp [Scatter.ncoefs]

theorem ncoefsL_prims {l : List Scatter} (h : ∀ s ∈ l, s.IsPrim) :
    (ncoefsL l = .error .attributeError ∧ ∃ s ∈ l, s.ncoefs = .error .attributeError) ∨ ∃ ns, ncoefsL l = .ok ns ∧ ns.length = l.length ∧
      ∀ s ∈ l, ∃ n, s.ncoefs = .ok n := by
  induction l with
  | nil => exact .inr ⟨[], rfl, rfl, by simp⟩
  | cons s l ih =>
    rcases (h s (by simp)).ncoefs with h1 | ⟨n, h1⟩
    · left
      refine ⟨?_, s, by simp, h1⟩
      unfold ncoefsL
      rw [h1]
      rfl
    · rcases ih (fun s hs => h s (by simp [hs])) with ⟨h2, s', h2', h2''⟩ | ⟨ns, h2, h3, h4⟩
      · left
        refine ⟨?_, s', by simp [h2'], h2''⟩
        unfold ncoefsL
        rw [h1, h2]
        rfl
      · right
        refine ⟨n :: ns, ?_, by simp [h3], ?_⟩
        · rw [ncoefsL, h1, h2]
          rfl
        · intro s' hs'
          rcases List.mem_cons.1 hs' with rfl | hs'
          · exact ⟨n, h1⟩
          · exact h4 s' hs'

theorem addGroup_ne (gs : List (A3 × List (Expr × Scatter))) (p : Expr × Scatter)
    (h : ∀ g ∈ gs, g.2 ≠ []) : (∀ g ∈ addGroup gs p, g.2 ≠ []) ∧ (∃ g ∈ addGroup gs p, p ∈ g.2) ∧
      ∀ q, (∃ g ∈ gs, q ∈ g.2) → ∃ g ∈ addGroup gs p, q ∈ g.2 := by
  induction gs with
  | nil => simp [addGroup]
  | cons g gs ih =>
    obtain ⟨k, l⟩ := g
    obtain ⟨i1, i2, i3⟩ := ih fun g hg => h g (by simp [hg])
    unfold addGroup
    by_cases hk : k = p.2.a
    · rw [if_pos hk]
      refine ⟨?_, ⟨(k, l ++ [p]), by simp, by simp⟩, ?_⟩
      · intro g hg
        rcases List.mem_cons.1 hg with rfl | hg
        · simp
        · exact h g (by simp [hg])
      · rintro q ⟨g, hg, hq⟩
        rcases List.mem_cons.1 hg with rfl | hg
        · exact ⟨(k, l ++ [p]), by simp, List.mem_append_left _ hq⟩
        · exact ⟨g, by simp [hg], hq⟩
    · rw [if_neg hk]
      refine ⟨?_, ?_, ?_⟩
      · intro g hg
        rcases List.mem_cons.1 hg with rfl | hg
        · exact h (k, l) (by simp)
        · exact i1 g hg
      · obtain ⟨g, hg, hp⟩ := i2
        exact ⟨g, by simp [hg], hp⟩
      · rintro q ⟨g, hg, hq⟩
        rcases List.mem_cons.1 hg with rfl | hg
        · exact ⟨(k, l), by simp, hq⟩
        · obtain ⟨g', hg', hq'⟩ := i3 q ⟨g, hg, hq⟩
          exact ⟨g', by simp [hg'], hq'⟩

theorem foldl_addGroup_ne (ps : List (Expr × Scatter)) : ∀ gs : List (A3 × List (Expr × Scatter)),
    (∀ g ∈ gs, g.2 ≠ []) → (∀ g ∈ ps.foldl addGroup gs, g.2 ≠ []) ∧
      ∀ q, (q ∈ ps ∨ ∃ g ∈ gs, q ∈ g.2) → ∃ g ∈ ps.foldl addGroup gs, q ∈ g.2 := by
  induction ps with
  | nil => intro gs h; exact ⟨h, fun q hq => by simpa using hq⟩
  | cons p ps ih =>
    intro gs h
    obtain ⟨a1, a2, a3⟩ := addGroup_ne gs p h
    obtain ⟨i1, i2⟩ := ih _ a1
    refine ⟨i1, fun q hq => i2 q ?_⟩
    rcases hq with hq | hq
    · rcases List.mem_cons.1 hq with rfl | hq
      · exact .inr a2
      · exact .inl hq
    · exact .inr (a3 q hq)

theorem groupCoefs_prims {R : Type} [CommRing R] [Algebra ℝ R] (emb : Expr → R)
    {l : List (Expr × Scatter)} (h : ∀ q ∈ l, q.2.IsPrim) : ∃ f, groupCoefs emb l = .ok f := by
  induction l with
  | nil => exact ⟨_, rfl⟩
  | cons q l ih =>
    obtain ⟨w, o⟩ := q
    obtain ⟨f, hf⟩ := ih fun q hq => h q (by simp [hq])
    obtain ⟨k, a, n, rfl⟩ := h (w, o) (by simp)
    unfold groupCoefs
    rw [hf]
    exact ⟨_, rfl⟩

variable {R : Type} [CommRing R] [Algebra ℝ R] (emb : Expr → R) (t0 tex p0 pex : Trig R)

theorem groups_prims {gs : List (A3 × List (Expr × Scatter))} (hne : ∀ g ∈ gs, g.2 ≠ [])
    (hp : ∀ g ∈ gs, ∀ q ∈ g.2, q.2.IsPrim) :
    ((groupsExpansion emb t0 tex p0 pex gs = .error .attributeError ∧
        ∃ g ∈ gs, ∃ q ∈ g.2, q.2.ncoefs = .error .attributeError) ∨
      ∃ r, groupsExpansion emb t0 tex p0 pex gs = .ok r ∧ ∀ g ∈ gs, ∀ q ∈ g.2, ∃ n, q.2.ncoefs = .ok n) := by
  induction gs with
  | nil => exact .inr ⟨0, rfl, by simp⟩
  | cons g gs ih =>
    obtain ⟨a, l⟩ := g
    have hpl : ∀ s ∈ l.map Prod.snd, s.IsPrim := by
      intro s hs
      obtain ⟨q, hq, rfl⟩ := List.mem_map.1 hs
      exact hp (a, l) (by simp) q hq
    obtain ⟨f, hf⟩ := groupCoefs_prims emb (hp (a, l) (by simp))
    rcases ncoefsL_prims hpl with ⟨h1, s, hs, hs'⟩ | ⟨ns, h1, h2, h3⟩
    · left
      obtain ⟨q, hq, rfl⟩ := List.mem_map.1 hs
      refine ⟨?_, (a, l), by simp, q, hq, hs'⟩
      unfold groupsExpansion groupNcoefs
      rw [h1]
      rfl
    · have hns : ns ≠ [] := by
        intro h
        rw [h] at h2
        exact hne (a, l) (by simp) (List.length_eq_zero_iff.1 (by simpa using h2.symm))
      have hg : groupNcoefs l = .ok (ns.foldr max 0) := by
        unfold groupNcoefs
        rw [h1]
        show (if ns = [] then _ else _) = _
        rw [if_neg hns]
      rcases ih (fun g hg => hne g (by simp [hg])) (fun g hg => hp g (by simp [hg])) with ⟨i, g, hg', q, hq, hq'⟩ | ⟨r, i, i'⟩
      · left
        refine ⟨?_, g, by simp [hg'], q, hq, hq'⟩
        unfold groupsExpansion
        rw [hg, hf, i]
        rfl
      · right
        refine ⟨_, by unfold groupsExpansion; rw [hg, hf, i]; rfl, ?_⟩
        intro g hgm q hq
        rcases List.mem_cons.1 hgm with rfl | hgm
        · exact h3 q.2 (List.mem_map.2 ⟨q, hq, rfl⟩)
        · exact i' g hgm q hq

/-- The expansion of a function with a missing `ncoefs` raises AttributeError. -/
theorem Flat.missing {s : Scatter} (h : s.Flat) (hn : s.ncoefs = .error .attributeError) :
    s.legExpansion emb t0 tex p0 pex = .error .attributeError := by
  cases s with
  | prim k a n =>
    unfold legExpansion
    rw [hn]
    rfl
  | lin ws os a =>
    obtain ⟨hl, hp⟩ := h
    have hne := foldl_addGroup_ne (ws.zip os) [] (by simp)
    have hpr : ∀ g ∈ aGroups ws os, ∀ q ∈ g.2, q.2.IsPrim := fun g hg q hq =>
      hp _ (List.of_mem_zip (aGroups_mem hg hq)).2
    show groupsExpansion emb t0 tex p0 pex (aGroups ws os) = _
    rcases groups_prims emb t0 tex p0 pex hne.1 hpr with ⟨h, -⟩ | ⟨r, -, h'⟩
    · exact h
    · exfalso
      have hall : ∀ o ∈ os, ∃ n, o.ncoefs = .ok n := by
        intro o ho
        have : o ∈ (ws.zip os).map Prod.snd := by rw [List.map_snd_zip (by omega)]; exact ho
        obtain ⟨q, hq, rfl⟩ := List.mem_map.1 this
        obtain ⟨g, hg, hqg⟩ := hne.2 q (.inl hq)
        exact h' g hg q hqg
      have hL : ∀ os : List Scatter, (∀ o ∈ os, ∃ n, o.ncoefs = .ok n) → ∃ ns, ncoefsL os = .ok ns := by
        intro os
        induction os with
        | nil => intro _; exact ⟨[], rfl⟩
        | cons o os ih =>
          intro h
          obtain ⟨n, hn⟩ := h o (by simp)
          obtain ⟨ns, hns⟩ := ih fun o ho => h o (by simp [ho])
          exact ⟨n :: ns, by rw [ncoefsL, hn, hns]; rfl⟩
      obtain ⟨ns, hns⟩ := hL os hall
      unfold ncoefs at hn
      rw [hns] at hn
      have hn : (if ns = [] then .error .valueError else .ok (ns.foldr max 0) : Py ℕ) = .error .attributeError := hn
      split_ifs at hn <;> cases hn

/-- The expansion of a function with a positive number of coefficients. -/
theorem Flat.given {s : Scatter} (h : s.Flat) {n : ℕ} (hn : s.ncoefs = .ok (n + 1)) :
    ∃ r, s.legExpansion emb t0 tex p0 pex = .ok r := by
  cases s with
  | prim k a m =>
    unfold legExpansion
    rw [hn]
    refine ⟨legSum (n + 1) (fun n => emb (primCoef a k n)) (angleR emb t0 tex p0 pex a), ?_⟩
    simp only [okb]
    rw [if_pos (Nat.succ_pos n)]
  | lin ws os a =>
    obtain ⟨hl, hp⟩ := h
    have hne := foldl_addGroup_ne (ws.zip os) [] (by simp)
    have hpr : ∀ g ∈ aGroups ws os, ∀ q ∈ g.2, q.2.IsPrim := fun g hg q hq =>
      hp _ (List.of_mem_zip (aGroups_mem hg hq)).2
    show ∃ r, groupsExpansion emb t0 tex p0 pex (aGroups ws os) = _
    rcases groups_prims emb t0 tex p0 pex hne.1 hpr with ⟨-, g, hg, q, hq, hq'⟩ | ⟨r, h, -⟩
    · exfalso
      have hqo := (List.of_mem_zip (aGroups_mem hg hq)).2
      unfold ncoefs at hn
      obtain ⟨ns, hns, -⟩ := ok_bind hn
      obtain ⟨k, -, e⟩ := ncoefsL_of_mem hns hqo
      rw [hq'] at e
      cases e
    · exact ⟨r, h⟩

end Scatter

/-! ### surface, volume and calc without interaction term -/

/-- The two objects differ in the scattering functions only, and those have the same phase
functions (e.g. one has been given `ncoefs` and the other has not). -/
structure SamePhase (o o' : Obj) : Prop where
  rest : o' = { o with V := o'.V, SRF := o'.SRF }
  V : o'.V.phase = o.V.phase
  SRF : o'.SRF.phase = o.SRF.phase

theorem calcVal_phase {s s' : Scatter} (h : s'.phase = s.phase) (b : Backend) (a1 a2 a3 a4 : Arr) (pd : Dict) :
    s'.calcVal b a1 a2 a3 a4 pd = s.calcVal b a1 a2 a3 a4 pd := by
  unfold Scatter.calcVal
  rw [h]

namespace SamePhase
variable {o o' : Obj} (h : SamePhase o o') (b : Backend)
include h

theorem srfCalc : (Fresh.acc0 b o').srfCalc = (Fresh.acc0 b o).srfCalc := by
  rw [h.rest]
  unfold Acc.srfCalc
  show ((Fresh.ang o .t0) >>= fun a => (Fresh.tex o) >>= fun a2 => (Fresh.ang o .p0) >>= fun c =>
    (Fresh.pex o) >>= fun d => (liftPy (o'.SRF.calcVal b a a2 c d o.params) : Py Arr)) = ((Fresh.ang o .t0) >>= fun a =>
    (Fresh.tex o) >>= fun a2 => (Fresh.ang o .p0) >>= fun c =>
    (Fresh.pex o) >>= fun d => (liftPy (o.SRF.calcVal b a a2 c d o.params) : Py Arr))
  simp only [calcVal_phase h.SRF]

theorem vCalc : (Fresh.acc0 b o').vCalc = (Fresh.acc0 b o).vCalc := by
  rw [h.rest]
  unfold Acc.vCalc
  show ((Fresh.ang o .t0) >>= fun a => (Fresh.tex o) >>= fun a2 => (Fresh.ang o .p0) >>= fun c =>
    (Fresh.pex o) >>= fun d => (liftPy (o'.V.calcVal b a a2 c d o.params) : Py Arr)) = ((Fresh.ang o .t0) >>= fun a =>
    (Fresh.tex o) >>= fun a2 => (Fresh.ang o .p0) >>= fun c =>
    (Fresh.pex o) >>= fun d => (liftPy (o.V.calcVal b a a2 c d o.params) : Py Arr))
  simp only [calcVal_phase h.V]

theorem accSurface : (Fresh.acc0 b o').surface = (Fresh.acc0 b o).surface := by
  unfold Acc.surface
  rw [h.srfCalc b, h.rest]
  rfl

theorem accVolume : (Fresh.acc0 b o').volume = (Fresh.acc0 b o).volume := by
  unfold Acc.volume
  rw [h.vCalc b, h.rest]
  rfl

theorem accConvert (x : Arr) : (Fresh.acc0 b o').convert x = (Fresh.acc0 b o).convert x := by
  rw [h.rest]
  rfl

theorem calcAll (hq : o.intQ = false) : Fresh.calcAll b o' = Fresh.calcAll b o := by
  have hq' : o'.intQ = false := by rw [h.rest]; exact hq
  have hbody : (Fresh.acc0 b o').calcBody = (Fresh.acc0 b o).calcBody := by
    refine Acc.calcBody_congr (congrArg Except.ok hq') (congrArg Except.ok hq) (h.accSurface b) (h.accVolume b) ?_
      fun q x y z => ?_
    · rw [h.rest]; rfl
    · rw [h.rest]; rfl
  have hm : (Fresh.acc0 b o').missingNames = (Fresh.acc0 b o).missingNames := by
    have e : ∀ (u : Obj), (Fresh.acc0 b u).missingNames =
        .ok ((Fresh.symbs u .tau ++ Fresh.symbs u .omega ++ Fresh.symbs u .NormBRDF ++ Fresh.symbs u .bsf ++
          u.V.phase.free ++ u.SRF.phase.free).filter fun k =>
            decide (k ∉ ["phi_0", "phi_ex", "theta_0", "theta_ex"] ∧ k ∉ u.params.keys)) := fun u => rfl
    rw [e, e, h.V, h.SRF, h.rest]
    rfl
  unfold Fresh.calcAll Acc.calcTry
  rw [hbody, hm]

theorem update (kw : Dict) : SamePhase (Fresh.update o kw) (Fresh.update o' kw) := by
  refine ⟨?_, h.V, h.SRF⟩
  have : Fresh.update o' kw = Fresh.update { o with V := o'.V, SRF := o'.SRF } kw := congrArg (Fresh.update · kw) h.rest
  rw [this]
  rfl

end SamePhase

/-- **C58**, first part: `surface`, `volume` and, with `int_Q=False`, `calc` do not depend on anything
but the phase functions of V and SRF; objects in any two states (of any two histories) that have
the same attributes apart from e.g. `ncoefs` of V and SRF give the same results. -/
theorem C58_not_needed {w w' : World} (hw : ReachableK w) (hw' : ReachableK w') (hb : w'.backend = w.backend)
    {id id' : ℕ} {o o' : Obj} (ho : w.objs id = some o) (ho' : w'.objs id' = some o') (hs : SamePhase o.core o'.core)
    (kw : Dict) :
    (surface id' kw w').1 = (surface id kw w).1 ∧ (volume id' kw w').1 = (volume id kw w).1 ∧
    (o.intQ = false → (calcOp id' kw w').1 = (calcOp id kw w).1) := by
  have hu := hs.update kw
  refine ⟨?_, ?_, fun hq => ?_⟩
  · rw [(surface_eq hw.inv ho kw).1, (surface_eq hw'.inv ho' kw).1, hb]
    show ((Fresh.acc0 w.backend (Fresh.update o'.core kw)).surface >>= fun x =>
      (Fresh.acc0 w.backend (Fresh.update o'.core kw)).convert x) = ((Fresh.acc0 w.backend (Fresh.update o.core kw)).surface >>= fun x =>
      (Fresh.acc0 w.backend (Fresh.update o.core kw)).convert x)
    rw [hu.accSurface]
    simp only [hu.accConvert]
  · rw [(volume_eq hw.inv ho kw).1, (volume_eq hw'.inv ho' kw).1, hb]
    show ((Fresh.acc0 w.backend (Fresh.update o'.core kw)).volume >>= fun x =>
      (Fresh.acc0 w.backend (Fresh.update o'.core kw)).convert x) = ((Fresh.acc0 w.backend (Fresh.update o.core kw)).volume >>= fun x =>
      (Fresh.acc0 w.backend (Fresh.update o.core kw)).convert x)
    rw [hu.accVolume]
    simp only [hu.accConvert]
  · have hq' : o'.intQ = false := by
      have e : o'.core.intQ = o.core.intQ := by rw [hs.rest]
      have e : o'.intQ = o.intQ := e
      rw [e]; exact hq
    rw [calcOp_noInt hw.inv ho hq kw, calcOp_noInt hw'.inv ho' hq' kw, hb,
      calcAll_core w.backend (o := Fresh.update o kw) (o' := Fresh.update o.core kw) rfl hq,
      calcAll_core w.backend (o := Fresh.update o' kw) (o' := Fresh.update o'.core kw) rfl hq']
    exact hu.calcAll w.backend hq

/-! ### the interaction term -/

/-- The coefficients cannot be computed. -/
theorem fnCoefs_missing {V SRF : Scatter} (hV : V.Flat) (hS : SRF.Flat)
    (h : SRF.ncoefs = .error .attributeError ∨
      (∃ n, SRF.ncoefs = .ok (n + 1)) ∧ V.ncoefs = .error .attributeError) (g : Geom4) :
    fnCoefs V SRF g = .error .attributeError := by
  unfold fnCoefs interactionExpansion fPoly
  rcases h with h | ⟨⟨n, hn⟩, h⟩
  · rw [hS.missing embP _ _ _ _ h]
    rfl
  · obtain ⟨r, hr⟩ := hS.given embP thetaS g.tex.trig phiS g.pex.trig.addPi hn
    rw [hr, hV.missing embP _ _ _ _ h]
    rfl

/-- If V or SRF has no `ncoefs`, the interaction term raises AttributeError. -/
theorem interaction_missing {b : Backend} {o : Obj} {S : List ℕ} (hc : Complete o S)
    (hp : ∀ a ∈ o.params.map Prod.snd, Arr.Fits a.shape S) (hq : o.intQ = true) (hi : o.fnInput = none)
    (hei : o.fnevalsInput = none) (hok : ObjOK b o) (hV : o.V.Flat) (hS : o.SRF.Flat)
    (h : o.SRF.ncoefs = .error .attributeError ∨
      (∃ n, o.SRF.ncoefs = .ok (n + 1)) ∧ o.V.ncoefs = .error .attributeError) :
    (Fresh.acc0 b o).interaction = .error .attributeError := by
  have hfn := fnCoefs_missing hV hS h o.geom
  have hfe : Fresh.fnevals b o = .error .attributeError := by
    unfold Fresh.fnevals
    cases h3 : o.fnevals_ with
    | some l =>
      exfalso
      obtain ⟨-, ks, f, -, -, hf, -⟩ := hok.fnevals l h3
      rcases hf with hf | hf
      · rw [hi] at hf; cases hf
      · rw [hfn] at hf; cases hf.2
    | none =>
      simp only [hei, if_pos hq]
      have : Fresh.fn o = .error .attributeError := by
        unfold Fresh.fn
        cases h4 : o.fn_ with
        | some f =>
          exfalso
          have := (hok.fn f h4).2
          rw [hfn] at this
          cases this
        | none =>
          simp only [hi, if_pos hq]
          rw [hfn]
          rfl
      rw [this]
      rfl
  obtain ⟨a1, e1, f1⟩ := hc.s_t0
  obtain ⟨a3, e3, f3⟩ := hc.s_tex
  obtain ⟨a2, e2, f2⟩ := hc.s_p0
  obtain ⟨a4, e4, f4⟩ := hc.s_pex
  have hba : ∃ args, Arr.broadcastArrays ([a1, a2, a3, a4] ++ o.params.map Prod.snd) = .ok args := by
    obtain ⟨sh, hsh, -⟩ := Arr.bshapes_of_fits (l := ([a1, a2, a3, a4] ++ o.params.map Prod.snd).map Arr.shape)
      (u := S) (by
        intro s hs
        obtain ⟨a, ha, rfl⟩ := List.mem_map.mp hs
        rcases List.mem_append.1 ha with ha | ha
        · simp only [List.mem_cons, List.not_mem_nil, or_false] at ha
          rcases ha with rfl | rfl | rfl | rfl
          · exact f1
          · exact f2
          · exact f3
          · exact f4
        · exact hp a ha)
    unfold Arr.broadcastArrays
    rw [hsh]
    exact ⟨_, rfl⟩
  obtain ⟨args, hargs⟩ := hba
  have h1 : (Fresh.acc0 b o).fint1 = .error .attributeError := by
    unfold Acc.fint1 Acc.fint
    show (Fresh.ang o .t0 >>= fun a => Fresh.ang o .p0 >>= fun b => Fresh.tex o >>= fun c => Fresh.pex o >>= fun d =>
      (Except.ok [a, b, c, d] : Py (List Arr))) >>= _ = _
    rw [e1, e2, e3, e4]
    simp only [okb]
    show (liftPy (Arr.broadcastArrays ([a1, a2, a3, a4] ++ o.params.map Prod.snd)) : Py _) >>= _ = _
    rw [liftPy_py, hargs]
    simp only [okb]
    show Fresh.fnevals b o >>= _ = _
    rw [hfe]
    rfl
  unfold Acc.interaction
  rw [h1]
  rfl

/-- **C58**, second part: if V or SRF has no `ncoefs` and all other inputs are there, `interaction`
raises AttributeError in every state, and so does `calc` with `int_Q=True` unless the canopy is
absent. -/
theorem C58_required {w : World} (hw : Reachable w) {id : ℕ} {kw : Dict} {o : Obj} (ho : w.objs id = some o)
    {S : List ℕ} (hc : Complete (Fresh.update o kw) S)
    (hp : ∀ a ∈ (Fresh.update o kw).params.map Prod.snd, Arr.Fits a.shape S) (hq : o.intQ = true)
    (hi : o.fnInput = none) (hei : o.fnevalsInput = none) (hV : o.V.Flat) (hS : o.SRF.Flat)
    (h : o.SRF.ncoefs = .error .attributeError ∨
      (∃ n, o.SRF.ncoefs = .ok (n + 1)) ∧ o.V.ncoefs = .error .attributeError) :
    (interaction id kw w).1 = .error .attributeError ∧
    ((∀ t, Fresh.par w.backend (Fresh.update o kw) .tau = .ok t → t.shape = [] → (t.get []).isPos = true) →
      (calcOp id kw w).1 = .error .attributeError) := by
  have hok : ObjOK w.backend (Fresh.update o kw) :=
    (hw.inv.updated ho kw).obj rfl id _ (World.updated_objs ..)
  have hI := interaction_missing hc hp hq hi hei hok hV hS h
  constructor
  · rw [(interaction_eq hw.inv ho kw).1]
    show (Fresh.acc0 w.backend (Fresh.update o kw)).interaction >>= _ = _
    rw [hI]
    rfl
  · intro ht
    rw [(calcOp_eq hw.inv ho kw).1]
    have hqu : (Fresh.update o kw).intQ = true := hq
    generalize Fresh.update o kw = u at *
    obtain ⟨t, et, -⟩ := hc.s_par w.backend .tau
    obtain ⟨x, hx, -⟩ := hc.s_surface w.backend (Fresh.dVol w.backend u) (Fresh.dSrf w.backend u)
    obtain ⟨v, hv, -⟩ := hc.s_volume w.backend (Fresh.dVol w.backend u) (Fresh.dSrf w.backend u)
    have hbody : (Fresh.acc0 w.backend u).calcBody = .error .attributeError := by
      unfold Acc.calcBody
      show Fresh.par w.backend u .tau >>= _ = _
      rw [et]
      simp only [okb]
      by_cases hs : t.shape = []
      · rw [if_pos hs]
        show (Fresh.acc0 w.backend u).surface >>= _ = _
        rw [show (Fresh.acc0 w.backend u).surface = .ok x from hx]
        simp only [okb]
        show Fresh.par w.backend u .tau >>= _ = _
        rw [et]
        simp only [okb]
        rw [if_pos (ht t et hs), show (Fresh.acc0 w.backend u).volume = .ok v from hv]
        simp only [okb]
        show (if u.intQ = true then _ else _) = _
        rw [if_pos hqu, hI]
        rfl
      · rw [if_neg hs]
        rw [show (Fresh.acc0 w.backend u).surface = .ok x from hx]
        simp only [okb]
        rw [show (Fresh.acc0 w.backend u).volume = .ok v from hv]
        simp only [okb]
        show (if u.intQ = true then _ else _) = _
        rw [if_pos hqu, hI]
        rfl
    unfold Fresh.calcAll Acc.calcTry
    rw [hbody]
    rfl

/-- A Henyey-Greenstein function without `ncoefs`. -/
def hgBare (t : ℝ) : Scatter := .prim (.volHG (.num t)) volA none

theorem hgBare_plain (t : ℝ) : (hgBare t).Plain := hgV_plain t

/-- The hypotheses of `C58_required` hold for a Henyey-Greenstein volume function without `ncoefs`
above an isotropic surface; with `int_Q=False` the same object gives a result. -/
example (b : Backend) : (∃ w o, Reachable w ∧ w.backend = b ∧ w.objs 0 = some o ∧ o.intQ = true ∧
      (interaction 0 [] w).1 = .error .attributeError ∧ (calcOp 0 [] w).1 = .error .attributeError) ∧
    ∃ w z, Reachable w ∧ w.backend = b ∧ (calcOp 0 [] w).1 = .ok z := by
  constructor
  · have ho := demo_objs b (hgBare (1/4)) exS true true true (Arr.lit 1) vec2 (Arr.lit 0) (demoKw (1/2) (1/4) 1 0)
    have hr := demo_reachable b (hgBare (1/4)) exS true true true (Arr.lit 1) vec2 (Arr.lit 0) (demoKw (1/2) (1/4) 1 0)
    have hb := demo_backend b (hgBare (1/4)) exS true true true (Arr.lit 1) vec2 (Arr.lit 0) (demoKw (1/2) (1/4) 1 0)
    have hu := demo_update (hgBare (1/4)) exS true true true (Arr.lit 1) vec2 (Arr.lit 0) (1/2) (1/4) 1 0
    have hp := demo_params (hgBare (1/4)) exS true true true (Arr.lit 1) vec2 (Arr.lit 0) (1/2) (1/4) 1 0
    have hc := demo_complete_arr (hgBare_plain (1/4)) exS_plain true true true vec2 1 0 (1/2) (1/4) 1 0
    have hd : (demoObj (hgBare (1/4)) exS true true true (Arr.lit 1) vec2 (Arr.lit 0) (demoKw (1/2) (1/4) 1 0)).pdef
      .tau = .str (.sym "tau") := rfl
    have h1 : (demoObj (hgBare (1/4)) exS true true true (Arr.lit 1) vec2 (Arr.lit 0) (demoKw (1/2) (1/4) 1 0)).intQ
      = true := rfl
    have h2 : (demoObj (hgBare (1/4)) exS true true true (Arr.lit 1) vec2 (Arr.lit 0) (demoKw (1/2) (1/4) 1 0)).fnInput
      = none := rfl
    have h3 : (demoObj (hgBare (1/4)) exS true true true (Arr.lit 1) vec2 (Arr.lit 0)
      (demoKw (1/2) (1/4) 1 0)).fnevalsInput = none := rfl
    have h4 : (demoObj (hgBare (1/4)) exS true true true (Arr.lit 1) vec2 (Arr.lit 0) (demoKw (1/2) (1/4) 1 0)).V
      = hgBare (1/4) := rfl
    have h5 : (demoObj (hgBare (1/4)) exS true true true (Arr.lit 1) vec2 (Arr.lit 0) (demoKw (1/2) (1/4) 1 0)).SRF
      = exS := rfl
    generalize demoObj (hgBare (1/4)) exS true true true (Arr.lit 1) vec2 (Arr.lit 0) (demoKw (1/2) (1/4) 1 0) = o at *
    generalize demoW b (hgBare (1/4)) exS true true true (Arr.lit 1) vec2 (Arr.lit 0) (demoKw (1/2) (1/4) 1 0) = w at *
    have hreq := C58_required hr (kw := []) ho (S := [2]) (by rw [hu]; exact hc)
      (by
        rw [hu, hp]
        intro a ha
        simp only [List.map_cons, List.map_nil, List.mem_cons, List.not_mem_nil, or_false] at ha
        rcases ha with rfl | rfl | rfl | rfl <;> exact one_fits (by simp)) h1 h2 h3 (by rw [h4]; trivial)
      (by rw [h5]; trivial)
      (.inr ⟨⟨0, by rw [h5]; simp [exS, Scatter.ncoefs]⟩, by rw [h4]; simp [hgBare, Scatter.ncoefs]⟩)
    refine ⟨w, o, hr, hb, ho, h1, hreq.1, hreq.2 fun t ht hs => ?_⟩
    exfalso
    rw [hu] at ht
    obtain ⟨z, hz, hsh, -⟩ := par_name (b := w.backend) hd (a := arr1 (1/2)) (by
      rw [hp]; simp [Dict.get?_cons])
    rw [hz] at ht
    cases ht
    rw [hsh] at hs
    cases hs
  · have ho := demo_objs b (hgBare (1/4)) exS false true true (Arr.lit 1) vec2 (Arr.lit 0) (demoKw (1/2) (1/4) 1 0)
    have hr := demo_reachable b (hgBare (1/4)) exS false true true (Arr.lit 1) vec2 (Arr.lit 0) (demoKw (1/2) (1/4) 1 0)
    have hb := demo_backend b (hgBare (1/4)) exS false true true (Arr.lit 1) vec2 (Arr.lit 0) (demoKw (1/2) (1/4) 1 0)
    have hu := demo_update (hgBare (1/4)) exS false true true (Arr.lit 1) vec2 (Arr.lit 0) (1/2) (1/4) 1 0
    have hc := demo_complete_arr (hgBare_plain (1/4)) exS_plain false true true vec2 1 0 (1/2) (1/4) 1 0
    have ha : (demoObj (hgBare (1/4)) exS false true true (Arr.lit 1) vec2 (Arr.lit 0)
      (demoKw (1/2) (1/4) 1 0)).ang .t0 = some vec2.atleast1d := by simp [demoObj]
    have h1 : (demoObj (hgBare (1/4)) exS false true true (Arr.lit 1) vec2 (Arr.lit 0) (demoKw (1/2) (1/4) 1 0)).intQ
      = false := rfl
    generalize demoObj (hgBare (1/4)) exS false true true (Arr.lit 1) vec2 (Arr.lit 0) (demoKw (1/2) (1/4) 1 0) = o at *
    generalize demoW b (hgBare (1/4)) exS false true true (Arr.lit 1) vec2 (Arr.lit 0) (demoKw (1/2) (1/4) 1 0) = w at *
    obtain ⟨z, hz, -⟩ := hc.calcAll_three b ha rfl h1
    refine ⟨w, z, hr, hb, ?_⟩
    rw [calcOp_noInt hr.inv ho h1, hu, hb, hz]

/-- The hypotheses of `C58_not_needed` hold for a Henyey-Greenstein function with and without `ncoefs`. -/
example (b : Backend) (t : Arr) (kw : Dict) : (calcOp 0 kw (demoW b (hgBare (1/4)) exS false true true (Arr.lit 1) t (Arr.lit 0)
      (demoKw (1/2) (1/4) 1 0))).1 =
    (calcOp 0 kw (demoW b (hgV (1/4)) exS false true true (Arr.lit 1) t (Arr.lit 0) (demoKw (1/2) (1/4) 1 0))).1 := by
  have h1 := demo_reachable b (hgBare (1/4)) exS false true true (Arr.lit 1) t (Arr.lit 0) (demoKw (1/2) (1/4) 1 0)
  have h2 := demo_reachable b (hgV (1/4)) exS false true true (Arr.lit 1) t (Arr.lit 0) (demoKw (1/2) (1/4) 1 0)
  have b1 := demo_backend b (hgBare (1/4)) exS false true true (Arr.lit 1) t (Arr.lit 0) (demoKw (1/2) (1/4) 1 0)
  have b2 := demo_backend b (hgV (1/4)) exS false true true (Arr.lit 1) t (Arr.lit 0) (demoKw (1/2) (1/4) 1 0)
  have o1 := demo_objs b (hgBare (1/4)) exS false true true (Arr.lit 1) t (Arr.lit 0) (demoKw (1/2) (1/4) 1 0)
  have o2 := demo_objs b (hgV (1/4)) exS false true true (Arr.lit 1) t (Arr.lit 0) (demoKw (1/2) (1/4) 1 0)
  generalize demoW b (hgBare (1/4)) exS false true true (Arr.lit 1) t (Arr.lit 0) (demoKw (1/2) (1/4) 1 0) = w1 at *
  generalize demoW b (hgV (1/4)) exS false true true (Arr.lit 1) t (Arr.lit 0) (demoKw (1/2) (1/4) 1 0) = w2 at *
  have hq : (demoObj (hgV (1/4)) exS false true true (Arr.lit 1) t (Arr.lit 0) (demoKw (1/2) (1/4) 1 0)).intQ
    = false := rfl
  have hs : SamePhase (demoObj (hgV (1/4)) exS false true true (Arr.lit 1) t (Arr.lit 0) (demoKw (1/2) (1/4) 1 0)).core
      (demoObj (hgBare (1/4)) exS false true true (Arr.lit 1) t (Arr.lit 0) (demoKw (1/2) (1/4) 1 0)).core := by
    refine ⟨?_, rfl, rfl⟩
    unfold demoObj Obj.core
    rfl
  exact (C58_not_needed h2.keeps h1.keeps (b1.trans b2.symm) o2 o1 hs kw).2.2 hq

end

end RT1
