import Verif.Lemmas.ParSym
import Verif.Props.Backend
import Verif.Props.Rows
import Verif.Lemmas.IntRow
import Verif.Props.IntRows

/-!
# Values given by assignment or through the parameter dictionary
-/

namespace RT1

noncomputable section
open Classical

/-- The object with the value `v` assigned to the parameter `p`. -/
def Obj.assign (o : Obj) (p : PName) (v : Arr) : Obj := { o with pdef := Function.update o.pdef p (.val v) }

/-- The parameter `p` is defined as the name `k`, and `k` has the value `v`, up to its number of
axes. -/
structure Named (u : Obj) (p : PName) (k : String) (v : Arr) : Prop where
  pdef : u.pdef p = .str (.sym k)
  value : ∃ a, u.params.get? k = some a ∧ a.shape ≠ [] ∧ (∀ idx, a.at' idx = v.at' idx) ∧
    ∀ S, Arr.Fits a.shape S → Arr.Fits v.shape S

theorem at'_atleast1d (v : Arr) (idx : List ℕ) : v.atleast1d.at' idx = v.at' idx := by
  unfold Arr.atleast1d
  split
  · rename_i h
    unfold Arr.at'
    rw [h]
    rfl
  · rfl

theorem update_assign {o : Obj} {p : PName} {k : String} (hd : o.pdef p = .str (.sym k)) {kw : Dict} {v : Arr}
    (hk : lastValue kw k = some v) : Fresh.update (o.assign p v) kw = (Fresh.update o kw).assign p v := by
  have hmem : k ∈ kw.keys := by
    unfold lastValue at hk
    cases hf : kw.reverse.find? (fun p => decide (p.1 = k)) with
    | none => rw [hf] at hk; cases hk
    | some q =>
      have h1 := List.mem_of_find?_eq_some hf
      have h2 := List.find?_some hf
      simp only [decide_eq_true_eq] at h2
      exact List.mem_map.2 ⟨q, by simpa using h1, h2⟩
  by_cases hp : p = .bsf
  · subst hp
    unfold Fresh.update Obj.assign
    simp only [Function.update_self, hd]
    by_cases hb : k = "bsf"
    · subst hb
      simp [hmem]
    · split
      · rename_i h; injection h with h; injection h with h; exact absurd h hb
      · rfl
  · unfold Fresh.update Obj.assign
    simp only [Function.update_of_ne (Ne.symm hp)]

theorem lastValue_mapValues (kw : Dict) (k : String) (f : Arr → Arr) :
    lastValue (kw.map fun p => (p.1, f p.2)) k = (lastValue kw k).map f := by
  unfold lastValue
  rw [← List.map_reverse, List.find?_map]
  simp only [Option.map_map]
  rfl

theorem lastValue_append_new (kw : Dict) (q : String × Arr) (k : String) (h : q.1 ≠ k) :
    lastValue (kw ++ [q]) k = lastValue kw k := by
  unfold lastValue
  rw [List.reverse_append]
  simp [h]

theorem named_update {o : Obj} {p : PName} {k : String} (hd : o.pdef p = .str (.sym k)) {kw : Dict} {v : Arr}
    (hk : lastValue kw k = some v) : Named (Fresh.update o kw) p k v := by
  refine ⟨hd, v.atleast1d, ?_, atleast1d_ne v, at'_atleast1d v, fun S h => ?_⟩
  · have : ∃ kw', (Fresh.update o kw).params = Dict.update o.params (kw'.map fun p => (p.1, p.2.atleast1d)) ∧
        lastValue kw' k = some v := by
      unfold Fresh.update
      split
      · split_ifs with h
        · exact ⟨kw, rfl, hk⟩
        · refine ⟨_, rfl, ?_⟩
          rw [lastValue_append_new, hk]
          rintro rfl
          apply h
          right
          unfold lastValue at hk
          cases hf : kw.reverse.find? (fun p => decide (p.1 = "bsf")) with
          | none => rw [hf] at hk; cases hk
          | some q =>
            have h1 := List.mem_of_find?_eq_some hf
            have h2 := List.find?_some hf
            simp only [decide_eq_true_eq] at h2
            exact List.mem_map.2 ⟨q, by simpa using h1, h2⟩
      · exact ⟨kw, rfl, hk⟩
    obtain ⟨kw', e1, e2⟩ := this
    rw [e1, Dict.get?_update, lastValue_mapValues, e2]
    rfl
  · unfold Arr.atleast1d at h
    split at h
    · rename_i h0
      rw [h0]; trivial
    · exact h

namespace Named
variable {u : Obj} {p : PName} {k : String} {v : Arr} (h : Named u p k v)

theorem par_ne (b : Backend) {q : PName} (hq : q ≠ p) : Fresh.par b (u.assign p v) q = Fresh.par b u q := by
  have e : (u.assign p v).pdef q = u.pdef q := Function.update_of_ne hq _ _
  unfold Fresh.par Fresh.pfun Fresh.symbs
  rw [e]
  rfl

theorem par_eq (b : Backend) : Fresh.par b (u.assign p v) p = .ok v :=
  par_val (Function.update_self _ _ _)

include h in
theorem xsite (b : Backend) (idx : List ℕ) : XSite.of b (u.assign p v) idx = XSite.of b u idx := by
  obtain ⟨a, ha, -, hv, -⟩ := h.value
  obtain ⟨z, hz, -, hz'⟩ := par_name (b := b) h.pdef ha
  have hp : (fun q => valAt (Fresh.par b (u.assign p v) q) idx) = fun q => valAt (Fresh.par b u q) idx := by
    funext q
    by_cases hq : q = p
    · subst hq
      rw [par_eq, hz]
      show v.at' idx = z.at' idx
      rw [hz', hv]
    · rw [par_ne b hq]
  unfold XSite.of
  congr 1

include h in
theorem complete {S : List ℕ} (hc : Complete u S) : Complete (u.assign p v) S := by
  obtain ⟨a, ha, -, -, hf⟩ := h.value
  refine ⟨hc.t0, hc.p0, hc.tex, hc.pex, hc.I0, hc.params, fun q => ?_, hc.V, hc.SRF⟩
  by_cases hq : q = p
  · subst hq
    have : (u.assign q v).pdef q = .val v := Function.update_self _ _ _
    rw [this]
    exact hf S (hc.params k a ha)
  · have : (u.assign p v).pdef q = u.pdef q := Function.update_of_ne hq _ _
    rw [this]
    exact hc.defs q

/-- Without canopy the two forms are treated differently; not so where tau is positive. -/
def TauOK (p : PName) (v : Arr) : Prop := p = .tau → v.shape = [] → (v.get []).isPos = true

include h in
/-- Raw surface and volume entries. -/
theorem parts {b : Backend} (ht : TauOK p v) {Is Iv Ii z Is' Iv' Ii' z' : Arr} (hp : Parts b u Is Iv Ii z)
    (hp' : Parts b (u.assign p v) Is' Iv' Ii' z') {idx : List ℕ} (hv : Arr.Valid Is.shape idx)
    (hv' : Arr.Valid Is'.shape idx) : Is.get idx = Is'.get idx ∧ Iv.get idx = Iv'.get idx := by
  obtain ⟨-, r2, -, -⟩ := hp.rows
  obtain ⟨-, r2', -, -⟩ := hp'.rows
  have hx := h.xsite b idx
  constructor
  · have a1 := PW.surface (PW.srfCalc (E := (XSite.of b u idx).env) fun _ _ => rfl) Is hp.surf
    have a2 := PW.surface (PW.srfCalc (E := (XSite.of b u idx).env) fun _ _ => by rw [hx]) Is' hp'.surf
    rw [Arr.at'_valid hv] at a1
    rw [Arr.at'_valid hv', hx] at a2
    rw [a1, a2]
    rfl
  · have on : (Fresh.acc0 b u).volume = .ok Iv ∧ (Fresh.acc0 b (u.assign p v)).volume = .ok Iv' ∨
        Iv = Arr.zerosLike Is ∧ Iv' = Arr.zerosLike Is' := by
      obtain ⟨t, t1, t2⟩ := hp.tau
      obtain ⟨t', t1', t2'⟩ := hp'.tau
      by_cases hq : p = .tau
      · subst hq
        obtain ⟨a, ha, hne, -, -⟩ := h.value
        obtain ⟨zz, hz, hzs, -⟩ := par_name (b := b) h.pdef ha
        rw [hz] at t1
        have t1 : zz = t := by cases t1; rfl
        subst t1
        rw [par_eq] at t1'
        have t1' : v = t' := by cases t1'; rfl
        subst t1'
        rw [if_neg (fun hh => hne (by rw [← hzs]; exact hh.1))] at t2
        rw [if_neg (fun hh => hh.2 (ht rfl hh.1))] at t2'
        exact .inl ⟨t2.1, t2'.1⟩
      · rw [par_ne b (Ne.symm hq), t1] at t1'
        have t1' : t = t' := by cases t1'; rfl
        subst t1'
        by_cases hc : t.shape = [] ∧ ¬ (t.get []).isPos = true
        · rw [if_pos hc] at t2 t2'
          exact .inr ⟨t2.1, t2'.1⟩
        · rw [if_neg hc] at t2 t2'
          exact .inl ⟨t2.1, t2'.1⟩
    rcases on with ⟨o1, o2⟩ | ⟨o1, o2⟩
    · have a1 := PW.volume (PW.vCalc (E := (XSite.of b u idx).env) fun _ _ => rfl) Iv o1
      have a2 := PW.volume (PW.vCalc (E := (XSite.of b u idx).env) fun _ _ => by rw [hx]) Iv' o2
      rw [Arr.at'_valid (by rw [r2]; exact hv)] at a1
      rw [Arr.at'_valid (by rw [r2']; exact hv'), hx] at a2
      rw [a1, a2]
      rfl
    · rw [o1, o2]
      rfl

end Named

theorem assign_obj {w : World} {id : ℕ} {o : Obj} (ho : w.objs id = some o) (p : PName) (v : Arr) :
    (step (.setParamDef id p (.val v)) w).2.objs id = some (o.assign p v) :=
  modObj_get (w := (clearParam w).2) ho _

/-- **C59** (partial): a parameter (tau, omega, ...) that is defined by a name gets the value `v`
through the parameters of the call, or `v` is assigned to it before the call: surface, volume and
(without interaction term) calc return the same arrays.  A number assigned to tau has to be
positive (see `C59_counterexample`, `C59_zero_partial`). -/
theorem C59_same_arrays_partial {w : World} (hw : ReachableK w) {id : ℕ} {o : Obj} (ho : w.objs id = some o)
    {p : PName} {k : String} (hd : o.pdef p = .str (.sym k)) {kw : Dict} {v : Arr} (hk : lastValue kw k = some v)
    (ht : p = .tau → v.shape = [] → (v.get []).isPos = true) {S : List ℕ} (hc : Complete (Fresh.update o kw) S)
    {a : Arr} (ha : o.ang .t0 = some a) (hs : a.shape = S) :
    SameResult (surface id kw w).1 (surface id kw (step (.setParamDef id p (.val v)) w).2).1 ∧
    SameResult (volume id kw w).1 (volume id kw (step (.setParamDef id p (.val v)) w).2).1 ∧
    (o.intQ = false →
      SameResult (calcOp id kw w).1 (calcOp id kw (step (.setParamDef id p (.val v)) w).2).1) := by
  have hw' := (hw.step (op := .setParamDef id p (.val v)) trivial).inv
  have ho' := assign_obj ho p v
  have hb' : (step (.setParamDef id p (.val v)) w).2.backend = w.backend := step_backend _ _
  have hw := hw.inv
  generalize (step (.setParamDef id p (.val v)) w).2 = w' at *
  have hN := named_update hd hk
  have hU := update_assign hd hk
  have hau : (Fresh.update o kw).ang .t0 = some a := ha
  have hqu : (Fresh.update o kw).intQ = o.intQ := rfl
  generalize hUu : Fresh.update o kw = u at *
  have hc' := hN.complete hc
  have valid : ∀ {S : List ℕ} {idx : List ℕ}, Arr.Valid (S ++ [3]) idx →
      ∃ i j, idx = i ++ [j] ∧ Arr.Valid S i ∧ j < 3 := by
    intro S idx hv
    obtain ⟨i, j, rfl⟩ : ∃ i j, idx = i ++ [j] := by
      have hl := hv.length
      rcases List.eq_nil_or_concat idx with rfl | ⟨i, k, rfl⟩
      · simp at hl
      · exact ⟨i, k, by simp⟩
    obtain ⟨v1, v2⟩ := Arr.valid_append_iff.1 hv
    exact ⟨i, j, rfl, v1, v2⟩
  refine ⟨?_, ?_, fun hq => ?_⟩
  · obtain ⟨z, z1, z2⟩ := hc.surface_arr w.backend hau hs
    obtain ⟨z', z1', z2'⟩ := hc'.surface_arr w.backend (a := a) hau hs
    refine ⟨z, z', ?_, ?_, by rw [z2, z2'], fun idx hv => ?_⟩
    · rw [(surface_eq hw ho kw).1, hUu, z1]
    · rw [(surface_eq hw' ho' kw).1, hb', hU, z1']
    · have a1 := PW.freshSurface (PW.srfCalc (E := (XSite.of w.backend u idx).env) fun _ _ => rfl) z z1
      have a2 := PW.freshSurface (PW.srfCalc (E := (XSite.of w.backend u idx).env)
        fun _ _ => by rw [hN.xsite]) z' z1'
      rw [Arr.at'_valid hv] at a1
      rw [Arr.at'_valid (by rw [z2', ← z2]; exact hv), hN.xsite] at a2
      rw [a1, a2]
      rfl
  · obtain ⟨z, z1, z2⟩ := hc.volume_arr w.backend hau hs
    obtain ⟨z', z1', z2'⟩ := hc'.volume_arr w.backend (a := a) hau hs
    refine ⟨z, z', ?_, ?_, by rw [z2, z2'], fun idx hv => ?_⟩
    · rw [(volume_eq hw ho kw).1, hUu, z1]
    · rw [(volume_eq hw' ho' kw).1, hb', hU, z1']
    · have a1 := PW.freshVolume (PW.vCalc (E := (XSite.of w.backend u idx).env) fun _ _ => rfl) z z1
      have a2 := PW.freshVolume (PW.vCalc (E := (XSite.of w.backend u idx).env)
        fun _ _ => by rw [hN.xsite]) z' z1'
      rw [Arr.at'_valid hv] at a1
      rw [Arr.at'_valid (by rw [z2', ← z2]; exact hv), hN.xsite] at a2
      rw [a1, a2]
      rfl
  · have hq1 : u.intQ = false := hqu.trans hq
    obtain ⟨z, z1, z2⟩ := hc.calcAll_three w.backend hau hs hq1
    obtain ⟨z', z1', z2'⟩ := hc'.calcAll_three w.backend (a := a) hau hs hq1
    refine ⟨z, z', ?_, ?_, by rw [z2, z2'], fun idx hv => ?_⟩
    · rw [calcOp_noInt hw ho hq kw, hUu, z1]
    · rw [calcOp_noInt hw' ho' hq kw, hb', hU, z1']
    · rw [z2] at hv
      obtain ⟨i, j, rfl, v1, v2⟩ := valid hv
      obtain ⟨Is, Iv, Ii, hp⟩ := calc_parts z1
      obtain ⟨Is', Iv', Ii', hp'⟩ := calc_parts z1'
      obtain ⟨r1, r2, -, r4⟩ := hp.rows
      obtain ⟨r1', r2', -, r4'⟩ := hp'.rows
      have hn : nrows u.intQ = 3 := by rw [hq1]; rfl
      have hn' : nrows (u.assign p v).intQ = 3 := hn
      rw [hn] at r1 r4
      rw [hn'] at r1' r4'
      have e1 : Is.shape = S := List.append_cancel_right (r1.symm.trans z2)
      have e1' : Is'.shape = S := List.append_cancel_right (r1'.symm.trans z2')
      obtain ⟨vs, vv⟩ := hN.parts ht hp hp' (idx := i) (by rw [e1]; exact v1) (by rw [e1']; exact v1)
      rw [r4 j v2 i (by rw [e1]; exact v1), r4' j v2 i (by rw [e1']; exact v1), vs, vv, hN.xsite]
      show _ = (XSite.of w.backend u i).convert u.sig0 u.dB (rowVal u.intQ _ _ _ j)
      congr 1
      unfold rowVal
      rw [hq1]
      have : j = 0 ∨ j = 1 ∨ j = 2 := by omega
      rcases this with rfl | rfl | rfl <;> rfl

theorem FSite.of_core {b : Backend} {o o' : Obj} (hc : o.core = o'.core) {idx : List ℕ} {x : Site}
    (h : FSite b o idx x) : FSite b o' idx x := by
  have h1 : FSite b o.core idx x := ⟨h.t0, h.tex, h.p0, h.pex, h.tau, h.omega, h.NormBRDF, h.bsf, h.I0, h.params⟩
  rw [hc] at h1
  exact ⟨h1.t0, h1.tex, h1.p0, h1.pex, h1.tau, h1.omega, h1.NormBRDF, h1.bsf, h1.I0, h1.params⟩

theorem Aligned.of_core {b : Backend} {o o' : Obj} (hc : o.core = o'.core) {r : ℕ} (h : Aligned b o r) :
    Aligned b o' r := by
  have h1 : Aligned b o.core r := ⟨h.pos, h.t0, h.tex, h.p0, h.pex, h.params, h.tau, h.const⟩
  rw [hc] at h1
  exact ⟨h1.pos, h1.t0, h1.tex, h1.p0, h1.pex, h1.params, h1.tau, h1.const⟩

namespace Named
variable {u : Obj} {p : PName} {k : String} {v : Arr} (h : Named u p k v)

include h in
theorem fsite {b : Backend} {idx : List ℕ} {x : Site} (hx : FSite b u idx x) : FSite b (u.assign p v) idx x := by
  have key : ∀ {q : PName} {r : ℝ}, HasVal (Fresh.par b u q) idx r → HasVal (Fresh.par b (u.assign p v) q) idx r := by
    intro q r hr
    by_cases hq : q = p
    · subst hq
      obtain ⟨a, ha, -, hv, -⟩ := h.value
      obtain ⟨z, hz, -, hz'⟩ := par_name (b := b) h.pdef ha
      obtain ⟨z', e1, e2⟩ := hr
      rw [hz] at e1
      have e1 : z = z' := by cases e1; rfl
      subst e1
      exact ⟨v, par_eq b, by rw [← hv, ← hz', e2]⟩
    · rw [par_ne b hq]; exact hr
  exact ⟨hx.t0, hx.tex, hx.p0, hx.pex, key hx.tau, key hx.omega, key hx.NormBRDF, key hx.bsf, hx.I0, hx.params⟩

include h in
theorem aligned {b : Backend} {r : ℕ} (ha : Aligned b u r) : Aligned b (u.assign p v) r := by
  refine ⟨ha.pos, ha.t0, ha.tex, ha.p0, ha.pex, ha.params, fun a hp => ?_, ha.const⟩
  by_cases hq : PName.tau = p
  · subst hq
    rw [par_eq] at hp
    have hp : v = a := by cases hp; rfl
    subst hp
    obtain ⟨a', ha', -, -, hf⟩ := h.value
    exact (hf a'.shape (Arr.Fits.refl _)).length.trans (ha.params _ (Dict.mem_of_get? ha'))
  · rw [par_ne b hq] at hp
    exact ha.tau a hp

end Named

/-- **C59** (partial), interaction term: the two calls return the same value at every index at
which no direction is nadir or horizon and there is a canopy. -/
theorem C59_interaction_partial {w : World} (hw : ReachableP w) {id : ℕ} {o : Obj} (ho : w.objs id = some o)
    {p : PName} {k : String} (hd : o.pdef p = .str (.sym k)) {kw : Dict} {v : Arr} (hk : lastValue kw k = some v)
    {arr arr' : Arr} {w1 w2 : World} (h : interaction id kw w = (.ok arr, w1))
    (h' : interaction id kw (step (.setParamDef id p (.val v)) w).2 = (.ok arr', w2)) {idx : List ℕ}
    (hv : Arr.Valid arr.shape idx) (hv' : Arr.Valid arr'.shape idx) {x : Site} (hs : SiteAt w1 id idx x)
    {o1 : Obj} (ho1 : w1.objs id = some o1) (hal : ∃ r, Aligned w1.backend o1 r) {nV nS : ℕ}
    (hV : o.V.ncoefs = .ok (nV + 1)) (hS : o.SRF.ncoefs = .ok (nS + 1)) (hx : x.Oblique)
    (hI : o.sig0 = true → x.I0 ≠ 0) : arr.get idx = arr'.get idx := by
  have hw' : ReachableP (step (.setParamDef id p (.val v)) w).2 := hw.step trivial
  have ho' := assign_obj ho p v
  have hb' : (step (.setParamDef id p (.val v)) w).2.backend = w.backend := step_backend _ _
  obtain ⟨a, b, hc⟩ := interaction_callOK hw.reachable h
  obtain ⟨a', b', hc'⟩ := interaction_callOK hw'.reachable h'
  have e1 : b = o1 := by have := hc.after; rw [ho1] at this; cases this; rfl
  subst e1
  have e2 : a = o := by have := hc.before; rw [ho] at this; cases this; rfl
  subst e2
  have e3 : a' = a.assign p v := by have := hc'.before; rw [ho'] at this; cases this; rfl
  subst e3
  have hN := named_update hd hk
  have hU := update_assign hd hk
  have hcore : b.core = (Fresh.update a kw).core := hc.filled.core
  have hcore' : b'.core = ((Fresh.update a kw).assign p v).core := by rw [← hU]; exact hc'.filled.core
  have hbk : w1.backend = w.backend := hc.backend
  have hbk' : w2.backend = w.backend := hc'.backend.trans hb'
  obtain ⟨r, hal⟩ := hal
  have hf : FSite w.backend (Fresh.update a kw) idx x := by
    rw [← hbk]
    exact (hs.fsite hc.inv ho1).of_core hcore
  have ha : Aligned w.backend (Fresh.update a kw) r := by
    rw [← hbk]
    exact hal.of_core hcore
  have hf' := (hN.fsite hf).of_core hcore'.symm
  have ha' := (hN.aligned ha).of_core hcore'.symm
  have hcfg : b.cfg = a.cfg := by
    have : b.core.cfg = (Fresh.update a kw).core.cfg := congrArg Obj.cfg hcore
    exact this
  have hcfg' : b'.cfg = a.cfg := by
    have : b'.core.cfg = ((Fresh.update a kw).assign p v).core.cfg := congrArg Obj.cfg hcore'
    exact this
  have hm : b.mode = a.mode := by
    have : b.core.mode = (Fresh.update a kw).core.mode := congrArg Obj.mode hcore
    exact this
  have hm' : b'.mode = a.mode := by
    have : b'.core.mode = ((Fresh.update a kw).assign p v).core.mode := congrArg Obj.mode hcore'
    exact this
  refine C11_own_values (c := a.cfg) (md := a.mode) (x := x) hV hS hx hI
    ⟨_, id, kw, arr, w1, idx, hw, h, hv, rfl, hs, b, ho1, hcfg, hm, r, hal⟩
    ⟨_, id, kw, arr', w2, idx, hw', h', hv', rfl, ?_, b', hc'.after, hcfg', hm', r, by rw [hbk']; exact ha'⟩
  exact SiteAt.of_fsite hc'.inv hc'.after (by rw [hbk']; exact hf')

/-- **C59** (partial), `calc` with interaction term: all rows agree at every index at which no
direction is nadir or horizon and there is a canopy. -/
theorem C59_rows_partial {w : World} (hw : ReachableP w) {id : ℕ} {o : Obj} (ho : w.objs id = some o)
    {p : PName} {k : String} (hd : o.pdef p = .str (.sym k)) {kw : Dict} {v : Arr} (hk : lastValue kw k = some v)
    (ht : p = .tau → v.shape = [] → (v.get []).isPos = true)
    {arr arr' : Arr} {w1 w2 : World} (h : calcOp id kw w = (.ok arr, w1))
    (h' : calcOp id kw (step (.setParamDef id p (.val v)) w).2 = (.ok arr', w2)) {idx : List ℕ} {j : ℕ}
    (hv : Arr.Valid arr.shape (idx ++ [j])) (hv' : Arr.Valid arr'.shape (idx ++ [j])) {x : Site}
    (hs : SiteAt w1 id idx x)
    {o1 : Obj} (ho1 : w1.objs id = some o1) (hal : ∃ r, Aligned w1.backend o1 r) {nV nS : ℕ}
    (hV : o.V.ncoefs = .ok (nV + 1)) (hS : o.SRF.ncoefs = .ok (nS + 1)) (hx : x.Oblique) :
    arr.get (idx ++ [j]) = arr'.get (idx ++ [j]) := by
  have hw' : ReachableP (step (.setParamDef id p (.val v)) w).2 := hw.step trivial
  have ho' := assign_obj ho p v
  have hb' : (step (.setParamDef id p (.val v)) w).2.backend = w.backend := step_backend _ _
  obtain ⟨a, b, hc⟩ := calc_callOK hw.reachable h
  obtain ⟨a', b', hc'⟩ := calc_callOK hw'.reachable h'
  have e1 : b = o1 := by have := hc.after; rw [ho1] at this; cases this; rfl
  subst e1
  have e2 : a = o := by have := hc.before; rw [ho] at this; cases this; rfl
  subst e2
  have e3 : a' = a.assign p v := by have := hc'.before; rw [ho'] at this; cases this; rfl
  subst e3
  have hN := named_update hd hk
  have hU := update_assign hd hk
  have hok := hc.ok
  have hok' := hc'.ok
  rw [hU, hb'] at hok'
  have hcore : b.core = (Fresh.update a kw).core := hc.filled.core
  have hbk : w1.backend = w.backend := hc.backend
  obtain ⟨r, hal⟩ := hal
  have hf : FSite w.backend (Fresh.update a kw) idx x := by
    rw [← hbk]
    exact (hs.fsite hc.inv ho1).of_core hcore
  have ha : Aligned w.backend (Fresh.update a kw) r := by
    rw [← hbk]
    exact hal.of_core hcore
  have upd : ∀ {w : World} (hw : ReachableP w) {o : Obj} (ho : w.objs id = some o),
      ObjOK w.backend (Fresh.update o kw) ∧ GeomOK (Fresh.update o kw) := by
    intro w hw o ho
    have hr : ReachableP (step (.updateParams id kw) w).2 := hw.step trivial
    have hob : (step (.updateParams id kw) w).2.objs id = some (Fresh.update o kw) := by
      show (updateParams id kw w).2.objs id = _
      rw [updateParams_eq ho]; simp
    have hbk : (step (.updateParams id kw) w).2.backend = w.backend := step_backend _ _
    refine ⟨?_, hr.geomOK hob⟩
    have := hr.reachable.inv.obj rfl id _ hob
    rwa [hbk] at this
  obtain ⟨hO, hG⟩ := upd hw ho
  obtain ⟨hO', hG'⟩ := upd hw' ho'
  rw [hU] at hG' hO'
  rw [hb'] at hO'
  have hf' := hN.fsite hf
  have ha' := hN.aligned ha
  have hVu : (Fresh.update a kw).V.ncoefs = .ok (nV + 1) := hV
  have hSu : (Fresh.update a kw).SRF.ncoefs = .ok (nS + 1) := hS
  generalize Fresh.update a kw = u at *
  obtain ⟨Is, Iv, Ii, hp⟩ := calc_parts hok
  obtain ⟨Is', Iv', Ii', hp'⟩ := calc_parts hok'
  obtain ⟨r1, r2, r3, r4⟩ := hp.rows
  obtain ⟨r1', r2', r3', r4'⟩ := hp'.rows
  rw [r1] at hv
  rw [r1'] at hv'
  obtain ⟨v1, v2⟩ := Arr.valid_append_iff.1 hv
  obtain ⟨v1', v2'⟩ := Arr.valid_append_iff.1 hv'
  obtain ⟨vs, vv⟩ := hN.parts ht hp hp' v1 v1'
  have len : ∀ {u : Obj} {Is Iv Ii z : Arr}, Parts w.backend u Is Iv Ii z → Aligned w.backend u r →
      FSite w.backend u idx x → Arr.Valid Is.shape idx → r ≤ idx.length := by
    intro u Is Iv Ii z hp ha hf hv
    obtain ⟨m, hm⟩ := surface_mu0_ok hp.surf
    have f1 := Below.surface_mu0 hm _ hp.surf
    obtain ⟨a1, h1, -⟩ := hf.t0.obtain
    have hm0 : Fresh.mu0 u = .ok (Arr.cos a1) := by unfold Fresh.mu0; rw [h1]; rfl
    rw [hm0] at hm
    have hm : Arr.cos a1 = m := by cases hm; rfl
    subst hm
    have h2 : (Arr.cos a1).shape.length = r := ha.t0 a1 (ang_ok h1)
    rw [hv.length, ← h2]
    exact f1.length
  rw [r4 j v2 idx v1, r4' j v2' idx v1', vs, vv, hN.xsite]
  show (XSite.of w.backend u idx).convert u.sig0 u.dB (rowVal u.intQ _ _ _ j) =
    (XSite.of w.backend u idx).convert u.sig0 u.dB (rowVal u.intQ _ _ _ j)
  by_cases hq : u.intQ = true
  · have i1 : Ii.get idx = XR.fin (geomInteraction u.V u.SRF u.geom x) :=
      RowP.int_val (k := j) (c := u.cfg) (md := u.mode) (n := r)
        ⟨⟨hf, rfl, hp, v1, v2, r4 j v2 idx v1, by rw [r2]; exact v1, fun hq => by rw [r3 hq]; exact v1⟩, hO, hG, rfl,
          ha, len hp ha hf v1⟩ hq hVu hSu hx
    have i2 : Ii'.get idx = XR.fin (geomInteraction u.V u.SRF u.geom x) :=
      RowP.int_val (o := u.assign p v) (k := j) (c := (u.assign p v).cfg) (md := (u.assign p v).mode) (n := r)
        ⟨⟨hf', rfl, hp', v1', v2', r4' j v2' idx v1', by rw [r2']; exact v1', fun hq => by rw [r3' hq]; exact v1'⟩,
          hO', hG', rfl, ha', len hp' ha' hf' v1'⟩ hq hVu hSu hx
    rw [i1, i2]
  · have hq0 : u.intQ = false := by simpa using hq
    have hj : j = 0 ∨ j = 1 ∨ j = 2 := by
      unfold nrows at v2
      rw [if_neg hq] at v2
      omega
    congr 1
    unfold rowVal
    rw [hq0]
    rcases hj with rfl | rfl | rfl <;> rfl

/-- **C59** (partial), tau = 0: at the same site the volume row does not depend on how tau is given
(the interaction row: `C21_interaction_partial`). -/
theorem C59_zero_partial {c : Cfg} {x : Site} {r r' : XR} (h : ObservesRow 2 c x r) (h' : ObservesRow 2 c x r')
    {p : ℝ} (hp : c.V.ValueAt x p) (ht : x.tau = 0) (hx : x.Regular c.sig0) : r = r' := by
  rw [C21_volume (.inr h) hp ht hx, C21_volume (.inr h') hp ht hx]

theorem demo_set_tau (V SRF : Scatter) (q s d : Bool) (I t p : Arr) (τ τ' ω N β : ℝ) :
    Fresh.update (demoObj V SRF q s d I t p (demoKw τ ω N β)) [("tau", Arr.lit τ')] =
      demoObj V SRF q s d I t p (demoKw τ' ω N β) := by
  have h1 := demo_params V SRF q s d I t p τ ω N β
  have h2 := demo_params V SRF q s d I t p τ' ω N β
  have h3 : (Fresh.update (demoObj V SRF q s d I t p (demoKw τ ω N β)) [("tau", Arr.lit τ')]).params =
      (demoObj V SRF q s d I t p (demoKw τ' ω N β)).params := by
    rw [h2]
    have hb : "bsf" ∈ (demoObj V SRF q s d I t p (demoKw τ ω N β)).params.keys := by
      rw [h1]; simp [Dict.keys]
    have hd : (demoObj V SRF q s d I t p (demoKw τ ω N β)).pdef .bsf = .str (.sym "bsf") := rfl
    unfold Fresh.update
    rw [hd]
    simp only [hb, true_or, if_true]
    rw [h1]
    simp [Dict.update, Dict.set, arr1]
  show { demoObj V SRF q s d I t p (demoKw τ ω N β) with
    params := (Fresh.update (demoObj V SRF q s d I t p (demoKw τ ω N β)) [("tau", Arr.lit τ')]).params } = _
  rw [h3]
  rfl

/-- A number and a parameter for tau: the same arrays for any array of incidence angles. -/
example (b : Backend) (t : Arr) {τ : ℝ} (hτ : 0 < τ) : ∃ w, Reachable w ∧ w.backend = b ∧
    SameResult (calcOp 0 [("tau", Arr.lit τ)] w).1
      (calcOp 0 [("tau", Arr.lit τ)] (step (.setParamDef 0 .tau (.val (Arr.lit τ))) w).2).1 := by
  have hr := demo_reachable b exV exS false true true (Arr.lit 1) t (Arr.lit 0) (demoKw (1/2) (1/4) 1 0)
  refine ⟨_, hr, demo_backend .., ?_⟩
  have hk : ReachableK _ := hr.keeps
  refine (C59_same_arrays_partial hk (demo_objs ..) (p := .tau) (k := "tau") rfl (kw := [("tau", Arr.lit τ)])
    (v := Arr.lit τ) (by simp [lastValue]) (fun _ _ => ?_) (S := t.atleast1d.shape) ?_ (a := t.atleast1d)
    (by simp [demoObj]) rfl).2.2 rfl
  · show (XR.fin τ).isPos = true
    simp [XR.isPos, hτ]
  · rw [demo_set_tau]
    exact demo_complete_arr exV_plain exS_plain ..

/-- Calls with one pair of directions and one value per parameter succeed. -/
theorem scalar_calls {w : World} (hw : ReachableP w) {o : Obj} (ho : w.objs 0 = some o) {kw : Dict} {x : Site}
    (hsc : ScalarObj (Fresh.update o kw) x) (hq : o.intQ = true) (hf : o.fn_ = none) (hf' : o.fnevals_ = none)
    (hfn : ∃ fs, fnCoefs o.V o.SRF o.geom = .ok fs) (hV : ∃ n, o.V.ncoefs = .ok (n + 1))
    (hS : ∃ n, o.SRF.ncoefs = .ok (n + 1)) :
    (∃ arr w1 o1, interaction 0 kw w = (.ok arr, w1) ∧ Arr.Valid arr.shape [0] ∧ SiteAt w1 0 [0] x ∧
      w1.objs 0 = some o1 ∧ ∃ r, Aligned w1.backend o1 r) ∧
    ∃ arr w1 o1, calcOp 0 kw w = (.ok arr, w1) ∧ arr.shape = [1, 4] ∧ SiteAt w1 0 [0] x ∧
      w1.objs 0 = some o1 ∧ ∃ r, Aligned w1.backend o1 r := by
  have hG : GeomOK (Fresh.update o kw) := by
    have hr : ReachableP (step (.updateParams 0 kw) w).2 := hw.step trivial
    refine hr.geomOK (id := 0) ?_
    show (updateParams 0 kw w).2.objs 0 = _
    rw [updateParams_eq ho]; simp
  have hci : CompleteI w.backend (Fresh.update o kw) [1] := hsc.completeI hq (ObjOK.none hf hf') hG hfn hV hS
    (fun l hl => by
      have : (Fresh.update o kw).fnevals_ = none := hf'
      rw [this] at hl; cases hl)
  constructor
  · obtain ⟨arr, hF, hv⟩ := interaction_shape_one hsc hci
    have h : interaction 0 kw w = (.ok arr, (interaction 0 kw w).2) :=
      Prod.ext ((interaction_eq hw.reachable.inv ho kw).1.trans hF) rfl
    generalize (interaction 0 kw w).2 = w1 at h
    obtain ⟨o0, o1, hk⟩ := interaction_callOK hw.reachable h
    have e : o0 = o := by have := hk.before; rw [ho] at this; cases this; rfl
    subst e
    refine ⟨arr, w1, o1, h, hv, SiteAt.of_fsite hk.inv hk.after ?_, hk.after, 1, ?_⟩
    · rw [hk.backend]; exact (hsc.fsite w.backend).of_core hk.filled.core.symm
    · rw [hk.backend]; exact (hsc.aligned w.backend).of_core hk.filled.core.symm
  · obtain ⟨arr, hF, hv⟩ := hci.calcAll hsc.t0 rfl
    have h : calcOp 0 kw w = (.ok arr, (calcOp 0 kw w).2) :=
      Prod.ext ((calcOp_eq hw.reachable.inv ho kw).1.trans hF) rfl
    generalize (calcOp 0 kw w).2 = w1 at h
    obtain ⟨o0, o1, hk⟩ := calc_callOK hw.reachable h
    have e : o0 = o := by have := hk.before; rw [ho] at this; cases this; rfl
    subst e
    refine ⟨arr, w1, o1, h, hv, SiteAt.of_fsite hk.inv hk.after ?_, hk.after, 1, ?_⟩
    · rw [hk.backend]; exact (hsc.fsite w.backend).of_core hk.filled.core.symm
    · rw [hk.backend]; exact (hsc.aligned w.backend).of_core hk.filled.core.symm

/-- With interaction term: the hypotheses of `C59_interaction_partial` and `C59_rows_partial` hold for
`tau=2` given as parameter or assigned as number. -/
example (b : Backend) : ∃ w, ReachableP w ∧ w.backend = b ∧
    (∃ z z', (interaction 0 [("tau", Arr.lit 2)] w).1 = .ok z ∧
      (interaction 0 [("tau", Arr.lit 2)] (step (.setParamDef 0 .tau (.val (Arr.lit 2))) w).2).1 = .ok z' ∧
      z.get [0] = z'.get [0]) ∧
    ∃ z z', (calcOp 0 [("tau", Arr.lit 2)] w).1 = .ok z ∧
      (calcOp 0 [("tau", Arr.lit 2)] (step (.setParamDef 0 .tau (.val (Arr.lit 2))) w).2).1 = .ok z' ∧
      ∀ j < 4, z.get [0, j] = z'.get [0, j] := by
  have hw : ReachableP (demoW b (hgV (1/4)) (hgS (1/3)) true true true (Arr.lit 1) (Arr.lit (Real.pi / 3)) (Arr.lit 0)
      (demoKw (1/2) (1/4) 1 0)) := by
    refine ⟨b, _, ?_, rfl⟩
    intro op hop
    simp only [demoOps, List.mem_cons, List.not_mem_nil, or_false] at hop
    rcases hop with rfl | rfl | rfl <;> trivial
  have ho := demo_objs b (hgV (1/4)) (hgS (1/3)) true true true (Arr.lit 1) (Arr.lit (Real.pi / 3)) (Arr.lit 0)
    (demoKw (1/2) (1/4) 1 0)
  have hb := demo_backend b (hgV (1/4)) (hgS (1/3)) true true true (Arr.lit 1) (Arr.lit (Real.pi / 3)) (Arr.lit 0)
    (demoKw (1/2) (1/4) 1 0)
  have hu := demo_set_tau (hgV (1/4)) (hgS (1/3)) true true true (Arr.lit 1) (Arr.lit (Real.pi / 3)) (Arr.lit 0)
    (1/2) 2 (1/4) 1 0
  have hd : (demoObj (hgV (1/4)) (hgS (1/3)) true true true (Arr.lit 1) (Arr.lit (Real.pi / 3)) (Arr.lit 0)
    (demoKw (1/2) (1/4) 1 0)).pdef .tau = .str (.sym "tau") := rfl
  have hsc' := tau_scalar (hgV_plain (1/4)) (hgS_plain (1/3)) true true true 1 (Real.pi / 3) 0 2 (1/4) 1 0 2
  have es : { demoSite 1 (Real.pi / 3) 0 2 (1/4) 1 0 with tau := 2 } = demoSite 1 (Real.pi / 3) 0 2 (1/4) 1 0 := rfl
  rw [es] at hsc'
  have et : tauObj (hgV (1/4)) (hgS (1/3)) true true true 1 (Real.pi / 3) 0 2 (1/4) 1 0 2 =
      (demoObj (hgV (1/4)) (hgS (1/3)) true true true (Arr.lit 1) (Arr.lit (Real.pi / 3)) (Arr.lit 0)
        (demoKw 2 (1/4) 1 0)).assign .tau (Arr.lit 2) := rfl
  have hsc : ScalarObj (demoObj (hgV (1/4)) (hgS (1/3)) true true true (Arr.lit 1) (Arr.lit (Real.pi / 3)) (Arr.lit 0)
      (demoKw 2 (1/4) 1 0)) (demoSite 1 (Real.pi / 3) 0 2 (1/4) 1 0) := by
    have hp := demo_params (hgV (1/4)) (hgS (1/3)) true true true (Arr.lit 1) (Arr.lit (Real.pi / 3)) (Arr.lit 0)
      2 (1/4) 1 0
    refine ⟨hsc'.t0, hsc'.p0, hsc'.ex, hsc'.I0, hsc'.params, fun pn => ?_, hsc'.V, hsc'.SRF⟩
    rw [hp]
    cases pn
    · exact .inr (.inr ⟨.sym "tau", rfl, by simp [Expr.free, Dict.keys], rfl⟩)
    · exact .inr (.inr ⟨.sym "omega", rfl, by simp [Expr.free, Dict.keys], rfl⟩)
    · exact .inr (.inr ⟨.sym "NormBRDF", rfl, by simp [Expr.free, Dict.keys], rfl⟩)
    · exact .inr (.inr ⟨.sym "bsf", rfl, by simp [Expr.free, Dict.keys], rfl⟩)
  rw [et, ← hu] at hsc'
  rw [← hu] at hsc
  have hq : (demoObj (hgV (1/4)) (hgS (1/3)) true true true (Arr.lit 1) (Arr.lit (Real.pi / 3)) (Arr.lit 0)
    (demoKw (1/2) (1/4) 1 0)).intQ = true := rfl
  have h1 : (demoObj (hgV (1/4)) (hgS (1/3)) true true true (Arr.lit 1) (Arr.lit (Real.pi / 3)) (Arr.lit 0)
    (demoKw (1/2) (1/4) 1 0)).fn_ = none := rfl
  have h2 : (demoObj (hgV (1/4)) (hgS (1/3)) true true true (Arr.lit 1) (Arr.lit (Real.pi / 3)) (Arr.lit 0)
    (demoKw (1/2) (1/4) 1 0)).fnevals_ = none := rfl
  have h3 : (demoObj (hgV (1/4)) (hgS (1/3)) true true true (Arr.lit 1) (Arr.lit (Real.pi / 3)) (Arr.lit 0)
    (demoKw (1/2) (1/4) 1 0)).V = hgV (1/4) := rfl
  have h4 : (demoObj (hgV (1/4)) (hgS (1/3)) true true true (Arr.lit 1) (Arr.lit (Real.pi / 3)) (Arr.lit 0)
    (demoKw (1/2) (1/4) 1 0)).SRF = hgS (1/3) := rfl
  have hk : lastValue [("tau", Arr.lit 2)] "tau" = some (Arr.lit 2) := by simp [lastValue]
  have hob : (demoSite 1 (Real.pi / 3) 0 2 (1/4) 1 0).Oblique := by
    have hp := Real.pi_pos
    have c := Real.cos_pi_div_three
    refine ⟨?_, ?_, ?_, ?_, ?_⟩ <;> simp only [Site.mu0, Site.muEx, demoSite] <;> norm_num
  have hI : (demoSite 1 (Real.pi / 3) 0 2 (1/4) 1 0).I0 ≠ 0 := one_ne_zero
  generalize demoSite 1 (Real.pi / 3) 0 2 (1/4) 1 0 = x at *
  generalize demoObj (hgV (1/4)) (hgS (1/3)) true true true (Arr.lit 1) (Arr.lit (Real.pi / 3)) (Arr.lit 0)
    (demoKw (1/2) (1/4) 1 0) = o at *
  generalize demoW b (hgV (1/4)) (hgS (1/3)) true true true (Arr.lit 1) (Arr.lit (Real.pi / 3)) (Arr.lit 0)
    (demoKw (1/2) (1/4) 1 0) = w at *
  have hw' : ReachableP (step (.setParamDef 0 .tau (.val (Arr.lit 2))) w).2 := hw.step trivial
  have hfn : ∃ fs, fnCoefs o.V o.SRF o.geom = .ok fs := by rw [h3, h4]; exact hg_fnCoefs _ _ _
  have hV : o.V.ncoefs = .ok (1 + 1) := by rw [h3]; exact hgV_ncoefs _
  have hS : o.SRF.ncoefs = .ok (1 + 1) := by rw [h4]; exact hgS_ncoefs _
  rw [← update_assign hd hk] at hsc'
  obtain ⟨⟨i1, w1, o1, i2, i3, i4, i5, i6⟩, c1, w2, o2, c2, c3, c4, c5, c6⟩ :=
    scalar_calls hw ho hsc hq h1 h2 hfn ⟨_, hV⟩ ⟨_, hS⟩
  obtain ⟨⟨i1', w1', o1', i2', i3', -⟩, c1', w2', o2', c2', c3', -⟩ :=
    scalar_calls hw' (assign_obj ho .tau (Arr.lit 2)) hsc' hq h1 h2 hfn ⟨_, hV⟩ ⟨_, hS⟩
  refine ⟨w, hw, hb, ⟨i1, i1', by rw [i2], by rw [i2'], ?_⟩, c1, c1', by rw [c2], by rw [c2'], fun j hj => ?_⟩
  · exact C59_interaction_partial hw ho hd hk i2 i2' i3 i3' i4 i5 i6 hV hS hob fun _ => hI
  · refine C59_rows_partial hw ho hd hk (fun _ _ => ?_) c2 c2' (idx := [0]) (by rw [c3]; simp [Arr.Valid, hj])
      (by rw [c3']; simp [Arr.Valid, hj]) c4 c5 c6 hV hS hob
    simp [Arr.lit, Arr.num, XR.isPos]

/-- tau = 0 as parameter and as number: both observations exist at the same site. -/
example : ∃ r r', ObservesRow 2 (demoCfg exV exS false true false) (demoSite 2 (Real.pi / 3) 0 0 1 1 0) r ∧
    ObservesRow 2 (demoCfg exV exS false true false) (demoSite 2 (Real.pi / 3) 0 0 1 1 0) r' ∧ r = r' := by
  obtain ⟨w, arr, w', o, hr, h, hs, ho, hc, hx⟩ := demo_rows .sympy exV_plain exS_plain true false 2
    (Real.pi / 3) 0 0 1 1 0
  obtain ⟨w2, arr2, w2', o2, hr2, h2, hs2, ho2, hc2, hx2, -⟩ := tau_rows .sympy exV_plain exS_plain true false 2
    (Real.pi / 3) 0 0 1 1 0 0
  have hv : Arr.Valid [1, 3] [0, 2] := by simp [Arr.Valid]
  have a : ObservesRow 2 (demoCfg exV exS false true false) (demoSite 2 (Real.pi / 3) 0 0 1 1 0) (arr.get [0, 2]) :=
    ⟨w, 0, [], arr, w', [0], hr, h, by rw [hs]; exact hv, rfl, hx, o, ho, hc⟩
  have a' : ObservesRow 2 (demoCfg exV exS false true false) (demoSite 2 (Real.pi / 3) 0 0 1 1 0) (arr2.get [0, 2]) :=
    ⟨w2, 0, [], arr2, w2', [0], hr2, h2, by rw [hs2]; exact hv, rfl, hx2, o2, ho2, hc2⟩
  exact ⟨_, _, a, a', C59_zero_partial a a' (exV_value _) rfl (demo_regular true two_ne_zero ..)⟩

/-- C59 is false for negative values: with the number -1 assigned to tau, `calc` returns zero as
volume contribution; with `tau=-1` as parameter it evaluates the formula. -/
theorem C59_counterexample : ∃ w arr arr' w1 w2, Reachable w ∧
    calcOp 0 [("tau", Arr.lit (-1))] w = (.ok arr, w1) ∧
    calcOp 0 [("tau", Arr.lit (-1))] (step (.setParamDef 0 .tau (.val (Arr.lit (-1)))) w).2 = (.ok arr', w2) ∧
    arr.get [0, 2] ≠ XR.fin 0 ∧ arr'.get [0, 2] = XR.fin 0 := by
  have hr := demo_reachable .sympy exV exS false false false (Arr.lit 1) (Arr.lit 0) (Arr.lit 0) (demoKw 1 (1/4) 1 0)
  have ho := demo_objs .sympy exV exS false false false (Arr.lit 1) (Arr.lit 0) (Arr.lit 0) (demoKw 1 (1/4) 1 0)
  have hbk := demo_backend .sympy exV exS false false false (Arr.lit 1) (Arr.lit 0) (Arr.lit 0) (demoKw 1 (1/4) 1 0)
  have hu := demo_set_tau exV exS false false false (Arr.lit 1) (Arr.lit 0) (Arr.lit 0) 1 (-1) (1/4) 1 0
  have hc := demo_complete exV_plain exS_plain false false false 1 0 0 (-1) (1/4) 1 0
  have hf := demo_fsite .sympy exV_plain exS_plain false false false 1 0 0 (-1) (1/4) 1 0
  have hd : (demoObj exV exS false false false (Arr.lit 1) (Arr.lit 0) (Arr.lit 0) (demoKw 1 (1/4) 1 0)).pdef .tau =
    .str (.sym "tau") := rfl
  have ha : (demoObj exV exS false false false (Arr.lit 1) (Arr.lit 0) (Arr.lit 0) (demoKw (-1) (1/4) 1 0)).ang .t0 =
    some (Arr.lit 0).atleast1d := by simp [demoObj]
  have hq : (demoObj exV exS false false false (Arr.lit 1) (Arr.lit 0) (Arr.lit 0) (demoKw (-1) (1/4) 1 0)).cfg =
    ⟨exV, exS, false, false, false⟩ := rfl
  have hq0 : (demoObj exV exS false false false (Arr.lit 1) (Arr.lit 0) (Arr.lit 0) (demoKw 1 (1/4) 1 0)).intQ =
    false := rfl
  generalize demoObj exV exS false false false (Arr.lit 1) (Arr.lit 0) (Arr.lit 0) (demoKw 1 (1/4) 1 0) = o at *
  generalize demoW .sympy exV exS false false false (Arr.lit 1) (Arr.lit 0) (Arr.lit 0) (demoKw 1 (1/4) 1 0) = w at *
  have hk : lastValue [("tau", Arr.lit (-1))] "tau" = some (Arr.lit (-1)) := by simp [lastValue]
  have hN := named_update hd hk
  have hU := update_assign hd hk
  rw [hu] at hN hU
  generalize demoObj exV exS false false false (Arr.lit 1) (Arr.lit 0) (Arr.lit 0) (demoKw (-1) (1/4) 1 0) = u at *
  have hV : u.V = exV := congrArg Cfg.V hq
  have hQ : u.intQ = false := congrArg Cfg.intQ hq
  have hs0 : u.sig0 = false := congrArg Cfg.sig0 hq
  have hd0 : u.dB = false := congrArg Cfg.dB hq
  have hw' := (hr.step (op := .setParamDef 0 .tau (.val (Arr.lit (-1)))) trivial).inv
  have ho' := assign_obj ho .tau (Arr.lit (-1))
  have hb' : (step (.setParamDef 0 .tau (.val (Arr.lit (-1)))) w).2.backend = w.backend := step_backend _ _
  obtain ⟨z, z1, z2⟩ := hc.calcAll_three .sympy ha rfl hQ
  obtain ⟨z', z1', z2'⟩ := (hN.complete hc).calcAll_three .sympy (a := (Arr.lit 0).atleast1d) ha rfl hQ
  have c1 := calcOp_noInt hr.inv ho hq0 [("tau", Arr.lit (-1))]
  have c2 := calcOp_noInt hw' ho' hq0 [("tau", Arr.lit (-1))]
  rw [hu, hbk, z1] at c1
  rw [hU, hb', hbk, z1'] at c2
  refine ⟨w, z, z', (calcOp 0 [("tau", Arr.lit (-1))] w).2,
    (calcOp 0 [("tau", Arr.lit (-1))] (step (.setParamDef 0 .tau (.val (Arr.lit (-1)))) w).2).2, hr,
    Prod.ext c1 rfl, Prod.ext c2 rfl, ?_, ?_⟩
  · obtain ⟨Is, Iv, Ii, hp⟩ := calc_parts z1
    obtain ⟨r1, r2, -, r4⟩ := hp.rows
    have hn : nrows u.intQ = 3 := by rw [hQ]; rfl
    rw [hn] at r1 r4
    have e1 : Is.shape = [1] := List.append_cancel_right (r1.symm.trans z2)
    have v1 : Arr.Valid Is.shape [0] := by rw [e1]; simp [Arr.Valid]
    have := r4 2 (by omega) [0] v1
    rw [show [0] ++ [2] = [0, 2] from rfl] at this
    rw [this]
    show (XSite.of .sympy u [0]).convert u.sig0 u.dB (Iv.get [0]) ≠ _
    obtain ⟨t, t1, t2⟩ := hp.tau
    obtain ⟨a, g1, g2, -, -⟩ := hN.value
    obtain ⟨zz, y1, y2, -⟩ := par_name (b := .sympy) hN.pdef g1
    rw [y1] at t1
    have t1 : zz = t := by cases t1; rfl
    subst t1
    rw [if_neg fun hh => g2 (by rw [← y2]; exact hh.1)] at t2
    have hval := PW.volume (hf.vol (by rw [hV]; exact exV_value _)) Iv t2.1
    have m0 : (demoSite 1 0 0 (-1) (1/4) 1 0).mu0 = 1 := by simp [demoSite, Site.mu0]
    have m1 : (demoSite 1 0 0 (-1) (1/4) 1 0).muEx = 1 := by simp [demoSite, Site.muEx]
    rw [Arr.at'_valid (by rw [r2]; exact v1), hf.x_volume (by rw [m0]; norm_num) (by rw [m1]; norm_num)
      (by rw [m0, m1]; norm_num)] at hval
    rw [hval, hf.x_convert (by rw [hs0]; simp), hs0, hd0]
    unfold Site.inUnits
    simp only [Bool.false_eq_true, if_false, ne_eq, XR.fin.injEq]
    have hpos : 0 < Phase.rayleigh (Phase.cosTheta (-1) 1 1 (demoSite 1 0 0 (-1) (1/4) 1 0).t0
        (demoSite 1 0 0 (-1) (1/4) 1 0).tex (demoSite 1 0 0 (-1) (1/4) 1 0).p0 (demoSite 1 0 0 (-1) (1/4) 1 0).pex) := by
      unfold Phase.rayleigh; positivity
    have he : 1 < Real.exp 1 := Real.one_lt_exp_iff.2 one_pos
    have he2 : 1 - Real.exp 1 * Real.exp 1 < 0 := by nlinarith
    generalize Phase.rayleigh _ = R at hpos ⊢
    unfold Site.volume
    rw [m0, m1]
    simp only [demoSite]
    have : (1 - Real.exp (-(-1 / 1)) * Real.exp (-(-1 / 1))) < 0 := by
      norm_num
      nlinarith
    generalize Real.exp (-(-1 / 1)) = E at this ⊢
    intro h0
    nlinarith [mul_pos (neg_pos.2 this) hpos]
  · obtain ⟨Is, Iv, Ii, hp⟩ := calc_parts z1'
    obtain ⟨r1, r2, -, r4⟩ := hp.rows
    have hn : nrows (u.assign .tau (Arr.lit (-1))).intQ = 3 := by
      show nrows u.intQ = 3
      rw [hQ]; rfl
    rw [hn] at r1 r4
    have e1 : Is.shape = [1] := List.append_cancel_right (r1.symm.trans z2')
    have v1 : Arr.Valid Is.shape [0] := by rw [e1]; simp [Arr.Valid]
    have := r4 2 (by omega) [0] v1
    rw [show [0] ++ [2] = [0, 2] from rfl] at this
    rw [this, hN.xsite]
    show (XSite.of .sympy u [0]).convert u.sig0 u.dB (Iv.get [0]) = _
    obtain ⟨t, t1, t2⟩ := hp.tau
    rw [Named.par_eq] at t1
    have t1 : Arr.lit (-1) = t := by cases t1; rfl
    subst t1
    rw [if_pos ⟨rfl, by show ¬ (XR.fin (-1)).isPos = true; simp [XR.isPos]⟩] at t2
    rw [t2.1]
    show (XSite.of .sympy u [0]).convert u.sig0 u.dB (XR.fin 0) = _
    rw [hf.x_convert (by rw [hs0]; simp), hs0, hd0]
    simp [Site.inUnits]

end

end RT1
