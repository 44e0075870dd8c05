import Verif.Lemmas.Kept
import Verif.Lemmas.Record
import Verif.Spec.Remembered
import Verif.Lemmas.AnalyzeU

/-! Which compiled coefficients an object has after a call (C82). -/

namespace RT1

noncomputable section
open Classical

/-- The compiled coefficients after they have been asked for. -/
def Obj.lamAfter (b : Backend) (o : Obj) : Option FnLam :=
  if o.fnevals_ = none ∧ o.fnevalsInput = none ∧ o.intQ = true then
    match Fresh.fnevals b o with
    | .ok l => l
    | .error _ => none
  else o.fnevals_

theorem fn_result {w : World} {id : ℕ} {o : Obj} (ho : w.objs id = some o) :
    ∃ o', (Self.fn id w) = (Fresh.fn o, { w with objs := Function.update w.objs id (some o') }) ∧
      o'.core = o.core ∧ o'.fnevals_ = o.fnevals_ := by
  have hself : Function.update w.objs id (some o) = w.objs := by rw [← ho, Function.update_eq_self]
  have hw : w = { w with objs := Function.update w.objs id (some o) } := by rw [hself]
  unfold Self.fn Fresh.fn
  rw [bind_ok (getObj_some ho)]
  cases hf : o.fn_ with
  | some f => exact ⟨o, by rw [hself]; rfl, rfl, rfl⟩
  | none =>
    cases hi : o.fnInput with
    | some f => exact ⟨o, by rw [hself]; rfl, rfl, rfl⟩
    | none =>
      by_cases hq : o.intQ = true
      · simp only [hq, if_true]
        cases hc : fnCoefs o.V o.SRF o.geom with
        | error e => exact ⟨o, by rw [hself]; rfl, rfl, rfl⟩
        | ok f =>
          refine ⟨{ o with fn_ := some f }, ?_, rfl, rfl⟩
          show ((.ok (some f), { w with objs := Function.update w.objs id ((w.objs id).map _) }) : Py (Option (List P)) × World) = _
          rw [ho]; rfl
      · simp only [hq]
        exact ⟨o, by rw [hself]; rfl, rfl, rfl⟩

/-- Asking for the compiled coefficients. -/
theorem fnevals_result {w : World} {id : ℕ} {o : Obj} (ho : w.objs id = some o) :
    (Self.fnevals id w).1 = Fresh.fnevals w.backend o ∧
    ∃ o', (Self.fnevals id w).2.objs id = some o' ∧ o'.core = o.core ∧ o'.fnevals_ = o.lamAfter w.backend := by
  have hN : ∀ l, o.fnevals_ = some l → o.lamAfter w.backend = some l := by
    intro l hl
    unfold Obj.lamAfter
    rw [hl]; simp
  unfold Self.fnevals
  rw [bind_ok (getObj_some ho)]
  cases hf : o.fnevals_ with
  | some f =>
    refine ⟨?_, o, ho, rfl, ?_⟩
    · unfold Fresh.fnevals; rw [hf]; rfl
    · rw [hN f hf, hf]
  | none =>
    cases hi : o.fnevalsInput with
    | some f =>
      refine ⟨?_, o, ho, rfl, ?_⟩
      · unfold Fresh.fnevals; rw [hf, hi]; rfl
      · unfold Obj.lamAfter
        rw [hf, hi]; simp
    | none =>
      by_cases hq : o.intQ = true
      · obtain ⟨o1, e1, hc1, hl1⟩ := fn_result ho
        have hlam : o.lamAfter w.backend = match Fresh.fnevals w.backend o with
            | .ok l => l
            | .error _ => none := by
          unfold Obj.lamAfter
          rw [if_pos ⟨hf, hi, hq⟩]
        have hF : Fresh.fnevals w.backend o = (Fresh.fn o >>= fun f => match f with
            | none => .error (.typeError [])
            | some f => do
              let lam ← Fresh.fnCompile w.backend o f
              .ok (some lam)) := by
          unfold Fresh.fnevals
          rw [hf, hi]
          simp only [hq, if_true]
          rfl
        have ho1 : ({ w with objs := Function.update w.objs id (some o1) } : World).objs id = some o1 :=
          Function.update_self ..
        simp only [hq, if_true]
        rw [hlam, hF]
        cases hfn : Fresh.fn o with
        | error e =>
          rw [hfn] at e1
          rw [bind_error e1]
          refine ⟨rfl, o1, ho1, hc1, ?_⟩
          rw [hl1, hf]; rfl
        | ok f =>
          rw [hfn] at e1
          rw [bind_ok e1]
          cases f with
          | none =>
            refine ⟨rfl, o1, ho1, hc1, ?_⟩
            rw [hl1, hf]; rfl
          | some f =>
            have hcomp : Fresh.fnCompile w.backend o f =
              if w.backend = .symengine ∧ ∃ s ∈ (⟨Self.fnVars o.params, o.V.phase.free ++ o.SRF.phase.free, f⟩ : FnLam).free,
                s ∉ (⟨Self.fnVars o.params, o.V.phase.free ++ o.SRF.phase.free, f⟩ : FnLam).vars then
                .error .runtimeError else .ok ⟨Self.fnVars o.params, o.V.phase.free ++ o.SRF.phase.free, f⟩ := rfl
            have hgw : ∀ (g : World → M (Option FnLam)) (w' : World), (getW >>= g) w' = g w' w' := fun _ _ => rfl
            simp only [hgw]
            show _ ∧ _
            by_cases hs : w.backend = .symengine ∧ ∃ s ∈ o.V.phase.free ++ o.SRF.phase.free, s ∉ Self.fnVars o.params
            · have hr : Fresh.fnCompile w.backend o f = .error .runtimeError := by rw [hcomp, if_pos hs]
              simp only [if_pos hs]
              show _ = (Fresh.fnCompile w.backend o f >>= fun lam => .ok (some lam)) ∧ _
              rw [show ((Except.ok (some f) : Py (Option (List P))) >>= fun f => match f with
                | none => .error (.typeError [])
                | some f => do
                  let lam ← Fresh.fnCompile w.backend o f
                  .ok (some lam)) = (Fresh.fnCompile w.backend o f >>= fun lam => .ok (some lam)) from rfl, hr]
              refine ⟨rfl, o1, ho1, hc1, ?_⟩
              rw [hl1, hf]; rfl
            · have hr : Fresh.fnCompile w.backend o f = .ok ⟨Self.fnVars o.params, o.V.phase.free ++ o.SRF.phase.free, f⟩ := by
                rw [hcomp, if_neg hs]
              simp only [if_neg hs]
              show _ = (Fresh.fnCompile w.backend o f >>= fun lam => .ok (some lam)) ∧ _
              rw [show ((Except.ok (some f) : Py (Option (List P))) >>= fun f => match f with
                | none => .error (.typeError [])
                | some f => do
                  let lam ← Fresh.fnCompile w.backend o f
                  .ok (some lam)) = (Fresh.fnCompile w.backend o f >>= fun lam => .ok (some lam)) from rfl, hr]
              refine ⟨rfl, _, modObj_get ho1 _, ?_, rfl⟩
              exact hc1
      · refine ⟨?_, o, ?_, rfl, ?_⟩
        · unfold Fresh.fnevals; rw [hf, hi]; simp only [hq]; rfl
        · simp only [hq]; exact ho
        · unfold Obj.lamAfter
          rw [if_neg (fun h => hq h.2.2)]

/-! ### the interaction term -/

theorem bind_kept {α β : Type} {x : M α} {f : α → M β} (w : World) (hf : ∀ a, ObjsKept (f a)) :
    ((x >>= f) w).2.objs = (x w).2.objs := by
  cases hx : x w with
  | mk r w' =>
    cases r with
    | error e => rw [bind_error hx]
    | ok a => rw [bind_ok hx]; exact hf a w'

theorem catch_kept {α : Type} {x : M α} {f : PyErr → M α} (w : World) (hf : ∀ e, ObjsKept (f e)) :
    ((tryCatch x f : M α) w).2.objs = (x w).2.objs := by
  show (match x w with
    | (.ok a, w') => (.ok a, w')
    | (.error e, w') => f e w' : Py α × World).2.objs = _
  rcases hr : x w with ⟨r, w1⟩
  cases r with
  | error e => exact hf e w1
  | ok a => rfl

theorem t0_read {w : World} {id : ℕ} {o : Obj} (ho : w.objs id = some o) : Self.t0 id w = (Fresh.ang o .t0, w) := by
  unfold Self.t0 Fresh.ang
  rw [bind_ok (getObj_some ho)]
  cases o.ang .t0 <;> rfl

theorem p0_read {w : World} {id : ℕ} {o : Obj} (ho : w.objs id = some o) : Self.p0 id w = (Fresh.ang o .p0, w) := by
  unfold Self.p0 Fresh.ang
  rw [bind_ok (getObj_some ho)]
  cases o.ang .p0 <;> rfl

theorem tex_read {w : World} {id : ℕ} {o : Obj} (ho : w.objs id = some o) : Self.tex id w = (Fresh.tex o, w) := by
  unfold Self.tex Fresh.tex
  rw [bind_ok (getObj_some ho)]
  split_ifs
  · exact t0_read ho
  · unfold Fresh.ang
    cases o.ang .tex <;> rfl

theorem pex_read {w : World} {id : ℕ} {o : Obj} (ho : w.objs id = some o) : Self.pex id w = (Fresh.pex o, w) := by
  unfold Self.pex Fresh.pex
  rw [bind_ok (getObj_some ho)]
  split_ifs
  · cases hp : Fresh.ang o .p0 with
    | error e => rw [bind_error ((p0_read ho).trans (by rw [hp]))]; rfl
    | ok a =>
      rw [bind_ok ((p0_read ho).trans (by rw [hp]))]
      show (liftPy (Arr.add a (Arr.lit Real.pi)) : M Arr) w = (Arr.add a (Arr.lit Real.pi), w)
      cases Arr.add a (Arr.lit Real.pi) <;> rfl
  · unfold Fresh.ang
    cases o.ang .pex <;> rfl

/-- Reading values one after the other. -/
theorem read_bind {α β : Type} {x : M α} {f : α → M β} {w : World} {y : Py α} {g : α → Py β} (h : x w = (y, w))
    (hf : ∀ a, f a w = (g a, w)) : (x >>= f) w = (y >>= g, w) := by
  cases y with
  | error e => rw [bind_error h]; rfl
  | ok a => rw [bind_ok h]; exact hf a

/-- The objects after one of the two parts of the interaction term: the compiled coefficients are asked for iff the
angles can be broadcast with the parameters. -/
theorem fint_objs {w : World} {id : ℕ} {o : Obj} (ho : w.objs id = some o) (b : Backend) {ang : M (List Arr)}
    {l : Py (List Arr)} (hl : ang w = (l, w)) {mux mu : M Arr} (hx : ObjsKept mux) (hm : ObjsKept mu) :
    ((Self.acc b id).fint ang mux mu w).2.objs =
      if ∃ a args, l = .ok a ∧ Arr.broadcastArrays (a ++ o.params.map Prod.snd) = .ok args then
        (Self.fnevals id w).2.objs
      else w.objs := by
  have hk := accKept b id
  unfold Acc.fint
  cases l with
  | error e =>
    rw [bind_error hl, if_neg (by rintro ⟨a, args, h, -⟩; cases h)]
  | ok a =>
    rw [bind_ok hl]
    have hp : (Self.acc b id).params w = (.ok o.params, w) := by
      show (getObj id >>= _) w = _
      rw [bind_ok (getObj_some ho)]; rfl
    rw [bind_ok hp]
    cases hb : Arr.broadcastArrays (a ++ o.params.map Prod.snd) with
    | error e =>
      rw [bind_error (show (liftPy (.error e) : M (List Arr)) w = (.error e, w) from rfl),
        if_neg (by rintro ⟨a', args, h, h'⟩; cases h; rw [hb] at h'; cases h')]
    | ok args =>
      rw [bind_ok (show (liftPy (.ok args) : M (List Arr)) w = (.ok args, w) from rfl), if_pos ⟨a, args, rfl, hb⟩]
      refine bind_kept w fun f => ?_
      have hend : ∀ outs : List Arr, ObjsKept (do
          let fn ← liftPy (Arr.broadcastArrays (outs.map Arr.atleast1d))
          let mx ← mux
          let mu ← mu
          let tau ← (Self.acc b id).par .tau
          let nm ← (Self.acc b id).nmax
          let s2 ← liftPy (Acc.S2mu nm mu tau)
          let multip ← liftPy (Arr.mul mx s2)
          let fnA ← liftPy (Arr.stack fn)
          let prod ← liftPy (Arr.mul fnA multip)
          liftPy (Arr.sum0 prod) : M Arr) := fun outs =>
        .bind (.lift _) fun _ => .bind hx fun _ => .bind hm fun _ => .bind (hk.par _) fun _ => .bind hk.nmax fun _ =>
          .bind (.lift _) fun _ => .bind (.lift _) fun _ => .bind (.lift _) fun _ => .bind (.lift _) fun _ => .lift _
      cases f with
      | none => exact .bind (.throw _) hend
      | some f => exact .bind (.bind (hk.backend _) fun _ => .lift _) hend

theorem lamAfter_idem {b : Backend} {o o' : Obj} (h : Filled b o o') (h' : o'.fnevals_ = o.lamAfter b) :
    o'.lamAfter b = o'.fnevals_ := by
  unfold Obj.lamAfter
  split_ifs with hc
  · obtain ⟨h1, h2, h3⟩ := hc
    rw [h1]
    rw [h1] at h'
    by_cases hc' : o.fnevals_ = none ∧ o.fnevalsInput = none ∧ o.intQ = true
    · unfold Obj.lamAfter at h'
      rw [if_pos hc'] at h'
      rw [h.fnevals]
      exact h'.symm
    · unfold Obj.lamAfter at h'
      rw [if_neg hc'] at h'
      exact absurd ⟨h'.symm, h.fnevalsInput ▸ h2, h.intQ ▸ h3⟩ hc'
  · rfl

/-- The angles of an object are set and can be broadcast with its parameters. -/
theorem ready_iff (o : Obj) : Remembered.Ready o.record ↔ ∃ a args,
    (do let a ← Fresh.ang o .t0
        let b ← Fresh.ang o .p0
        let c ← Fresh.tex o
        let d ← Fresh.pex o
        pure [a, b, c, d] : Py (List Arr)) = .ok a ∧ Arr.broadcastArrays (a ++ o.params.map Prod.snd) = .ok args := by
  constructor
  · rintro ⟨t, p, u, q, l, h1, h2, h3, h4, h5⟩
    refine ⟨[t, p, u, q], l, ?_, h5⟩
    have h1' : Fresh.ang o .t0 = .ok t := h1
    have h2' : Fresh.ang o .p0 = .ok p := h2
    have h3' : Fresh.tex o = .ok u := h3
    have h4' : Fresh.pex o = .ok q := h4
    rw [h1', h2', h3', h4']; rfl
  · rintro ⟨a, args, h, h5⟩
    obtain ⟨t, h1, h⟩ := ok_bind h
    obtain ⟨p, h2, h⟩ := ok_bind h
    obtain ⟨u, h3, h⟩ := ok_bind h
    obtain ⟨q, h4, h⟩ := ok_bind h
    cases h
    exact ⟨t, p, u, q, args, h1, h2, h3, h4, h5⟩

/-- The object after the interaction term has been evaluated. -/
theorem interaction_lamAfter {w : World} (hw : Inv true w) {id : ℕ} {o : Obj} (ho : w.objs id = some o) :
    ∃ o', ((Self.acc w.backend id).interaction w).2.objs id = some o' ∧ o'.core = o.core ∧
      o'.fnevals_ = if Remembered.Ready o.record then o.lamAfter w.backend else o.fnevals_ := by
  have hk := accKept w.backend id
  have h := accRef (full := true) (w0 := w) (id := id) (o := o)
    (S := fun _ _ => True) (Fresh.dVol w.backend o) (Fresh.dSrf w.backend o)
  have hi := accRefInt (full := true) (w0 := w) (id := id) (o := o)
    (S := fun _ _ => True) rfl (Fresh.dVol w.backend o) (Fresh.dSrf w.backend o)
  have hr1 : (do
      let a ← (Self.acc w.backend id).t0
      let b ← (Self.acc w.backend id).p0
      let c ← (Self.acc w.backend id).tex
      let d ← (Self.acc w.backend id).pex
      pure [a, b, c, d] : M (List Arr)) w = ((do
        let a ← Fresh.ang o .t0
        let b ← Fresh.ang o .p0
        let c ← Fresh.tex o
        let d ← Fresh.pex o
        pure [a, b, c, d] : Py (List Arr)), w) :=
    read_bind (t0_read ho) fun _ => read_bind (p0_read ho) fun _ => read_bind (tex_read ho) fun _ =>
      read_bind (pex_read ho) fun _ => rfl
  have h1 := fint_objs ho w.backend hr1 hk.mu0x hk.mu0
  have hD : DuringE true w id o ((Self.acc w.backend id).fint1 w).2 := ((h.fint1 hi) w (During.init hw ho trivial)).2
  obtain ⟨o1, ho1, hf1⟩ := hD.obj
  have hl1 : o1.fnevals_ = if Remembered.Ready o.record then o.lamAfter w.backend else o.fnevals_ := by
    by_cases hR : Remembered.Ready o.record
    · rw [if_pos hR]
      rw [if_pos ((ready_iff o).1 hR)] at h1
      obtain ⟨-, o', ho', -, hl⟩ := fnevals_result ho
      have : some o1 = some o' := ho1.symm.trans ((congrFun h1 id).trans ho')
      rw [Option.some.inj this]; exact hl
    · rw [if_neg hR]
      rw [if_neg (fun x => hR ((ready_iff o).2 x))] at h1
      have : some o1 = some o := ho1.symm.trans ((congrFun h1 id).trans ho)
      rw [Option.some.inj this]
  unfold Acc.interaction
  cases hx : (Self.acc w.backend id).fint1 w with
  | mk r w1 =>
    rw [hx] at hD ho1
    cases r with
    | error e => rw [bind_error hx]; exact ⟨o1, ho1, hf1.core, hl1⟩
    | ok F1 =>
      rw [bind_ok hx]
      have hR : Remembered.Ready o.record := by
        rw [ready_iff]
        by_contra hn
        have hx' := hx
        unfold Acc.fint1 Acc.fint at hx'
        obtain ⟨a, w2, e1, hx'⟩ := bind_ok_inv hx'
        obtain ⟨e0, hw2⟩ := Prod.mk.inj (hr1.symm.trans e1)
        subst hw2
        obtain ⟨pd, w2, e2, hx'⟩ := bind_ok_inv hx'
        have hp : (Self.acc w.backend id).params w = (.ok o.params, w) := by
          show (getObj id >>= _) w = _
          rw [bind_ok (getObj_some ho)]; rfl
        rw [hp] at e2
        cases e2
        obtain ⟨args, w2, e3, -⟩ := bind_ok_inv hx'
        cases hb : Arr.broadcastArrays (a ++ o.params.map Prod.snd) with
        | error e => rw [hb] at e3; cases e3
        | ok l => exact hn ⟨a, l, e0, hb⟩
      rw [if_pos hR] at hl1 ⊢
      have hb1 : w1.backend = w.backend := hD.backend
      have hr2 : (do
          let a ← (Self.acc w.backend id).tex
          let b ← (Self.acc w.backend id).pex
          let c ← (Self.acc w.backend id).t0
          let d ← (Self.acc w.backend id).p0
          pure [a, b, c, d] : M (List Arr)) w1 = ((do
            let a ← Fresh.tex o1
            let b ← Fresh.pex o1
            let c ← Fresh.ang o1 .t0
            let d ← Fresh.ang o1 .p0
            pure [a, b, c, d] : Py (List Arr)), w1) :=
        read_bind (tex_read ho1) fun _ => read_bind (pex_read ho1) fun _ => read_bind (t0_read ho1) fun _ =>
          read_bind (p0_read ho1) fun _ => rfl
      have h2 := fint_objs ho1 w.backend hr2 hk.muExx hk.muEx
      have hs : ((Self.acc w.backend id).fint2 w1).2.objs id = some o1 ∨ ∃ o2,
          ((Self.acc w.backend id).fint2 w1).2.objs id = some o2 ∧ o2.core = o1.core ∧ o2.fnevals_ = o1.lamAfter w1.backend := by
        split_ifs at h2
        · obtain ⟨-, o2, ho2, hc2, hl2⟩ := fnevals_result ho1
          exact .inr ⟨o2, (congrFun h2 id).trans ho2, hc2, hl2⟩
        · exact .inl ((congrFun h2 id).trans ho1)
      refine Exists.imp (fun o' ho' => ⟨?_, ho'.2⟩) (show ∃ o', ((Self.acc w.backend id).fint2 w1).2.objs id = some o' ∧
          o'.core = o.core ∧ o'.fnevals_ = o.lamAfter w.backend from ?_)
      · rw [bind_kept w1]
        · exact ho'.1
        · exact fun F2 => .bind (.mul (.mul (.mul hk.I0 hk.mu0) (hk.par _)) (.add
            (.mul (.map _ (.div (.map _ (hk.par _)) hk.muEx)) (.pure _)) (.mul (.map _ (.div (.map _ (hk.par _)) hk.mu0)) (.pure _)))) fun _ =>
              .mul (.mul (hk.par _) (.sub (.lit _) (hk.par _))) (.pure _)
      rcases hs with hs | ⟨o2, ho2, hc2, hl2⟩
      · exact ⟨o1, hs, hf1.core, hl1⟩
      · rw [hb1, lamAfter_idem hf1 hl1, hl1] at hl2
        exact ⟨o2, ho2, hc2.trans hf1.core, hl2⟩

/-! ### all contributions -/

/-- The object after all contributions have been evaluated. -/
theorem calc_lamAfter {w : World} (hw : Inv true w) {id : ℕ} {o : Obj} (ho : w.objs id = some o) :
    ∃ o', ((Self.acc w.backend id).calcTry w).2.objs id = some o' ∧ o'.core = o.core ∧
      o'.fnevals_ = if Remembered.Total w.backend o.record then o.lamAfter w.backend else o.fnevals_ := by
  have hk := accKept w.backend id
  have h := accRef (full := true) (w0 := w) (id := id) (o := o)
    (S := fun _ _ => True) (Fresh.dVol w.backend o) (Fresh.dSrf w.backend o)
  have hcatch : ((Self.acc w.backend id).calcTry w).2.objs = ((Self.acc w.backend id).calcBody w).2.objs := by
    unfold Acc.calcTry
    refine catch_kept w fun e => ?_
    cases e <;> try exact .throw _
    refine .bind hk.missingNames fun names => ?_
    split_ifs <;> exact .throw _
  rw [hcatch]
  -- evaluations before the interaction term
  have step : ∀ {α : Type} {x : M α} {y : Py α} {w1 : World}, Refines (DuringE true w id o) x y → ObjsKept x →
      DuringE true w id o w1 → w1.objs = w.objs →
      ∃ w2, x w1 = (y, w2) ∧ DuringE true w id o w2 ∧ w2.objs = w.objs := by
    intro α x y w1 hx hx' hD hO
    exact ⟨(x w1).2, Prod.ext (hx w1 hD).1 rfl, (hx w1 hD).2, (hx' w1).trans hO⟩
  have stop : ∀ {w1 : World}, w1.objs = w.objs → ¬ Remembered.Total w.backend o.record →
      ∃ o', w1.objs id = some o' ∧ o'.core = o.core ∧
        o'.fnevals_ = if Remembered.Total w.backend o.record then o.lamAfter w.backend else o.fnevals_ := by
    intro w1 h1 hT
    rw [if_neg hT]
    exact ⟨o, h1 ▸ ho, rfl, rfl⟩
  -- the interaction term
  have goInt : ∀ {w1 : World} {f : Arr → M Arr}, DuringE true w id o w1 → w1.objs = w.objs → o.intQ = true →
      (Remembered.Ready o.record → Remembered.Total w.backend o.record) → (∀ a, ObjsKept (f a)) →
      ∃ o', (((Self.acc w.backend id).interaction >>= f) w1).2.objs id = some o' ∧ o'.core = o.core ∧
        o'.fnevals_ = if Remembered.Total w.backend o.record then o.lamAfter w.backend else o.fnevals_ := by
    intro w1 f hD hO hq hRT hf
    have hb : w1.backend = w.backend := hD.backend
    obtain ⟨o', ho', hc, hl⟩ := interaction_lamAfter hD.inv (id := id) (o := o) (by rw [hO]; exact ho)
    rw [hb] at ho' hl
    rw [bind_kept w1 hf]
    refine ⟨o', ho', hc, hl.trans ?_⟩
    by_cases hR : Remembered.Ready o.record
    · rw [if_pos hR, if_pos (hRT hR)]
    · rw [if_neg hR, if_neg (fun hT => hR hT.2.1)]
  have e1 : ∀ p, o.record.param w.backend p = Fresh.par w.backend o p := fun _ => rfl
  have e2 : (o.record.acc w.backend).surface = (Fresh.acc0 w.backend o).surface := rfl
  have e3 : (o.record.acc w.backend).volume = (Fresh.acc0 w.backend o).volume := rfl
  have e4 : o.record.intQ = o.intQ := rfl
  unfold Acc.calcBody
  obtain ⟨w1, hx1, hD1, hO1⟩ := step (h.par .tau) (hk.par .tau) (During.init hw ho trivial) rfl
  change (Self.acc w.backend id).par .tau w = (Fresh.par w.backend o .tau, w1) at hx1
  cases ht : Fresh.par w.backend o .tau with
  | error e =>
    rw [ht] at hx1
    rw [bind_error hx1]
    refine stop hO1 ?_
    rintro ⟨-, -, -, -, t, h1, -⟩
    rw [e1, ht] at h1; cases h1
  | ok tau =>
    rw [ht] at hx1
    rw [bind_ok hx1]
    have hsurf := step h.surface hk.surface hD1 hO1
    obtain ⟨w2, hx2, hD2, hO2⟩ := hsurf
    change (Self.acc w.backend id).surface w1 = ((Fresh.acc0 w.backend o).surface, w2) at hx2
    by_cases hsh : tau.shape = []
    · simp only [hsh, if_true]
      cases hS : (Fresh.acc0 w.backend o).surface with
      | error e =>
        rw [hS] at hx2
        rw [bind_error hx2]
        refine stop hO2 ?_
        rintro ⟨-, -, ⟨x, h1⟩, -⟩
        rw [e2, hS] at h1; cases h1
      | ok Isurf =>
        rw [hS] at hx2
        rw [bind_ok hx2]
        obtain ⟨w3, hx3, hD3, hO3⟩ := step (h.par .tau) (hk.par .tau) hD2 hO2
        change (Self.acc w.backend id).par .tau w2 = (Fresh.par w.backend o .tau, w3) at hx3
        rw [ht] at hx3
        rw [bind_ok hx3]
        by_cases hpos : (tau.get []).isPos = true
        · simp only [hpos, if_true]
          obtain ⟨w4, hx4, hD4, hO4⟩ := step h.volume hk.volume hD3 hO3
          change (Self.acc w.backend id).volume w3 = ((Fresh.acc0 w.backend o).volume, w4) at hx4
          cases hV : (Fresh.acc0 w.backend o).volume with
          | error e =>
            rw [hV] at hx4
            rw [bind_error hx4]
            refine stop hO4 ?_
            rintro ⟨-, -, -, ⟨x, h1⟩, -⟩
            rw [e3, hV] at h1; cases h1
          | ok Ivol =>
            rw [hV] at hx4
            rw [bind_ok hx4]
            obtain ⟨w5, hx5, hD5, hO5⟩ := step h.intQ hk.intQ hD4 hO4
            change (Self.acc w.backend id).intQ w4 = (.ok o.intQ, w5) at hx5
            rw [bind_ok hx5]
            cases hq : o.intQ with
            | true =>
              simp only [if_true]
              refine goInt hD5 hO5 hq (fun hR => ⟨hq, hR, ⟨_, hS⟩, ⟨_, hV⟩, tau, ht, fun _ => hpos⟩) fun a => hk.finish _ _ _ _
            | false =>
              simp only [Bool.false_eq_true, if_false]
              refine stop ((hk.finish _ _ _ _ w5).trans hO5) ?_
              rintro ⟨h1, -⟩
              rw [e4, hq] at h1; cases h1
        · simp only [hpos]
          refine stop (((ObjsKept.bind hk.intQ fun q => hk.finish _ _ _ _) w3).trans hO3) ?_
          rintro ⟨-, -, -, -, t, h1, h2⟩
          rw [e1, ht] at h1
          cases h1
          exact hpos (h2 hsh)
    · simp only [hsh, if_false]
      cases hS : (Fresh.acc0 w.backend o).surface with
      | error e =>
        rw [hS] at hx2
        rw [bind_error hx2]
        refine stop hO2 ?_
        rintro ⟨-, -, ⟨x, h1⟩, -⟩
        rw [e2, hS] at h1; cases h1
      | ok Isurf =>
        rw [hS] at hx2
        rw [bind_ok hx2]
        obtain ⟨w4, hx4, hD4, hO4⟩ := step h.volume hk.volume hD2 hO2
        change (Self.acc w.backend id).volume w2 = ((Fresh.acc0 w.backend o).volume, w4) at hx4
        cases hV : (Fresh.acc0 w.backend o).volume with
        | error e =>
          rw [hV] at hx4
          rw [bind_error hx4]
          refine stop hO4 ?_
          rintro ⟨-, -, -, ⟨x, h1⟩, -⟩
          rw [e3, hV] at h1; cases h1
        | ok Ivol =>
          rw [hV] at hx4
          rw [bind_ok hx4]
          obtain ⟨w5, hx5, hD5, hO5⟩ := step h.intQ hk.intQ hD4 hO4
          change (Self.acc w.backend id).intQ w4 = (.ok o.intQ, w5) at hx5
          rw [bind_ok hx5]
          cases hq : o.intQ with
          | true =>
            simp only [if_true]
            refine goInt hD5 hO5 hq (fun hR => ⟨hq, hR, ⟨_, hS⟩, ⟨_, hV⟩, tau, ht, fun h => absurd h hsh⟩) fun a =>
              .bind (hk.fixNan _) fun _ => hk.finish _ _ _ _
          | false =>
            simp only [Bool.false_eq_true, if_false]
            refine stop ((hk.finish _ _ _ _ w5).trans hO5) ?_
            rintro ⟨h1, -⟩
            rw [e4, hq] at h1; cases h1

end

end RT1
