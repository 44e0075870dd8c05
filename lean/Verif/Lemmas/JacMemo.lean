import Verif.Lemmas.JacSucc
import Verif.Lemmas.ParL

/-! The memoised phase function derivatives behind `jacobian()`: successful calls agree with
the memo-free evaluation; a compiled derivative with outdated names raises. -/

namespace RT1

noncomputable section
open Classical

/-- If the first computation succeeds, so does the second, with the same value. -/
def SLe {α : Type} (y y' : Py α) : Prop := ∀ z, y = .ok z → y' = .ok z

namespace SLe
variable {α β : Type}

theorem refl (y : Py α) : SLe y y := fun _ h => h

theorem bind {x x' : Py α} {f f' : α → Py β} (h : SLe x x') (hf : ∀ a, SLe (f a) (f' a)) :
    SLe (x >>= f) (x' >>= f') := by
  intro z hz
  cases hx : x with
  | error e => rw [hx] at hz; cases hz
  | ok a =>
    rw [hx] at hz
    rw [h a hx]
    exact hf a z hz

theorem mulM {x x' y y' : Py Arr} (h : SLe x x') (h' : SLe y y') :
    SLe (RT1.mulM x y) (RT1.mulM x' y') := h.bind fun _ => h'.bind fun _ => refl _
theorem addM {x x' y y' : Py Arr} (h : SLe x x') (h' : SLe y y') :
    SLe (RT1.addM x y) (RT1.addM x' y') := h.bind fun _ => h'.bind fun _ => refl _

end SLe

/-- A sympy function accepts the current parameters only if it was compiled for exactly the
current names. -/
theorem DLamOK.current {pd : Dict} {e : Expr} {f : Lam} (h : DLamOK .sympy pd e f)
    (hn : pd.keys.Nodup) {a1 a2 a3 a4 z : Arr} (hz : f.call .sympy [a1, a2, a3, a4] pd = .ok z) :
    f = ⟨["theta_0", "theta_ex", "phi_0", "phi_ex"] ++ pd.keys, e⟩ := by
  obtain ⟨ks, ⟨t, ht⟩, hc⟩ := h
  have hf : f = ⟨["theta_0", "theta_ex", "phi_0", "phi_ex"] ++ ks, e⟩ := by
    cases hc; rfl
  subst hf
  unfold Lam.call at hz
  cases hb : Lam.bindArgs .sympy (["theta_0", "theta_ex", "phi_0", "phi_ex"] ++ ks)
    [a1, a2, a3, a4] pd with
  | error e =>
    rw [hb] at hz
    cases hz
  | ok bnd =>
    unfold Lam.bindArgs at hb
    simp only at hb
    split_ifs at hb with h1 h2
    have hall : ∀ k ∈ pd.keys, k ∈ ks := by
      intro k hk
      by_contra hne
      apply h2
      obtain ⟨p, hp, rfl⟩ := List.mem_map.mp hk
      exact ⟨p, hp, by simpa using hne⟩
    have : t = [] := by
      cases t with
      | nil => rfl
      | cons k t =>
        exfalso
        rw [← ht] at hn hall
        have h3 := hall k (by simp)
        have := (List.nodup_append.mp hn).2.2
        exact this k h3 k (by simp) rfl
    subst this
    rw [← ht, List.append_nil]

/-- Derivatives from the table or compiled anew: only calls for the current names succeed. -/
theorem SLe.callAngles {o : Obj} {dv ds dv' ds' : String → Py Lam} {g g' : Py Lam} {e : Expr}
    (hn : o.params.keys.Nodup) (hg : ∀ f, g = .ok f → DLamOK .sympy o.params e f)
    (hg' : g' = g ∨
      g' = Lam.compile .sympy (["theta_0", "theta_ex", "phi_0", "phi_ex"] ++ o.params.keys) e) :
    SLe (do
      let f ← g
      let a ← (Fresh.acc .sympy o dv ds).t0
      let b' ← (Fresh.acc .sympy o dv ds).tex
      let c ← (Fresh.acc .sympy o dv ds).p0
      let d ← (Fresh.acc .sympy o dv ds).pex
      let pd ← (Fresh.acc .sympy o dv ds).params
      liftPy (f.call .sympy [a, b', c, d] pd))
     (do
      let f ← g'
      let a ← (Fresh.acc .sympy o dv' ds').t0
      let b' ← (Fresh.acc .sympy o dv' ds').tex
      let c ← (Fresh.acc .sympy o dv' ds').p0
      let d ← (Fresh.acc .sympy o dv' ds').pex
      let pd ← (Fresh.acc .sympy o dv' ds').params
      liftPy (f.call .sympy [a, b', c, d] pd)) := by
  show SLe (do
      let f ← g
      let a ← Fresh.ang o .t0
      let b' ← Fresh.tex o
      let c ← Fresh.ang o .p0
      let d ← Fresh.pex o
      liftPy (f.call .sympy [a, b', c, d] o.params))
     (do
      let f ← g'
      let a ← Fresh.ang o .t0
      let b' ← Fresh.tex o
      let c ← Fresh.ang o .p0
      let d ← Fresh.pex o
      liftPy (f.call .sympy [a, b', c, d] o.params))
  simp only [Refines.liftPy_py]
  generalize Fresh.ang o .t0 = ya
  generalize Fresh.tex o = yb
  generalize Fresh.ang o .p0 = yc
  generalize Fresh.pex o = yd
  intro z hz
  rcases hg' with rfl | rfl
  · exact hz
  cases hgg : g with
  | error e => rw [hgg] at hz; cases hz
  | ok f =>
  cases ya with
  | error e => rw [hgg] at hz; cases hz
  | ok a =>
  cases yb with
  | error e => rw [hgg] at hz; cases hz
  | ok b =>
  cases yc with
  | error e => rw [hgg] at hz; cases hz
  | ok c =>
  cases yd with
  | error e => rw [hgg] at hz; cases hz
  | ok d =>
    rw [hgg] at hz
    have hz' : f.call .sympy [a, b, c, d] o.params = .ok z := hz
    have hf := (hg f hgg).current hn hz'
    subst hf
    exact hz'

section
variable {o : Obj} {dv ds dv' ds' : String → Py Lam} {key : String}

theorem SLe.dVolumeDummy (hn : o.params.keys.Nodup)
    (hg : ∀ f, dv key = .ok f → DLamOK .sympy o.params (o.V.phase.diff key) f)
    (hg' : dv' key = dv key ∨ dv' key = Fresh.dVol .sympy o key) :
    SLe ((Fresh.acc .sympy o dv ds).dVolumeDummy key)
      ((Fresh.acc .sympy o dv' ds').dVolumeDummy key) := by
  unfold Acc.dVolumeDummy
  simp only [Fresh.acc_symbs, okb]
  split_ifs
  · exact SLe.refl _
  · exact SLe.refl _
  · exact SLe.refl _
  · refine SLe.bind (SLe.mulM (SLe.refl _) ?_) fun _ => SLe.refl _
    exact SLe.callAngles hn hg hg'

theorem SLe.dSurfaceDummy (hn : o.params.keys.Nodup)
    (hg : ∀ f, ds key = .ok f → DLamOK .sympy o.params (o.SRF.phase.diff key) f)
    (hg' : ds' key = ds key ∨ ds' key = Fresh.dSrf .sympy o key) :
    SLe ((Fresh.acc .sympy o dv ds).dSurfaceDummy key)
      ((Fresh.acc .sympy o dv' ds').dSurfaceDummy key) := by
  unfold Acc.dSurfaceDummy
  simp only [Fresh.acc_symbs, okb]
  split_ifs
  · exact SLe.refl _
  · exact SLe.refl _
  · refine SLe.bind (SLe.mulM (SLe.refl _) ?_) fun _ => SLe.refl _
    exact SLe.callAngles hn hg hg'

theorem SLe.jacEntry (hn : o.params.keys.Nodup)
    (hv : ∀ f, dv key = .ok f → DLamOK .sympy o.params (o.V.phase.diff key) f)
    (hs : ∀ f, ds key = .ok f → DLamOK .sympy o.params (o.SRF.phase.diff key) f)
    (hv' : dv' key = dv key ∨ dv' key = Fresh.dVol .sympy o key)
    (hs' : ds' key = ds key ∨ ds' key = Fresh.dSrf .sympy o key) (norm : Arr) :
    SLe ((Fresh.acc .sympy o dv ds).jacEntry norm key)
      ((Fresh.acc .sympy o dv' ds').jacEntry norm key) := by
  unfold Acc.jacEntry
  split_ifs
  · exact SLe.refl _
  · exact SLe.refl _
  · exact SLe.refl _
  · exact SLe.refl _
  · refine SLe.bind (SLe.refl _) fun pd => ?_
    split_ifs
    · exact SLe.mulM (SLe.addM (SLe.dSurfaceDummy hn hs hs') (SLe.dVolumeDummy hn hv hv'))
        (SLe.refl _)
    · exact SLe.refl _

end

theorem JacSpec.fresh {o : Obj} (hn : o.params.keys.Nodup) {norm : Arr} {keys : List String}
    {r : Py (List Arr)} (h : JacSpec .sympy o norm keys r) :
    SLe r ((Fresh.acc0 .sympy o).jacLoop norm keys) := by
  induction h with
  | nil => exact SLe.refl _
  | err => intro z hz; cases hz
  | rest => intro z hz; cases hz
  | @cons k ks x l dv ds hd h hr ih =>
    intro z hz
    cases hz
    have h1 : (Fresh.acc0 .sympy o).jacEntry norm k = .ok x :=
      SLe.jacEntry hn (hd.dVol k) (hd.dSrf k) (Or.inr rfl) (Or.inr rfl) norm x h
    unfold Acc.jacLoop
    rw [h1, okb, ih l rfl]
    rfl

/-- A successful `jacobian(keys)` (sympy backend) returns what the memo-free evaluation
returns. -/
theorem jacobianList_fresh {w : World} (hw : Reachable w) (hb : w.backend = .sympy) {id : ℕ}
    {o : Obj} (ho : w.objs id = some o) (keys : List String) :
    SLe (jacobianList id keys w).1 ((Fresh.acc0 .sympy o).jacList keys) := by
  have hn := (ReachableAny.bsfOK hw.keeps.any ho).2
  obtain ⟨h, -⟩ := jacobianList_spec hw ho keys
  rw [hb] at h
  unfold Acc.jacList
  cases hx : (Fresh.acc0 .sympy o).jacNorm with
  | error e =>
    rw [hx] at h
    simp only at h
    rw [h]
    intro z hz; cases hz
  | ok norm =>
    rw [hx] at h
    exact JacSpec.fresh hn h

end

end RT1
