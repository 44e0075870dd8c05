import Verif.Lemmas.RowVals
import Verif.Lemmas.ParL

/-! Successful calls and the memo-free evaluation. -/

namespace RT1

noncomputable section
open Classical

theorem Filled.symm {b : Backend} {o o' : Obj} (h : Filled b o o') : Filled b o' o :=
  ⟨h.core.symm, h.fn.symm, h.fnevals.symm⟩

/-- A successful call found the object; its result is the memo-free one and the attributes
of the object afterwards are those after `update_params`. -/
structure CallOK (full : Bool) (F : Backend → Obj → Py Arr) (w : World) (id : ℕ) (kw : Dict)
    (arr : Arr) (w' : World) (o o' : Obj) : Prop where
  before : w.objs id = some o
  after : w'.objs id = some o'
  ok : F w.backend (Fresh.update o kw) = .ok arr
  filled : Filled w.backend (Fresh.update o kw) o'
  inv : Inv full w'
  backend : w'.backend = w.backend

theorem callOK_of {full : Bool} {call : ℕ → Dict → M Arr} {F : Backend → Obj → Py Arr}
    {w : World} (hw : Inv full w) {id : ℕ} {kw : Dict} {arr : Arr} {w' : World}
    (hcall : call id kw w = (.ok arr, w'))
    (hnone : ∀ w id kw, w.objs id = none → (call id kw w).1 = .error .attributeError)
    (heq : ∀ w id o kw, Inv full w → w.objs id = some o →
      (call id kw w).1 = F w.backend (Fresh.update o kw) ∧
      DuringE full (w.updated id o kw) id (Fresh.update o kw) (call id kw w).2) :
    ∃ o o', CallOK full F w id kw arr w' o o' := by
  cases ho0 : w.objs id with
  | none =>
    have := hnone w id kw ho0
    rw [hcall] at this
    cases this
  | some o =>
    have h := heq w id o kw hw ho0
    rw [hcall] at h
    obtain ⟨h1, h2⟩ := h
    simp only at h1 h2
    obtain ⟨o', ho', hf⟩ := h2.obj
    have hf' : Filled w.backend (Fresh.update o kw) o' := hf
    exact ⟨o, o', ho0, ho', h1.symm, hf', h2.inv, h2.backend⟩

theorem surface_callOK {w : World} (hw : ReachableK w) {id : ℕ} {kw : Dict} {arr : Arr} {w' : World}
    (hcall : surface id kw w = (.ok arr, w')) :
    ∃ o o', CallOK false Fresh.surface w id kw arr w' o o' :=
  callOK_of hw.inv hcall (fun _ _ _ h => surface_none h _) fun _ _ _ _ hw ho => surface_eq hw ho _

theorem volume_callOK {w : World} (hw : ReachableK w) {id : ℕ} {kw : Dict} {arr : Arr} {w' : World}
    (hcall : volume id kw w = (.ok arr, w')) :
    ∃ o o', CallOK false Fresh.volume w id kw arr w' o o' :=
  callOK_of hw.inv hcall (fun _ _ _ h => volume_none h _) fun _ _ _ _ hw ho => volume_eq hw ho _

theorem interaction_callOK {w : World} (hw : Reachable w) {id : ℕ} {kw : Dict} {arr : Arr} {w' : World}
    (hcall : interaction id kw w = (.ok arr, w')) :
    ∃ o o', CallOK true Fresh.interaction w id kw arr w' o o' :=
  callOK_of hw.inv hcall (fun _ _ _ h => interaction_none h _)
    fun _ _ _ _ hw ho => interaction_eq hw ho _

theorem calc_callOK {w : World} (hw : Reachable w) {id : ℕ} {kw : Dict} {arr : Arr} {w' : World}
    (hcall : calcOp id kw w = (.ok arr, w')) :
    ∃ o o', CallOK true Fresh.calcAll w id kw arr w' o o' :=
  callOK_of hw.inv hcall (fun _ _ _ h => calcOp_none h _) fun _ _ _ _ hw ho => calcOp_eq hw ho _

namespace CallOK
variable {full : Bool} {F : Backend → Obj → Py Arr} {w : World} {id : ℕ} {kw : Dict}
  {arr : Arr} {w' : World} {o o' : Obj}

theorem cfg (h : CallOK full F w id kw arr w' o o') : o'.cfg = o.cfg := h.filled.cfg

theorem intQ (h : CallOK full F w id kw arr w' o o') : (Fresh.update o kw).intQ = o'.intQ := by
  have := congrArg Cfg.intQ h.cfg; exact this.symm
theorem dB (h : CallOK full F w id kw arr w' o o') : (Fresh.update o kw).dB = o'.dB := by
  have := congrArg Cfg.dB h.cfg; exact this.symm
theorem sig0 (h : CallOK full F w id kw arr w' o o') : (Fresh.update o kw).sig0 = o'.sig0 := by
  have := congrArg Cfg.sig0 h.cfg; exact this.symm

end CallOK

namespace XR

theorem mul_eq_fin {a b : XR} {r : ℝ} (h : a * b = fin r) :
    ∃ x y, a = fin x ∧ b = fin y ∧ x * y = r := by
  have inf_ne : ∀ s, infOfSign s ≠ fin r := by
    intro s; unfold infOfSign; split_ifs <;> simp
  have h' : mul a b = fin r := h
  cases a <;> cases b <;> simp only [mul, sgn] at h'
  all_goals first
    | exact absurd h' (inf_ne _)
    | (simp only [fin.injEq] at h'; exact ⟨_, _, rfl, rfl, h'⟩)
    | cases h'

theorem mul_fin_one (a : XR) : a * fin 1 = a := by
  show mul a (fin 1) = a
  cases a <;> simp [mul, sgn, infOfSign]

end XR

/-- Units of a whole array. -/
theorem convert_whole {b : Backend} {o : Obj} {a m : Arr} (hm : Fresh.mu0 o = .ok m)
    (h1 : Arr.Fits m.shape a.shape) (h2 : Arr.Fits o.I0.shape a.shape) :
    ∃ z, (Fresh.acc0 b o).convert a = .ok z ∧ z.shape = a.shape ∧
      ∀ idx, Arr.Valid a.shape idx →
        z.get idx = (XSite.of b o idx).convert o.sig0 o.dB (a.get idx) := by
  obtain ⟨z, hz, -⟩ := convert_succ (b := b) (dv := Fresh.dVol b o) (ds := Fresh.dSrf b o) hm h1 h2
  have hs := convert_shape hz hm h1 h2
  refine ⟨z, hz, hs, fun idx hv => ?_⟩
  have := PW.convert (b := b) (o := o) (dv := Fresh.dVol b o) (ds := Fresh.dSrf b o) (idx := idx)
    (a := a) rfl z hz
  rw [Arr.at'_valid (by rw [hs]; exact hv), Arr.at'_valid hv] at this
  exact this

theorem surface_fits {b : Backend} {o : Obj} {Is : Arr} (h : (Fresh.acc0 b o).surface = .ok Is) :
    ∃ m, Fresh.mu0 o = .ok m ∧ Arr.Fits m.shape Is.shape ∧ Arr.Fits o.I0.shape Is.shape := by
  obtain ⟨m, hm⟩ := surface_mu0_ok h
  exact ⟨m, hm, Below.surface_mu0 hm _ h, Below.surface_I0 _ h⟩

theorem volume_fits {b : Backend} {o : Obj} {Is : Arr} (h : (Fresh.acc0 b o).volume = .ok Is) :
    ∃ m, Fresh.mu0 o = .ok m ∧ Arr.Fits m.shape Is.shape ∧ Arr.Fits o.I0.shape Is.shape := by
  obtain ⟨m, hm⟩ := volume_mu0_ok h
  exact ⟨m, hm, Below.volume_mu0 hm _ h, Below.volume_I0 _ h⟩

theorem ten_log10' (v : XR) : XR.fin 10 * XR.log10 v = dBOf v := by
  cases v with
  | fin v => exact XR.ten_log10 v
  | pinf => show XR.mul (XR.fin 10) XR.pinf = _; simp [XR.mul, XR.sgn, XR.infOfSign, dBOf]
  | ninf => show XR.mul (XR.fin 10) XR.nan = _; simp [XR.mul, XR.sgn, dBOf]
  | nan => show XR.mul (XR.fin 10) XR.nan = _; simp [XR.mul, XR.sgn, dBOf]

theorem dBOf_eq_lin {v : XR} {l : ℝ} (h : linOf (dBOf v) = some l) : v = XR.fin l ∧ 0 ≤ l := by
  cases v with
  | fin v =>
    simp only [dBOf, dBValue] at h
    by_cases hv : 0 < v
    · rw [if_pos hv] at h
      simp only [linOf, Option.some.injEq] at h
      have e : (10 * Real.logb 10 v / 10) = Real.logb 10 v := by ring
      rw [e, Real.rpow_logb (by norm_num) (by norm_num) hv] at h
      exact ⟨by rw [h], by rw [← h]; exact hv.le⟩
    · rw [if_neg hv] at h
      by_cases h0 : v = 0
      · rw [if_pos h0] at h
        simp only [linOf, Option.some.injEq] at h
        exact ⟨by rw [h0, h], h.le⟩
      · rw [if_neg h0] at h; cases h
  | pinf => cases h
  | ninf => cases h
  | nan => cases h

theorem XSite.convert_linear (x : XSite) (s : Bool) (v : XR) :
    x.convert s false v = v * (if s = true then XR.fin (4 * Real.pi) * x.mu0 / x.I0 else XR.fin 1) := rfl

theorem XSite.convert_dB (x : XSite) (s : Bool) (v : XR) :
    x.convert s true v = dBOf (x.convert s false v) := by
  unfold XSite.convert
  simp only [if_true, Bool.false_eq_true, if_false]
  exact ten_log10' _

/-- The accessors with the given dB setting. -/
def Acc.withDB (A : Acc Py) (d : Bool) : Acc Py := { A with dB := .ok d }

/-- `10 * np.log10(a)`. -/
def toDB (a : Arr) : Py Arr := RT1.mulM (litM 10) (Pure.pure (Arr.map XR.log10 a))

theorem toDB_ok (a : Arr) : ∃ z, toDB a = .ok z ∧ z.shape = a.shape ∧
    ∀ idx, Arr.Valid a.shape idx → z.get idx = dBOf (a.get idx) := by
  refine ⟨⟨a.shape, fun i => XR.fin 10 * (Arr.map XR.log10 a).at' i⟩, rfl, rfl, fun idx hv => ?_⟩
  show XR.fin 10 * (Arr.map XR.log10 a).at' idx = _
  rw [Arr.at'_map, Arr.at'_valid hv, ten_log10']

namespace Acc
variable (A : Acc Py)

theorem withDB_convert (v : Arr) :
    (A.withDB true).convert v = (A.withDB false).convert v >>= toDB := by
  have key : ∀ n : Arr, (do
      let ret ← liftPy (Arr.mul v n)
      if true = true then litM 10 *. pure (Arr.map XR.log10 ret) else pure ret : Py Arr) = (do
      let ret ← liftPy (Arr.mul v n)
      if false = true then litM 10 *. pure (Arr.map XR.log10 ret) else pure ret : Py Arr) >>= toDB := by
    intro n
    cases (liftPy (Arr.mul v n) : Py Arr) <;> rfl
  have okb : ∀ {α β : Type} (a : α) (f : α → Py β), (Except.ok a >>= f) = f a := fun _ _ => rfl
  unfold Acc.convert Acc.withDB
  simp only [okb]
  cases A.sig0 with
  | error e => rfl
  | ok s =>
    simp only [okb]
    cases s with
    | true =>
      simp only [if_true]
      cases (litM (4 * Real.pi) *. A.mu0 /. A.I0 : Py Arr) with
      | error e => rfl
      | ok n => exact key n
    | false =>
      simp only [Bool.false_eq_true, if_false]
      exact key _

theorem withDB_finish (q : Bool) (a b c : Arr) :
    (A.withDB true).finish q a b c = (A.withDB false).finish q a b c >>= toDB := by
  unfold Acc.finish
  cases q <;> simp only [if_true, Bool.false_eq_true, if_false, bind_assoc, withDB_convert]

theorem withDB_calcBody :
    (A.withDB true).calcBody = (A.withDB false).calcBody >>= toDB := by
  unfold Acc.calcBody
  have e : ∀ (x : Py Arr) (f g : Arr → Py Arr), (∀ a, f a = g a >>= toDB) →
      (x >>= f) = ((x >>= g) >>= toDB) := by
    intro x f g h
    cases x with
    | error e => rfl
    | ok a => exact h a
  have eB : ∀ (x : Py Bool) (f g : Bool → Py Arr), (∀ a, f a = g a >>= toDB) →
      (x >>= f) = ((x >>= g) >>= toDB) := by
    intro x f g h
    cases x with
    | error e => rfl
    | ok a => exact h a
  refine e _ _ _ fun t => ?_
  by_cases ht : t.shape = []
  · rw [if_pos ht, if_pos ht]
    refine e _ _ _ fun Is => e _ _ _ fun t' => ?_
    by_cases hp : (t'.get []).isPos = true
    · rw [if_pos hp, if_pos hp]
      refine e _ _ _ fun Iv => eB _ _ _ fun q => ?_
      by_cases hq : q = true
      · rw [if_pos hq, if_pos hq]
        exact e _ _ _ fun Ii => withDB_finish A _ _ _ _
      · rw [if_neg hq, if_neg hq]
        exact withDB_finish A _ _ _ _
    · rw [if_neg hp, if_neg hp]
      exact eB _ _ _ fun q => withDB_finish A _ _ _ _
  · rw [if_neg ht, if_neg ht]
    refine e _ _ _ fun Is => e _ _ _ fun Iv => eB _ _ _ fun q => ?_
    by_cases hq : q = true
    · rw [if_pos hq, if_pos hq]
      exact e _ _ _ fun Ii => e _ _ _ fun Ij => withDB_finish A _ _ _ _
    · rw [if_neg hq, if_neg hq]
      exact withDB_finish A _ _ _ _

end Acc

/-- The object with the given dB setting. -/
def Obj.withDB (o : Obj) (d : Bool) : Obj := { o with dB := d }

theorem Fresh.update_withDB (o : Obj) (d : Bool) (kw : Dict) :
    Fresh.update (o.withDB d) kw = (Fresh.update o kw).withDB d := rfl

theorem Fresh.acc0_withDB (b : Backend) (o : Obj) (d : Bool) :
    Fresh.acc0 b (o.withDB d) = (Fresh.acc0 b o).withDB d := rfl

/-- A result in decibel is the converted linear result. -/
def IsDB (x y : Py Arr) : Prop :=
  (∀ e, x = .error e ↔ y = .error e) ∧ ∀ a, y = .ok a → ∃ d, x = .ok d ∧ d.shape = a.shape ∧
    ∀ idx, Arr.Valid a.shape idx → d.get idx = dBOf (a.get idx)

theorem IsDB.of_bind {x y : Py Arr} (h : x = y >>= toDB) : IsDB x y := by
  cases y with
  | error e => subst h; exact ⟨fun _ => Iff.rfl, fun a ha => by cases ha⟩
  | ok a =>
    obtain ⟨z, hz, h1, h2⟩ := toDB_ok a
    have : x = .ok z := by rw [h]; exact hz
    subst this
    exact ⟨fun e => ⟨fun h => (by cases h), fun h => (by cases h)⟩,
      fun a' ha' => by cases ha'; exact ⟨z, rfl, h1, h2⟩⟩

theorem bind_assoc_dB {x : Py Arr} {f g : Arr → Py Arr} (h : ∀ a, f a = g a >>= toDB) :
    (x >>= f) = ((x >>= g) >>= toDB) := by
  cases x with
  | error e => rfl
  | ok a => exact h a

theorem Fresh.surface_dB (b : Backend) (o : Obj) :
    IsDB (Fresh.surface b (o.withDB true)) (Fresh.surface b (o.withDB false)) :=
  IsDB.of_bind (bind_assoc_dB fun a => Acc.withDB_convert (Fresh.acc0 b o) a)

theorem Fresh.volume_dB (b : Backend) (o : Obj) :
    IsDB (Fresh.volume b (o.withDB true)) (Fresh.volume b (o.withDB false)) :=
  IsDB.of_bind (bind_assoc_dB fun a => Acc.withDB_convert (Fresh.acc0 b o) a)

theorem Fresh.interaction_dB (b : Backend) (o : Obj) :
    IsDB (Fresh.interaction b (o.withDB true)) (Fresh.interaction b (o.withDB false)) :=
  IsDB.of_bind (bind_assoc_dB fun a => Acc.withDB_convert (Fresh.acc0 b o) a)

theorem Fresh.calcAll_dB (b : Backend) (o : Obj) :
    IsDB (Fresh.calcAll b (o.withDB true)) (Fresh.calcAll b (o.withDB false)) := by
  refine IsDB.of_bind ?_
  show ((Fresh.acc0 b o).withDB true).calcTry = ((Fresh.acc0 b o).withDB false).calcTry >>= toDB
  unfold Acc.calcTry
  rw [Acc.withDB_calcBody]
  cases ((Fresh.acc0 b o).withDB false).calcBody with
  | ok a =>
    obtain ⟨z, hz, -, -⟩ := toDB_ok a
    show tryCatch (toDB a) _ = toDB a
    rw [hz]; rfl
  | error e =>
    cases e with
    | typeError ns =>
      show (((Fresh.acc0 b o).withDB true).missingNames >>= fun names =>
          if names ≠ [] then throw (.typeError names) else throw (.typeError ns) : Py Arr) =
        ((((Fresh.acc0 b o).withDB false).missingNames >>= fun names =>
          if names ≠ [] then throw (.typeError names) else throw (.typeError ns) : Py Arr) >>= toDB)
      have e : ((Fresh.acc0 b o).withDB true).missingNames =
        ((Fresh.acc0 b o).withDB false).missingNames := rfl
      rw [e]
      cases ((Fresh.acc0 b o).withDB false).missingNames with
      | error e => rfl
      | ok names =>
        show (if names ≠ [] then throw (.typeError names) else throw (.typeError ns) : Py Arr) =
          (if names ≠ [] then throw (.typeError names) else throw (.typeError ns) : Py Arr) >>= toDB
        split_ifs <;> rfl
    | _ => rfl

end

end RT1
