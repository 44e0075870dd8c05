import Verif.Lemmas.ParL
import Verif.Lemmas.Point

/-! A definition that is the name of a parameter evaluates to that parameter. -/

namespace RT1

noncomputable section
open Classical

theorem bidx_self (s idx : List ℕ) : Arr.bidx s (Arr.bidx s idx) = Arr.bidx s idx :=
  Arr.bidx_bidx_left (Arr.bshape_eq_of_fits (Arr.Fits.refl s)) idx

theorem par_name {b : Backend} {o : Obj} {p : PName} {k : String} (hp : o.pdef p = .str (.sym k)) {a : Arr}
    (ha : o.params.get? k = some a) :
    ∃ z, Fresh.par b o p = .ok z ∧ z.shape = a.shape ∧ ∀ idx, z.at' idx = a.at' idx := by
  have hfree : ∀ s ∈ (Expr.sym k).free, s ∈ [k] := fun s hs => hs
  have hcall : Lam.call b ⟨[k], .sym k⟩ [] [(k, a)] = .ok ⟨a.shape, fun idx => a.at' idx⟩ := by
    have hg : Dict.get? [(k, a)] k = some a := by rw [Dict.get?_cons, if_pos rfl]
    have hb : Lam.bindArgs b [k] [] [(k, a)] = .ok [(k, a)] := by
      cases b <;> simp [Lam.bindArgs, hg]
    unfold Lam.call
    rw [show Lam.bindArgs b (Lam.mk [k] (.sym k)).vars [] [(k, a)] = _ from hb]
    have hs : Arr.bshapes [a.shape] = some a.shape := by
      show Arr.bshape a.shape [] = _
      cases a.shape <;> rfl
    have he : ∀ idx, (Expr.sym k).evalX (Lam.envAt [(k, a)] idx) = a.at' idx := by
      intro idx
      show Lam.envAt [(k, a)] idx k = _
      unfold Lam.envAt
      simp
    show Lam.evalBound b (.sym k) [(k, a)] = _
    cases b with
    | sympy =>
      unfold Lam.evalBound
      simp only
      rw [if_pos (by simp [Expr.free])]
      have : ([(k, a)].filter fun p => decide (p.1 ∈ (Expr.sym k).free)) = [(k, a)] := by simp [Expr.free]
      rw [this]
      show (match Arr.bshapes [a.shape] with | none => _ | some sh => _) = _
      rw [hs]
      simp only [he]
    | symengine =>
      unfold Lam.evalBound
      show (match Arr.bshapes [a.shape] with | none => _ | some sh => _) = _
      rw [hs]
      simp only [he]
  refine ⟨⟨a.shape, fun idx => a.at' idx⟩, ?_, rfl, fun idx => ?_⟩
  · unfold Fresh.par Fresh.pfun Fresh.symbs
    rw [hp]
    simp only
    have hd : (Expr.sym k).free.dedup = [k] := by simp [Expr.free]
    rw [hd, Lam.compile_of_free hfree]
    have hpick : Self.pick o.params [k] = .ok [(k, a)] := by
      unfold Self.pick
      simp [ha]
    show tryCatch (Self.pick o.params [k] >>= fun kw => Lam.call b ⟨[k], .sym k⟩ [] kw) _ = _
    rw [hpick]
    show tryCatch (Lam.call b ⟨[k], .sym k⟩ [] [(k, a)]) _ = _
    rw [hcall]
    rfl
  · show a.at' (Arr.bidx a.shape idx) = a.at' idx
    unfold Arr.at'
    rw [bidx_self]

end

end RT1
