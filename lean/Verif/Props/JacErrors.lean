import Verif.Lemmas.JacObs
import Verif.Props.Contrib

/-!
# Errors of `jacobian()` (C54)
-/

namespace RT1

noncomputable section
open Classical

theorem jacLoop_append {b : Backend} {id : ℕ} (norm : Arr) (pre ks : List String) :
    (Self.acc b id).jacLoop norm (pre ++ ks) = (do
      let l ← (Self.acc b id).jacLoop norm pre
      let l' ← (Self.acc b id).jacLoop norm ks
      pure (l ++ l') : M (List Arr)) := by
  induction pre with
  | nil =>
    funext w
    show (Self.acc b id).jacLoop norm ks w = ((Self.acc b id).jacLoop norm ks >>= fun l' => pure ([] ++ l')) w
    cases hx : (Self.acc b id).jacLoop norm ks w with
    | mk r w1 =>
      cases r with
      | error e => rw [bind_error hx]
      | ok l => rw [bind_ok hx]; rfl
  | cons k pre ih =>
    funext w
    show ((Self.acc b id).jacEntry norm k >>= fun x =>
      (Self.acc b id).jacLoop norm (pre ++ ks) >>= fun l => pure (x :: l)) w =
      (((Self.acc b id).jacEntry norm k >>= fun x =>
      (Self.acc b id).jacLoop norm pre >>= fun l => pure (x :: l)) >>= fun l =>
      (Self.acc b id).jacLoop norm ks >>= fun l' => pure (l ++ l')) w
    rw [ih]
    cases hx : (Self.acc b id).jacEntry norm k w with
    | mk r w1 =>
      cases r with
      | error e => rw [bind_error hx, bind_error (bind_error hx)]
      | ok x =>
        rw [bind_ok hx]
        cases hy : (Self.acc b id).jacLoop norm pre w1 with
        | mk r2 w2 =>
          cases r2 with
          | error e =>
            rw [bind_error (bind_error hy), bind_error ((bind_ok hx).trans (bind_error hy))]
          | ok l =>
            rw [bind_ok ((bind_ok hx).trans (bind_ok hy))]
            cases hz : (Self.acc b id).jacLoop norm ks w2 with
            | mk r3 w3 =>
              cases r3 with
              | error e => rw [bind_error ((bind_ok hy).trans (bind_error hz)), bind_error hz]
              | ok l' =>
                have h1 : (((Self.acc b id).jacLoop norm pre >>= fun l =>
                  (Self.acc b id).jacLoop norm ks >>= fun l' => pure (l ++ l')) w1) =
                    (.ok (l ++ l'), w3) := (bind_ok hy).trans (bind_ok hz)
                rw [bind_ok h1, bind_ok hz]
                rfl

theorem jacobianList_ok {w w' : World} (hw : Reachable w) {id : ℕ} {keys : List String} {l : List Arr}
    (h : jacobianList id keys w = (.ok l, w')) : ∃ o, w.objs id = some o := by
  cases ho : w.objs id with
  | some o => exact ⟨o, rfl⟩
  | none =>
    exfalso
    unfold jacobianList at h
    rw [bind_ok (show getW w = (.ok w, w) from rfl)] at h
    unfold Acc.jacList Acc.jacNorm at h
    have hg : (Self.acc w.backend id).sig0 w = (.error .attributeError, w) := by
      show (getObj id >>= fun o => pure o.sig0) w = _
      rw [bind_error (getObj_none ho)]
    rw [bind_error (bind_error hg)] at h
    cases h

/-- `jacobian()` never returns if one of the names is neither `tau`, `omega`, `NormBRDF`, `bsf`
nor in `param_dict`. -/
theorem C54_unknown_name_never {w : World} (hw : Reachable w) {id : ℕ} {o : Obj}
    (ho : w.objs id = some o) {keys : List String} {k : String} (hk : k ∈ keys)
    (h1 : k ≠ "tau" ∧ k ≠ "omega" ∧ k ≠ "NormBRDF" ∧ k ≠ "bsf") (h2 : k ∉ o.params.keys)
    (format : String) : ∀ r, (jacobian id keys format w).1 ≠ .ok r := by
  intro r hr
  have hl : ∃ l w', jacobianList id keys w = (.ok l, w') := by
    cases hx : jacobianList id keys w with
    | mk r' w' =>
      cases r' with
      | ok l => exact ⟨l, w', rfl⟩
      | error e =>
        unfold jacobian at hr
        rw [bind_error hx] at hr
        cases hr
  obtain ⟨l, w', hl⟩ := hl
  obtain ⟨h3, -⟩ := jacobianList_spec hw ho keys
  rw [hl] at h3
  cases hn : (Fresh.acc0 w.backend o).jacNorm with
  | error e => rw [hn] at h3; cases h3
  | ok norm =>
    rw [hn] at h3
    have h4 : JacSpec w.backend o norm keys (.ok l) := h3
    obtain ⟨i, hi, he⟩ := List.mem_iff_getElem.mp hk
    obtain ⟨z, dv, ds, -, -, h5⟩ := h4.get.2 i k (by rw [List.getElem?_eq_getElem hi, he])
    unfold Acc.jacEntry at h5
    rw [if_neg h1.2.1, if_neg h1.1, if_neg h1.2.2.1, if_neg h1.2.2.2] at h5
    have e3 : (Fresh.acc w.backend o dv ds).params = .ok o.params := rfl
    rw [e3, okb, if_neg h2] at h5
    cases h5

/-- An unknown name raises AssertionError if `jacobian()` returns for the names before it. -/
theorem C54_unknown_name {w : World} (hw : Reachable w) {id : ℕ} {o : Obj}
    (ho : w.objs id = some o) {pre post : List String} {k : String}
    (h1 : k ≠ "tau" ∧ k ≠ "omega" ∧ k ≠ "NormBRDF" ∧ k ≠ "bsf") (h2 : k ∉ o.params.keys)
    (hpre : ∃ l w', jacobian id pre "list" w = (.ok (.inl l), w')) (format : String) :
    (jacobian id (pre ++ k :: post) format w).1 = .error .assertionError := by
  obtain ⟨l, w', hl⟩ := hpre
  have hl' := jacobian_list.mp hl
  obtain ⟨-, hD⟩ := jacobianList_spec hw ho pre
  rw [hl'] at hD
  obtain ⟨o', ho', hf⟩ := hD.1.obj
  have key : (jacobianList id (pre ++ k :: post) w).1 = .error .assertionError := by
    unfold jacobianList at hl' ⊢
    rw [bind_ok (show getW w = (.ok w, w) from rfl)] at hl' ⊢
    unfold Acc.jacList at hl' ⊢
    cases hx : (Self.acc w.backend id).jacNorm w with
    | mk r w1 =>
      cases r with
      | error e => rw [bind_error hx] at hl'; cases hl'
      | ok norm =>
        rw [bind_ok hx] at hl' ⊢
        rw [jacLoop_append, bind_ok hl']
        have he : (Self.acc w.backend id).jacEntry norm k w' = (.error .assertionError, w') := by
          unfold Acc.jacEntry
          rw [if_neg h1.2.1, if_neg h1.1, if_neg h1.2.2.1, if_neg h1.2.2.2]
          have e : (Self.acc w.backend id).params w' = (.ok o'.params, w') := by
            show (getObj id >>= fun o => pure o.params) w' = _
            rw [bind_ok (getObj_some ho')]; rfl
          rw [bind_ok e, if_neg (by rw [hf.params]; exact h2)]
          rfl
        have : (Self.acc w.backend id).jacLoop norm (k :: post) w' = (.error .assertionError, w') := by
          show ((Self.acc w.backend id).jacEntry norm k >>= fun x =>
            (Self.acc w.backend id).jacLoop norm post >>= fun l => pure (x :: l)) w' = _
          rw [bind_error he]
        rw [bind_error this]
  unfold jacobian
  cases hx : jacobianList id (pre ++ k :: post) w with
  | mk r w1 =>
    rw [hx] at key
    simp only at key
    subst key
    rw [bind_error hx]

/-- An unknown format never returns, and raises TypeError if the derivatives can be evaluated. -/
theorem C54_unknown_format {w : World} {id : ℕ} {keys : List String} {format : String}
    (hfm : format ≠ "list" ∧ format ≠ "scipy_least_squares") :
    (∀ r, (jacobian id keys format w).1 ≠ .ok r) ∧
    ((∃ l w', jacobian id keys "list" w = (.ok (.inl l), w')) →
      ∃ names, (jacobian id keys format w).1 = .error (.typeError names)) := by
  constructor
  · intro r hr
    unfold jacobian at hr
    cases hx : jacobianList id keys w with
    | mk r' w' =>
      cases r' with
      | error e => rw [bind_error hx] at hr; cases hr
      | ok l =>
        rw [bind_ok hx, if_neg hfm.1, if_neg hfm.2] at hr
        cases hr
  · rintro ⟨l, w', hl⟩
    refine ⟨[], ?_⟩
    unfold jacobian
    rw [bind_ok (jacobian_list.mp hl), if_neg hfm.1, if_neg hfm.2]
    rfl

/-- A name that is in none of the definitions, between known ones, and an unknown format. -/
example (t : ℝ) : ∃ w : World, Reachable w ∧
    (jacobian 0 ["tau", "bsf", "foo", "omega"] "list" w).1 = .error .assertionError ∧
    ∃ names, (jacobian 0 ["tau", "bsf", "omega"] "array" w).1 = .error (.typeError names) := by
  have hc := demo_complete exV_plain exS_plain true true false 1 t 0 1 1 1 0
  have ho := demo_objs .sympy exV exS true true false (Arr.lit 1) (Arr.lit t) (Arr.lit 0) (demoKw 1 1 1 0)
  have hr := demo_reachable .sympy exV exS true true false (Arr.lit 1) (Arr.lit t) (Arr.lit 0)
    (demoKw 1 1 1 0)
  have hn : "foo" ∉ (demoObj exV exS true true false (Arr.lit 1) (Arr.lit t) (Arr.lit 0)
      (demoKw 1 1 1 0)).params.keys := by
    rw [demo_params]; simp [Dict.keys]
  generalize demoObj exV exS true true false (Arr.lit 1) (Arr.lit t) (Arr.lit 0) (demoKw 1 1 1 0) = o
    at hc ho hn
  generalize demoW .sympy exV exS true true false (Arr.lit 1) (Arr.lit t) (Arr.lit 0)
    (demoKw 1 1 1 0) = w at ho hr
  refine ⟨w, hr, ?_, ?_⟩
  · refine C54_unknown_name (pre := ["tau", "bsf"]) (post := ["omega"]) hr ho (by decide) hn ?_ _
    obtain ⟨l, w', hl⟩ := jacobianList_succ hr ho hc (keys := ["tau", "bsf"])
      (fun k hk => Or.inl (by simp at hk; unfold builtin; tauto))
    exact ⟨l, w', jacobian_list.mpr hl⟩
  · refine (C54_unknown_format (by decide)).2 ?_
    obtain ⟨l, w', hl⟩ := jacobianList_succ hr ho hc (keys := ["tau", "bsf", "omega"])
      (fun k hk => Or.inl (by simp at hk; unfold builtin; tauto))
    exact ⟨l, w', jacobian_list.mpr hl⟩

end

end RT1
