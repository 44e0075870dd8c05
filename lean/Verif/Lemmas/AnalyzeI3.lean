import Verif.Lemmas.AnalyzeI
import Verif.Lemmas.Analyze3

/-! 3D analyzers that show the interaction term. -/

namespace RT1

noncomputable section
open Classical

/-- The object of a 3D analyzer with interaction term. -/
structure Ready3I (b : Backend) (n : ℕ) (names : List String) (o : Obj) : Prop where
  base : Ready3 n names o
  coefs : Coefs b (names.filter fun k => decide (k ≠ "inc")) o

theorem noInc_fst (sl : List (String × Slider)) :
    (noInc sl).map Prod.fst = (sl.map Prod.fst).filter fun k => decide (k ≠ "inc") := by
  unfold noInc
  rw [List.filter_map]
  rfl

theorem Coefs.at3d {b : Backend} {names : List String} {o : Obj} (h : Coefs b names o) (n : ℕ) (inc : ℝ) (q : Bool) :
    Coefs b names (o.at3d n inc q) :=
  ⟨h.fnI, h.fneI, h.fs, h.V, h.SRF, h.known, h.vars⟩

theorem Coefs.intQ {b : Backend} {names : List String} {o : Obj} (h : Coefs b names o) (q : Bool) :
    Coefs b names { o with intQ := q } :=
  ⟨h.fnI, h.fneI, h.fs, h.V, h.SRF, h.known, h.vars⟩

theorem Ready3I.updated {id n : ℕ} {A A' : Analyzer3D} {w w' : World} {o o' : Obj} {res x y z : Arr} {ks : List ℕ}
    (hw : Reachable w) (hU : Updated3 id n A A' w w' o o' res x y z ks)
    (h : Ready3I w.backend n (A.sliders.map Prod.fst) o) :
    Ready3I w.backend n (A.sliders.map Prod.fst) { o' with intQ := o.intQ } := by
  have hb := hw.keeps.any.bsfOK hU.before
  obtain ⟨c1, c2⟩ := h.coefs.update hb (kw := sliderVals (noInc A.sliders)) (by rw [sliderVals_keys, noInc_fst])
  exact ⟨h.base.updated hw hU, ((c1.at3d n A.inc (decide ('i' ∈ A.contribs))).filled hU.filled c2).intQ _⟩

/-- The update succeeds. -/
theorem Ready3I.succ {id n : ℕ} {A : Analyzer3D} {w : World} {o : Obj} (hw : Reachable w) (hn : n ≠ 0)
    (ho : w.objs id = some o) (h : Ready3I w.backend n (A.sliders.map Prod.fst) o) (hne : A.contribs ≠ [])
    (hcs : ∀ c ∈ A.contribs, ∃ k, Shows c k) :
    ∃ A' w' o', Analyzer3D.update id A w = (.ok A', w') ∧ Reachable w' ∧ w'.backend = w.backend ∧ w'.objs id = some o' ∧
      A'.sliders = A.sliders ∧ A'.contribs = A.contribs ∧ Ready3I w.backend n (A'.sliders.map Prod.fst) o' := by
  have hb := hw.keeps.any.bsfOK ho
  have hc := h.base.complete A.sliders A.inc (decide ('i' ∈ A.contribs)) rfl
  have hg : Grid n ((Fresh.update o (sliderVals (noInc A.sliders))).at3d n A.inc (decide ('i' ∈ A.contribs))) :=
    Grid.at3d (o := Fresh.update o (sliderVals (noInc A.sliders))) ⟨h.base.grid.mono, h.base.grid.fixed, h.base.grid.tex, h.base.grid.pex, h.base.grid.p0⟩ _ _
  obtain ⟨res, hres, hs⟩ : ∃ res, Fresh.calcAll w.backend ((Fresh.update o (sliderVals (noInc A.sliders))).at3d n A.inc
      (decide ('i' ∈ A.contribs))) = .ok res ∧ res.shape = [n, n, nrows (decide ('i' ∈ A.contribs))] := by
    by_cases hi : 'i' ∈ A.contribs
    · obtain ⟨c1, -⟩ := h.coefs.update hb (kw := sliderVals (noInc A.sliders)) (by rw [sliderVals_keys, noInc_fst])
      have hok : ObjOK w.backend (Fresh.update o (sliderVals (noInc A.sliders))) :=
        (hw.inv.updated ho (sliderVals (noInc A.sliders))).obj rfl _ _ (World.updated_objs ..)
      have hci : CompleteI w.backend ((Fresh.update o (sliderVals (noInc A.sliders))).at3d n A.inc
          (decide ('i' ∈ A.contribs))) [n, n] :=
        (c1.at3d n A.inc (decide ('i' ∈ A.contribs))).completeI_of rfl hc (hb.update _) ⟨hok.fn, hok.fnevals⟩
          (a := fullLike (analyze3dTex n) (deg2rad A.inc)) (by simp [Obj.at3d]) rfl
          (fun _ a ha => by rw [hg.tex] at ha; cases ha; rfl) (fun _ a ha => by rw [hg.pex] at ha; cases ha; rfl)
          hg.p0 (by simp [Obj.at3d, hi])
      obtain ⟨res, h1, h2⟩ := hci.calcAll (a := fullLike (analyze3dTex n) (deg2rad A.inc)) (by simp [Obj.at3d]) rfl
      exact ⟨res, h1, by rw [h2]; simp [nrows, hi]⟩
    · obtain ⟨res, h1, h2⟩ := hc.calcAll_three w.backend (a := fullLike (analyze3dTex n) (deg2rad A.inc))
        (by simp [Obj.at3d]) rfl (by simp [Obj.at3d, hi])
      exact ⟨res, h1, by rw [h2]; simp [nrows, hi]⟩
  obtain ⟨A', w', hA⟩ := update3_succ (id := id) (A := A) hw hn ho h.base.grid hres hs hne hcs
  obtain ⟨o', res', x, y, z, ks, hU⟩ := update3_ok hw ho h.base.grid hA
  have hr := (Runs.update3d (id := id) (A := A) (fun _ h => h)).reachable (fun _ h => h.plain) hw
  rw [hA] at hr
  exact ⟨A', w', _, hA, hr, hU.backend, hU.after, hU.sliders, hU.contribs, by rw [hU.sliders]; exact h.updated hw hU⟩

/-- Sequences of moved sliders succeed. -/
theorem Ready3I.slides {id n : ℕ} {b : Backend} (hn : n ≠ 0) {evs : List (String × ℝ)} :
    ∀ {A : Analyzer3D} {w : World} {o : Obj},
    Reachable w → w.backend = b → w.objs id = some o → Ready3I b n (A.sliders.map Prod.fst) o → A.contribs ≠ [] →
    (∀ c ∈ A.contribs, ∃ k, Shows c k) →
    ∃ A' w', (evs.foldlM (fun A e => Analyzer3D.slide id A e.1 e.2) A : M Analyzer3D) w = (.ok A', w') := by
  induction evs with
  | nil => intro A w o _ _ _ _ _ _; exact ⟨A, w, rfl⟩
  | cons e evs ih =>
    rintro A w o hw rfl ho h hne hcs
    have e1 : ∀ B : Analyzer3D, B = (if e.1 = "inc" then { A with inc := e.2 } else
      { A with sliders := A.sliders.map fun p => if p.1 = e.1 then (p.1, { p.2 with val := e.2 }) else p }
        : Analyzer3D) → B.contribs = A.contribs ∧ B.sliders.map Prod.fst = A.sliders.map Prod.fst := by
      rintro B rfl
      split_ifs
      · exact ⟨rfl, rfl⟩
      · refine ⟨rfl, ?_⟩
        rw [List.map_map]
        refine List.map_congr_left fun p _ => ?_
        simp only [Function.comp]
        split_ifs <;> rfl
    have e2 : Analyzer3D.slide id A e.1 e.2 w = Analyzer3D.update id (if e.1 = "inc" then { A with inc := e.2 } else
      { A with sliders := A.sliders.map fun p => if p.1 = e.1 then (p.1, { p.2 with val := e.2 }) else p }) w := rfl
    generalize hB : (if e.1 = "inc" then { A with inc := e.2 } else
      { A with sliders := A.sliders.map fun p => if p.1 = e.1 then (p.1, { p.2 with val := e.2 }) else p }
        : Analyzer3D) = B at e1 e2
    obtain ⟨b1, b2⟩ := e1 B rfl
    obtain ⟨A', w', o', h1, h2, hbk, h3, h4, h5, h6⟩ := Ready3I.succ (id := id) (A := B) hw hn ho (by rw [b2]; exact h)
      (by rw [b1]; exact hne) (by rw [b1]; exact hcs)
    obtain ⟨A2, w2, h7⟩ := ih h2 hbk h3 h6 (by rw [h5, b1]; exact hne) (by rw [h5, b1]; exact hcs)
    refine ⟨A2, w2, ?_⟩
    rw [List.foldlM_cons, bind_ok (e2.trans h1)]
    exact h7

end

end RT1
