import Verif.Lemmas.ExprL

/-! Values of the rows of `calc`. -/

namespace RT1

noncomputable section
open Classical

/-- Everything known about one observed entry of the array returned by `calc`. -/
structure RowInfo (k : ℕ) (c : Cfg) (x : Site) (r : XR) (idx : List ℕ) (b : Backend) (o : Obj)
    (Is Iv Ii z : Arr) : Prop where
  site : FSite b o idx x
  cfg : o.cfg = c
  parts : Parts b o Is Iv Ii z
  valid : Arr.Valid Is.shape idx
  lt : k < nrows o.intQ
  val : r = (XSite.of b o idx).convert o.sig0 o.dB
    (rowVal o.intQ (Is.get idx) (Iv.get idx) (Ii.get idx) k)
  validV : Arr.Valid Iv.shape idx
  validI : o.intQ = true → Arr.Valid Ii.shape idx

theorem ObservesRow.info {k : ℕ} {c : Cfg} {x : Site} {r : XR} (h : ObservesRow k c x r) :
    ∃ idx b o Is Iv Ii z, RowInfo k c x r idx b o Is Iv Ii z := by
  obtain ⟨idx, b, o, z, hv, rfl, hobs⟩ := h.calc
  obtain ⟨Is, Iv, Ii, hp⟩ := calc_parts hobs.ok
  obtain ⟨h1, h2, h3, h4⟩ := hp.rows
  rw [h1] at hv
  obtain ⟨hv1, hk⟩ := Arr.valid_append_iff.mp hv
  exact ⟨idx, b, o, Is, Iv, Ii, z, hobs.site, hobs.cfg, hp, hv1, hk, h4 k hk idx hv1,
    by rw [h2]; exact hv1, fun hq => by rw [h3 hq]; exact hv1⟩

namespace RowInfo
variable {k : ℕ} {c : Cfg} {x : Site} {r : XR} {idx : List ℕ} {b : Backend} {o : Obj}
  {Is Iv Ii z : Arr}

theorem srf (h : RowInfo k c x r idx b o Is Iv Ii z) {f : ℝ} (hf : c.SRF.ValueAt x f)
    (h0 : x.mu0 ≠ 0) (h1 : x.muEx ≠ 0) : Is.get idx = XR.fin (x.surface f) := by
  have e1 : o.SRF = c.SRF := by rw [← h.cfg]; rfl
  rw [← e1] at hf
  have := PW.surface (h.site.srf hf) Is h.parts.surf
  rw [Arr.at'_valid h.valid, h.site.x_surface h0 h1] at this
  exact this

theorem vol (h : RowInfo k c x r idx b o Is Iv Ii z) {f : ℝ} (hf : c.V.ValueAt x f)
    (h0 : x.mu0 ≠ 0) (h1 : x.muEx ≠ 0) (h2 : x.mu0 + x.muEx ≠ 0) (ht : 0 ≤ x.tau) :
    Iv.get idx = XR.fin (x.volume f) := by
  have e1 : o.V = c.V := by rw [← h.cfg]; rfl
  rw [← e1] at hf
  obtain ⟨t, ht1, ht2⟩ := h.parts.tau
  by_cases hc : t.shape = [] ∧ ¬ (t.get []).isPos = true
  · rw [if_pos hc] at ht2
    have htv : t.at' idx = XR.fin x.tau := by
      obtain ⟨t', h1', h2'⟩ := h.site.tau
      rw [ht1] at h1'
      cases h1'
      exact h2'
    have htau : x.tau = 0 := by
      have : t.get [] = XR.fin x.tau := by
        rw [← htv]
        unfold Arr.at'
        rw [hc.1]
        cases idx <;> rfl
      have h' := hc.2
      rw [this] at h'
      simp [XR.isPos] at h'
      exact le_antisymm h' ht
    rw [ht2.1]
    show XR.fin 0 = _
    simp [Site.volume, htau]
  · rw [if_neg hc] at ht2
    have := PW.volume (h.site.vol hf) Iv ht2.1
    rw [Arr.at'_valid h.validV, h.site.x_volume h0 h1 h2] at this
    exact this

theorem sig0_eq (h : RowInfo k c x r idx b o Is Iv Ii z) : o.sig0 = c.sig0 := by
  rw [← h.cfg]; rfl
theorem dB_eq (h : RowInfo k c x r idx b o Is Iv Ii z) : o.dB = c.dB := by
  rw [← h.cfg]; rfl
theorem intQ_eq (h : RowInfo k c x r idx b o Is Iv Ii z) : o.intQ = c.intQ := by
  rw [← h.cfg]; rfl

end RowInfo

theorem ObservesRow.surface_val {c : Cfg} {x : Site} {r : XR} (h : ObservesRow 1 c x r) {f : ℝ}
    (hf : c.SRF.ValueAt x f) (h0 : x.mu0 ≠ 0) (h1 : x.muEx ≠ 0) (hI : c.sig0 = true → x.I0 ≠ 0) :
    r = x.inUnits c.sig0 c.dB (x.surface f) := by
  obtain ⟨idx, b, o, Is, Iv, Ii, z, hi⟩ := h.info
  rw [hi.val]
  show (XSite.of b o idx).convert _ _ (Is.get idx) = _
  rw [hi.srf hf h0 h1, hi.sig0_eq, hi.dB_eq]
  exact hi.site.x_convert hI _

theorem ObservesRow.volume_val {c : Cfg} {x : Site} {r : XR} (h : ObservesRow 2 c x r) {f : ℝ}
    (hf : c.V.ValueAt x f) (hx : x.Regular c.sig0) (ht : 0 ≤ x.tau) :
    r = x.inUnits c.sig0 c.dB (x.volume f) := by
  obtain ⟨idx, b, o, Is, Iv, Ii, z, hi⟩ := h.info
  rw [hi.val]
  show (XSite.of b o idx).convert _ _ (Iv.get idx) = _
  rw [hi.vol hf hx.mu0 hx.muEx hx.sum ht, hi.sig0_eq, hi.dB_eq]
  exact hi.site.x_convert hx.I0 _

end

end RT1
