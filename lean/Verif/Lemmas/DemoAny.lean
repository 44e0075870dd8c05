import Verif.Lemmas.SameShape
import Verif.Lemmas.Lopsided
import Verif.Lemmas.AnalyzeU

/-! Examples with arrays of any shapes. -/

namespace RT1

noncomputable section
open Classical

theorem demo_params_keys (V SRF : Scatter) (q s d : Bool) (I t p : Arr) (kw : Dict) (k : String) :
    k ∈ (demoObj V SRF q s d I t p kw).params.keys ↔ k = "bsf" ∨ k ∈ kw.keys := by
  show k ∈ (Dict.update [("bsf", Arr.lit 0)] (kw.map fun p => (p.1, p.2.atleast1d))).keys ↔ _
  rw [Dict.mem_keys_update, Dict.keys_map_snd kw Arr.atleast1d]
  simp [Dict.keys]

theorem demo_completeA {V SRF : Scatter} (hV : V.Plain) (hS : SRF.Plain) (q s d : Bool) {I t p : Arr}
    {kw : Dict} {S : List ℕ} (hI : Arr.Fits I.shape S) (ht : Arr.Fits t.atleast1d.shape S)
    (hp : Arr.Fits p.atleast1d.shape S) (hkw : ∀ x ∈ kw, Arr.Fits x.2.atleast1d.shape S)
    (h1 : "tau" ∈ kw.keys) (h2 : "omega" ∈ kw.keys) (h3 : "NormBRDF" ∈ kw.keys) :
    Complete (demoObj V SRF q s d I t p kw) S where
  t0 := ⟨t.atleast1d, by simp [demoObj], ht⟩
  p0 := ⟨p.atleast1d, by simp [demoObj], hp⟩
  tex := Or.inl rfl
  pex := Or.inl rfl
  I0 := hI
  params := by
    intro k x hx
    have hx : (Dict.update [("bsf", Arr.lit 0)] (kw.map fun p => (p.1, p.2.atleast1d))).get? k = some x := hx
    rw [Dict.get?_update] at hx
    cases hl : lastValue (kw.map fun p => (p.1, p.2.atleast1d)) k with
    | some v =>
      rw [hl] at hx
      cases hx
      have := lastValue_mem hl
      obtain ⟨y, hy, he⟩ := List.mem_map.mp this
      cases he
      exact hkw _ hy
    | none =>
      rw [hl] at hx
      have hx : Dict.get? [("bsf", Arr.lit 0)] k = some x := hx
      have := Dict.mem_of_get? hx
      simp at this
      rw [this.2]
      trivial
  defs := by
    intro p'
    cases p' <;> show ∀ n ∈ _, _ <;> intro n hn <;> simp only [defaultDefs, Expr.free, List.mem_singleton] at hn <;>
      subst hn <;> rw [demo_params_keys]
    · exact Or.inr h1
    · exact Or.inr h2
    · exact Or.inr h3
    · exact Or.inl rfl
  V := fun n hn => List.mem_append_left _ (hV n hn)
  SRF := fun n hn => List.mem_append_left _ (hS n hn)

theorem demo_bsf (V SRF : Scatter) (q s d : Bool) (I t p : Arr) (kw : Dict) :
    "bsf" ∈ (demoObj V SRF q s d I t p kw).params.keys := by
  rw [demo_params_keys]; exact Or.inl rfl

/-- Parameters with several values of tau. -/
def tauKw (n : ℕ) (τ : List ℕ → ℝ) (ω N : ℝ) : Dict :=
  [("tau", tens [n] τ), ("omega", tens [1] fun _ => ω), ("NormBRDF", tens [1] fun _ => N)]

theorem tau_get (V SRF : Scatter) (q s d : Bool) (I t p : Arr) (n : ℕ) (τ : List ℕ → ℝ) (ω N : ℝ) :
    (demoObj V SRF q s d I t p (tauKw n τ ω N)).params.get? "tau" = some (tens [n] τ) := by
  simp [demoObj, tauKw, Dict.update, Dict.set, tens_atleast1d, Dict.get?]

theorem tau_complete {V SRF : Scatter} (hV : V.Plain) (hS : SRF.Plain) (q s d : Bool) {I t p : Arr}
    (n : ℕ) (τ : List ℕ → ℝ) (ω N : ℝ) (hI : Arr.Fits I.shape [n]) (ht : Arr.Fits t.atleast1d.shape [n])
    (hp : Arr.Fits p.atleast1d.shape [n]) : Complete (demoObj V SRF q s d I t p (tauKw n τ ω N)) [n] := by
  refine demo_completeA hV hS q s d hI ht hp ?_ (by simp [tauKw, Dict.keys]) (by simp [tauKw, Dict.keys])
    (by simp [tauKw, Dict.keys])
  intro x hx
  simp only [tauKw, List.mem_cons, List.not_mem_nil, or_false] at hx
  rcases hx with rfl | rfl | rfl
  · simp only [tens_atleast1d]; exact Arr.Fits.refl _
  · simp only [tens_atleast1d]; exact ⟨Or.inl rfl, trivial⟩
  · simp only [tens_atleast1d]; exact ⟨Or.inl rfl, trivial⟩

end

end RT1
