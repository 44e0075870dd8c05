import Verif.Spec.ParseScatter
import Verif.Props.Parse
import Verif.Props.Construct

/-!
# Formulas as parameters of scattering functions (C90)
-/

namespace RT1

noncomputable section
open Classical Make

theorem parse_is (ns : SympyNames) {ρ : String → ℝ} {s : Src} : ∀ {e : Expr} {v : ℝ}, (∀ f ∈ s.funcs, f ∈ knownFuncs) →
    parseText ns s = .ok e → s.NoRoot (ns.reads ρ) → s.value (ns.reads ρ) = some v → e.Is ρ v := by
  induction s with
  | num r => intro e v _ he _ hv; cases he; cases hv; exact ⟨trivial, rfl⟩
  | name n =>
    intro e v _ he _ hv
    have h1 := (parse_name ns he ρ).1
    cases hv
    unfold parseText at he
    rw [lookup_local] at he
    by_cases hn : n = "N"
    · rw [if_pos hn] at he
      cases he
      exact ⟨trivial, XR.fin.inj h1⟩
    · rw [if_neg hn] at he
      cases hf : ns.find n with
      | none => rw [hf] at he; cases he; exact ⟨trivial, XR.fin.inj h1⟩
      | some x =>
        rw [hf] at he
        cases x with
        | number r => cases he; exact ⟨trivial, XR.fin.inj h1⟩
        | func f => cases he
        | other => cases he
  | neg a iha =>
    intro e v hf he hr hv
    simp only [parseText] at he
    obtain ⟨x, hx, he⟩ := ok_bind he
    cases he
    simp only [Src.value, Option.map_eq_some_iff] at hv
    obtain ⟨y, hy, rfl⟩ := hv
    obtain ⟨h1, h2⟩ := iha hf hx hr hy
    refine ⟨⟨trivial, h1⟩, ?_⟩
    show (-1 : ℝ) * x.evalR ρ = _
    rw [h2]; ring
  | add a b iha ihb =>
    intro e v hf he hr hv
    simp only [parseText] at he
    obtain ⟨x, hx, he⟩ := ok_bind he
    obtain ⟨y, hy, he⟩ := ok_bind he
    cases he
    simp only [Src.value, Option.map_eq_some_iff, Option.bind_eq_some_iff] at hv
    obtain ⟨u, hu, t, ht, rfl⟩ := hv
    obtain ⟨h1, h2⟩ := iha (fun f h => hf f (List.mem_append_left _ h)) hx hr.1 hu
    obtain ⟨h3, h4⟩ := ihb (fun f h => hf f (List.mem_append_right _ h)) hy hr.2 ht
    refine ⟨⟨h1, h3⟩, ?_⟩
    show x.evalR ρ + y.evalR ρ = _
    rw [h2, h4]
  | sub a b iha ihb =>
    intro e v hf he hr hv
    simp only [parseText] at he
    obtain ⟨x, hx, he⟩ := ok_bind he
    obtain ⟨y, hy, he⟩ := ok_bind he
    cases he
    simp only [Src.value, Option.map_eq_some_iff, Option.bind_eq_some_iff] at hv
    obtain ⟨u, hu, t, ht, rfl⟩ := hv
    obtain ⟨h1, h2⟩ := iha (fun f h => hf f (List.mem_append_left _ h)) hx hr.1 hu
    obtain ⟨h3, h4⟩ := ihb (fun f h => hf f (List.mem_append_right _ h)) hy hr.2 ht
    refine ⟨⟨h1, trivial, h3⟩, ?_⟩
    show x.evalR ρ + (-1 : ℝ) * y.evalR ρ = _
    rw [h2, h4]; ring
  | mul a b iha ihb =>
    intro e v hf he hr hv
    simp only [parseText] at he
    obtain ⟨x, hx, he⟩ := ok_bind he
    obtain ⟨y, hy, he⟩ := ok_bind he
    cases he
    simp only [Src.value, Option.map_eq_some_iff, Option.bind_eq_some_iff] at hv
    obtain ⟨u, hu, t, ht, rfl⟩ := hv
    obtain ⟨h1, h2⟩ := iha (fun f h => hf f (List.mem_append_left _ h)) hx hr.1 hu
    obtain ⟨h3, h4⟩ := ihb (fun f h => hf f (List.mem_append_right _ h)) hy hr.2 ht
    refine ⟨⟨h1, h3⟩, ?_⟩
    show x.evalR ρ * y.evalR ρ = _
    rw [h2, h4]
  | div a b iha ihb =>
    intro e v hf he hr hv
    simp only [parseText] at he
    obtain ⟨x, hx, he⟩ := ok_bind he
    obtain ⟨y, hy, he⟩ := ok_bind he
    cases he
    simp only [Src.value, Option.bind_eq_some_iff] at hv
    obtain ⟨u, hu, t, ht, hv⟩ := hv
    split at hv
    case isTrue => cases hv
    rename_i h0
    cases hv
    obtain ⟨h1, h2⟩ := iha (fun f h => hf f (List.mem_append_left _ h)) hx hr.1 hu
    obtain ⟨h3, h4⟩ := ihb (fun f h => hf f (List.mem_append_right _ h)) hy hr.2 ht
    refine ⟨⟨h1, h3, Or.inr (Or.inr ⟨by rw [h4]; exact h0, -1, by norm_num⟩)⟩, ?_⟩
    show x.evalR ρ * (y.evalR ρ) ^ (-1 : ℝ) = _
    rw [h2, h4, Real.rpow_neg_one, div_eq_mul_inv]
  | pow a r iha =>
    intro e v hf he hr hv
    simp only [parseText] at he
    obtain ⟨x, hx, he⟩ := ok_bind he
    cases he
    simp only [Src.value, Option.bind_eq_some_iff] at hv
    obtain ⟨u, hu, hv⟩ := hv
    split at hv
    case isFalse => cases hv
    rename_i hc
    cases hv
    obtain ⟨h1, h2⟩ := iha hf hx hr.1 hu
    refine ⟨⟨h1, ?_⟩, ?_⟩
    · rw [h2]
      rcases hc with h | ⟨rfl, -⟩ | ⟨h, hk⟩
      · exact Or.inl h
      · exact Or.inr (Or.inl (hr.2 hu))
      · exact Or.inr (Or.inr ⟨h.ne, hk⟩)
    · show (x.evalR ρ) ^ r = _
      rw [h2]
  | call f a iha =>
    intro e v hf he hr hv
    simp only [parseText] at he
    obtain ⟨x, hx, he⟩ := ok_bind he
    simp only [Src.value, Option.bind_eq_some_iff] at hv
    obtain ⟨u, hu, hv⟩ := hv
    obtain ⟨h1, h2⟩ := iha (fun g h => hf g (List.mem_cons_of_mem _ h)) hx hr.1 hu
    have hk := hf f List.mem_cons_self
    rw [lookup_local] at he
    simp only [knownFuncs, List.mem_cons, List.not_mem_nil, or_false] at hk
    rcases hk with rfl | rfl | rfl | rfl | rfl
    · rw [if_neg (by decide)] at he
      simp only [ns.sin] at he
      cases he
      simp [fnValue] at hv
      exact ⟨h1, by rw [← hv, ← h2]; rfl⟩
    · rw [if_neg (by decide)] at he
      simp only [ns.cos] at he
      cases he
      simp [fnValue] at hv
      exact ⟨h1, by rw [← hv, ← h2]; rfl⟩
    · rw [if_neg (by decide)] at he
      simp only [ns.exp] at he
      cases he
      simp [fnValue] at hv
      exact ⟨h1, by rw [← hv, ← h2]; rfl⟩
    · rw [if_neg (by decide)] at he
      simp only [ns.sqrt] at he
      cases he
      simp [fnValue] at hv
      obtain ⟨h0, rfl⟩ := hv
      have hu0 : u ≠ 0 := fun h => hr.2 rfl (by rw [hu, h])
      refine ⟨⟨h1, Or.inl (by rw [h2]; exact lt_of_le_of_ne h0 hu0.symm)⟩, ?_⟩
      show (x.evalR ρ) ^ (1 / 2 : ℝ) = _
      rw [h2, Real.sqrt_eq_rpow]
    · rw [if_neg (by decide)] at he
      simp only [ns.sign] at he
      cases he
      simp [fnValue] at hv
      refine ⟨h1, ?_⟩
      show (if 0 < x.evalR ρ then (1 : ℝ) else if x.evalR ρ < 0 then -1 else 0) = _
      rw [h2, ← hv]

/-- `sp.parse_expr` for the texts `read` takes apart. -/
def parser (read : String → Src) (ns : SympyNames) (s : String) : Py Expr := parseText ns (read s)

theorem Val.Formula.stands {read : String → Src} {ns : SympyNames} {ρ : String → ℝ} {v : Val} {r : ℝ}
    (h : Val.Formula read ns ns.reads ρ v r) : Val.Stands (parser read ns) ρ v r := by
  cases h with
  | real r => exact .real r
  | int i => exact .int i
  | text hf hn hr hv =>
    obtain ⟨e, he, -⟩ := parsed ns hf hn
    exact .text he (parse_is ns hf he hr hv)

/-- **C90** for parameters of scattering functions: a constructor called with numbers and texts makes the function
whose parameters have the values of the formulas in the texts; names of sympy's numbers (`pi`, `E`) are these
numbers. -/
theorem C90_function_constants (read : String → Src) (ns : SympyNames) {c : Cls} {pos : List Val} {kw : Kw}
    (hnd : (kw.map Prod.fst).Nodup) {a0 a1 a2 t : ℝ} {i : ℕ} {n : Option ℕ} {x : Dirs}
    (h : DocumentedText read ns ns.reads x.env c pos kw a0 a1 a2 t i n) :
    ∃ v s, make (parser read ns) c pos kw = .ok v ∧ v.toScatter = some s ∧ s.ncoefs = c.coefs n ∧
      ∀ r, s.Returns x r → |a0| ≤ 1 → |a1| ≤ 1 → |a2| ≤ 1 → |t| < 1 → (c = .srfHGnadirnorm → a0 ≠ 0 ∧ t ≠ 0) →
        r = .fin (c.value a0 t i (x.cosTheta a0 a1 a2)) := by
  refine C86_value hnd ⟨h.call, fun e => ?_, h.i, ?_, h.n⟩
  · obtain ⟨v, h1, h2⟩ := h.t e
    exact ⟨v, h1, h2.stands⟩
  · rcases h.a with h1 | ⟨u, v, w, h1, h2, h3, h4⟩
    · exact Or.inl h1
    · exact Or.inr ⟨u, v, w, h1, h2.stands, h3.stands, h4.stands⟩

theorem Src.congr {ρ ρ' : String → ℝ} {s : Src} (h : ∀ n ∈ s.names, ρ n = ρ' n) :
    s.value ρ = s.value ρ' ∧ (s.NoRoot ρ ↔ s.NoRoot ρ') := by
  induction s with
  | num r => exact ⟨rfl, Iff.rfl⟩
  | name n => exact ⟨by simp only [Src.value]; rw [h n (by simp [Src.names])], Iff.rfl⟩
  | neg a iha => obtain ⟨h1, h2⟩ := iha h; exact ⟨by simp only [Src.value, h1], h2⟩
  | pow a r iha =>
    obtain ⟨h1, h2⟩ := iha h
    exact ⟨by simp only [Src.value, h1], by simp only [Src.NoRoot, h1, h2]⟩
  | call f a iha =>
    obtain ⟨h1, h2⟩ := iha h
    exact ⟨by simp only [Src.value, h1], by simp only [Src.NoRoot, h1, h2]⟩
  | add a b iha ihb =>
    obtain ⟨h1, h2⟩ := iha fun n hn => h n (List.mem_append_left _ hn)
    obtain ⟨h3, h4⟩ := ihb fun n hn => h n (List.mem_append_right _ hn)
    exact ⟨by simp only [Src.value, h1, h3], by simp only [Src.NoRoot, h2, h4]⟩
  | sub a b iha ihb =>
    obtain ⟨h1, h2⟩ := iha fun n hn => h n (List.mem_append_left _ hn)
    obtain ⟨h3, h4⟩ := ihb fun n hn => h n (List.mem_append_right _ hn)
    exact ⟨by simp only [Src.value, h1, h3], by simp only [Src.NoRoot, h2, h4]⟩
  | mul a b iha ihb =>
    obtain ⟨h1, h2⟩ := iha fun n hn => h n (List.mem_append_left _ hn)
    obtain ⟨h3, h4⟩ := ihb fun n hn => h n (List.mem_append_right _ hn)
    exact ⟨by simp only [Src.value, h1, h3], by simp only [Src.NoRoot, h2, h4]⟩
  | div a b iha ihb =>
    obtain ⟨h1, h2⟩ := iha fun n hn => h n (List.mem_append_left _ hn)
    obtain ⟨h3, h4⟩ := ihb fun n hn => h n (List.mem_append_right _ hn)
    exact ⟨by simp only [Src.value, h1, h3], by simp only [Src.NoRoot, h2, h4]⟩

/-- **C90** for parameters of scattering functions (partial: sympy defines no name of the formulas, except `N`; no roots
of 0): the parameters have the values of the formulas, where all names are parameters. -/
theorem C90_function_partial (read : String → Src) (ns : SympyNames) {c : Cls} {pos : List Val} {kw : Kw}
    (hnd : (kw.map Prod.fst).Nodup) {a0 a1 a2 t : ℝ} {i : ℕ} {n : Option ℕ} {x : Dirs}
    (hpar : ∀ s, (∃ m, Arg c.own pos kw m (.text s)) ∨ (∃ l, ("a", Val.seq l) ∈ kw ∧ .text s ∈ l) →
      ∀ m ∈ (read s).names, m = "N" ∨ ns.find m = Option.none)
    (h : DocumentedText read ns (fun ρ => ρ) x.env c pos kw a0 a1 a2 t i n) :
    ∃ v s, make (parser read ns) c pos kw = .ok v ∧ v.toScatter = some s ∧ s.ncoefs = c.coefs n ∧
      ∀ r, s.Returns x r → |a0| ≤ 1 → |a1| ≤ 1 → |a2| ≤ 1 → |t| < 1 → (c = .srfHGnadirnorm → a0 ≠ 0 ∧ t ≠ 0) →
        r = .fin (c.value a0 t i (x.cosTheta a0 a1 a2)) := by
  have key : ∀ {v : Val} {r : ℝ}, (∀ s, v = .text s → ∀ m ∈ (read s).names, m = "N" ∨ ns.find m = Option.none) →
      Val.Formula read ns (fun ρ => ρ) x.env v r → Val.Formula read ns ns.reads x.env v r := by
    intro v r hv hF
    cases hF with
    | real r => exact .real r
    | int i => exact .int i
    | text hf hn hr hval =>
      have hc := Src.congr (ρ := x.env) (ρ' := ns.reads x.env) fun m hm => by
        unfold SympyNames.reads
        rcases hv _ rfl m hm with rfl | h1
        · simp
        · rw [h1]; simp
      exact .text hf hn (hc.2.mp hr) (hc.1.symm.trans hval)
  refine C90_function_constants read ns hnd ⟨h.call, fun e => ?_, h.i, ?_, h.n⟩
  · obtain ⟨v, h1, h2⟩ := h.t e
    exact ⟨v, h1, key (fun s hs => hpar s (Or.inl ⟨"t", hs ▸ h1⟩)) h2⟩
  · rcases h.a with h1 | ⟨u, v, w, h1, h2, h3, h4⟩
    · exact Or.inl h1
    · exact Or.inr ⟨u, v, w, h1, key (fun s hs => hpar s (Or.inr ⟨_, h1, by simp [hs]⟩)) h2,
        key (fun s hs => hpar s (Or.inr ⟨_, h1, by simp [hs]⟩)) h3, key (fun s hs => hpar s (Or.inr ⟨_, h1, by simp [hs]⟩)) h4⟩

/-- **C90** for the weights of linear combinations: the combination evaluates to the sum of the values of the parts,
weighted by the values of the formulas; names of sympy's numbers are these numbers. -/
theorem C90_weights (read : String → Src) (ns : SympyNames) {vol : Bool} {ws os : List Val} {ss : List Scatter} {x : Dirs}
    {cs : List ℝ} (hw : List.Forall₂ (Val.Formula read ns ns.reads x.env) ws cs)
    (ho : List.Forall₂ (fun o s => Val.toScatter o = some s) os ss) (hlen : ws.length = os.length) :
    ∃ v s, makeLin (parser read ns) vol [.seq (List.zipWith (fun w o => .seq [w, o]) ws os)] [] = .ok v ∧
      v.toScatter = some s ∧ ∀ r vs, List.Forall₂ (fun o v => Scatter.Returns o x (XR.fin v)) ss vs → s.Returns x r →
        r = XR.fin (List.zipWith (· * ·) cs vs).sum :=
  C86_lin_value (hw.imp fun _ _ h => h.stands) ho hlen

/-- A reader of one text. -/
def exRead (s : String) : Src := if s = "N * sqrt(x) / 2" then exText else .name s

/-- `HenyeyGreenstein("N * sqrt(x) / 2", ncoefs=8, a=["q", 1, 1])` for `N = 0.3`, `x = 4`, `q = -1/2`. -/
example (t0 tex p0 pex : ℝ) : DocumentedText exRead exNames (fun ρ => ρ)
    (Dirs.env ⟨t0, tex, p0, pex, fun n => if n = "N" then 0.3 else if n = "x" then 4 else -1 / 2⟩) .volHG
    [.text "N * sqrt(x) / 2"] [("ncoefs", .int 8), ("a", .seq [.text "q", .int 1, .int 1])] (-1 / 2) 1 1 0.3 0 (some 8) ∧
    ∀ s ∈ ["N * sqrt(x) / 2", "q"], ∀ m ∈ (exRead s).names, m = "N" ∨ exNames.find m = Option.none := by
  have h4 : Real.sqrt 4 = 2 := by
    rw [show (4 : ℝ) = 2 ^ 2 by norm_num]; exact Real.sqrt_sq (by norm_num)
  have hq : exRead "q" = .name "q" := by simp [exRead]
  have ht : exRead "N * sqrt(x) / 2" = exText := by simp [exRead]
  refine ⟨⟨⟨by simp, Or.inr ⟨_, rfl, by simp [Cls.own]⟩, by simp [Cls.own]⟩, fun _ => ⟨_, Or.inr ⟨rfl, rfl⟩, ?_⟩, by simp [Cls.own],
    Or.inr ⟨.text "q", .int 1, .int 1, by simp, ?_, ?_, ?_⟩, Or.inr ⟨8, by simp, rfl⟩⟩, ?_⟩
  · refine .text ?_ ?_ ?_ ?_ <;> rw [ht]
    · simp [exText, Src.funcs, knownFuncs]
    · simp [exText, Src.names, SympyNames.IsPar, exNames]
    · simp [exText, Src.NoRoot, Src.value, Dirs.env]
    · simp [exText, Src.value, fnValue, Dirs.env, h4]
  · refine .text ?_ ?_ ?_ ?_ <;> rw [hq]
    · simp [Src.funcs]
    · simp [Src.names, SympyNames.IsPar, exNames]
    · trivial
    · simp [Src.value, Dirs.env]
  · exact_mod_cast Val.Formula.int (read := exRead) (ns := exNames) 1
  · exact_mod_cast Val.Formula.int (read := exRead) (ns := exNames) 1
  · intro s hs
    simp only [List.mem_cons, List.not_mem_nil, or_false] at hs
    rcases hs with rfl | rfl
    · rw [ht]; simp [exText, Src.names, exNames]
    · rw [hq]; simp [Src.names, exNames]

/-- `LinComb([["pi * w", Isotropic()]])` has the weight `π w`. -/
example (x : Dirs) : List.Forall₂ (Val.Formula (fun _ => .mul (.name "pi") (.name "w")) exNames exNames.reads x.env)
    [.text "pi * w"] [Real.pi * x.env "w"] := by
  refine .cons (.text (by simp [Src.funcs]) ?_ ⟨trivial, trivial⟩ ?_) .nil
  · simp [Src.names, SympyNames.IsPar, exNames]
  · simp [Src.value, SympyNames.reads, exNames]

end

end RT1
