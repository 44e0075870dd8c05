import Verif.Model.QuickPlot

/-!
# Which parameter receives which value (C93)
-/

namespace RT1

/-- Python's rules for the call `f(*args, **kw)`: the first parameters receive the positional arguments and
no keyword argument, every other parameter receives the keyword argument with its name or else its default
value, and keyword arguments that are no parameters are collected or not allowed. -/
structure Receives {α : Type} (s : Sig α) (args : List α) (kw : List (String × α)) (vals : List α)
    (extra : List (String × α)) : Prop where
  length : vals.length = s.params.length
  positional : ∀ (i : ℕ) v, args[i]? = some v → vals[i]? = some v
  fits : args.length ≤ s.params.length
  once : ∀ (i : ℕ) p, s.params[i]? = some p → i < args.length → ∀ v, (p.1, v) ∉ kw
  named : ∀ (i : ℕ) p v, s.params[i]? = some p → args.length ≤ i → vals[i]? = some v →
    (p.1, v) ∈ kw ∨ ((∀ u, (p.1, u) ∉ kw) ∧ p.2 = some v)
  known : s.varkw = false → ∀ p ∈ kw, ∃ d, (p.1, d) ∈ s.params
  kept : extra.Sublist kw
  extra : ∀ p, p ∈ extra ↔ p ∈ kw ∧ ∀ d, (p.1, d) ∉ s.params

end RT1
