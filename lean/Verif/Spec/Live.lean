import Verif.Model.Live

/-! Specification for programs that change scattering functions (C83). -/

namespace RT1.Live

noncomputable section
open Classical

/-- Nothing is assigned and the backend is not changed. -/
def LOp.Still : LOp → Prop
  | .prim _ _ _ => True
  | .lin _ _ => True
  | .eval _ _ _ _ _ _ => True
  | _ => False

/-- Combinations refer to objects that exist; `n` objects exist at the start. -/
def Sound : ℕ → List LOp → Prop
  | _, [] => True
  | n, .prim _ _ _ :: ops => Sound (n + 1) ops
  | n, .lin cs _ :: ops => (∀ c ∈ cs, c.2 < n) ∧ Sound (n + 1) ops
  | n, _ :: ops => Sound n ops

/-- Attributes of a scattering function: a predefined one, or a combination of others. -/
inductive Def where
  | prim (k : Kind) (a : A3) (nc : Option ℕ)
  | lin (cs : List (Expr × ℕ)) (a : A3)

/-- What one call does to the attributes of object `i`. -/
def Def.assign (i : ℕ) : Def → LOp → Def
  | .prim k a nc, .setA j a' => .prim k (if j = i then a' else a) nc
  | .lin cs a, .setA j a' => .lin cs (if j = i then a' else a)
  | .prim (.volHG t) a nc, .setT j t' => .prim (.volHG (if j = i then t' else t)) a nc
  | .prim (.volHGRayleigh t) a nc, .setT j t' => .prim (.volHGRayleigh (if j = i then t' else t)) a nc
  | .prim (.srfHG t) a nc, .setT j t' => .prim (.srfHG (if j = i then t' else t)) a nc
  | .prim (.srfHGnadirnorm t) a nc, .setT j t' => .prim (.srfHGnadirnorm (if j = i then t' else t)) a nc
  | .prim (.srfCosineLobe n) a nc, .setI j n' => .prim (.srfCosineLobe (if j = i then n' else n)) a nc
  | d, _ => d

/-- The attributes of object `i` after a program: those given to the `i`-th constructor call (`k` counts
the objects created before), changed by the assignments that follow. -/
def attrs (i : ℕ) : ℕ → List LOp → Option Def
  | _, [] => none
  | n, .prim k a nc :: ops => if n = i then some (ops.foldl (Def.assign i) (.prim k a nc)) else attrs i (n + 1) ops
  | n, .lin cs a :: ops => if n = i then some (ops.foldl (Def.assign i) (.lin cs a)) else attrs i (n + 1) ops
  | n, _ :: ops => attrs i n ops

/-- After the program, object `i` stands for the scattering function `s`. -/
inductive Means (ops : List LOp) : ℕ → Scatter → Prop where
  | prim {i : ℕ} {k : Kind} {a : A3} {nc : Option ℕ} (h : attrs i 0 ops = some (.prim k a nc)) : Means ops i (.prim k a nc)
  | lin {i : ℕ} {cs : List (Expr × ℕ)} {ss : List Scatter} {a : A3} (h : attrs i 0 ops = some (.lin cs a))
      (hl : ss.length = cs.length) (hs : ∀ (k : ℕ) (c : Expr × ℕ) (s : Scatter), cs[k]? = some c → ss[k]? = some s → Means ops c.2 s) :
      Means ops i (.lin (cs.map Prod.fst) ss a)

/-- The object and the parameter names of an evaluation. -/
def LOp.evaluated : LOp → Option (ℕ × List String)
  | .eval i _ _ _ _ pd => some (i, pd.keys)
  | _ => none

/-- The evaluations of a program. -/
def evaluated (ops : List LOp) : List (ℕ × List String) := ops.filterMap LOp.evaluated

/-- The selected backend. -/
def selected (b : Backend) : List LOp → Backend
  | [] => b
  | .backend b' :: ops => selected b' ops
  | _ :: ops => selected b ops

end

end RT1.Live
