import Verif.Model.SumIndex

/-!
# Other names for the parameters

A consistent renaming of the symbols in the definition of a scattering function and in `param_dict`.
-/

namespace RT1

noncomputable section

/-- The expression with other names. -/
def Expr.rename (σ : String → String) : Expr → Expr
  | .num q => .num q
  | .sym s => .sym (σ s)
  | .add a b => .add (a.rename σ) (b.rename σ)
  | .mul a b => .mul (a.rename σ) (b.rename σ)
  | .pow a q => .pow (a.rename σ) q
  | .sin a => .sin (a.rename σ)
  | .cos a => .cos (a.rename σ)
  | .sign a => .sign (a.rename σ)
  | .exp a => .exp (a.rename σ)

/-- The generalisation parameters with other names. -/
def A3.rename (σ : String → String) (a : A3) : A3 := ⟨a.a0.rename σ, a.a1.rename σ, a.a2.rename σ⟩

/-- The own parameter with other names. -/
def Kind.rename (σ : String → String) : Kind → Kind
  | .volHG t => .volHG (t.rename σ)
  | .volHGRayleigh t => .volHGRayleigh (t.rename σ)
  | .srfHG t => .srfHG (t.rename σ)
  | .srfHGnadirnorm t => .srfHGnadirnorm (t.rename σ)
  | k => k

mutual
/-- The scattering function with other names. -/
def Scatter.rename (σ : String → String) : Scatter → Scatter
  | .prim k a nc => .prim (k.rename σ) (a.rename σ) nc
  | .lin ws os a => .lin (ws.map (Expr.rename σ)) (Scatter.renameL σ os) (a.rename σ)
/-- The parts of a combination with other names. -/
def Scatter.renameL (σ : String → String) : List Scatter → List Scatter
  | [] => []
  | o :: os => o.rename σ :: Scatter.renameL σ os
end

/-- `param_dict` with other names. -/
def Dict.rename (σ : String → String) (d : Dict) : Dict := d.map fun p => (σ p.1, p.2)

/-- The names in the generalisation parameters. -/
def A3.names (a : A3) : List String := a.a0.free ++ a.a1.free ++ a.a2.free

/-- The names in the own parameter. -/
def Kind.names : Kind → List String
  | .volHG t => t.free
  | .volHGRayleigh t => t.free
  | .srfHG t => t.free
  | .srfHGnadirnorm t => t.free
  | _ => []

mutual
/-- All names a user has written in the definition of a scattering function. -/
def Scatter.names : Scatter → List String
  | .prim k a _ => k.names ++ a.names
  | .lin ws os a => ws.flatMap Expr.free ++ Scatter.namesL os ++ a.names
/-- The names in the parts of a combination. -/
def Scatter.namesL : List Scatter → List String
  | [] => []
  | o :: os => o.names ++ Scatter.namesL os
end

/-- Different names stay different and the names of the angles are kept. -/
structure Renaming (σ : String → String) : Prop where
  inj : Function.Injective σ
  angles : ∀ n ∈ ["theta_0", "theta_ex", "phi_0", "phi_ex"], σ n = n

end

end RT1
