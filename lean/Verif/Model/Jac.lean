import Verif.Model.Expr

/-!
# Layout of the scipy jacobian

Models the branch `format == "scipy_least_squares"` of `jacobian` (_calc.py 1571-1592).
-/

namespace RT1.Jac

noncomputable section
open Classical

/-- All indices of a shape in C order (last axis runs fastest; lists have the last axis first). -/
def indices : List ℕ → List (List ℕ)
  | [] => [[]]
  | n :: s => (indices s).flatMap fun r => (List.range n).map fun i => i :: r

/-- `j.ravel()` -/
def ravel (j : Arr) : List XR := (indices j.shape).map j.get

/-- The entries of `j.tolist()` as blocks for `block_diag`, each block a list of rows: scipy
applies `np.atleast_2d` to the numbers and lists, so numbers are 1x1 blocks, lists are blocks with
one row, lists of lists are blocks with several rows (an empty list is a block with one empty
row).  Lists of deeper nesting have no two-dimensional shape and are an error. -/
def blocks (j : Arr) : Py (List (List (List XR))) :=
  match j.shape with
  | [n] => .ok ((List.range n).map fun k => [[j.get [k]]])
  | [k, n] => .ok ((List.range n).map fun r => [(List.range k).map fun i => j.get [i, r]])
  | [k, m, n] => .ok ((List.range n).map fun r =>
      if m = 0 then [[]] else (List.range m).map fun q => (List.range k).map fun i => j.get [i, q, r])
  | _ => .error .valueError

/-- Number of columns of a block. -/
def width (b : List (List XR)) : ℕ := (b.headD []).length

/-- The rows of `block_diag(blocks)`: `pre` zeros, the row of the block, zeros. -/
def blockRows (pre : ℕ) : List (List (List XR)) → List (List XR)
  | [] => []
  | b :: bs =>
    (b.map fun row => List.replicate pre (XR.fin 0) ++ row ++
      List.replicate (bs.map width).sum (XR.fin 0)) ++ blockRows (pre + width b) bs

/-- The rows contributed by one parameter (_calc.py 1577-1589). -/
def rowsOf (v : Arr) (j : Arr) : Py (List (List XR)) :=
  if v.sizeOne = true then .ok [ravel j]
  else do
    let bs ← blocks j
    .ok (blockRows 0 bs)

/-- All rows `jac_columns` (_calc.py 1575-1589). -/
def allRows (pd : Dict) : List (String × Arr) → Py (List (List XR))
  | [] => .ok []
  | (k, j) :: l => do
    match pd.get? k with
    | none => .error .keyError
    | some v => do
      let r ← rowsOf v j
      let rs ← allRows pd l
      .ok (r ++ rs)

/-- `vstack(jac_columns).T` (_calc.py 1592), represented by the columns of the result;
`vstack` needs rows of equal length (and at least one row). -/
def columns (pd : Dict) (l : List (String × Arr)) : Py (List (List XR)) := do
  let rs ← allRows pd l
  match rs with
  | [] => .error .valueError
  | r :: rest => if ∀ x ∈ rest, x.length = r.length then .ok (r :: rest) else .error .valueError

end

end RT1.Jac
