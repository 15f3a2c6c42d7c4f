import Verif.Model.Utils

/-!
# Component computations

The parts of `Tensor._raise_lower`, `BaseTensor._transform_coordinates`,
`Coordinates._calculate_jacobian` and `Metric` that compute arrays from arrays, without the caches
(which are in `Verif/Model/World.lean` and its users).
-/

namespace PyOGRe
variable {K : Type}

/-- `sympy.eye(n)` as an array. -/
def eye [Zero K] [One K] (n : Nat) : Arr K :=
  Arr.ofFn [n, n] fun idx => match idx with
    | [i, j] => if i = j then 1 else 0
    | _ => 0

/-- `Tensor.py:144-170`: the matrix used for one axis, with the axis it is contracted with. -/
def axisMatrix [Zero K] [One K] (g ginv comps : Arr K) (initial target : Int) : List (Arr K) :=
  (if initial = -1 ∧ target = 1 then [ginv] else []) ++
  (if initial = 1 ∧ target = -1 then [g] else []) ++
  (if initial = target then [eye (headDim comps.shape)] else [])

/-- `Tensor.py:144-170`: the lists `to_contract` and `contraction_indices` zipped together. -/
def axisMatrices [Zero K] [One K] (g ginv comps : Arr K) (src tgt : List Int) : List (Arr K × Nat) :=
  (src.zip tgt).zipIdx.flatMap fun p =>
    (axisMatrix g ginv comps p.1.1 p.1.2).map fun m => (m, p.2)

/-- `Tensor.py:175-177`: `list(range(rank))` with `0` removed and inserted again at position `i`. -/
def moveFirstTo (rank i : Nat) : List Nat := ((List.range rank).erase 0).insertIdx i 0

/-- `Tensor.py:121-183` `_raise_lower`, the computation of the new components from the source
components, the metric `g` (indices (-1,-1)) and its inverse `ginv`. -/
def raiseLower [Zero K] [One K] [Add K] [Mul K] (E : Engine K) (g ginv : Arr K) (src tgt : List Int)
    (comps : Arr K) : Py (Arr K) := do
  let r ← (axisMatrices g ginv comps src tgt).zipIdx.foldlM (fun acc p => do
      let c ← contract E p.1.1 acc [(1, (p.1.2 : Int))]
      c.permutedims (moveFirstTo acc.rank p.2)) comps
  return r.map E.simp

/-- `expr.subs({lhs: rhs})` for the rules one after the other (`BaseTensor.py:158-160`). -/
def substRules (E : Engine K) (rules : List (Sym × K)) (x : K) : K :=
  rules.foldl (fun x r => E.subst r.1 r.2 x) x

/-- `BaseTensor.py:133-144`: the Jacobians to multiply with. -/
def jacobianFactors (J Jinv : Arr K) (indices : List Int) : List (Arr K) :=
  indices.flatMap fun i => (if i = 1 then [Jinv] else []) ++ (if i = -1 then [J] else [])

/-- `BaseTensor.py:133-144`: the pairs of axes to contract. -/
def jacobianPairs (rank : Nat) (indices : List Int) : List (Nat × Nat) :=
  indices.zipIdx.flatMap fun p =>
    (if p.1 = 1 then [(p.2, rank + 2 * p.2 + 1)] else []) ++
    (if p.1 = -1 then [(p.2, rank + 2 * p.2)] else [])

/-- `BaseTensor.py:109-170` `_transform_coordinates`, the computation of the transformed components.
`rules` are the transformation rules that are equations. -/
def transformComponents [Zero K] [Add K] [Mul K] (E : Engine K) (J Jinv : Arr K)
    (rules : List (Sym × K)) (indices : List Int) (comps : Arr K) : Py (Arr K) := do
  let prod := (jacobianFactors J Jinv indices).foldl Arr.tensorproduct comps
  let c ← prod.tensorcontraction (jacobianPairs indices.length indices)
  return (c.map (substRules E rules)).map E.simp

/-- `rule is not None and rule.lhs == c` (`Coordinates.py:265-267`). -/
def ruleIsFor (c : Sym) (r : Option (Sym × K)) : Bool := match r with
  | none => false
  | some r => r.1 == c

/-- `Coordinates.py:263-271`: for each old coordinate the rules whose left-hand side it is, or `None`.
A rule is `None` or an equation whose left-hand side is a symbol. -/
def orderedRules (old : List Sym) (rules : List (Option (Sym × K))) : List (Option (Sym × K)) :=
  old.flatMap fun c =>
    let found := rules.filter (ruleIsFor c)
    if found.isEmpty then [none] else found

/-- The three arrays cached for a transformation (`Coordinates.py:304-306`). -/
structure Jacobians (K : Type) where
  J : Arr K
  Jinv : Arr K
  JJ : Arr K
  deriving DecidableEq

/-- `Coordinates.py:273-285`: the entry of the Jacobian at an index. -/
def jacobianEntry [Zero K] [One K] (E : Engine K) (new : List Sym) (ordered : List (Option (Sym × K))) :
    List Nat → K
  | [i, j] => match ordered.getD i none with
    | none => if j = i then 1 else 0
    | some r => E.diff (new.getD j "") r.2
  | _ => 0

/-- `Coordinates.py:287-299`: the entry of the array of second derivatives at an index. -/
def jacobianEntry2 [Zero K] (E : Engine K) (new : List Sym) (ordered : List (Option (Sym × K))) :
    List Nat → K
  | [i, j, k] => match ordered.getD i none with
    | none => 0
    | some r => E.diff (new.getD k "") (E.diff (new.getD j "") r.2)
  | _ => 0

/-- `Coordinates.py:247-306` `_calculate_jacobian`: Jacobian, inverse Jacobian and second derivatives.
`other_coordinates[j]` beyond the end raises `ValueError`. -/
def calculateJacobian [Zero K] [One K] (E : Engine K) (old new : List Sym)
    (rules : List (Option (Sym × K))) : Py (Jacobians K) := do
  let ordered := orderedRules old rules
  let m := ordered.length
  let _ ← zeroTensor (K := K) m 2
  if new.length < m ∧ ordered.any Option.isSome then throw .valueError
  else
    let J : Arr K := Arr.ofFn [m, m] (jacobianEntry E new ordered)
    let JJ : Arr K := Arr.ofFn [m, m, m] (jacobianEntry2 E new ordered)
    let J := J.map E.simp
    let Jinv ← E.inv J
    return ⟨J, Jinv.map E.simp, JJ.map E.simp⟩

/-- `Christoffel.py:81-137`: the transformed Christoffel symbols: the tensor transformation plus the
inverse Jacobian times the second derivatives, whatever the configuration.  The code substitutes
`sym.solve(rule, x_i)[0]` for `x_i`, where `rule` is `x_i = value`; this is taken to be `value`. -/
def transformChristoffel [Zero K] [Add K] [Mul K] (E : Engine K) (j : Jacobians K)
    (ordered : List (Option (Sym × K))) (indices : List Int) (comps : Arr K) : Py (Arr K) := do
  let prod := (jacobianFactors j.J j.Jinv indices).foldl Arr.tensorproduct comps
  let c ← prod.tensorcontraction (jacobianPairs indices.length indices)
  let extra ← (Arr.tensorproduct j.Jinv j.JJ).tensorcontraction [(1, 2)]
  let s ← c.add extra
  return (s.map (substRules E (ordered.filterMap id))).map E.simp

/-- `Metric.py:144-164`: `tensorcontraction(tensorproduct(a, b), (p, q))`, the mixed representations. -/
def mixedMetric [Zero K] [Add K] [Mul K] (a b : Arr K) (p q : Nat) : Py (Arr K) :=
  (Arr.tensorproduct a b).tensorcontraction [(p, q)]

end PyOGRe
