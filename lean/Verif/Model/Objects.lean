import Verif.Model.World

/-!
# Representations of tensors: caches

`Coordinates.py`, `BaseTensor.py`, `Metric.py`, `Tensor.py` and `Christoffel.py`: how components in a
requested representation are found, computed and cached.
-/

namespace PyOGRe
variable {K : Type} [Zero K] [One K] [Add K] [Mul K]

/-- `Coordinates.py:247-306` `_calculate_jacobian`. -/
def calcJacobian (E : Engine K) (self coords : Id') : PyM K Unit := do
  let o ← getObj self
  let c ← getObj coords
  let rules ← lookup o.trans coords
  let j ← PyM.lift (calculateJacobian E o.syms c.syms rules)
  modifyObj self fun o => { o with jac := o.jac.set coords j }

/-- `Coordinates.py:228-245` `_check_jacobians`. -/
def checkJacobians (E : Engine K) (self coords : Id') : PyM K Unit := do
  let o ← getObj self
  if o.jac.has coords then pure ()
  else if o.trans.has coords then calcJacobian E self coords
  else do
    let _ ← getObj coords
    PyM.raise .transformationError

/-- The rules that are equations: `if isinstance(rule, sym.Eq)` (`BaseTensor.py:159`). -/
def eqRules (rules : List (Option (Sym × K))) : List (Sym × K) := rules.filterMap id

/-- `sym.tensorcontraction` asks its argument for its rank (`BaseTensor.py:152`, `Lagrangian.py:101`), which an
expression that is not an array does not have. -/
def needArray {α : Type} (b : Bool) (x : Py α) : Py α := if b then x else .error .attributeError

theorem needArray_inv {α : Type} {b : Bool} {x : Py α} {a : α} (h : needArray b x = .ok a) : b = true ∧ x = .ok a := by
  unfold needArray at h
  split_ifs at h with hb
  exact ⟨hb, h⟩

theorem needArray_true {α : Type} {b : Bool} (hb : b = true) (x : Py α) : needArray b x = x := if_pos hb

/-- `BaseTensor.py:109-170` `_transform_coordinates`. -/
def baseTransform (E : Engine K) (self coords : Id') (indices : List Int) : PyM K Unit := do
  let o ← getObj self
  checkJacobians E o.coords coords
  let comps ← readComps self o.coords indices
  let c ← getObj o.coords
  let j ← lookup c.jac coords
  let rules ← lookup c.trans coords
  let a ← PyM.lift (needArray (o.isArray o.coords) (transformComponents E j.J j.Jinv (eqRules rules) indices comps))
  ensureCoords self coords
  writeComps self coords indices a

/-- `tuple(-i for i in indices)`. -/
def negIndices (indices : List Int) : List Int := indices.map fun i => -i

/-- `Metric.py:130-164` `_transform_coordinates`.  The configurations of a metric have two entries;
`self._indices` is the default configuration. -/
def metricTransform (E : Engine K) (self coords : Id') (indices : List Int) : PyM K Unit := do
  baseTransform E self coords indices
  let o ← getObj self
  let d ← readComps self coords o.indices
  let inv ← PyM.lift (E.inv d)
  writeComps self coords (negIndices indices) inv
  let i0 := indices.getD 0 0
  let i1 := indices.getD 1 0
  let a ← readComps self coords (negIndices indices)
  let b ← readComps self coords indices
  let m ← PyM.lift (mixedMetric a b 1 3)
  writeComps self coords [i0, -i1] m
  let a ← readComps self coords (negIndices indices)
  let b ← readComps self coords indices
  let m ← PyM.lift (mixedMetric a b 0 2)
  writeComps self coords [-i0, i1] m

/-- `Metric.py:118-128` `_check_representation`. -/
def metricCheck (self coords : Id') : PyM K Bool := do
  let o ← getObj self
  return o.comps.has coords

/-- `Tensor.py:121-183` `_raise_lower`.  The source is the first stored representation;
`list(...)[0]` of an empty dictionary raises `IndexError`. -/
def tensorRaiseLower (E : Engine K) (self coords : Id') (indices : List Int) : PyM K Unit := do
  let o ← getObj self
  PyM.onlyIf (!(← metricCheck o.metric coords)) (metricTransform E o.metric coords [-1, -1])
  let o ← getObj self
  let d ← lookup o.comps coords
  match d with
  | [] => PyM.raise .indexError
  | (src, comps) :: _ =>
    let g ← readComps o.metric coords [-1, -1]
    let ginv ← readComps o.metric coords [1, 1]
    let a ← PyM.lift (raiseLower E g ginv src indices comps)
    writeComps self coords indices a

/-- `Tensor.py:104-119` `_check_representation`. -/
def tensorCheck (E : Engine K) (self coords : Id') (indices : List Int) : PyM K Bool := do
  let o ← getObj self
  match o.comps.get? coords with
  | none => return false
  | some d =>
    PyM.onlyIf (!d.has indices) (tensorRaiseLower E self coords indices)
    return true

/-- `Tensor.py:185-197` `_transform_coordinates`. -/
def tensorTransform (E : Engine K) (self coords : Id') (indices : List Int) : PyM K Unit := do
  let o ← getObj self
  PyM.onlyIf (!(← tensorCheck E self o.coords indices)) (tensorRaiseLower E self o.coords indices)
  baseTransform E self coords indices

/-- `OGReObject.py:369-415` `ValidateIndices(indices, source_indices)` for a tuple of integers. -/
def validateIndices (indices source : List Int) : Py Unit :=
  if indices.any fun i => !(i == 1 || i == -1) then throw .indicesValueError
  else if source.length ≠ indices.length then throw .indicesDimensionError
  else pure ()

/-- `Christoffel.py:52-142` `_transform_coordinates`. -/
def christoffelTransform (E : Engine K) (self coords : Id') (indices : List Int) : PyM K Unit := do
  let o ← getObj self
  checkJacobians E o.coords coords
  let c ← getObj o.coords
  let comps ← readComps self o.coords indices
  let j ← lookup c.jac coords
  let rules ← lookup c.trans coords
  let a ← PyM.lift (transformChristoffel E j (orderedRules c.syms rules) indices comps)
  ensureCoords self coords
  writeComps self coords indices a

/-- `_check_representation`: `Metric.py:118-128`, `Tensor.py:104-119`. -/
def checkRepresentation (E : Engine K) (self coords : Id') (indices : List Int) : PyM K Bool := do
  let o ← getObj self
  match o.kind with
  | .metric => metricCheck self coords
  | _ => tensorCheck E self coords indices

/-- `_transform_coordinates`: `Metric.py:130-164`, `Tensor.py:185-197`, `Christoffel.py:52-142`.
Lagrangians and geodesics have their own versions, which are modelled in `Model/Geodesic.lean`. -/
def transformCoordinates (E : Engine K) (self coords : Id') (indices : List Int) : PyM K Unit := do
  let o ← getObj self
  match o.kind with
  | .metric => metricTransform E self coords indices
  | .christoffel => christoffelTransform E self coords indices
  | _ => tensorTransform E self coords indices

/-- `isinstance(coords, Coordinates)`. -/
def isCoordinates (coords : Id') : PyM K Bool := do
  let w ← PyM.world
  return (w.objs[coords]?).any fun o => o.kind == .coordinates

/-- `BaseTensor.py:83-107` `_get_representation`. -/
def getRepresentation (E : Engine K) (self coords : Id') (indices : List Int) : PyM K (Arr K) := do
  if !(← isCoordinates coords) then PyM.raise .typeError
  else do
    let o ← getObj self
    PyM.lift (validateIndices indices o.indices)
    PyM.onlyIf (!(← checkRepresentation E self coords indices))
      (transformCoordinates E self coords indices)
    readComps self coords indices

/-- `BaseTensor.py:458-514` `get_components`, in the mode `"sympy"` and without `replace` and
`function`. -/
def getComponents (E : Engine K) (self : Id') (coords : Option Id') (indices : Option (List Int)) :
    PyM K (Arr K) := do
  let o ← getObj self
  getRepresentation E self (coords.getD o.coords) (indices.getD o.indices)

/-- `BaseTensor.py:410-427` `change_default_indices`. -/
def changeDefaultIndices (E : Engine K) (self : Id') (indices : List Int) : PyM K Unit := do
  let o ← getObj self
  PyM.lift (validateIndices indices o.indices)
  PyM.onlyIf (← checkRepresentation E self o.coords indices)
    (modifyObj self fun o => { o with indices := indices })

/-- `BaseTensor.py:429-456` `change_default_coords`. -/
def changeDefaultCoords (E : Engine K) (self coords : Id') : PyM K Unit := do
  if !(← isCoordinates coords) then PyM.raise .typeError
  else do
    let o ← getObj self
    if coords = o.coords then pure ()
    else do
      let c ← getObj o.coords
      if !c.trans.has coords then do
        let _ ← getObj coords
        PyM.raise .transformationError
      else do
        PyM.onlyIf (!(← checkRepresentation E self coords o.indices))
          (transformCoordinates E self coords o.indices)
        modifyObj self fun o => { o with coords := coords }

/-- `Coordinates.py:406-485` `add_coord_transformation`; `rules = none` removes the transformation. -/
def addCoordTransformation (self coords : Id') (rules : Option (List (Option (Sym × K)))) :
    PyM K Unit := do
  if !(← isCoordinates coords) then PyM.raise .transformationError
  else if self = coords then PyM.raise .transformationError
  else do
    let o ← getObj self
    match rules with
    | none => do
      let _ ← lookup o.trans coords
      modifyObj self fun o => { o with trans := o.trans.del coords }
    | some rules => modifyObj self fun o => { o with trans := o.trans.set coords rules }

end PyOGRe
