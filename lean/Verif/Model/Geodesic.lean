import Verif.Model.Curvature

/-!
# Lagrangians and geodesic equations

`CalcLagrangian`, `CalcGeodesicFromLagrangian`, `CalcGeodesicFromChristoffel` and
`CalcGeodesicWithTimeParameter` of `Calc.py`, and the classes of `Lagrangian.py` and `Geodesic.py`: how their
components are transformed and returned.  The expressions of sympy are elements of `K`; what sympy does with
functions of the curve parameter is a structure of operations about which nothing is assumed here.
-/

namespace PyOGRe
variable {K : Type}

/-- What sympy does with symbols and with functions of the curve parameter. -/
structure Curves (K : Type) where
  /-- `sym.Symbol(s)`. -/
  var : Sym → K
  /-- `options.CURVE_PARAMETER` (`Options.py:31`, set by `Options.py:211-259`). -/
  parameter : Sym
  /-- `expr.subs(coords._coord_functions(parameter))` (`Coordinates.py:103-162`): coordinates and their first and
  second derivatives become functions of the parameter, except for those called like the parameter. -/
  asFunctions : Sym → List Sym → K → K
  /-- `expr.diff(sym.Function(s)(parameter))` (`Calc.py:1510-1512`). -/
  byFunction : Sym → K → K
  /-- `expr.diff(parameter, evaluate=True)` (`Calc.py:1517`). -/
  rate : K → K
  /-- `expr.diff(parameter, evaluate=False)` (`Calc.py:1531`). -/
  later : K → K
  /-- The substitution of symbols for functions and their derivatives (`Calc.py:1531-1550`). -/
  asSymbols : List Sym → K → K
  /-- `substitute_dot` (`Lagrangian.py:130-149`): the derivative of an expression in the given coordinates along
  a curve, with symbols for the coordinates and their derivatives. -/
  velocity : List Sym → K → K
  /-- `Calc.py:1556-1562`: `sym.cancel`, and of a product of two factors the one that is a reciprocal is
  dropped. -/
  clear : K → K

/-- `str(coord) + "dot"` and `str(coord) + "ddot"` (`Calc.py:1419`, `1643`). -/
def dot (s : Sym) : Sym := s ++ "dot"
def ddot (s : Sym) : Sym := s ++ "ddot"

/-- The classes derived from `Lagrangian` (`Lagrangian.py:24`, `Geodesic.py:24`, `216`, `408`). -/
def Kind.isLagrangian : Kind → Bool
  | .lagrangian | .geodesicLagrangian | .geodesicChristoffel | .geodesicTime => true
  | _ => false

section
variable [Zero K] [One K] [Add K] [Mul K]

/-- The transformation rules with the rates of change (`Lagrangian.py:123-156`); `subs` with several rules applies
them one after the other. -/
def substCurve (E : Engine K) (C : Curves K) (syms : List Sym) (rules : List (Sym × K)) (x : K) : K :=
  rules.foldl (fun x r => E.subst (dot r.1) (C.velocity syms r.2) (E.subst r.1 r.2 x)) x

/-- `Lagrangian.py:57-169` `_transform_coordinates` of a `Lagrangian`. -/
def lagrangianTransform (E : Engine K) (C : Curves K) (self coords : Id') (indices : List Int) : PyM K Unit := do
  let o ← getObj self
  checkJacobians E o.coords coords
  let comps ← readComps self o.coords indices
  let c ← getObj o.coords
  let j ← lookup c.jac coords
  let rules ← lookup c.trans coords
  let a ← PyM.lift (needArray (o.isArray o.coords)
    (((jacobianFactors j.J j.Jinv indices).foldl Arr.tensorproduct comps).tensorcontraction
      (jacobianPairs indices.length indices)))
  let n ← getObj coords
  ensureCoords self coords
  writeComps self coords indices ((a.map (substCurve E C n.syms (eqRules rules))).map E.simp)

/-- `Geodesic.py:57-213`, `249-405`, `441-597` `_transform_coordinates` of the three classes of geodesic
equations.  The last loop runs over the components in the old coordinates and overwrites every component of the
transformed tensor, of which therefore only the exceptions matter (the substitutions raise none and are left
out). -/
def geodesicTransform (E : Engine K) (C : Curves K) (self coords : Id') (indices : List Int) : PyM K Unit := do
  let o ← getObj self
  checkJacobians E o.coords coords
  let comps ← readComps self o.coords indices
  let c ← getObj o.coords
  let j ← lookup c.jac coords
  let _ ← lookup c.trans coords
  let _ ← PyM.lift (((jacobianFactors j.J j.Jinv indices).foldl Arr.tensorproduct comps).tensorcontraction
    (jacobianPairs indices.length indices))
  let _ ← getObj coords
  ensureCoords self coords
  writeComps self coords indices ((comps.map C.clear).map E.simp)

/-- `_transform_coordinates` of a `Lagrangian` or geodesic equation. -/
def curveTransform (E : Engine K) (C : Curves K) (self coords : Id') (indices : List Int) : PyM K Unit := do
  let o ← getObj self
  match o.kind with
  | .lagrangian => lagrangianTransform E C self coords indices
  | _ => geodesicTransform E C self coords indices

/-- `BaseTensor.py:83-107` `_get_representation` of a `Lagrangian` or geodesic equation. -/
def curveRepresentation (E : Engine K) (C : Curves K) (self coords : Id') (indices : List Int) : PyM K (Arr K) := do
  if !(← isCoordinates coords) then PyM.raise .typeError
  else do
    let o ← getObj self
    PyM.lift (validateIndices indices o.indices)
    PyM.onlyIf (!(← tensorCheck E self coords indices)) (curveTransform E C self coords indices)
    readComps self coords indices

/-- The parameter of the functions that are substituted for the coordinates: the first coordinate for a
`GeodesicTime` (`Geodesic.py:942`), the curve parameter for the others (`Lagrangian.py:494`). -/
def curveParameter (C : Curves K) (kind : Kind) (syms : List Sym) : Sym :=
  match kind with
  | .geodesicTime => syms.getD 0 ""
  | _ => C.parameter

/-- `Lagrangian.py:427-510`, `Geodesic.py:869-959` `get_components`, in the mode `"sympy"` and without `replace`
and `function`. -/
def curveComponents (E : Engine K) (C : Curves K) (self : Id') (coords : Option Id') (indices : Option (List Int)) :
    PyM K (Arr K) := do
  let o ← getObj self
  let comps ← curveRepresentation E C self (coords.getD o.coords) (indices.getD o.indices)
  let c ← getObj (coords.getD o.coords)
  return comps.map (C.asFunctions (curveParameter C o.kind c.syms) c.syms)

/-- `BaseTensor.py:429-456` `change_default_coords` of a `Lagrangian` or geodesic equation. -/
def curveChangeCoords (E : Engine K) (C : Curves K) (self coords : Id') : PyM K Unit := do
  if !(← isCoordinates coords) then PyM.raise .typeError
  else do
    let o ← getObj self
    if coords = o.coords then pure ()
    else do
      let c ← getObj o.coords
      if !c.trans.has coords then do
        let _ ← getObj coords
        PyM.raise .transformationError
      else do
        PyM.onlyIf (!(← tensorCheck E self coords o.indices)) (curveTransform E C self coords o.indices)
        modifyObj self fun o => { o with coords := coords }

/-- `for instance in metric._instances: if isinstance(instance, cls) and instance._name == name: ...`
(`Calc.py:1408-1412`, `1479-1483`, `1611-1615`, `1713-1717`): if there is such an object, it is returned in the
requested coordinates. -/
def unlessCurve (E : Engine K) (C : Curves K) (sel : Kind → Bool) (name : String) (coords : Id') (m : PyM K Id') :
    PyM K Id' := do
  let w ← PyM.world
  match w.instances.find? fun i => (w.objs[i]?).any fun o => sel o.kind && o.name == name with
  | some t => do
    let o ← getObj t
    PyM.onlyIf (o.coords != coords) (curveChangeCoords E C t coords)
    return t
  | none => m

/-- `isinstance(coords, Coordinates)` or `None`, else `TypeError` (`Calc.py:1400-1403`). -/
def requireCoords (coords : Option Id') : PyM K Unit := do
  if !(← coords.elim (pure true) isCoordinates) then PyM.raise .typeError else pure ()

/-- A vector of expressions. -/
def vectorOf (l : List K) : Arr K := ⟨[l.length], l⟩

end

variable [CommRing K] [DecidableEq K] [Algebra ℚ K]

/-- The end of these functions: the result is stored as a new object of class `kind`, temporary tensors are
deleted, and then the tensors `t`. -/
def storeCurve (kind : Kind) (name : String) (comps : Arr K) (metric coords : Id') (ix : List Int) (symbol : String)
    (t : List Id') : PyM K Id' := do
  let r ← newTensor kind (.val name) (.val comps) metric coords (.tuple ix) (.val symbol)
  deleteTemps
  t.forM deleteObj
  return r

/-- `Calc.py:1414-1455`: the computation in `CalcLagrangian`. -/
def computeLagrangian (E : Engine K) (C : Curves K) (m c : Id') : PyM K Id' := do
  let oc ← getObj c
  let v ← newTemp (vectorOf (oc.syms.map fun s => C.var (dot s))) m c [1] "T"
  let x ← productOf E v ["mu"] v ["mu"]
  let t ← calcResult E x "Result" "" []
  let comps ← getComponents E t none none
  let om ← getObj m
  storeCurve .lagrangian (om.name ++ " Lagrangian") comps m c [] "L" [t]

/-- `Calc.py:1387-1455` `CalcLagrangian`.  The class `Lagrangian` includes those derived from it.  Simplification, here and in
the following functions: the name of the metric is read in any case.  (With a deleted metric and given coordinates, Python
reads it only if there is an object of the class, and may leave a temporary tensor before it raises.) -/
def calcLagrangian (E : Engine K) (C : Curves K) (m : Id') (coords : Option Id') : PyM K Id' := do
  requireMetric m
  requireCoords coords
  let om ← getObj m
  unlessCurve E C Kind.isLagrangian (om.name ++ " Lagrangian") (coords.getD om.coords)
    (computeLagrangian E C m (coords.getD om.coords))

/-- `Calc.py:1487-1551`: the equations of Euler and Lagrange, with symbols for the functions. -/
def eulerLagrange (C : Curves K) (syms : List Sym) (L : K) : List K :=
  syms.map fun s => C.asSymbols syms (C.rate (C.byFunction (dot s) (ratExpr (1 / 2) * L)) -
    C.byFunction s (ratExpr (1 / 2) * L))

/-- `Calc.py:1485-1587`: the computation in `CalcGeodesicFromLagrangian` with `activate=True`; with `activate=False` see
`computeGeodesicInactive`. -/
def computeGeodesicLagrangian (E : Engine K) (C : Curves K) (m c : Id') : PyM K Id' := do
  let l ← calcLagrangian E C m (some c)
  let L ← curveComponents E C l (some c) none
  let oc ← getObj c
  let om ← getObj m
  storeCurve .geodesicLagrangian (om.name ++ " Geodesic From Lagrangian")
    (vectorOf ((eulerLagrange C oc.syms (L.get [])).map fun x => E.simp (C.clear x))) m c [1] "0" []

/-- `Calc.py:1458-1587` `CalcGeodesicFromLagrangian`. -/
def calcGeodesicLagrangian (E : Engine K) (C : Curves K) (m : Id') (coords : Option Id') : PyM K Id' := do
  requireMetric m
  requireCoords coords
  let om ← getObj m
  unlessCurve E C (· == .geodesicLagrangian) (om.name ++ " Geodesic From Lagrangian") (coords.getD om.coords)
    (computeGeodesicLagrangian E C m (coords.getD om.coords))

/-- `Calc.py:1485-1587` with `activate=False`: the derivative by the parameter is left as it is, and the components are
not simplified. -/
def computeGeodesicInactive (E : Engine K) (C : Curves K) (m c : Id') : PyM K Id' := do
  let l ← calcLagrangian E C m (some c)
  let L ← curveComponents E C l (some c) none
  let oc ← getObj c
  let om ← getObj m
  storeCurve .geodesicLagrangian (om.name ++ " Geodesic From Lagrangian")
    (vectorOf (oc.syms.map fun s => C.asSymbols oc.syms (C.later (C.byFunction (dot s) (ratExpr (1 / 2) * L.get [])) -
      C.byFunction s (ratExpr (1 / 2) * L.get [])))) m c [1] "0" []

/-- `Calc.py:1458-1587` `CalcGeodesicFromLagrangian` with `activate=False`. -/
def calcGeodesicInactive (E : Engine K) (C : Curves K) (m : Id') (coords : Option Id') : PyM K Id' := do
  requireMetric m
  requireCoords coords
  let om ← getObj m
  unlessCurve E C (· == .geodesicLagrangian) (om.name ++ " Geodesic From Lagrangian") (coords.getD om.coords)
    (computeGeodesicInactive E C m (coords.getD om.coords))

/-- `Calc.py:1617-1689`: the computation in `CalcGeodesicFromChristoffel`. -/
def computeGeodesicChristoffel (E : Engine K) (C : Curves K) (m c : Id') : PyM K Id' := do
  let oc ← getObj c
  let g ← calcChristoffel E m
  let v ← newTemp (vectorOf (oc.syms.map fun s => C.var (dot s))) m c [1] "T"
  let a ← newTemp (vectorOf (oc.syms.map fun s => C.var (ddot s))) m c [1] "T"
  let x ← calcInit E a ["sigma"]
  let y ← productOf E g ["sigma", "mu", "nu"] v ["mu"]
  let z ← calcInit E v ["nu"]
  let y ← matmulTensors E y z
  let x ← calcAddObj E x y
  let t ← calcResult E x "Result" "" []
  let comps ← getComponents E t none none
  let om ← getObj m
  storeCurve .geodesicChristoffel (om.name ++ " Geodesic From Christoffel") ((comps.map C.clear).map E.simp) m c [1]
    "0" [t]

/-- `Calc.py:1590-1689` `CalcGeodesicFromChristoffel`. -/
def calcGeodesicChristoffel (E : Engine K) (C : Curves K) (m : Id') (coords : Option Id') : PyM K Id' := do
  requireMetric m
  requireCoords coords
  let om ← getObj m
  unlessCurve E C (· == .geodesicChristoffel) (om.name ++ " Geodesic From Christoffel") (coords.getD om.coords)
    (computeGeodesicChristoffel E C m (coords.getD om.coords))

/-- `components[(0, slice(0, None), slice(0, None))]` (`Calc.py:1756`). -/
def firstSlice (a : Arr K) : Arr K := Arr.ofFn a.shape.tail fun idx => a.get (0 :: idx)

/-- `Calc.py:1719-1805`: the computation in `CalcGeodesicWithTimeParameter`.  An object found under the name of the
Christoffel symbols may be a coordinate system, whose `get_components` has no argument `coords`. -/
def computeGeodesicTime (E : Engine K) (C : Curves K) (m c : Id') : PyM K Id' := do
  let oc ← getObj c
  let g ← calcChristoffel E m
  let v ← newTemp (vectorOf (oc.syms.zipIdx.map fun s => if s.2 ≠ 0 then C.var (dot s.1) else 1)) m c [1] "T"
  let a ← newTemp (vectorOf (oc.syms.zipIdx.map fun s => if s.2 ≠ 0 then C.var (ddot s.1) else 0)) m c [1] "T"
  requireTensor g
  let comps ← getComponents E g (some c) none
  let g0 ← newTemp (firstSlice comps) m c [-1, -1] "T"
  let x ← calcInit E a ["sigma"]
  let y ← calcInit E g ["sigma", "mu", "nu"]
  let z ← productOf E g0 ["mu", "nu"] v ["sigma"]
  let y ← calcSub E y (.obj z)
  let z ← calcInit E v ["mu"]
  let y ← matmulTensors E y z
  let z ← calcInit E v ["nu"]
  let y ← matmulTensors E y z
  let x ← calcAddObj E x y
  let t ← calcResult E x "Result" "" []
  let comps ← getComponents E t none none
  let om ← getObj m
  storeCurve .geodesicTime (om.name ++ " Geodesic With Time Parameter") ((comps.map C.clear).map E.simp) m c [1] "0"
    [t]

/-- `Calc.py:1692-1805` `CalcGeodesicWithTimeParameter`. -/
def calcGeodesicTime (E : Engine K) (C : Curves K) (m : Id') (coords : Option Id') : PyM K Id' := do
  requireMetric m
  requireCoords coords
  let om ← getObj m
  unlessCurve E C (· == .geodesicTime) (om.name ++ " Geodesic With Time Parameter") (coords.getD om.coords)
    (computeGeodesicTime E C m (coords.getD om.coords))

end PyOGRe
