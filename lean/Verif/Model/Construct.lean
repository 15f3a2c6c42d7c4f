import Verif.Model.Objects

/-!
# Constructors

`Coordinates`, `Metric`, `Tensor` and their validation.
-/

namespace PyOGRe
variable {K : Type} [Zero K] [One K] [Add K] [Mul K]

/-- An argument of the type that `isinstance` checks for, or anything else. -/
inductive Arg (α : Type)
  | val (a : α)
  | other
  deriving DecidableEq

/-- The argument `indices`: missing (`None`), a tuple of integers, or something else. -/
inductive IndicesArg
  | none
  | tuple (l : List Int)
  | other
  deriving DecidableEq

/-- `OGReObject.py:369-415` `ValidateIndices(indices, components)`: the length check against the rank. -/
def validateIndicesRank (indices : IndicesArg) (rank : Nat) : Py Unit :=
  match indices with
  | .none => pure ()
  | .other => throw .typeError
  | .tuple l =>
    if l.any fun i => !(i == 1 || i == -1) then throw .indicesValueError
    else if rank ≠ l.length then throw .indicesDimensionError
    else pure ()

/-- `OGReObject.py:418-460` `ValidateOGReObject`; `shape` is the shape of the components when they are
an array. -/
def validateOGReObject (name : Arg String) (shape : Arg (List Nat)) (symbol : Arg String)
    (indices : IndicesArg) : Py Unit :=
  match name, symbol, shape with
  | .other, _, _ => throw .typeError
  | .val _, .other, _ => throw .typeError
  | .val _, .val _, .other => throw .typeError
  | .val _, .val _, .val s =>
    if s.any fun d => d != headDim s then throw .tensorDimensionError
    else match indices with
      | .other => throw .typeError
      | _ => validateIndicesRank indices s.length

/-- `Coordinates.py:562-602` `ValidateCoordinates`.  `rulesOk` says that every rule given to the
constructor is an equation or `None`. -/
def validateCoordinates (name : Arg String) (shape : Arg (List Nat)) (indices : IndicesArg)
    (symbol : Arg String) (rulesOk : Bool) : Py Unit := do
  validateOGReObject name shape symbol indices
  match indices, shape with
  | .tuple l, .val s =>
    if l ≠ [1] then throw .indicesValueError
    else if !rulesOk then throw .typeError
    else if s.length ≠ 1 then throw .valueError
    else pure ()
  | _, .val s => if s.length ≠ 1 then throw .valueError else pure ()
  | _, .other => throw .typeError

/-- `BaseTensor.py:556-581` `ValidateBaseTensor`; `n` is the number of coordinates. -/
def validateBaseTensor (name : Arg String) (shape : Arg (List Nat)) (n : Nat) (indices : IndicesArg)
    (symbol : Arg String) : Py Unit := do
  validateOGReObject name shape symbol indices
  match shape with
  | .other => throw .typeError
  | .val s => if s.any fun d => d != n then throw .tensorCoordinatesError else pure ()

/-- `sym.Matrix(components).is_symmetric()` for a square matrix. -/
def isSymmetric [DecidableEq K] (a : Arr K) : Bool :=
  (List.range (headDim a.shape)).all fun i => (List.range (headDim a.shape)).all fun j =>
    a.get [i, j] == a.get [j, i]

/-- `Metric.py:497-536` `ValidateMetric`.  For components that are not a square matrix the calls
`Matrix(components).det()` are taken to raise `ValueError`. -/
def validateMetric [DecidableEq K] (E : Engine K) (name : Arg String) (comps : Arg (Arr K))
    (indices : IndicesArg) (symbol : Arg String) : Py Unit :=
  match comps with
  | .other => throw .typeError
  | .val a => do
    validateOGReObject name (.val a.shape) symbol indices
    if a.shape.length ≠ 2 then throw .valueError
    else if E.det a = 0 ∨ isSymmetric a = false then throw .valueError
    else if indices = .tuple [1, -1] ∨ indices = .tuple [-1, 1] then throw .valueError
    else match indices with
      | .tuple l => if l.length ≠ 2 then throw .indicesDimensionError else pure ()
      | _ => pure ()

/-- A value of an argument that has passed validation. -/
def Arg.getD {α : Type} (x : Arg α) (d : α) : α := match x with
  | .val a => a
  | .other => d

/-- `self._indices` (`OGReObject.py:63`). -/
def IndicesArg.getD (x : IndicesArg) (rank : Nat) : List Int := match x with
  | .tuple l => l
  | _ => List.replicate rank (-1)

/-- Appending a new object to the heap and to the registry (`OGReObject.py:52`). -/
def register (f : Id' → Obj K) : PyM K Id' := fun w =>
  (.ok w.objs.length,
    { objs := w.objs ++ [f w.objs.length], instances := w.instances ++ [w.objs.length] })

/-- `Coordinates.py:45-82` `Coordinates.__init__`, without initial transformations.  `syms` are the
entries of the component array and `shape` its shape. -/
def newCoordinates (name : Arg String) (shape : Arg (List Nat)) (syms : List Sym) (indices : IndicesArg)
    (symbol : Arg String) : PyM K Id' := do
  PyM.lift (validateCoordinates name shape indices symbol true)
  register fun _ =>
    { kind := .coordinates, name := name.getD "", symbol := symbol.getD "", indices := indices.getD 1,
      coords := 0, metric := 0, comps := [], syms := syms, trans := [], jac := [], alive := true }

/-- The shape of the argument `components`, when it is an array. -/
def argShape (comps : Arg (Arr K)) : Arg (List Nat) := match comps with
  | .val a => .val a.shape
  | .other => .other

/-- `BaseTensor.py:34-77` and `Tensor.py:48-78`: the part of the constructors common to tensors.
`metric = none` means that the object is its own metric. -/
def newBaseTensor (kind : Kind) (name : Arg String) (comps : Arg (Arr K)) (metric : Option Id')
    (coords : Id') (indices : IndicesArg) (symbol : Arg String) : PyM K Id' := do
  if !(← isCoordinates coords) then PyM.raise .typeError
  else do
    let c ← getObj coords
    PyM.lift (validateBaseTensor name (argShape comps) c.syms.length indices symbol)
    let a := comps.getD ⟨[], []⟩
    let ix := indices.getD a.rank
    register fun i =>
      { kind := kind, name := name.getD "", symbol := symbol.getD "", indices := ix, coords := coords,
        metric := metric.getD i, comps := [(coords, [(ix, a)])], syms := [], trans := [], jac := [],
        alive := true }

/-- `isinstance(metric, Metric)`. -/
def isMetric (m : Id') : PyM K Bool := do
  let w ← PyM.world
  return (w.objs[m]?).any fun o => o.kind == .metric

/-- `Tensor.py:48-78` `Tensor.__init__`; `kind` is the class (`Tensor` or one derived from it). -/
def newTensor (kind : Kind) (name : Arg String) (comps : Arg (Arr K)) (metric coords : Id')
    (indices : IndicesArg) (symbol : Arg String) : PyM K Id' := do
  if !(← isMetric metric) then PyM.raise .typeError
  else newBaseTensor kind name comps (some metric) coords indices symbol

/-- `Metric.py:53-92` `Metric.__init__`.  With `indices=None` the expression
`tuple(-i for i in indices)` raises after the object has been registered. -/
def newMetric [DecidableEq K] (E : Engine K) (name : Arg String) (comps : Arg (Arr K)) (coords : Id')
    (indices : IndicesArg) (symbol : Arg String) : PyM K Id' := do
  PyM.lift (validateMetric E name comps indices symbol)
  let i ← newBaseTensor .metric name comps none coords indices symbol
  let o ← getObj i
  let d ← readComps i coords o.indices
  writeComps i coords [1, -1] (eye (headDim d.shape))
  let d ← readComps i coords o.indices
  writeComps i coords [-1, 1] (eye (headDim d.shape))
  match indices with
  | .tuple l => do
    let d ← readComps i coords o.indices
    let inv ← PyM.lift (E.inv d)
    writeComps i coords (negIndices l) inv
    return i
  | _ => PyM.raise .typeError

end PyOGRe
