import Verif.Model.Registry
import Mathlib.Algebra.Algebra.Defs
import Mathlib.Algebra.Algebra.Rat

/-!
# Tensor formulae: `Calc.py`

Index labels are symbols; splitting the string that the user writes is not modelled.
-/

namespace PyOGRe
variable {K : Type} [CommRing K]

/-- `CalcObject.role`. -/
inductive Role
  | tensor | partialD | covariantD
  deriving DecidableEq, Repr

/-- `CalcObject` (`Calc.py:28-141`): the labels of a `CalcObject` are a tuple of symbols, `()` or `""`, the
latter two being the empty list here.  Only derivatives have no tensor. -/
structure CalcObj where
  role : Role
  tensor : Option Id'
  labels : List Sym
  deriving DecidableEq, Repr

/-- `tuple[i]`. -/
def tupleGet {α : Type} (l : List α) (i : Nat) : Py α := match l[i]? with
  | some x => .ok x
  | none => .error .indexError

/-- `symbols[label]` in the dictionary `{symbol: i for i, symbol in enumerate(labels)}`.  The labels of a
`CalcObject` are distinct (`calcInit` contracts repeated ones). -/
def labelPos (labels : List Sym) (s : Sym) : Py Nat :=
  if s ∈ labels then .ok (labels.idxOf s) else .error .keyError

/-- The attributes of `x.tensor`; `None` has none. -/
def tensorOf (x : CalcObj) : PyM K (Id' × Obj K) := match x.tensor with
  | none => PyM.raise .attributeError
  | some t => do
    let o ← getObj t
    return (t, o)

/-- `getattr(x.tensor, "_metric", None)`. -/
def metricAttr (x : CalcObj) : PyM K (Option Id') := fun w =>
  (.ok (x.tensor.bind fun t => (w.objs[t]?).bind fun o => if o.alive then some o.metric else none), w)

/-- `Tensor(name="TEMP", components, metric, coords, indices)`. -/
def newTemp (a : Arr K) (metric coords : Id') (indices : List Int) (symbol : String) : PyM K Id' :=
  newTensor .tensor (.val "TEMP") (.val a) metric coords (.tuple indices) (.val symbol)

/-- The positions of a label (`Calc.py:91-95`). -/
def positionsOf (labels : List Sym) (s : Sym) : List Nat :=
  (List.range labels.length).filter fun i => labels.getD i "" == s

/-- `Calc.py:83-137`: one round of the loop in `CalcObject.__init__`, for one symbol; the state is the
current tensor and the current labels. -/
def traceStep (E : Engine K) (s : Sym) (t : Id') (labels : List Sym) : PyM K (Id' × List Sym) :=
  let count := labels.count s
  if count > 2 then PyM.raise .valueError
  else if count = 2 then do
    let p0 := (positionsOf labels s).getD 0 0
    let p1 := (positionsOf labels s).getD 1 0
    let o ← getObj t
    let i0 ← PyM.lift (tupleGet o.indices p0)
    let i1 ← PyM.lift (tupleGet o.indices p1)
    let g ← getComponents E o.metric none (some [-i0, -i1])
    let a ← getComponents E t none none
    let tr ← PyM.lift (contract E g a [(0, (p0 : Int)), (1, (p1 : Int))])
    let o ← getObj t
    let ix := (o.indices.zipIdx.filter fun p => p.2 != p0 && p.2 != p1).map (·.1)
    let t' ← newTemp tr o.metric o.coords ix o.symbol
    return (t', labels.filter fun x => x != s)
  else return (t, labels)

/-- `Calc.py:83-137`: the loop, over the labels as they were at the start. -/
def traceLoop (E : Engine K) : List Sym → Id' → List Sym → PyM K (Id' × List Sym)
  | [], t, labels => return (t, labels)
  | s :: rest, t, labels => do
    let r ← traceStep E s t labels
    traceLoop E rest r.1 r.2

/-- `Calc.py:60-63`: `isinstance(tensor, (Metric, Tensor))`, else `TypeError`; all classes but that of the
coordinate systems are among them or derived from them. -/
def requireTensor (t : Id') : PyM K Unit := fun w =>
  if (w.objs[t]?).any fun o => o.kind == .coordinates then (.error .typeError, w) else (.ok (), w)

/-- `Calc.py:49-141` `CalcObject.__init__` for a tensor; this is also what calling a tensor or metric with
labels does (`Tensor.py:84-98`, `Metric.py:98-112`). -/
def calcInit (E : Engine K) (t : Id') (labels : List Sym) : PyM K CalcObj := do
  requireTensor t
  let o ← getObj t
  let a ← getComponents E t none none
  PyM.lift (validateIndicesRank (.tuple o.indices) a.rank)
  let r ← traceLoop E labels t labels
  return ⟨.tensor, some r.1, r.2⟩

/-- `Calc.py:889-910` `PartialD` and `913-933` `CovariantD`; the label is given as a string. -/
def derivative (role : Role) (labels : List Sym) : Py CalcObj :=
  if labels.length ≤ 1 then .ok ⟨role, none, labels⟩ else .error .valueError

/-- The other operand of `+`, `-` and `*`: a `CalcObject`, a number or expression, or something else. -/
inductive CalcArg (K : Type)
  | obj (x : CalcObj)
  | num (v : K)
  | other

/-- `Calc.py:156-265` `__add__` for two `CalcObject`s.  `_rank` is the length of `_indices`. -/
def calcAddObj (E : Engine K) (x y : CalcObj) : PyM K CalcObj := do
  if x.role ≠ .tensor ∨ y.role ≠ .tensor then PyM.raise .valueError
  else do
    let mx ← metricAttr x
    let my ← metricAttr y
    if mx ≠ my then PyM.raise .valueError
    else do
      let (tx, ox) ← tensorOf x
      let (ty, oy) ← tensorOf y
      if ox.indices.length ≠ oy.indices.length then PyM.raise .valueError
      else if y.labels ≠ [] ∧ x.labels ≠ [] ∧ y.labels.isPerm x.labels = false then PyM.raise .valueError
      else do
        let a ← getComponents E tx (some ox.coords) (some ox.indices)
        let perm ← PyM.lift (x.labels.mapM (labelPos y.labels))
        let inv ← PyM.lift (y.labels.mapM (labelPos x.labels))
        let ix ← PyM.lift (inv.mapM (tupleGet ox.indices))
        let b ← getComponents E ty (some ox.coords) (some ix)
        let b ← PyM.lift (b.permutedims perm)
        let s ← PyM.lift (a.add b)
        let t ← newTemp (if ox.indices.length = 0 then s else s.map E.simp) ox.metric ox.coords ox.indices "T"
        calcInit E t x.labels

/-- `Calc.py:156-274` `__add__` and `__radd__`. -/
def calcAdd [DecidableEq K] (E : Engine K) (x : CalcObj) : CalcArg K → PyM K CalcObj
  | .obj y => calcAddObj E x y
  | .num v => if v = 0 then return x else PyM.raise .typeError
  | .other => PyM.raise .typeError

/-- The components that are read directly: `x.tensor._components[x.tensor._coordinates][x.tensor._indices]`. -/
def defaultComps (t : Id') : PyM K (Arr K) := do
  let o ← getObj t
  readComps t o.coords o.indices

/-- `Tensor(components=...)` refuses expressions that are not arrays (`BaseTensor.py:556-581`): the operations that
take the stored default components as they are do not work for a scalar that was moved to other coordinates. -/
def requireArray (x : CalcObj) : PyM K Unit := do
  if x.role ≠ .tensor then pure ()
  else do
    let (_, ox) ← tensorOf x
    PyM.onlyIf (!ox.isArray ox.coords) (PyM.raise .typeError)

omit [CommRing K] in
theorem requireArray_state (x : CalcObj) (w : World K) : (requireArray x w).2 = w := by
  unfold requireArray tensorOf
  split_ifs
  · rfl
  · cases x.tensor with
    | none => rfl
    | some t =>
      have h : ∃ r, getObj t w = (r, w) := by
        unfold getObj
        cases w.objs[t]? with
        | none => exact ⟨_, rfl⟩
        | some o =>
          dsimp only
          split_ifs <;> exact ⟨_, rfl⟩
      obtain ⟨r, h⟩ := h
      rw [PyM.bind_apply]
      have h' : (do let o ← getObj t; return (t, o) : PyM K (Id' × Obj K)) w = (r.map fun o => (t, o), w) := by
        rw [PyM.bind_apply, h]
        cases r <;> rfl
      dsimp only
      rw [h']
      cases r with
      | error e => rfl
      | ok o =>
        show (PyM.onlyIf (!o.isArray o.coords) (PyM.raise .typeError) w).2 = w
        cases o.isArray o.coords <;> rfl

/-- `Calc.py:276-301` `__neg__`. -/
def calcNeg (E : Engine K) (x : CalcObj) : PyM K CalcObj := do
  requireArray x
  if x.role ≠ .tensor then PyM.raise .valueError
  else do
    let (tx, ox) ← tensorOf x
    let a ← defaultComps tx
    let t ← newTemp (a.map fun v => -v) ox.metric ox.coords ox.indices "T"
    calcInit E t x.labels

/-- `Calc.py:303-345` `__sub__`.  The check of the metrics reads attributes that `CalcObject`s do not have,
so that it never fails. -/
def calcSub [DecidableEq K] (E : Engine K) (x : CalcObj) : CalcArg K → PyM K CalcObj
  | .obj y => do
    if x.role ≠ .tensor ∨ y.role ≠ .tensor then PyM.raise .valueError
    else do
      let (_, ox) ← tensorOf x
      let (_, oy) ← tensorOf y
      if ox.indices.length ≠ oy.indices.length then PyM.raise .valueError
      else if x.labels ≠ [] ∧ y.labels ≠ [] ∧ y.labels.isPerm x.labels = false then PyM.raise .valueError
      else do
        let z ← calcNeg E y
        calcAddObj E x z
  | .num v => if v = 0 then return x else PyM.raise .typeError
  | .other => PyM.raise .typeError

/-- `Calc.py:347-354` `__rsub__`: `other - self` whatever `other` is. -/
def calcRsub (E : Engine K) (x : CalcObj) (_other : CalcArg K) : PyM K CalcObj := calcNeg E x

/-- `Calc.py:397-410`, `412-425`: a scalar times the components of `t`. -/
def scaleBy (E : Engine K) (s t : Id') (labels : List Sym) :
    PyM K (Arr K × Id' × Id' × List Int × List Sym) := do
  let o ← getObj t
  let v ← getComponents E s (some o.coords) none
  let a ← readComps t o.coords o.indices
  return (a.map fun x => v.get [] * x, o.metric, o.coords, o.indices, labels)

/-- `Calc.py:394-425`: at least one of the two is a scalar.  When both are, the second product replaces
the first one. -/
def mulParts (E : Engine K) (tx ty : Id') (ox oy : Obj K) (lx ly : List Sym) :
    PyM K (Arr K × Id' × Id' × List Int × List Sym) :=
  if oy.indices.length = 0 then
    if ox.indices.length = 0 then do
      let _ ← scaleBy E tx ty ly
      scaleBy E ty tx lx
    else scaleBy E ty tx lx
  else scaleBy E tx ty ly

/-- `Calc.py:356-437` `__mul__` and `__rmul__`. -/
def calcMul (E : Engine K) (x : CalcObj) : CalcArg K → PyM K CalcObj
  | .obj y => do
    if x.role ≠ .tensor then PyM.raise .valueError
    else do
      let (ty, oy) ← tensorOf y
      let (tx, ox) ← tensorOf x
      if oy.indices.length > 0 ∧ ox.indices.length > 0 then PyM.raise .valueError
      else do
        let r ← mulParts E tx ty ox oy x.labels y.labels
        let t ← newTemp r.1 r.2.1 r.2.2.1 r.2.2.2.1 "T"
        calcInit E t r.2.2.2.2
  | .num v => do
    if x.role ≠ .tensor then PyM.raise .valueError
    else do
      let (tx, ox) ← tensorOf x
      let a ← defaultComps tx
      let t ← newTemp (a.map fun y => v * y) ox.metric ox.coords ox.indices "T"
      calcInit E t x.labels
  | .other => if x.role ≠ .tensor then PyM.raise .valueError else PyM.raise .typeError

/-- `Calc.py:439-474` `__truediv__`; the argument is the expression `1/other`. -/
def calcDiv (E : Engine K) (x : CalcObj) (reciprocal : K) : PyM K CalcObj := do
  requireArray x
  calcMul E x (.num reciprocal)

/-- The labels that occur in both, in the order of the first (`Calc.py:535-540`). -/
def sharedLabels (x y : List Sym) : List Sym := x.filter fun s => y.contains s

/-- `Calc.py:542-546`: the labels of the result. -/
def freeLabels (x y : List Sym) : List Sym :=
  (x.filter fun s => !y.contains s) ++ (y.filter fun s => !x.contains s)

/-- The entries of a configuration at the labels that are in `result` (`Calc.py:580-591`). -/
def keptIndices (indices : List Int) (labels result : List Sym) : List Int :=
  ((indices.zip labels).filter fun p => result.contains p.2).map (·.1)

/-- `Calc.py:560-565`: the configuration in which the components of the second tensor are taken. -/
def partnerIndices (ix : List Int) (lx : List Sym) (iy : List Int) (ly : List Sym) : Py (List Int) :=
  if (sharedLabels lx ly).isEmpty then .ok iy
  else ly.zipIdx.mapM fun p =>
    if (sharedLabels lx ly).contains p.1 then do
      let k ← labelPos lx p.1
      let i ← tupleGet ix k
      return -i
    else tupleGet iy p.2

/-- `Calc.py:535-540`: the pairs of axes to contract. -/
def sharedPairs (lx ly : List Sym) : Py (List (Int × Int)) :=
  (sharedLabels lx ly).mapM fun s => do
    let i ← labelPos lx s
    let j ← labelPos ly s
    return ((i : Int), (j : Int))

/-- `Calc.py:549-593`, `874-886`: `__matmul__` of two tensors. -/
def matmulTensors (E : Engine K) (x y : CalcObj) : PyM K CalcObj := do
  let mx ← metricAttr x
  let my ← metricAttr y
  if mx ≠ my then PyM.raise .valueError
  else do
    let (tx, ox) ← tensorOf x
    let (ty, oy) ← tensorOf y
    if ox.indices.length = 0 ∨ oy.indices.length = 0 then calcMul E x (.obj y)
    else do
      let a ← getComponents E tx (some ox.coords) (some ox.indices)
      let ix ← PyM.lift (partnerIndices ox.indices x.labels oy.indices y.labels)
      let b ← getComponents E ty (some oy.coords) (some ix)
      let pairs ← PyM.lift (sharedPairs x.labels y.labels)
      let c ← PyM.lift (contract E a b pairs)
      let result := freeLabels x.labels y.labels
      let t ← newTemp c ox.metric ox.coords
        (keptIndices ox.indices x.labels result ++ keptIndices oy.indices y.labels result) "T"
      calcInit E t result

/-- `Calc.py:597-600`, `627-630`: the axis that the label of a derivative is contracted with. -/
def derivativeAxis (d : List Sym) (ly : List Sym) : Py (Option Nat) :=
  match sharedLabels ly d with
  | [] => .ok none
  | s :: _ => do
    let k ← labelPos ly s
    return some k

/-- `Calc.py:597-599`, `627-629`: the configuration in which the components are taken. -/
def derivativeIndices (iy : List Int) : Option Nat → Py (List Int)
  | none => .ok iy
  | some k => if k < iy.length then .ok (iy.set k 1) else .error .indexError

/-- `Calc.py:595-653`, `874-886`: `__matmul__` of a partial derivative with label list `d` and a tensor.
The two cases differ only in the labels of the result, `result` (which are those of the left operand
followed by those of the right one). -/
def matmulPartial (E : Engine K) (d : List Sym) (y : CalcObj) (result : List Sym) : PyM K CalcObj := do
  let (ty, oy) ← tensorOf y
  let axis ← PyM.lift (derivativeAxis d y.labels)
  let ix ← PyM.lift (derivativeIndices oy.indices axis)
  let b ← getComponents E ty (some oy.coords) (some ix)
  let c ← getObj oy.coords
  let r ← PyM.lift (partialContract E c.syms b (axis.map fun k => (k : Int)))
  let kept := keptIndices oy.indices y.labels result
  let t ← newTemp r oy.metric oy.coords (if axis.isNone then -1 :: kept else kept) "T"
  calcInit E t result

/-- `Calc.py:936-1027` `Calc(calc_object, name, symbol, indices)`; `indices = none` or an empty string keeps
the order. -/
def calcResult (E : Engine K) (x : CalcObj) (name symbol : String) (indices : List Sym) : PyM K Id' := do
  if indices ≠ [] ∧ indices.isPerm x.labels = false then PyM.raise .valueError
  else do
    let requested := if indices = [] then x.labels else indices
    let perm ← PyM.lift (requested.mapM (labelPos x.labels))
    let (tx, ox) ← tensorOf x
    let ix ← PyM.lift (perm.mapM (tupleGet ox.indices))
    let a ← getComponents E tx (some ox.coords) (some ox.indices)
    let a ← PyM.lift (a.permutedims perm)
    let a := if a.rank > 0 then a.map E.simp else a
    let t ← newTensor .tensor (.val name) (.val a) ox.metric ox.coords (.tuple ix) (.val symbol)
    timesDo (deletePass (hasName "TEMP") deleteObj) 2
    return t

/-- A rational number as an expression. -/
def ratExpr [Algebra ℚ K] (q : ℚ) : K := algebraMap ℚ K q

/-- `copy.copy(metric)` with the name changed (`Calc.py:1049-1051`): a new object that is not in the
registry.  The copy shares the dictionary of components with the original; nothing is written to it here,
so that it has its own. -/
def copyAs (t : Id') (name : String) : PyM K Id' := do
  let o ← getObj t
  fun w => (.ok w.objs.length, { w with objs := w.objs ++ [{ o with name := name }] })

/-- The end of the `Calc...` functions: one pass that deletes temporary tensors (`Calc.py:1070-1074`). -/
def deleteTemps : PyM K Unit := deletePass (hasName "TEMP") deleteObj

/-- `isinstance(metric, Metric)`, else `TypeError`. -/
def requireMetric (m : Id') : PyM K Unit := do
  if !(← isMetric m) then PyM.raise .typeError else pure ()

/-- `Calc.py:1048-1076`: the computation in `CalcChristoffel`. -/
def computeChristoffel [DecidableEq K] [Algebra ℚ K] (E : Engine K) (m : Id') : PyM K Id' := do
  let om ← getObj m
  let i ← copyAs m om.name
  changeDefaultIndices E i [1, 1]
  modifyObj i fun o => { o with name := "TEMP" }
  let x ← calcInit E i ["lambda", "sigma"]
  let x ← calcMul E x (.num (ratExpr (1 / 2)))
  let a ← calcInit E m ["nu", "sigma"]
  let a ← matmulPartial E ["mu"] a (freeLabels ["mu"] a.labels)
  let b ← calcInit E m ["sigma", "mu"]
  let b ← matmulPartial E ["nu"] b (freeLabels ["nu"] b.labels)
  let s ← calcAddObj E a b
  let c ← calcInit E m ["mu", "nu"]
  let c ← matmulPartial E ["sigma"] c (freeLabels ["sigma"] c.labels)
  let s ← calcSub E s (.obj c)
  let y ← matmulTensors E x s
  let t ← calcResult E y "Result" "" []
  let comps ← getComponents E t none (some [1, -1, -1])
  let om ← getObj m
  let r ← newTensor .christoffel (.val (om.name ++ " Christoffel")) (.val comps) m om.coords
    (.tuple [1, -1, -1]) (.val "Gamma")
  deleteTemps
  deleteObj t
  return r

/-- `Calc.py:1030-1076` `CalcChristoffel`: an object with this name is taken to be the result of an
earlier call. -/
def calcChristoffel [DecidableEq K] [Algebra ℚ K] (E : Engine K) (m : Id') : PyM K Id' := do
  requireMetric m
  let om ← getObj m
  match ← findByName (om.name ++ " Christoffel") with
  | some t => return t
  | none => computeChristoffel E m

end PyOGRe
