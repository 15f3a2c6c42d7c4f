import Verif.Model.Calc

/-!
# Covariant derivatives and the operator `@`

The index letters of the options (`options.ALL_SYMBOLS`), from which dummy symbols are taken, are an
argument.
-/

namespace PyOGRe
variable {K : Type} [CommRing K] [DecidableEq K]

/-- `Calc.py:663-668`, `772-777`: the first two letters that are not labels. -/
def dummySymbols (letters used : List Sym) : List Sym := (letters.filter fun s => !used.contains s).take 2

/-- `Calc.py:670`: the label of the partial derivative, for a derivative on the left. -/
def leftPartialSymbol (d labels dummies : List Sym) : Py Sym :=
  if labels ≠ [] then do
    let s ← tupleGet d 0
    if s ∈ labels then tupleGet dummies 1 else return s
  else tupleGet dummies 1

/-- `Calc.py:779`: the same for a derivative on the right; the label is compared with itself. -/
def rightPartialSymbol (d dummies : List Sym) : Py Sym := do
  let s ← tupleGet d 0
  if s ∈ d then tupleGet dummies 1 else return s

/-- `Calc.py:672-712`, `781-821`: the labels of the Christoffel symbols and of the tensor in the terms for
the upper indices (`sign = 1`) or the lower ones (`sign = -1`). -/
def covariantLabels (p dummy : Sym) (labels : List Sym) (ix : List Int) (sign : Int) :
    List (List Sym × List Sym) :=
  ((labels.zip ix).zipIdx.filter fun q => q.1.2 == sign).map fun q =>
    (if sign = 1 then [q.1.1, p, dummy] else [dummy, p, q.1.1], labels.set q.2 dummy)

/-- `Calc.py:714-718`, `823-827`: `christoffel(config1) @ other.tensor(config2)`. -/
def covariantTerm (E : Engine K) (christoffel t : Id') (ls : List Sym × List Sym) : PyM K CalcObj := do
  let x ← calcInit E christoffel ls.1
  let y ← calcInit E t ls.2
  matmulTensors E x y

/-- `list(map(...))`. -/
def covariantTerms (E : Engine K) (christoffel t : Id') : List (List Sym × List Sym) → PyM K (List CalcObj)
  | [] => return []
  | ls :: rest => do
    let x ← covariantTerm E christoffel t ls
    let xs ← covariantTerms E christoffel t rest
    return x :: xs

/-- `x + y + ...`. -/
def addAll (E : Engine K) (x : CalcObj) : List CalcObj → PyM K CalcObj
  | [] => return x
  | y :: ys => do
    let z ← calcAddObj E x y
    addAll E z ys

/-- `sum(list)`: the sum starts with `0`, and `0 + x` is `x`. -/
def sumCalc (E : Engine K) : List CalcObj → PyM K (CalcArg K)
  | [] => return .num 0
  | x :: xs => do
    let z ← calcAdd E x (.num 0)
    let z ← addAll E z xs
    return .obj z

/-- `Calc.py:656-763`, `765-872` and `874-886`: a covariant derivative with label list `d` and the tensor
`y`; `relabel` are the labels that the sum of all terms gets, and `result` those of the result (they are
put together from the labels of the left operand and of the right one). -/
def matmulCovariant [Algebra ℚ K] (E : Engine K) (letters d : List Sym) (y : CalcObj)
    (partialSymbol : List Sym → Py Sym) (relabel result : List Sym) : PyM K CalcObj := do
  let (_, oy) ← tensorOf y
  let christoffel ← calcChristoffel E oy.metric
  let dummies := dummySymbols letters (y.labels ++ d)
  let dummy ← PyM.lift (tupleGet dummies 0)
  let p ← PyM.lift (partialSymbol dummies)
  let (ty, oy) ← tensorOf y
  let x ← matmulPartial E [p] y (freeLabels [p] y.labels)
  let upper ← covariantTerms E christoffel ty (covariantLabels p dummy y.labels oy.indices 1)
  let upper ← sumCalc E upper
  let x ← calcAdd E x upper
  let lower ← covariantTerms E christoffel ty (covariantLabels p dummy y.labels oy.indices (-1))
  let lower ← sumCalc E lower
  let x ← calcSub E x lower
  let (tx, _) ← tensorOf x
  let x ← calcInit E tx relabel
  let r ← calcResult E x "Result" "" result
  let a ← getComponents E r none none
  let (_, oy) ← tensorOf y
  let kept := keptIndices oy.indices y.labels result
  deleteObj r
  let t ← newTemp (a.map E.simp) oy.metric oy.coords
    (if (sharedLabels d y.labels).isEmpty then -1 :: kept else kept) "T"
  calcInit E t result

/-- `Calc.py:476-886` `__matmul__`. -/
def calcMatmul [Algebra ℚ K] (E : Engine K) (letters : List Sym) (x y : CalcObj) : PyM K CalcObj :=
  let result := freeLabels x.labels y.labels
  match x.role, y.role with
  | .tensor, .tensor => matmulTensors E x y
  | .partialD, .tensor => matmulPartial E x.labels y result
  | .tensor, .partialD => matmulPartial E y.labels x result
  | .covariantD, .tensor =>
    matmulCovariant E letters x.labels y (leftPartialSymbol x.labels y.labels) (x.labels ++ y.labels) result
  | .tensor, .covariantD =>
    matmulCovariant E letters y.labels x (rightPartialSymbol y.labels) (x.labels ++ y.labels) result
  | _, _ => PyM.raise .valueError

end PyOGRe
