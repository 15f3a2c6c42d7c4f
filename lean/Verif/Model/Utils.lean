import Verif.Arr

/-!
# Model of `/repo/src/PyOGRe/Utils.py`

Arguments of the wrong Python type (`TypeError` branches) are not representable here; everything else
is followed branch by branch.
-/

namespace PyOGRe

/-- The sympy operations on expressions that are used as black boxes: `sympy.simplify(expr)`,
`sympy.diff(expr, symbol)`, `expr.subs({symbol: value})`, `Matrix.inv()` (which may raise) and
`Matrix.det()`. -/
structure Engine (K : Type) where
  simp : K → K
  diff : Sym → K → K
  subst : Sym → K → K → K
  inv : Arr K → Py (Arr K)
  det : Arr K → K

variable {K : Type}

/-- `shape[0] if shape else 0`. -/
def headDim : List Nat → Nat
  | [] => 0
  | n :: _ => n

/-- `Utils.py:40-65` `zero_tensor(dim, rank)`. -/
def zeroTensor [Zero K] (dim rank : Int) : Py (Arr K) :=
  if rank = 0 then .ok (Arr.scalar 0)
  else if dim < 1 then .error .valueError
  else if 0 < rank then .ok (Arr.ofFn (List.replicate rank.toNat dim.toNat) fun _ => 0)
  else .error .valueError

/-- `array[i]` for an array with at least one axis: the sub-array (what iterating over it yields). -/
def Arr.item [Zero K] (a : Arr K) (i : Nat) : Arr K :=
  Arr.ofFn a.shape.tail fun idx => a.get (i :: idx)

/-- `Utils.py:78-87`, the inner function `recurse`; the recursion is on the remaining shape. -/
def elementsRec [Zero K] : List Nat → Arr K → List Nat → List (List Nat × K)
  | [], arr, indices => [(indices, arr.get [])]
  | n :: s, arr, indices =>
    (List.range n).flatMap fun i => elementsRec s (arr.item i) (indices ++ [i])

/-- `Utils.py:68-88` `elements(array)`: the dictionary as an association list in insertion order.
For a rank-0 array the code stores the rank-0 array itself, here its only component. -/
def elements [Zero K] (a : Arr K) : List (List Nat × K) := elementsRec a.shape a []

/-- `result[indices] = value` on a mutable array; `ValueError` if out of range (`_parse_index`). -/
def Arr.setItem [Zero K] (a : Arr K) (idx : List Nat) (v : K) : Py (Arr K) :=
  if idx ∈ allIdx a.shape then
    .ok (Arr.ofFn a.shape fun j => if j = idx then v else a.get j)
  else .error .valueError

/-- `Utils.py:91-126` `map_to_array(array, func)`. -/
def mapToArray [Zero K] (a : Arr K) (f : K → K) : Py (Arr K) := do
  let result ← zeroTensor (K := K) (headDim a.shape) a.rank
  if a.rank = 0 then
    return Arr.scalar (f (a.get []))
  else
    (elements a).foldlM (fun r p => r.setItem p.1 (f p.2)) result

/-- `BaseTensor.py:208-220`: what `show(function=f)` displays.  The components of a vector are reshaped
into a column (shape `(n, 1)`) before `map_to_array` is applied. -/
def showWithFunction [Zero K] (a : Arr K) (f : K → K) : Py (Arr K) :=
  mapToArray (match a.shape with
    | [n] => ⟨[n, 1], a.data⟩
    | _ => a) f

/-- `Utils.py:160-173`: the checks on the index pairs of `contract`. -/
def contractChecks (r1 r2 : Nat) (ps : List (Int × Int)) : Py Unit :=
  if ps.any fun p => decide (p.1 < 0) || decide (p.2 < 0) then .error .valueError
  else if ps.any fun p => decide (p.1 ≥ r1) || decide (p.2 ≥ r2) then .error .valueError
  else if (List.range r1).any fun i => decide ((ps.map fun p => p.1).count (i : Int) > 1) then
    .error .valueError
  else if (List.range r2).any fun j => decide ((ps.map fun p => p.2).count (j : Int) > 1) then
    .error .valueError
  else .ok ()

/-- `Utils.py:196-205`: the slice that fixes the given axes to the given values. -/
def axesSlice (rank : Nat) (axes : List Nat) (values : List Nat) : List (Option Nat) :=
  Arr.setAll (List.replicate rank none) ((axes.zip values).map fun p => (p.1, some p.2))

/-- `Utils.py:129-227` `contract(array1, array2, *indices)`.  All failing checks raise `ValueError`, so
their relative order is not observable. -/
def contract [Zero K] [Add K] [Mul K] (E : Engine K) (a1 a2 : Arr K) (ps : List (Int × Int)) :
    Py (Arr K) := do
  if ps.isEmpty then
    return Arr.tensorproduct a1 a2
  else
    contractChecks a1.rank a2.rank ps
    let sh := a1.shape ++ a2.shape
    let shape := sh.take (sh.length - 2 * ps.length)
    let zero ← zeroTensor (K := K) (headDim shape) shape.length
    let n := headDim a1.shape
    let tuples := allIdx (List.replicate ps.length n)
    let result ← tuples.foldlM (fun acc s => do
      let x ← a1.slice (axesSlice a1.rank (ps.map fun p => p.1.toNat) s)
      let y ← a2.slice (axesSlice a2.rank (ps.map fun p => p.2.toNat) s)
      acc.add (Arr.tensorproduct x y)) zero
    return result.map E.simp

/-- `result[(i, :, ..., :)] = s` on a mutable array. -/
def Arr.setFirst [Zero K] (a : Arr K) (i : Nat) (s : Arr K) : Arr K :=
  Arr.ofFn a.shape fun idx => match idx with
    | j :: rest => if j = i then s.get rest else a.get idx
    | [] => a.get idx

/-- `Utils.py:230-279` `partial_contract(coordinates, array, index)`.  The coordinates are a
one-dimensional array of symbols, so `coordinates.rank()` is 1. -/
def partialContract [Zero K] [Add K] (E : Engine K) (coords : List Sym) (a : Arr K)
    (index : Option Int) : Py (Arr K) := do
  match index with
  | none =>
    let shape := coords.length :: a.shape
    let zero ← zeroTensor (K := K) coords.length shape.length
    coords.zipIdx.foldlM (fun r ci => do
      let cur ← r.slice (some ci.2 :: List.replicate a.rank none)
      let s ← cur.add (a.map (E.diff ci.1))
      return r.setFirst ci.2 s) zero
  | some k =>
    if k < 0 then throw .valueError
    else if k > 1 ∨ k > a.rank then throw .valueError
    else
      let sh := coords.length :: a.shape
      let shape := sh.take (sh.length - 2)
      let zero ← zeroTensor (K := K) (headDim shape) shape.length
      coords.zipIdx.foldlM (fun r ci => do
        if k ≥ a.rank then throw .indexError
        let x ← a.slice (axesSlice a.rank [k.toNat] [ci.2])
        r.add (x.map (E.diff ci.1))) zero

end PyOGRe
