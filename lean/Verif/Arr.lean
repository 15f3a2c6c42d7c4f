import Mathlib.Algebra.BigOperators.Group.List.Basic
import Mathlib.Data.List.Nodup
import Mathlib.Data.List.Forall2
import Mathlib.Data.List.Range
import Mathlib.Data.List.ProdSigma
import Mathlib.Algebra.Ring.Defs
import Mathlib.Tactic.Ring
import Verif.Py

/-!
# sympy dense arrays

A model of the part of `sympy.tensor.array` that PyOGRe uses.  An array is its shape and its
components in row-major order, which is how `sympy.ImmutableDenseNDimArray` stores it (`_shape`,
`_array`).  Nothing here is PyOGRe code: this file states what is assumed about sympy.
-/

namespace PyOGRe

/-- `sympy.Array`: shape and components in row-major order. -/
structure Arr (K : Type) where
  shape : List Nat
  data : List K
  deriving DecidableEq, Repr

/-- All positions of an array of the given shape, in row-major order
(`itertools.product(*map(range, shape))`). -/
def allIdx : List Nat → List (List Nat)
  | [] => [[]]
  | n :: s => (List.range n).flatMap fun i => (allIdx s).map (i :: ·)

/-- `idx` is a position of an array of shape `shape`: as many entries as axes, each in range. -/
def Valid (shape idx : List Nat) : Prop := List.Forall₂ (· < ·) idx shape

/-- Row-major position (`NDimArray._parse_index`). -/
def ravel : List Nat → List Nat → Nat
  | _ :: s, i :: is => i * s.prod + ravel s is
  | _, _ => 0

namespace Arr

variable {K : Type}

/-- Number of axes (`array.rank()`). -/
def rank (a : Arr K) : Nat := a.shape.length

/-- The array with the given shape and component function. -/
def ofFn (shape : List Nat) (f : List Nat → K) : Arr K := ⟨shape, (allIdx shape).map f⟩

/-- `array[i, j, ...]` for a position in range (the value outside is never used). -/
def get [Zero K] (a : Arr K) (idx : List Nat) : K := a.data.getD (ravel a.shape idx) 0

/-- The data has as many entries as the shape says (an invariant of sympy's constructor). -/
def WF (a : Arr K) : Prop := a.data.length = a.shape.prod

/-- `Array(x)` for a scalar `x`: rank zero. -/
def scalar (x : K) : Arr K := ⟨[], [x]⟩

/-- `sympy.tensorproduct` of two arrays: axes of the first, then axes of the second. -/
def tensorproduct [Zero K] [Mul K] (a b : Arr K) : Arr K :=
  ofFn (a.shape ++ b.shape) fun idx => a.get (idx.take a.rank) * b.get (idx.drop a.rank)

/-- `a + b` on arrays: `NDimArray.__add__` raises `ValueError` when the shapes differ. -/
def add [Zero K] [Add K] (a b : Arr K) : Py (Arr K) :=
  if a.shape = b.shape then .ok (ofFn a.shape fun idx => a.get idx + b.get idx) else .error .valueError

/-- Applying a function to every component (`applyfunc`; also `x * array`, `-array`, `array / x`,
`sympy.simplify(array)`, `sympy.diff(array, x)`, `array.subs(...)`). -/
def map [Zero K] (f : K → K) (a : Arr K) : Arr K := ofFn a.shape fun idx => f (a.get idx)

/-- Puts the fixed entries of `sel` and the entries of `idx` for the `none`s together. -/
def fill : List (Option Nat) → List Nat → List Nat
  | [], _ => []
  | some k :: sel, idx => k :: fill sel idx
  | none :: sel, i :: idx => i :: fill sel idx
  | none :: _, [] => []

/-- The part of a list at the positions where `sel` is `none`. -/
def freePart {α : Type} : List (Option Nat) → List α → List α
  | some _ :: sel, _ :: xs => freePart sel xs
  | none :: sel, x :: xs => x :: freePart sel xs
  | _, _ => []

/-- All fixed entries of `sel` are in range. -/
def selInRange : List (Option Nat) → List Nat → Bool
  | some k :: sel, n :: s => decide (k < n) && selInRange sel s
  | none :: sel, _ :: s => selInRange sel s
  | _, _ => true

/-- `array[sel]` with an integer (`some k`) or a full slice (`none`) for every axis.  An integer out of
range makes `_parse_index` raise `ValueError`. -/
def slice [Zero K] (a : Arr K) (sel : List (Option Nat)) : Py (Arr K) :=
  if selInRange sel a.shape then
    .ok (ofFn (freePart sel a.shape) fun idx => a.get (fill sel idx))
  else .error .valueError

/-- The list of full slices with some axes replaced by integers
(`l = [slice(0, None)] * rank; l[axis] = value; ...`). -/
def setAll {α : Type} (l : List α) (ps : List (Nat × α)) : List α :=
  ps.foldl (fun l p => l.set p.1 p.2) l

/-- `sympy.permutedims(array, perm)`: axis `k` of the result is axis `perm[k]` of the argument.
Raises `ValueError` when `perm` is not a permutation of the axes. -/
def permutedims [Zero K] (a : Arr K) (perm : List Nat) : Py (Arr K) :=
  if perm.isPerm (List.range a.rank) then
    .ok (ofFn (perm.map fun k => a.shape.getD k 0) fun idx =>
      a.get ((List.range a.rank).map fun j => idx.getD (perm.idxOf j) 0))
  else .error .valueError

/-- `sympy.tensorcontraction(array, (a1, b1), (a2, b2), ...)` with pairwise distinct axes in range and
equal dimension in every pair (other calls raise `ValueError`): sums over equal values on both axes of
every pair, the remaining axes keep their order. -/
def tensorcontraction [Zero K] [Add K] (a : Arr K) (ps : List (Nat × Nat)) : Py (Arr K) :=
  let axes := ps.flatMap fun p => [p.1, p.2]
  if axes.all (· < a.rank) && decide axes.Nodup &&
      ps.all (fun p => a.shape.getD p.1 0 == a.shape.getD p.2 0) then
    let free := setAll (List.replicate a.rank (none : Option Nat)) (axes.map fun k => (k, some 0))
    .ok (ofFn (freePart free a.shape) fun idx =>
      ((allIdx (ps.map fun p => a.shape.getD p.1 0)).map fun s =>
        a.get (fill (setAll (List.replicate a.rank (none : Option Nat))
          (axes.zip ((s.flatMap fun v => [v, v]).map some))) idx)).sum)
  else .error .valueError

end Arr
end PyOGRe
