import Verif.Spec.Arrays
import Mathlib.Algebra.BigOperators.Ring.Finset
import Mathlib.Algebra.BigOperators.Group.Finset.Sigma

/-! Vocabulary for index gymnastics.  It refers to no model definition. -/

namespace PyOGRe.Spec
open Finset

/-- The product of the matrix entries `Ms[i] (J[i], s[i])`. -/
def factorProd {K : Type} [Mul K] [One K] : List (Nat → Nat → K) → List Nat → List Nat → K
  | M :: Ms, j :: J, s :: S => M j s * factorProd Ms J S
  | _, _, _ => 1

/-- One matrix per axis: the component at `J` is the sum over all `s` of
`Ms[0] (J[0], s[0]) * ... * Ms[r-1] (J[r-1], s[r-1]) * T s`. -/
def applyFactors {K : Type} [CommRing K] (n : Nat) (Ms : List (Nat → Nat → K)) (T : List Nat → K)
    (J : List Nat) : K :=
  ((tuples n J.length).map fun s => factorProd Ms J s * T s).sum

/-- Kronecker delta. -/
def delta {K : Type} [Zero K] [One K] (i j : Nat) : K := if i = j then 1 else 0

/-- Matrix product of two factors. -/
def matMul {K : Type} [CommRing K] (n : Nat) (M N : Nat → Nat → K) (i j : Nat) : K :=
  ∑ k ∈ range n, M i k * N k j

/-- `M` and `N` are inverse to each other as `n` by `n` matrices. -/
def Inverse {K : Type} [CommRing K] (n : Nat) (M N : Nat → Nat → K) : Prop :=
  ∀ i j, i < n → j < n → matMul n M N i j = delta i j ∧ matMul n N M i j = delta i j

/-- The factor that changes an index from position `a` to position `b` (1 is upper, -1 is lower):
the inverse metric raises, the metric lowers, and nothing happens otherwise. -/
def indexFactor {K : Type} [Zero K] [One K] (g ginv : Nat → Nat → K) (a b : Int) : Nat → Nat → K :=
  if a = -1 ∧ b = 1 then ginv else if a = 1 ∧ b = -1 then g else delta

/-- The factor that transforms an index in position `a`: the inverse Jacobian for an upper index, the
transposed Jacobian for a lower one (`J i j` is the derivative of old coordinate `i` with respect to
new coordinate `j`). -/
def coordFactor {K : Type} (J Jinv : Nat → Nat → K) (a : Int) : Nat → Nat → K :=
  if a = 1 then fun j i => Jinv j i else fun j i => J i j

end PyOGRe.Spec
