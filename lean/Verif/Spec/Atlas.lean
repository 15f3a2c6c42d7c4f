import Verif.Spec.Geometry
import Mathlib.Algebra.Ring.Subring.Defs

/-!
# Tensors declared in one coordinate system and seen from all others

A geometry (in the sense of `Verif/Spec/Geometry.lean`) is determined by what was declared in the home
coordinate system: metrics, tensors with the configuration they were declared in, and for every other
coordinate system the substitution and the Jacobian that lead there.
-/

namespace PyOGRe.Spec
open Finset
variable {K : Type}

/-- How every coordinate system `c` is seen from the home system: `fns` are the functions of the home
coordinates, `sub c` expresses a function of the
home coordinates in the coordinates of `c`, `J c i j` is the derivative of home coordinate `i` with
respect to coordinate `j` of `c`, and `Jinv c` is the inverse matrix. -/
structure Frames (K : Type) [CommRing K] where
  fns : Subring K
  sub : Id' → K →+* K
  J : Id' → Nat → Nat → K
  Jinv : Id' → Nat → Nat → K

/-- The rules of the atlas fit together: functions of the home coordinates are seen from the home system
as they are (and the reciprocal of such a function is one, too), the Jacobians are invertible, and following a rule from `c` to `c'` composes the substitutions and multiplies the Jacobians (the chain
rule; the result is expressed in the coordinates of `c'`). -/
structure Consistent [CommRing K] (E : Engine K) (A : Atlas K) (home : Id') (F : Frames K) : Prop where
  fns_inv : ∀ x y, x ∈ F.fns → x * y = 1 → y ∈ F.fns
  sub_home : ∀ x ∈ F.fns, F.sub home x = x
  J_home : ∀ i j, i < A.n → j < A.n → F.J home i j = delta i j
  inverse : ∀ c, Inverse A.n (F.J c) (F.Jinv c)
  step : ∀ c c' rules, A.rules c c' = some rules → ∃ τ : K →+* K,
    (∀ x, substAll E rules x = τ x) ∧ (∀ x ∈ F.fns, F.sub c' x = τ (F.sub c x)) ∧
    ∀ i j, i < A.n → j < A.n → F.J c' i j =
      τ (matMul A.n (F.J c) (chartJacobian E (A.syms c) (A.syms c') rules) i j)

/-- What was declared in the home system: for every tensor its rank, the configuration and components
it was declared with, and its metric; for every metric the matrix and its inverse. -/
structure Home (K : Type) where
  rank : Id' → Nat
  src : Id' → List Int
  base : Id' → List Nat → K
  metricOf : Id' → Id'
  g : Id' → Nat → Nat → K
  ginv : Id' → Nat → Nat → K

/-- All declarations are functions of the home coordinates, and metrics are symmetric and invertible and
declared with (-1,-1) or (1,1). -/
structure Home.OK [CommRing K] (n : Nat) (fns : Subring K) (H : Home K) : Prop where
  base_mem : ∀ t J, H.base t J ∈ fns
  g_mem : ∀ t i j, i < n → j < n → H.g (H.metricOf t) i j ∈ fns
  ginv_mem : ∀ t i j, i < n → j < n → H.ginv (H.metricOf t) i j ∈ fns
  config : ∀ t, Config (H.rank t) (H.src t)
  metric : ∀ t, H.metricOf (H.metricOf t) = H.metricOf t
  rank_metric : ∀ t, H.rank (H.metricOf t) = 2
  symm : ∀ t i j, i < n → j < n → H.g (H.metricOf t) i j = H.g (H.metricOf t) j i
  inverse : ∀ t, Inverse n (H.g (H.metricOf t)) (H.ginv (H.metricOf t))
  declared : ∀ t,
    (H.src (H.metricOf t) = [-1, -1] ∧ ∀ i j, i < n → j < n →
      H.base (H.metricOf t) [i, j] = H.g (H.metricOf t) i j) ∨
    (H.src (H.metricOf t) = [1, 1] ∧ ∀ i j, i < n → j < n →
      H.base (H.metricOf t) [i, j] = H.ginv (H.metricOf t) i j)

/-- The components in the home system: the declared ones, raised and lowered. -/
def Home.comp [CommRing K] (H : Home K) (n : Nat) (t : Id') (ix : List Int) : List Nat → K :=
  applyFactors n (List.zipWith (indexFactor (H.g (H.metricOf t)) (H.ginv (H.metricOf t))) (H.src t) ix)
    (H.base t)

/-- Components `base` in the home system, seen from system `c`: expressed in the coordinates of `c`, with
one Jacobian factor per index. -/
def SeenFrom [CommRing K] (n : Nat) (F : Frames K) (c : Id') (ix : List Int) (base : List Nat → K) :
    List Nat → K :=
  applyFactors n (ix.map (coordFactor (F.J c) (F.Jinv c))) (fun I => F.sub c (base I))

/-- The components in every system. -/
def Home.geometry [CommRing K] (H : Home K) (n : Nat) (F : Frames K) : Geometry K where
  rank := H.rank
  metricOf := H.metricOf
  comp t c ix := SeenFrom n F c ix (H.comp n t ix)

end PyOGRe.Spec
