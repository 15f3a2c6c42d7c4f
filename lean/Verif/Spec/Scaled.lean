import Verif.Spec.Connection

/-!
# Tensors that vanish, and metrics multiplied by a constant
-/

namespace PyOGRe.Spec
variable {K : Type} [CommRing K] [Algebra ℚ K]

/-- All components are zero, in every index configuration. -/
def Vanishes (G : Ground K) (D : TField K) : Prop :=
  ∀ cfg J, Config D.ix.length cfg → J.length = D.ix.length → (∀ x ∈ J, x < G.n) → D.comp G cfg J = 0

/-- The second metric is `c` times the first one, for a constant `c` with inverse `c'`. -/
structure Scaled (E : Engine K) (G G' : Ground K) (c c' : K) : Prop where
  n : G'.n = G.n
  syms : G'.syms = G.syms
  inv : c * c' = 1
  const : ∀ k, k < G.n → G.d E k c = 0
  g : ∀ i j, i < G.n → j < G.n → G'.g i j = c * G.g i j

/-- The function `f` returns a tensor in either case, and the components of the second one are `x` times those of the
first. -/
def Scales (G G' : Ground K) (w w' : World K) (f : Id' → PyM K Id') (ix : List Int) (x : K) : Prop :=
  ∃ T : List Nat → K,
    (Returns G w (f G.m) ix fun D => ∀ J, J.length = ix.length → (∀ i ∈ J, i < G.n) → D.val J = T J) ∧
    Returns G' w' (f G'.m) ix fun D => ∀ J, J.length = ix.length → (∀ i ∈ J, i < G.n) → D.val J = x * T J

end PyOGRe.Spec
