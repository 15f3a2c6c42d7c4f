import Verif.Lemmas.Nil
import Verif.Spec.Scaled

/-!
# Equations of motion that a session answers
-/

namespace PyOGRe.Spec
variable {K : Type} [CommRing K] [DecidableEq K] [Algebra ℚ K]

/-- The call `m` returns a registered object, and `get_components()` of this object then returns an array of this shape for
which `P` holds. -/
def Obtains (E : Engine K) (C : Curves K) (w : World K) (m : PyM K Id') (shape : List Nat) (P : Arr K → Prop) : Prop :=
  Does m w fun r w' => r ∈ w'.instances ∧ ∃ a, curveComponents E C r none none w' = (.ok a, w') ∧ a.shape = shape ∧ P a

/-- For all values of the symbols and functions, the components vanish exactly if the given expressions do. -/
def SameSolutions (a : Arr K) (n : Nat) (e : Nat → K) (used : Nat → Prop) : Prop :=
  ∀ (R : Type) [CommRing R] (φ : K →+* R), (∀ i, i < n → φ (a.get [i]) = 0) ↔ ∀ i, i < n → used i → φ (e i) = 0

/-- The components returned for the second metric are `x` times those for the first one. -/
def Matches (E : Engine K) (C : Curves K) (G G' : Ground K) (w w' : World K) (f : Id' → PyM K Id') (shape : List Nat)
    (x : K) : Prop :=
  ∃ T : List Nat → K, Obtains E C w (f G.m) shape (fun a => ∀ J, J.length = shape.length → (∀ i ∈ J, i < G.n) → a.get J = T J) ∧
    Obtains E C w' (f G'.m) shape fun a => ∀ J, J.length = shape.length → (∀ i ∈ J, i < G.n) → a.get J = x * T J

/-- What is supposed of the session of each of the two metrics: the laws, and no object has the name of a result. -/
structure Fresh (E : Engine K) (C : Curves K) (G : Ground K) (V : View K) (w : World K) (Dm : TField K) : Prop where
  scene : Scene G V w
  curves : CurvesOK E C G.syms
  names : ProperNames C G.syms
  static : Static E C G
  metric : AnyMetric G V Dm
  free : NoNames w Dm.name
  unnamed : ∀ sel suffix, suffix ∈ [" Lagrangian", " Geodesic From Lagrangian", " Geodesic From Christoffel",
    " Geodesic With Time Parameter"] → Unnamed w sel (Dm.name ++ suffix)

end PyOGRe.Spec
