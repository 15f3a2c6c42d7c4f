import Verif.Spec.Product
import Verif.Spec.Straight

/-!
# Motion in products of spaces
-/

namespace PyOGRe.Spec
variable {K : Type} [CommRing K] [DecidableEq K] [Algebra ℚ K]

/-- What is assumed about sympy: when functions are substituted for coordinates, velocities and accelerations, those that do
not occur in the expression make no difference. -/
def OnlyOccurring (E : Engine K) (C : Curves K) (first second : List Sym) : Prop :=
  (∀ p x, (∀ s ∈ second, E.diff s x = 0 ∧ E.diff (dot s) x = 0 ∧ E.diff (ddot s) x = 0) →
    C.asFunctions p (first ++ second) x = C.asFunctions p first x) ∧
  ∀ p x, (∀ s ∈ first, E.diff s x = 0 ∧ E.diff (dot s) x = 0 ∧ E.diff (ddot s) x = 0) →
    C.asFunctions p (first ++ second) x = C.asFunctions p second x

/-- The function `f` returns equations for each of the three metrics, and those for the product are satisfied exactly if those
for both factors are. -/
def Pairs (E : Engine K) (C : Curves K) (A B G : Ground K) (wA wB w : World K) (f : Id' → PyM K Id') : Prop :=
  ∃ a b c : Arr K, Obtains E C wA (f A.m) [A.n] (· = a) ∧ Obtains E C wB (f B.m) [B.n] (· = b) ∧
    Obtains E C w (f G.m) [G.n] (· = c) ∧ ∀ (R : Type) [CommRing R] (φ : K →+* R),
      (∀ i, i < G.n → φ (c.get [i]) = 0) ↔ (∀ i, i < A.n → φ (a.get [i]) = 0) ∧ ∀ i, i < B.n → φ (b.get [i]) = 0

/-- The function `f` returns equations for the first factor and for the product, and the first ones of the latter are
equivalent to the former, each to the one at the same place. -/
def Begins (E : Engine K) (C : Curves K) (A G : Ground K) (wA w : World K) (f : Id' → PyM K Id') : Prop :=
  ∃ a c : Arr K, Obtains E C wA (f A.m) [A.n] (· = a) ∧ Obtains E C w (f G.m) [G.n] (· = c) ∧
    ∀ (R : Type) [CommRing R] (φ : K →+* R), ∀ i, i < A.n → (φ (c.get [i]) = 0 ↔ φ (a.get [i]) = 0)

/-- The Lagrangian of the product is the sum of those of the factors. -/
def LagrangiansAdd (E : Engine K) (C : Curves K) (A B G : Ground K) (wA wB w : World K) : Prop :=
  ∃ x y : K, Obtains E C wA (calcLagrangian E C A.m none) [] (fun a => a.get [] = x) ∧
    Obtains E C wB (calcLagrangian E C B.m none) [] (fun b => b.get [] = y) ∧
    Obtains E C w (calcLagrangian E C G.m none) [] fun c => c.get [] = x + y

end PyOGRe.Spec
