import Verif.Spec.Curvature
import Verif.Model.Covariant

/-!
# The covariant derivative

One Christoffel symbol for every index: `∇_k T^{..j..} = ∂_k T^{..j..} + Γ^j_{kl} T^{..l..}` for an upper
index, `∇_k T_{..j..} = ∂_k T_{..j..} - Γ^l_{kj} T_{..l..}` for a lower one.
-/

namespace PyOGRe.Spec
open Finset
variable {K : Type} [CommRing K] [Algebra ℚ K]

/-- `∇_k` of a tensor with components `f` in configuration `ix`, at the indices `J`. -/
def covariant (E : Engine K) (G : Ground K) (ix : List Int) (f : List Nat → K) (k : Nat) (J : List Nat) : K :=
  G.d E k (f J) + ∑ j ∈ range ix.length,
    if ix.getD j 1 = 1 then ∑ l ∈ range G.n, christoffel E G (J.getD j 0) k l * f (J.set j l)
    else -∑ l ∈ range G.n, christoffel E G l k (J.getD j 0) * f (J.set j l)

/-- The covariant derivative of a tensor; the new index is the first one, and lower. -/
def nabla (E : Engine K) (G : Ground K) (D : TField K) : TField K :=
  ⟨D.name, G.c, -1 :: D.ix, fun J => covariant E G D.ix D.val (J.headD 0) J.tail⟩

/-- The covariant derivative of labelled values: `∇_a T` at the position and value of every label, with a lower
label `a`. -/
def covariantAt (E : Engine K) (G : Ground K) (a : Sym) (labels : List Sym) (T : (Sym → Int) → (Sym → Nat) → K)
    (pos : Sym → Int) (ρ : Sym → Nat) : K :=
  G.d E (ρ a) (T pos ρ) + ∑ s ∈ labels.toFinset,
    if pos s = 1 then ∑ k ∈ range G.n, christoffel E G (ρ s) (ρ a) k * T pos (Function.update ρ s k)
    else -∑ k ∈ range G.n, christoffel E G k (ρ a) (ρ s) * T pos (Function.update ρ s k)

/-- `m` returns a labelled tensor with property `P`; apart from temporary tensors nothing happens to the
session, and only tensors that are computed from the metric with name `base` are registered. -/
def Derives (E : Engine K) (G : Ground K) (V : View K) (w : World K) (base : String) (m : PyM K CalcObj)
    (P : List Sym → TField K → Prop) : Prop :=
  Does m w fun z w' => ∃ V' t D, Scene G V' w' ∧ V.Keeps V' ∧ Leaves (Derived base w') w w' ∧
    NamesOK E G V' w' base ∧ Denotes G V' z t D ∧ P z.labels D

end PyOGRe.Spec
