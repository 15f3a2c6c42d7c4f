import Verif.Spec.Covariant
import Verif.Spec.Geodesic

/-!
# Curvature of arbitrary connection coefficients

The textbook formulae with arbitrary coefficients `Γ` in place of the Christoffel symbols, to say what is computed when the
Christoffel symbols are wrong.
-/

namespace PyOGRe.Spec
open Finset
variable {K : Type} [CommRing K] [Algebra ℚ K]

/-- `R^r_{smn} = ∂_m Γ^r_{ns} - ∂_n Γ^r_{ms} + Γ^r_{ml} Γ^l_{ns} - Γ^r_{nl} Γ^l_{ms}`. -/
def riemannOf (E : Engine K) (G : Ground K) (Γ : Nat → Nat → Nat → K) (r s m n : Nat) : K :=
  G.d E m (Γ r n s) - G.d E n (Γ r m s) + ∑ l ∈ range G.n, Γ r m l * Γ l n s - ∑ l ∈ range G.n, Γ r n l * Γ l m s

/-- `R_{mn} = R^l_{mln}`. -/
def ricciOf (E : Engine K) (G : Ground K) (Γ : Nat → Nat → Nat → K) (m n : Nat) : K :=
  ∑ l ∈ range G.n, riemannOf E G Γ l m l n

/-- `R = g^{mn} R_{mn}`. -/
def scalarOf (E : Engine K) (G : Ground K) (Γ : Nat → Nat → Nat → K) : K :=
  ∑ m ∈ range G.n, ∑ n ∈ range G.n, G.gi m n * ricciOf E G Γ m n

/-- `G_{mn} = R_{mn} - ½ R g_{mn}`. -/
def einsteinOf (E : Engine K) (G : Ground K) (Γ : Nat → Nat → Nat → K) (m n : Nat) : K :=
  ricciOf E G Γ m n - rat (1 / 2) * scalarOf E G Γ * G.g m n

/-- The Weyl tensor. -/
def weylOf (E : Engine K) (G : Ground K) (Γ : Nat → Nat → Nat → K) (i k l m : Nat) : K :=
  ∑ r ∈ range G.n, G.g i r * riemannOf E G Γ r k l m +
    rat (1 / ((G.n : ℚ) - 2)) * (ricciOf E G Γ i m * G.g k l - ricciOf E G Γ i l * G.g k m + ricciOf E G Γ k l * G.g i m -
      ricciOf E G Γ k m * G.g i l) +
    rat (1 / (((G.n : ℚ) - 2) * ((G.n : ℚ) - 1))) * (scalarOf E G Γ * (G.g i l * G.g k m - G.g i m * G.g k l))

/-- `ẍ^i + Γ^i_{mn} ẋ^m ẋ^n`. -/
def geodesicOf (C : Curves K) (G : Ground K) (Γ : Nat → Nat → Nat → K) (i : Nat) : K :=
  G.accel C i + ∑ m ∈ range G.n, ∑ n ∈ range G.n, Γ i m n * G.speed C m * G.speed C n

/-- `a^i + (Γ^i_{mn} - Γ^0_{mn} v^i) v^m v^n` with `v^0 = 1` and `a^0 = 0`. -/
def geodesicTOf (C : Curves K) (G : Ground K) (Γ : Nat → Nat → Nat → K) (i : Nat) : K :=
  G.accelT C i + ∑ m ∈ range G.n, ∑ n ∈ range G.n,
    (Γ i m n - Γ 0 m n * G.speedT C i) * G.speedT C m * G.speedT C n

/-- With the Christoffel symbols these are the usual formulae. -/
example (E : Engine K) (G : Ground K) : riemannOf E G (christoffel E G) = riemann E G := rfl
example (E : Engine K) (G : Ground K) : ricciOf E G (christoffel E G) = ricci E G := rfl
example (E : Engine K) (G : Ground K) : scalarOf E G (christoffel E G) = scalarCurvature E G := rfl
example (E : Engine K) (G : Ground K) : einsteinOf E G (christoffel E G) = einstein E G := rfl
example (E : Engine K) (G : Ground K) : weylOf E G (christoffel E G) = weyl E G := rfl
example (E : Engine K) (C : Curves K) (G : Ground K) : geodesicOf C G (christoffel E G) = geodesic E C G := rfl
example (E : Engine K) (C : Curves K) (G : Ground K) : geodesicTOf C G (christoffel E G) = geodesicT E C G := rfl

/-- The components in the default configuration. -/
def Quantity.compsOf (E : Engine K) (G : Ground K) (Γ : Nat → Nat → Nat → K) : Quantity → List Nat → K
  | .christoffel => fun J => Γ (J.getD 0 0) (J.getD 1 0) (J.getD 2 0)
  | .riemann => fun J => riemannOf E G Γ (J.getD 0 0) (J.getD 1 0) (J.getD 2 0) (J.getD 3 0)
  | .ricci => fun J => ricciOf E G Γ (J.getD 0 0) (J.getD 1 0)
  | .scalar => fun _ => scalarOf E G Γ
  | .einstein => fun J => einsteinOf E G Γ (J.getD 0 0) (J.getD 1 0)
  | .weyl => fun J => weylOf E G Γ (J.getD 0 0) (J.getD 1 0) (J.getD 2 0) (J.getD 3 0)

/-- The metric is in view, with any default indices. -/
structure AnyMetric (G : Ground K) (V : View K) (Dm : TField K) : Prop where
  view : V G.m = some Dm
  name : Dm.name ≠ "TEMP"
  coords : Dm.coords = G.c

/-- Registered tensors with the name of a computed one are those of the connection `Γ`. -/
def NamesFor (E : Engine K) (G : Ground K) (Γ : Nat → Nat → Nat → K) (V : View K) (w : World K) (base : String) : Prop :=
  ∀ (q : Quantity), ∀ i ∈ w.instances, ∀ o, w.objs[i]? = some o → o.name = base ++ q.suffix →
    o.kind = q.kind ∧ ∃ D, InView G V i q.ix (q.compsOf E G Γ) D

/-- `m` returns the registered tensor `q` of the connection `Γ`. -/
def ProvidesFor (E : Engine K) (G : Ground K) (Γ : Nat → Nat → Nat → K) (V : View K) (w : World K) (base : String)
    (m : PyM K Id') (q : Quantity) : Prop :=
  Does m w fun r w' => ∃ V' D, Scene G V' w' ∧ V.Keeps V' ∧ Leaves (Derived base w') w w' ∧
    NamesFor E G Γ V' w' base ∧ r ∈ w'.instances ∧
    (∃ o, w'.objs[r]? = some o ∧ o.kind = q.kind ∧ o.name = base ++ q.suffix) ∧
    InView G V' r q.ix (q.compsOf E G Γ) D

/-- `∇_k` with the connection `Γ`. -/
def covariantOf (E : Engine K) (G : Ground K) (Γ : Nat → Nat → Nat → K) (ix : List Int) (f : List Nat → K) (k : Nat)
    (J : List Nat) : K :=
  G.d E k (f J) + ∑ j ∈ range ix.length,
    if ix.getD j 1 = 1 then ∑ l ∈ range G.n, Γ (J.getD j 0) k l * f (J.set j l)
    else -∑ l ∈ range G.n, Γ l k (J.getD j 0) * f (J.set j l)

/-- The covariant derivative of a tensor; the new index is the first one, and lower. -/
def nablaOf (E : Engine K) (G : Ground K) (Γ : Nat → Nat → Nat → K) (D : TField K) : TField K :=
  ⟨D.name, G.c, -1 :: D.ix, fun J => covariantOf E G Γ D.ix D.val (J.headD 0) J.tail⟩

/-- With the Christoffel symbols this is the usual formula. -/
example (E : Engine K) (G : Ground K) : nablaOf E G (christoffel E G) = nabla E G := rfl

/-- `m` returns a labelled tensor with property `P`, as in `Derives`. -/
def DerivesFor (E : Engine K) (G : Ground K) (Γ : Nat → Nat → Nat → K) (V : View K) (w : World K) (base : String)
    (m : PyM K CalcObj) (P : List Sym → TField K → Prop) : Prop :=
  Does m w fun z w' => ∃ V' t D, Scene G V' w' ∧ V.Keeps V' ∧ Leaves (Derived base w') w w' ∧
    NamesFor E G Γ V' w' base ∧ Denotes G V' z t D ∧ P z.labels D

end PyOGRe.Spec
