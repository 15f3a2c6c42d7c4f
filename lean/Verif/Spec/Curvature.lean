import Verif.Spec.Calc

/-!
# Christoffel symbols and curvature

The textbook formulae, from the components `g` and `gi` of the metric and its inverse and the partial
derivatives.
-/

namespace PyOGRe.Spec
open Finset
variable {K : Type} [CommRing K] [Algebra ℚ K]

/-- `∂_k x`. -/
def Ground.d (E : Engine K) (G : Ground K) (k : Nat) (x : K) : K := E.diff (G.syms.getD k "") x

/-- The laws of partial derivatives: sums, products, and the order of two derivatives does not matter. -/
structure Calculus (E : Engine K) : Prop where
  add : ∀ s x y, E.diff s (x + y) = E.diff s x + E.diff s y
  mul : ∀ s x y, E.diff s (x * y) = E.diff s x * y + x * E.diff s y
  comm : ∀ s t x, E.diff s (E.diff t x) = E.diff t (E.diff s x)

/-- A rational number. -/
def rat (q : ℚ) : K := algebraMap ℚ K q

/-- `Γ^l_{mn} = ½ g^{ls} (∂_m g_{ns} + ∂_n g_{sm} - ∂_s g_{mn})`. -/
def christoffel (E : Engine K) (G : Ground K) (l m n : Nat) : K :=
  rat (1 / 2) * ∑ s ∈ range G.n, G.gi l s * (G.d E m (G.g n s) + G.d E n (G.g s m) - G.d E s (G.g m n))

/-- `R^r_{smn} = ∂_m Γ^r_{ns} - ∂_n Γ^r_{ms} + Γ^r_{ml} Γ^l_{ns} - Γ^r_{nl} Γ^l_{ms}`. -/
def riemann (E : Engine K) (G : Ground K) (r s m n : Nat) : K :=
  G.d E m (christoffel E G r n s) - G.d E n (christoffel E G r m s) +
    ∑ l ∈ range G.n, christoffel E G r m l * christoffel E G l n s -
    ∑ l ∈ range G.n, christoffel E G r n l * christoffel E G l m s

/-- `R_{mn} = R^l_{mln}`. -/
def ricci (E : Engine K) (G : Ground K) (m n : Nat) : K := ∑ l ∈ range G.n, riemann E G l m l n

/-- `R = g^{mn} R_{mn}`. -/
def scalarCurvature (E : Engine K) (G : Ground K) : K :=
  ∑ m ∈ range G.n, ∑ n ∈ range G.n, G.gi m n * ricci E G m n

/-- `G_{mn} = R_{mn} - ½ R g_{mn}`. -/
def einstein (E : Engine K) (G : Ground K) (m n : Nat) : K :=
  ricci E G m n - rat (1 / 2) * scalarCurvature E G * G.g m n

/-- `R_{rsmn} = g_{rk} R^k_{smn}`. -/
def riemannLow (E : Engine K) (G : Ground K) (r s m n : Nat) : K :=
  ∑ k ∈ range G.n, G.g r k * riemann E G k s m n

/-- `C_{iklm} = R_{iklm} + 1/(n-2) (R_{im} g_{kl} - R_{il} g_{km} + R_{kl} g_{im} - R_{km} g_{il}) +
1/((n-1)(n-2)) R (g_{il} g_{km} - g_{im} g_{kl})`, with dimension `n`. -/
def weyl (E : Engine K) (G : Ground K) (i k l m : Nat) : K :=
  riemannLow E G i k l m +
    rat (1 / ((G.n : ℚ) - 2)) * (ricci E G i m * G.g k l - ricci E G i l * G.g k m + ricci E G k l * G.g i m -
      ricci E G k m * G.g i l) +
    rat (1 / (((G.n : ℚ) - 2) * ((G.n : ℚ) - 1))) * (scalarCurvature E G * (G.g i l * G.g k m - G.g i m * G.g k l))

/-- The covariant divergence `g^{km} ∇_k T_{mn}` of a tensor with two lower indices, with `∇_k T_{mn} =
∂_k T_{mn} - Γ^l_{km} T_{ln} - Γ^l_{kn} T_{ml}`. -/
def divergence2 (E : Engine K) (G : Ground K) (T : Nat → Nat → K) (n : Nat) : K :=
  ∑ k ∈ range G.n, ∑ m ∈ range G.n, G.gi k m * (G.d E k (T m n) -
    ∑ l ∈ range G.n, christoffel E G l k m * T l n - ∑ l ∈ range G.n, christoffel E G l k n * T m l)

/-- The full contraction of a tensor with itself: every index is contracted with the same index in the opposite
position. -/
def normSquared (G : Ground K) (D : TField K) : K :=
  ((tuples G.n D.ix.length).map fun J => D.val J * D.comp G (D.ix.map fun p => -p) J).sum

/-- The metric is in view with lower indices as default. -/
structure LowerMetric (G : Ground K) (V : View K) (Dm : TField K) : Prop where
  view : V G.m = some Dm
  name : Dm.name ≠ "TEMP"
  coords : Dm.coords = G.c
  ix : Dm.ix = [-1, -1]

/-- The metric is in view with upper indices as default. -/
structure UpperMetric (G : Ground K) (V : View K) (Dm : TField K) : Prop where
  view : V G.m = some Dm
  name : Dm.name ≠ "TEMP"
  coords : Dm.coords = G.c
  ix : Dm.ix = [1, 1]

/-- A tensor in view with given configuration and components. -/
structure InView (G : Ground K) (V : View K) (t : Id') (ix : List Int) (f : List Nat → K) (D : TField K) : Prop where
  view : V t = some D
  coords : D.coords = G.c
  cfg : D.ix = ix
  val : ∀ J, J.length = ix.length → (∀ x ∈ J, x < G.n) → D.val J = f J

/-- The components as functions of the list of index values. -/
def christoffelComps (E : Engine K) (G : Ground K) (J : List Nat) : K :=
  christoffel E G (J.getD 0 0) (J.getD 1 0) (J.getD 2 0)
def riemannComps (E : Engine K) (G : Ground K) (J : List Nat) : K :=
  riemann E G (J.getD 0 0) (J.getD 1 0) (J.getD 2 0) (J.getD 3 0)
def ricciComps (E : Engine K) (G : Ground K) (J : List Nat) : K := ricci E G (J.getD 0 0) (J.getD 1 0)
def einsteinComps (E : Engine K) (G : Ground K) (J : List Nat) : K := einstein E G (J.getD 0 0) (J.getD 1 0)
def weylComps (E : Engine K) (G : Ground K) (J : List Nat) : K :=
  weyl E G (J.getD 0 0) (J.getD 1 0) (J.getD 2 0) (J.getD 3 0)

/-- The tensors that are computed from a metric. -/
inductive Quantity
  | christoffel | riemann | ricci | scalar | einstein | weyl
  deriving DecidableEq

/-- What is appended to the name of the metric. -/
def Quantity.suffix : Quantity → String
  | .christoffel => " Christoffel"
  | .riemann => " Riemann"
  | .ricci => " Ricci Tensor"
  | .scalar => " Ricci Scalar"
  | .einstein => " Einstein"
  | .weyl => " Weyl Tensor"

/-- The class of the object. -/
def Quantity.kind : Quantity → Kind
  | .christoffel => .christoffel
  | _ => .tensor

/-- The default configuration. -/
def Quantity.ix : Quantity → List Int
  | .christoffel => [1, -1, -1]
  | .riemann => [1, -1, -1, -1]
  | .ricci => [-1, -1]
  | .scalar => []
  | .einstein => [-1, -1]
  | .weyl => [-1, -1, -1, -1]

/-- The components in the default configuration. -/
def Quantity.comps (E : Engine K) (G : Ground K) : Quantity → List Nat → K
  | .christoffel => christoffelComps E G
  | .riemann => riemannComps E G
  | .ricci => ricciComps E G
  | .scalar => fun _ => scalarCurvature E G
  | .einstein => einsteinComps E G
  | .weyl => weylComps E G

/-- Registered tensors that have the name of a computed one are what their name says, for a metric with name
`base`. -/
def NamesOK (E : Engine K) (G : Ground K) (V : View K) (w : World K) (base : String) : Prop :=
  ∀ (q : Quantity), ∀ i ∈ w.instances, ∀ o, w.objs[i]? = some o → o.name = base ++ q.suffix →
    o.kind = q.kind ∧ ∃ D, InView G V i q.ix (q.comps E G) D

/-- The object `i` has the name of a tensor, other than the Weyl tensor, that is computed from a metric with
name `base`. -/
def Derived (base : String) (w : World K) (i : Id') : Prop :=
  ∃ o, w.objs[i]? = some o ∧ ∃ q : Quantity, q ≠ .weyl ∧ o.name = base ++ q.suffix

/-- `m` returns the registered tensor `q` of the metric, with the right components; apart from temporary
tensors nothing happens to the session, and only tensors that are computed from this metric are registered. -/
def Provides (E : Engine K) (G : Ground K) (V : View K) (w : World K) (base : String) (m : PyM K Id')
    (q : Quantity) : Prop :=
  Does m w fun r w' => ∃ V' D, Scene G V' w' ∧ V.Keeps V' ∧ Leaves (Derived base w') w w' ∧ NamesOK E G V' w' base ∧
    r ∈ w'.instances ∧ (∃ o, w'.objs[r]? = some o ∧ o.kind = q.kind ∧ o.name = base ++ q.suffix) ∧
    InView G V' r q.ix (q.comps E G) D

/-- `m` returns a registered tensor with default configuration `ix` whose components in the coordinates of the
ground have the property `P`. -/
def Returns (G : Ground K) (w : World K) (m : PyM K Id') (ix : List Int) (P : TField K → Prop) : Prop :=
  Does m w fun t w' => ∃ V' D, Scene G V' w' ∧ t ∈ w'.instances ∧ V' t = some D ∧ D.coords = G.c ∧ D.ix = ix ∧ P D

end PyOGRe.Spec
