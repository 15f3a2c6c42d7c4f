import Verif.Spec.Tensors
import Verif.Model.World

/-!
# Coordinate systems and tensors as a geometer sees them

No function of the model is used here, only the types of session states.
-/

namespace PyOGRe.Spec
open Finset
variable {K : Type}

/-- What is assumed of sympy's `simplify` and `Matrix.inv` in the theorems that use them: `simplify`
does not change the value, and if `inv` returns then it returns the inverse. -/
structure EngineOK [CommRing K] (E : Engine K) : Prop where
  simp_eq : ∀ x, E.simp x = x
  inv_ok : ∀ n a b, a.shape = [n, n] → E.inv a = .ok b → b.WF ∧ b.shape = [n, n] ∧
    Inverse n (fun i j => a.get [i, j]) (fun i j => b.get [i, j])

/-- What is assumed of sympy when a theorem says that something succeeds: `inv` finds the inverse of a
matrix that has one, and a matrix with non-zero determinant has one. -/
structure EngineTotal [CommRing K] (E : Engine K) : Prop where
  inv_total : ∀ n (a : Arr K) N, a.shape = [n, n] → Inverse n (fun i j => a.get [i, j]) N →
    ∃ b, E.inv a = .ok b
  det_ok : ∀ n (a : Arr K), a.shape = [n, n] → E.det a ≠ 0 →
    ∃ N, Inverse n (fun i j => a.get [i, j]) N

/-- The right-hand side of the (first) rule for a coordinate. -/
def ruleFor (rules : List (Option (Sym × K))) (s : Sym) : Option K :=
  ((rules.filterMap id).find? fun r => r.1 == s).map (·.2)

/-- At most one rule for every coordinate. -/
def GoodRules (rules : List (Option (Sym × K))) : Prop := ((rules.filterMap id).map (·.1)).Nodup

/-- Entry `(i, j)`: the derivative of old coordinate `i` with respect to new coordinate `j`; a
coordinate without rule is the same function in both systems, at the same place. -/
def chartJacobian [Zero K] [One K] (E : Engine K) (old new : List Sym) (rules : List (Option (Sym × K)))
    (i j : Nat) : K :=
  match ruleFor rules (old.getD i "") with
  | none => delta i j
  | some rhs => E.diff (new.getD j "") rhs

/-- Entry `(i, j, k)`: the second derivative of old coordinate `i`. -/
def chartJacobian2 [Zero K] (E : Engine K) (old new : List Sym) (rules : List (Option (Sym × K)))
    (i j k : Nat) : K :=
  match ruleFor rules (old.getD i "") with
  | none => 0
  | some rhs => E.diff (new.getD k "") (E.diff (new.getD j "") rhs)

/-- Substituting the rules one after the other. -/
def substAll (E : Engine K) (rules : List (Option (Sym × K))) (x : K) : K :=
  (rules.filterMap id).foldl (fun x r => E.subst r.1 r.2 x) x

/-- Coordinate systems of dimension `n` and the rules between them. -/
structure Atlas (K : Type) where
  n : Nat
  syms : Id' → List Sym
  rules : Id' → Id' → Option (List (Option (Sym × K)))

structure Atlas.OK (A : Atlas K) : Prop where
  pos : 0 < A.n
  length : ∀ c, (A.syms c).length = A.n
  good : ∀ c c' rules, A.rules c c' = some rules → GoodRules rules

/-- An index configuration of rank `r`. -/
def Config (r : Nat) (ix : List Int) : Prop := ix.length = r ∧ ∀ x ∈ ix, x = 1 ∨ x = -1

/-- The components of every tensor in every coordinate system and index configuration. -/
structure Geometry (K : Type) where
  rank : Id' → Nat
  metricOf : Id' → Id'
  comp : Id' → Id' → List Int → List Nat → K

/-- The metric and inverse metric that belong to a tensor. -/
def Geometry.g (G : Geometry K) (t c : Id') (i j : Nat) : K := G.comp (G.metricOf t) c [-1, -1] [i, j]
def Geometry.ginv (G : Geometry K) (t c : Id') (i j : Nat) : K := G.comp (G.metricOf t) c [1, 1] [i, j]

/-- The components fit together: the metrics are symmetric and invertible, representations in one
coordinate system are related by raising and lowering, and those in different systems by the
transformation law. -/
structure Geometry.Lawful [CommRing K] (E : Engine K) (A : Atlas K) (G : Geometry K) : Prop where
  symm : ∀ t c i j, i < A.n → j < A.n → G.g t c i j = G.g t c j i
  inverse : ∀ t c, Inverse A.n (G.g t c) (G.ginv t c)
  mixed : ∀ t c i j, i < A.n → j < A.n → G.comp (G.metricOf t) c [1, -1] [i, j] = delta i j ∧
    G.comp (G.metricOf t) c [-1, 1] [i, j] = delta i j
  index : ∀ t c ix ix' J, Config (G.rank t) ix → Config (G.rank t) ix' →
    J.length = G.rank t → (∀ x ∈ J, x < A.n) →
    G.comp t c ix' J =
      applyFactors A.n (List.zipWith (indexFactor (G.g t c) (G.ginv t c)) ix ix') (G.comp t c ix) J
  chart : ∀ t c c' rules Jinv ix J, A.rules c c' = some rules →
    Inverse A.n (chartJacobian E (A.syms c) (A.syms c') rules) Jinv → Config (G.rank t) ix →
    J.length = G.rank t → (∀ x ∈ J, x < A.n) →
    G.comp t c' ix J = substAll E rules (applyFactors A.n
      (ix.map (coordFactor (chartJacobian E (A.syms c) (A.syms c') rules) Jinv)) (G.comp t c ix) J)

/-- An array has the given components. -/
def Agree [Zero K] (n r : Nat) (a : Arr K) (f : List Nat → K) : Prop :=
  a.WF ∧ a.shape = List.replicate r n ∧
    ∀ J : List Nat, J.length = r → (∀ x ∈ J, x < n) → a.get J = f J

/-- Cached Jacobians are those of the current rules. -/
def JacobianOK [CommRing K] (E : Engine K) (A : Atlas K) (c c' : Id') (j : Jacobians K) : Prop :=
  ∃ rules, A.rules c c' = some rules ∧ j.J.shape = [A.n, A.n] ∧ j.Jinv.shape = [A.n, A.n] ∧
    (∀ i k, i < A.n → k < A.n →
      j.J.get [i, k] = chartJacobian E (A.syms c) (A.syms c') rules i k) ∧
    Inverse A.n (fun i k => j.J.get [i, k]) (fun i k => j.Jinv.get [i, k]) ∧
    j.JJ.shape = [A.n, A.n, A.n] ∧ (∀ i k l, i < A.n → k < A.n → l < A.n →
      j.JJ.get [i, k, l] = chartJacobian2 E (A.syms c) (A.syms c') rules i k l)

/-- A session state whose coordinate systems are those of the atlas and whose metrics and tensors have
the components that the geometry says, as far as they have been computed. -/
structure Coherent [CommRing K] (E : Engine K) (A : Atlas K) (G : Geometry K) (w : World K) : Prop where
  charts : ∀ c o, w.objs[c]? = some o → o.kind = .coordinates →
    o.syms = A.syms c ∧ (∀ c', o.trans.get? c' = A.rules c c') ∧
    ∀ c' j, o.jac.get? c' = some j → JacobianOK E A c c' j
  tensors : ∀ t o, w.objs[t]? = some o → o.kind = .metric ∨ o.kind = .tensor →
    o.metric = G.metricOf t ∧ G.metricOf (G.metricOf t) = G.metricOf t ∧ Config (G.rank t) o.indices ∧
    (∃ om, w.objs[o.metric]? = some om ∧ om.kind = .metric) ∧
    (∃ oc, w.objs[o.coords]? = some oc ∧ oc.kind = .coordinates) ∧
    (∀ c d ix a, o.comps.get? c = some d → d.get? ix = some a →
      Config (G.rank t) ix ∧ Agree A.n (G.rank t) a (G.comp t c ix))
  metrics : ∀ t o, w.objs[t]? = some o → o.kind = .metric →
    G.rank t = 2 ∧ G.metricOf t = t ∧ (o.indices = [-1, -1] ∨ o.indices = [1, 1])

end PyOGRe.Spec
