import Verif.Spec.Charts
import Verif.Spec.Curvature
import Verif.Spec.Geodesic

/-!
# Geometry in new coordinates

What Christoffel symbols and curvature in new coordinates are: those of the metric in the new coordinates.
-/

namespace PyOGRe.Spec
open Finset
variable {K : Type} [CommRing K]

/-- The metric in new coordinates, by the transformation law of tensors. -/
def Ground.moved (E : Engine K) (G : Ground K) (c' : Id') (new : List Sym) (rules : List (Option (Sym × K)))
    (Jinv : Nat → Nat → K) : Ground K where
  n := G.n
  c := c'
  m := G.m
  syms := new
  g a b := transformed E G.n (chartJacobian E G.syms new rules) Jinv rules [-1, -1]
    (fun I => G.g (I.getD 0 0) (I.getD 1 0)) [a, b]
  gi a b := transformed E G.n (chartJacobian E G.syms new rules) Jinv rules [1, 1]
    (fun I => G.gi (I.getD 0 0) (I.getD 1 0)) [a, b]

/-- The transformation of Christoffel symbols: that of a tensor and a second term with the second derivatives of
the old coordinates. -/
def christoffelLaw (E : Engine K) (n : Nat) (J Jinv : Nat → Nat → K) (JJ : Nat → Nat → Nat → K)
    (rules : List (Option (Sym × K))) (T : List Nat → K) (a b c : Nat) : K :=
  substAll E rules (applyFactors n ([1, -1, -1].map (coordFactor J Jinv)) T [a, b, c] +
    ∑ l ∈ range n, Jinv a l * JJ l b c)

/-- Substitutions for different symbols can be made in any order if the one does not introduce the symbol of the
other. -/
def SwapOK (E : Engine K) : Prop :=
  ∀ s v t u x, s ≠ t → E.diff s u = 0 → E.diff t v = 0 → E.subst s v (E.subst t u x) = E.subst t u (E.subst s v x)

/-- The metric does not contain the names of the coordinates that are new. -/
structure FreshNames (E : Engine K) (G : Ground K) (new : List Sym) : Prop where
  metric : ∀ i j, i < G.n → j < G.n → ∀ s ∈ new, s ∉ G.syms → E.diff s (G.g i j) = 0

/-- No Jacobian is stale: those that are stored belong to the present rules (rules have not been overwritten after
they were used). -/
def NoStale (E : Engine K) (w : World K) : Prop :=
  ∀ (i : Id') (o : Obj K), w.objs[i]? = some o → ∀ c' j, o.jac.get? c' = some j → ∃ (oc' : Obj K) (rules : _), w.objs[c']? = some oc' ∧
    o.trans.get? c' = some rules ∧ calculateJacobian E o.syms oc'.syms rules = .ok j

/-- Nothing with this name is registered. -/
def NotNamed (w : World K) (name : String) : Prop := ∀ i ∈ w.instances, ∀ o, w.objs[i]? = some o → o.name ≠ name

end PyOGRe.Spec
