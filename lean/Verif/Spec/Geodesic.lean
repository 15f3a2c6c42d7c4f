import Verif.Spec.Curvature
import Verif.Model.Geodesic

/-!
# Motion along curves: textbook formulae

Velocities and accelerations are symbols, called like the coordinates with `dot` and `ddot` appended.
-/

namespace PyOGRe.Spec
open Finset
variable {K : Type} [CommRing K]

/-- `ẋ^i` and `ẍ^i`. -/
def Ground.speed (C : Curves K) (G : Ground K) (i : Nat) : K := C.var (dot (G.syms.getD i ""))
def Ground.accel (C : Curves K) (G : Ground K) (i : Nat) : K := C.var (ddot (G.syms.getD i ""))

/-- `g_{mn} ẋ^m ẋ^n`. -/
def lagrangian (C : Curves K) (G : Ground K) : K :=
  ∑ m ∈ range G.n, ∑ n ∈ range G.n, G.g m n * G.speed C m * G.speed C n

/-- `ẍ^i + Γ^i_{mn} ẋ^m ẋ^n`. -/
def geodesic [Algebra ℚ K] (E : Engine K) (C : Curves K) (G : Ground K) (i : Nat) : K :=
  G.accel C i + ∑ m ∈ range G.n, ∑ n ∈ range G.n, christoffel E G i m n * G.speed C m * G.speed C n

/-- The velocity and the acceleration with respect to the zeroth coordinate. -/
def Ground.speedT (C : Curves K) (G : Ground K) (i : Nat) : K := if i = 0 then 1 else G.speed C i
def Ground.accelT (C : Curves K) (G : Ground K) (i : Nat) : K := if i = 0 then 0 else G.accel C i

/-- `a^i + (Γ^i_{mn} - Γ^0_{mn} v^i) v^m v^n` with `v^0 = 1` and `a^0 = 0`. -/
def geodesicT [Algebra ℚ K] (E : Engine K) (C : Curves K) (G : Ground K) (i : Nat) : K :=
  G.accelT C i + ∑ m ∈ range G.n, ∑ n ∈ range G.n,
    (christoffel E G i m n - christoffel E G 0 m n * G.speedT C i) * G.speedT C m * G.speedT C n

/-- What is assumed about sympy: symbols are independent of each other, substituting functions for symbols respects
sums and products and commutes with derivatives, the chain rule holds along a curve (for expressions without
accelerations and without the curve parameter), symbols can be substituted back, and clearing a denominator
multiplies by it. -/
structure CurvesOK [Algebra ℚ K] (E : Engine K) (C : Curves K) (syms : List Sym) : Prop where
  var : ∀ s t, E.diff s (C.var t) = if s = t then 1 else 0
  one : ∀ p, C.asFunctions p syms 1 = 1
  add : ∀ p x y, C.asFunctions p syms (x + y) = C.asFunctions p syms x + C.asFunctions p syms y
  mul : ∀ p x y, C.asFunctions p syms (x * y) = C.asFunctions p syms x * C.asFunctions p syms y
  byFunction : ∀ s ∈ syms ++ syms.map dot, ∀ x,
    C.byFunction s (C.asFunctions C.parameter syms x) = C.asFunctions C.parameter syms (E.diff s x)
  sub : ∀ x y, C.asSymbols syms (x - y) = C.asSymbols syms x - C.asSymbols syms y
  back : ∀ x, (∀ s ∈ syms, E.diff (ddot s) x = 0) → C.asSymbols syms (C.asFunctions C.parameter syms x) = x
  chain : ∀ x, (∀ s ∈ syms, E.diff (ddot s) x = 0) → E.diff C.parameter x = 0 →
    C.asSymbols syms (C.rate (C.asFunctions C.parameter syms x)) =
      (syms.map fun s => E.diff s x * C.var (dot s) + E.diff (dot s) x * C.var (ddot s)).sum
  clear : ∀ x, ∃ d, IsUnit d ∧ C.clear x = d * x

/-- The names of coordinates, velocities and accelerations and of the curve parameter are all different. -/
def ProperNames (C : Curves K) (syms : List Sym) : Prop :=
  (C.parameter :: (syms ++ syms.map dot ++ syms.map ddot)).Nodup

/-- The metric depends only on the coordinates. -/
def Static (E : Engine K) (C : Curves K) (G : Ground K) : Prop :=
  ∀ i j, i < G.n → j < G.n → E.diff C.parameter (G.g i j) = 0 ∧
    ∀ s ∈ G.syms, E.diff (dot s) (G.g i j) = 0 ∧ E.diff (ddot s) (G.g i j) = 0

/-- The object `r` is in use, of the given class, name and configuration, belongs to the metric and the coordinates
of the ground, and its components there, before functions are substituted, are given by `f`. -/
def Holds (G : Ground K) (w : World K) (r : Id') (kind : Kind) (name : String) (ix : List Int)
    (f : List Nat → K) : Prop :=
  ∃ o, w.objs[r]? = some o ∧ o.alive = true ∧ o.kind = kind ∧ o.name = name ∧ o.metric = G.m ∧ o.coords = G.c ∧
    o.indices = ix ∧ Config ix.length ix ∧ ∃ d a, o.comps.get? G.c = some d ∧ d.get? ix = some a ∧ Agree G.n ix.length a f

/-- No object of the given classes has this name. -/
def Unnamed (w : World K) (sel : Kind → Bool) (name : String) : Prop :=
  ∀ i ∈ w.instances, ∀ o, w.objs[i]? = some o → sel o.kind = true → o.name ≠ name

/-- Registered objects of these classes with this name hold what they should. -/
def NamesCurve (G : Ground K) (w : World K) (sel : Kind → Bool) (kind : Kind) (name : String) (ix : List Int)
    (f : List Nat → K) : Prop :=
  ∀ i ∈ w.instances, ∀ o, w.objs[i]? = some o → sel o.kind = true → o.name = name → Holds G w i kind name ix f

/-- The object `i` is called like the Lagrangian or like one of the other quantities of a metric with name `base`. -/
def Related (base : String) (w : World K) (i : Id') : Prop :=
  (∃ o, w.objs[i]? = some o ∧ o.name = base ++ " Lagrangian") ∨ Derived base w i

/-- What is assumed about substitutions for symbols: they respect sums and products, only the symbol itself is
replaced, expressions that do not contain it are not changed, and the chain rule holds. -/
structure SubstOK (E : Engine K) (C : Curves K) : Prop where
  one : ∀ s v, E.subst s v 1 = 1
  add : ∀ s v x y, E.subst s v (x + y) = E.subst s v x + E.subst s v y
  mul : ∀ s v x y, E.subst s v (x * y) = E.subst s v x * E.subst s v y
  var : ∀ s v t, E.subst s v (C.var t) = if s = t then v else C.var t
  const : ∀ s v x, E.diff s x = 0 → E.subst s v x = x
  chain : ∀ s v t x, s ≠ t → E.diff t (E.subst s v x) =
    E.subst s v (E.diff t x) + E.subst s v (E.diff s x) * E.diff t v

/-- The derivative along a curve of a function of the coordinates `new`. -/
def VelocityOK (E : Engine K) (C : Curves K) (new : List Sym) : Prop :=
  ∀ x, (∀ s, s ∉ new → E.diff s x = 0) →
    C.velocity new x = (new.map fun s => E.diff s x * C.var (dot s)).sum

/-- No coordinate is called like a velocity. -/
def NewNames (old new : List Sym) : Prop := ∀ s ∈ old ++ new, ∀ t ∈ old ++ new, s ≠ dot t

/-- There is exactly one rule for every old coordinate, and its right-hand side is a function of the new ones. -/
def FullRules (E : Engine K) (old new : List Sym) (rules : List (Option (Sym × K))) : Prop :=
  GoodRules rules ∧ (∀ s, s ∈ old ↔ ∃ v, some (s, v) ∈ rules) ∧
    ∀ r, some r ∈ rules → ∀ s, s ∉ new → E.diff s r.2 = 0

/-- Rules for some or all of the old coordinates.  There is at most one for each, its right-hand side is a function of
the new coordinates, and an old coordinate with a rule is not a new one.  An old coordinate without a rule is kept: it
is the new coordinate at the same place, and at no other place. -/
structure ChartRules (E : Engine K) (old new : List Sym) (rules : List (Option (Sym × K))) : Prop where
  once : GoodRules rules
  names : ∀ s v, some (s, v) ∈ rules → s ∈ old ∧ s ∉ new
  values : ∀ r, some r ∈ rules → ∀ s, s ∉ new → E.diff s r.2 = 0
  kept : ∀ i j, i < old.length → j < new.length → (¬∃ v, some (old.getD i "", v) ∈ rules) →
    (new.getD j "" = old.getD i "" ↔ j = i)

end PyOGRe.Spec
