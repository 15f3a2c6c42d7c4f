import Verif.Model.Replace
import Verif.Spec.Geodesic

/-!
# Replacements alongCurve curves

The vocabulary of property C87.
-/

namespace PyOGRe.Spec
variable {K : Type} [CommRing K]

/-- The derivative along a curve with the given parameter: coordinates change with their velocities, velocities with
their accelerations; a coordinate that is the parameter changes with rate 1. -/
def alongCurve (E : Engine K) (C : Curves K) (p : Sym) (syms : List Sym) (x : K) : K :=
  E.diff p x + ((syms.filter (· ≠ p)).map fun s =>
    E.diff s x * C.var (dot s) + E.diff (dot s) x * C.var (ddot s)).sum

/-- What is assumed about `subs` with a dictionary: if, apart from the rule `0 → 0`, it consists of rules for different
symbols none of which occurs in what is put in, the order does not matter. -/
def SubsOK (E : Engine K) (C : Curves K) (R : Rewriter K) : Prop :=
  ∀ (rules : Dict K K) (l : List (Sym × K)), (l.map Prod.fst).Nodup → (∀ r ∈ l, ∀ t ∈ l, E.diff r.1 t.2 = 0) →
    (∀ q, q ≠ (0, 0) → (q ∈ rules ↔ ∃ r ∈ l, q = (C.var r.1, r.2))) →
    ∀ x, R.subs rules x = l.foldl (fun x r => E.subst r.1 r.2 x) x

/-- What is assumed about sympy. -/
structure RewriterOK (E : Engine K) (C : Curves K) (R : Rewriter K) : Prop where
  calculus : Calculus E
  var : ∀ s t, E.diff s (C.var t) = if s = t then 1 else 0
  subst : SubstOK E C
  subs : SubsOK E C R

/-- Writing functions of the parameter for the coordinates, differentiating once or twice, and writing symbols for the
functions and their derivatives gives the derivatives of the expression along a curve. -/
structure Differentiates (E : Engine K) (C : Curves K) (R : Rewriter K) (p : Sym) (syms : List Sym) (x : K) : Prop where
  zero : R.back p syms (C.asFunctions p syms x) = x
  one : R.back p syms (R.rate p (C.asFunctions p syms x)) = alongCurve E C p syms x
  two : R.back p syms (R.rate p (R.rate p (C.asFunctions p syms x))) = alongCurve E C p syms (alongCurve E C p syms x)

/-- The names of coordinates, velocities and accelerations are all different, and the parameter is called like none of
the velocities and accelerations. -/
structure JetNames (p : Sym) (syms : List Sym) : Prop where
  nodup : (syms ++ syms.map dot ++ syms.map ddot).Nodup
  parameter : p ∉ syms.map dot ++ syms.map ddot

/-- Replacements of symbols.  Each is either a coordinate other than the parameter, which is replaced by a function of
the parameter and of the other coordinates, or a constant, which is replaced by another constant.  What is put in does
not contain the symbols that are replaced. -/
structure Replacement (E : Engine K) (C : Curves K) (R : Rewriter K) (p : Sym) (syms : List Sym)
    (rules : List (Sym × K)) : Prop where
  once : (rules.map Prod.fst).Nodup
  kind : ∀ r ∈ rules, r.1 ≠ p ∧ (r.1 ∈ syms ∨
    r.1 ∉ syms ++ syms.map dot ++ syms.map ddot ∧ E.diff p r.2 = 0 ∧ ∀ s ∈ syms, E.diff s r.2 = 0)
  place : ∀ r ∈ rules, ∀ s ∈ syms, E.diff (dot s) r.2 = 0 ∧ E.diff (ddot s) r.2 = 0
  apart : ∀ r ∈ rules, ∀ t ∈ rules, E.diff r.1 t.2 = 0
  key : ∀ r ∈ rules, Differentiates E C R p syms (C.var r.1)
  value : ∀ r ∈ rules, Differentiates E C R p syms r.2

/-- `S` is what the replacements mean on a curve: the symbols are replaced by the given expressions, the velocities and
accelerations of coordinates that are replaced by the first and second derivatives of the expressions, the symbols in
`extra` by the given values, and nothing else changes. -/
structure Prolongs (E : Engine K) (C : Curves K) (p : Sym) (syms : List Sym) (rules extra : List (Sym × K))
    (S : K → K) : Prop where
  one : S 1 = 1
  add : ∀ x y, S (x + y) = S x + S y
  mul : ∀ x y, S (x * y) = S x * S y
  symbol : ∀ r ∈ rules, S (C.var r.1) = r.2
  velocity : ∀ r ∈ rules, r.1 ∈ syms → S (C.var (dot r.1)) = alongCurve E C p syms r.2
  acceleration : ∀ r ∈ rules, r.1 ∈ syms → S (C.var (ddot r.1)) = alongCurve E C p syms (alongCurve E C p syms r.2)
  others : ∀ r ∈ extra, S (C.var r.1) = r.2
  const : ∀ x, (∀ r ∈ rules, E.diff r.1 x = 0 ∧
    (r.1 ∈ syms → E.diff (dot r.1) x = 0 ∧ E.diff (ddot r.1) x = 0)) → (∀ r ∈ extra, E.diff r.1 x = 0) → S x = x

/-- When the first coordinate is the parameter, its velocity is 1 and its acceleration is 0. -/
def uniform (kind : Kind) (p : Sym) : List (Sym × K) :=
  if kind = .geodesicTime then [(dot p, 1), (ddot p, 0)] else []

/-- What the argument `replace` means, and that it is a dictionary for which it means something. -/
def Rewrites (E : Engine K) (C : Curves K) (kind : Kind) (p : Sym) (syms : List Sym) (replace : Option (List (Sym × K)))
    (S : K → K) : Prop :=
  match replace with
  | none => ∀ x, S x = x
  | some rules => Prolongs E C p syms rules (uniform kind p) S

def ProperReplace (E : Engine K) (C : Curves K) (R : Rewriter K) (kind : Kind) (p : Sym) (syms : List Sym)
    (replace : Option (List (Sym × K))) : Prop :=
  ∀ rules, replace = some rules → JetNames p syms ∧ (kind = .geodesicTime → p ∈ syms) ∧ Replacement E C R p syms rules

/-- The dictionary with these rules for symbols. -/
def asDict (C : Curves K) (replace : Option (List (Sym × K))) : Option (List (K × K)) :=
  replace.map fun rules => rules.map fun r => (C.var r.1, r.2)

/-- The components that are stored for these coordinates and indices. -/
def HasComps (w : World K) (t c : Id') (ix : List Int) (a : Arr K) : Prop :=
  ∃ o d, w.objs[t]? = some o ∧ o.comps.get? c = some d ∧ d.get? ix = some a

end PyOGRe.Spec
