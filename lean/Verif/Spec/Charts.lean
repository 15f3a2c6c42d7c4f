import Verif.Spec.Represent

/-! Vocabulary for the properties about coordinate systems (C12 - C18, C67). -/

namespace PyOGRe.Spec
variable {K : Type}

/-- The geometry says the same as the event. -/
def Event.Shows [Zero K] (n : Nat) (G : Geometry K) : Event K → Prop
  | .metric i c ix a => G.metricOf i = i ∧ Config (G.rank i) ix ∧ Agree n (G.rank i) a (G.comp i c ix)
  | .tensor i m c ix a => G.metricOf i = m ∧ Config (G.rank i) ix ∧ Agree n (G.rank i) a (G.comp i c ix)
  | .got t c ix b => Config (G.rank t) ix ∧ Agree n (G.rank t) b (G.comp t c ix)

/-- The transformation law: one factor per index (the inverse Jacobian for an upper index, the Jacobian for
a lower one), then the rules are substituted. -/
def transformed [CommRing K] (E : Engine K) (n : Nat) (J Jinv : Nat → Nat → K)
    (rules : List (Option (Sym × K))) (ix : List Int) (T : List Nat → K) (I : List Nat) : K :=
  substAll E rules (applyFactors n (ix.map (coordFactor J Jinv)) T I)

/-- Raising and lowering from configuration `src` to configuration `tgt`. -/
def shifted [CommRing K] (n : Nat) (g gi : Arr K) (src tgt : List Int) (T : List Nat → K) (I : List Nat) : K :=
  applyFactors n (List.zipWith (indexFactor (entry g) (entry gi)) src tgt) T I

/-- The opposite configuration. -/
def opposite (ix : List Int) : List Int := ix.map fun i => -i

/-- The sum of the products of corresponding components: the contraction of all indices. -/
def fullContraction [CommRing K] (n r : Nat) (a b : Arr K) : K :=
  ((tuples n r).map fun I => a.get I * b.get I).sum

/-- Tensor or metric `t` (of the given kind) is in use, has the default coordinates `c`, and a request in these coordinates with
configuration `ix` returns `b` without any effect (because it has been declared or requested so before). -/
structure Known [Zero K] [One K] [Add K] [Mul K] (E : Engine K) (w : World K) (kind : Kind) (t c : Id')
    (ix : List Int) (b : Arr K) : Prop where
  object : ∃ o, w.objs[t]? = some o ∧ o.kind = kind ∧ o.coords = c
  returns : getComponents E t (some c) (some ix) w = (.ok b, w)

/-- Tensor `t` has not been seen in coordinate system `c'`. -/
def Unseen (w : World K) (t c' : Id') : Prop := ∀ o, w.objs[t]? = some o → o.comps.get? c' = none

/-- If `t` is a scalar, its first representation, the one it was created with, is the one in `c`. -/
def Native (w : World K) (t c : Id') : Prop :=
  ∀ o, w.objs[t]? = some o → o.indices = [] → o.comps.head?.map (·.1) = some c

/-- `c` and `c'` are coordinate systems in use with these symbols, and these are the rules from `c` to `c'`
(if any). -/
def Charts (w : World K) (c c' : Id') (old new : List Sym) (rules : Option (List (Option (Sym × K)))) : Prop :=
  (∃ o, w.objs[c]? = some o ∧ o.kind = .coordinates ∧ o.alive = true ∧ o.syms = old ∧ o.trans.get? c' = rules) ∧
  ∃ o, w.objs[c']? = some o ∧ o.kind = .coordinates ∧ o.alive = true ∧ o.syms = new

/-- The Jacobian from `c` to `c'` that was computed by an earlier transformation, if there was one. -/
def cachedJacobian (w : World K) (c c' : Id') : Option (Jacobians K) :=
  (w.objs[c]?).bind fun o => o.jac.get? c'

/-- An old coordinate as a function of the new ones: the right-hand side of its rule, or itself; `var` makes an
expression of a symbol. -/
def oldCoordinate (var : Sym → K) (rules : List (Option (Sym × K))) (s : Sym) : K :=
  (ruleFor rules s).getD (var s)

end PyOGRe.Spec
