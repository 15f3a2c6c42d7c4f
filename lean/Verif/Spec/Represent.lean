import Verif.Spec.Session

/-! Vocabulary for the properties about representations (C08 - C20). -/

namespace PyOGRe.Spec
variable {K : Type}

/-- Component `(i, j)` of a matrix. -/
def entry [Zero K] (a : Arr K) (i j : Nat) : K := a.get [i, j]

/-- Metric `m` is in use and is known in the coordinate system `c`: `g` are its lower and `gi` its upper
components there. -/
def MetricStored (w : World K) (m c : Id') (g gi : Arr K) : Prop :=
  ∃ o d, w.objs[m]? = some o ∧ o.alive = true ∧ o.kind = .metric ∧ o.comps.get? c = some d ∧
    d.get? [-1, -1] = some g ∧ d.get? [1, 1] = some gi

/-- A history of component requests: object, coordinates, configuration; exceptions are ignored. -/
def requests [Zero K] [One K] [Add K] [Mul K] (E : Engine K) :
    List (Id' × Option Id' × Option (List Int)) → World K → World K
  | [], w => w
  | (i, c, ix) :: rest, w => requests E rest (getComponents E i c ix w).2

/-- Declares a tensor with the given configuration and components, requests its components in the first
configuration of the list, declares a new tensor with these, and so on. -/
def redeclare [Zero K] [One K] [Add K] [Mul K] (E : Engine K) (m c : Id') :
    List (List Int) → List Int → Arr K → PyM K (Arr K)
  | [], _, a => pure a
  | tgt :: rest, src, a => do
    let t ← newTensor .tensor (.val "T") (.val a) m c (.tuple src) (.val "T")
    let b ← getComponents E t none (some tgt)
    redeclare E m c rest tgt b

/-- The index configuration given to a constructor fits components of this rank; a missing one stands for
all indices lower. -/
def IndicesFit (rank : Nat) (ix : IndicesArg) : Prop := ix = .none ∨ ∃ l, ix = .tuple l ∧ Config rank l

/-- Well-formed arguments of `Tensor(name, components, metric, coords, indices, symbol)`. -/
structure TensorArgsOK (w : World K) (name : Arg String) (comps : Arg (Arr K)) (metric coords : Id')
    (indices : IndicesArg) (symbol : Arg String) : Prop where
  name : ∃ s, name = .val s
  symbol : ∃ s, symbol = .val s
  metric : ∃ o, w.objs[metric]? = some o ∧ o.kind = .metric
  fits : ∃ oc a, w.objs[coords]? = some oc ∧ oc.kind = .coordinates ∧ oc.alive = true ∧ comps = .val a ∧
    (∀ d ∈ a.shape, d = oc.syms.length) ∧ IndicesFit a.shape.length indices

/-- Well-formed arguments of `Metric(name, components, coords, indices, symbol)`. -/
structure MetricArgsOK [Zero K] (E : Engine K) (w : World K) (name : Arg String) (comps : Arg (Arr K))
    (coords : Id') (indices : IndicesArg) (symbol : Arg String) : Prop where
  name : ∃ s, name = .val s
  symbol : ∃ s, symbol = .val s
  indices : indices = .tuple [-1, -1] ∨ indices = .tuple [1, 1]
  fits : ∃ oc a, w.objs[coords]? = some oc ∧ oc.kind = .coordinates ∧ oc.alive = true ∧ comps = .val a ∧
    a.shape = [oc.syms.length, oc.syms.length] ∧
    (∀ i j, i < oc.syms.length → j < oc.syms.length → entry a i j = entry a j i) ∧ E.det a ≠ 0

end PyOGRe.Spec
