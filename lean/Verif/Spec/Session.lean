import Verif.Spec.Atlas
import Verif.Model.Construct

/-!
# Sessions: what a user does and what the user sees

A session starts with some coordinate systems and the rules between them.  The user then declares
metrics in a home system and tensors in any system, asks for components and changes defaults, in any order; exceptions
are caught and the session goes on.  The events of a session are the successful declarations and the
components that were returned.
-/

namespace PyOGRe.Spec
variable {K : Type}

/-- A call of the user. -/
inductive Op (K : Type)
  /-- `Metric(name, comps, home, indices, symbol)` -/
  | metric (name : Arg String) (comps : Arr K) (indices : IndicesArg) (symbol : Arg String)
  /-- `Tensor(name, comps, metric, coords, indices, symbol)` -/
  | tensor (name : Arg String) (comps : Arr K) (metric coords : Id') (indices : IndicesArg)
    (symbol : Arg String)
  /-- `t.get_components(coords, indices)` -/
  | get (t : Id') (coords : Option Id') (indices : Option (List Int))
  /-- `t.change_default_indices(indices)` -/
  | setIndices (t : Id') (indices : List Int)
  /-- `t.change_default_coords(coords)` -/
  | setCoords (t : Id') (coords : Id')

/-- What the user sees. -/
inductive Event (K : Type)
  /-- metric `i` was declared with this matrix in these coordinates and this configuration -/
  | metric (i coords : Id') (indices : List Int) (comps : Arr K)
  /-- tensor `i` of metric `m` was declared with these components -/
  | tensor (i m coords : Id') (indices : List Int) (comps : Arr K)
  /-- the components of `t` in these coordinates and this configuration were returned -/
  | got (t coords : Id') (indices : List Int) (comps : Arr K)

/-- One call: the event, if it returned, and the new state. -/
def Op.run [DecidableEq K] [Zero K] [One K] [Add K] [Mul K] (E : Engine K) (home : Id') :
    Op K → World K → List (Event K) × World K
  | .metric name comps ix symbol, w =>
    match newMetric E name (.val comps) home ix symbol w with
    | (.ok i, w') => ([.metric i home (ix.getD 2) comps], w')
    | (.error _, w') => ([], w')
  | .tensor name comps m c ix symbol, w =>
    match newTensor .tensor name (.val comps) m c ix symbol w with
    | (.ok i, w') => ([.tensor i m c (ix.getD comps.rank) comps], w')
    | (.error _, w') => ([], w')
  | .get t c ix, w =>
    match getComponents E t c ix w with
    | (.ok b, w') => (((w.objs[t]?).map fun o => Event.got t (c.getD o.coords) (ix.getD o.indices) b).toList,
        w')
    | (.error _, w') => ([], w')
  | .setIndices t ix, w => ([], (changeDefaultIndices E t ix w).2)
  | .setCoords t c, w => ([], (changeDefaultCoords E t c w).2)

/-- A session: all events, and the final state. -/
def session [DecidableEq K] [Zero K] [One K] [Add K] [Mul K] (E : Engine K) (home : Id') :
    List (Op K) → World K → List (Event K) × World K
  | [], w => ([], w)
  | op :: ops, w =>
    let r := op.run E home w
    let rs := session E home ops r.2
    (r.1 ++ rs.1, rs.2)

/-- The calls considered here: arrays have as many entries as their shape says; the entries of declared
metrics are functions of the home coordinates, and the components of declared tensors are those of
some array of functions of the home coordinates seen from the given system; requests go to metrics and
tensors, and the default configuration of a metric is never changed to a mixed one. -/
def Op.Allowed [CommRing K] (n : Nat) (F : Frames K) (w : World K) : Op K → Prop
  | .metric _ comps _ _ => comps.WF ∧ ∀ x ∈ comps.data, x ∈ F.fns
  | .tensor _ comps _ c ix _ => comps.WF ∧ ∃ base : List Nat → K, (∀ J, base J ∈ F.fns) ∧
      ∀ J : List Nat, J.length = comps.rank → (∀ x ∈ J, x < n) →
        comps.get J = SeenFrom n F c (ix.getD comps.rank) base J
  | .get t _ _ => ∀ o, w.objs[t]? = some o → o.kind = .metric ∨ o.kind = .tensor
  | .setIndices t ix => ∀ o, w.objs[t]? = some o →
      (o.kind = .metric ∧ (ix = [-1, -1] ∨ ix = [1, 1])) ∨ o.kind = .tensor
  | .setCoords t _ => ∀ o, w.objs[t]? = some o → o.kind = .metric ∨ o.kind = .tensor

/-- All calls of a session are of the kind considered. -/
def AllAllowed [DecidableEq K] [CommRing K] (E : Engine K) (home : Id') (n : Nat) (F : Frames K) :
    List (Op K) → World K → Prop
  | [], _ => True
  | op :: ops, w => op.Allowed n F w ∧ AllAllowed E home n F ops (op.run E home w).2

/-- A state with coordinate systems only, which are those of the atlas. -/
def ChartsOnly (A : Atlas K) (home : Id') (w : World K) : Prop :=
  (∃ o, w.objs[home]? = some o) ∧
  ∀ c o, w.objs[c]? = some o → o.kind = .coordinates ∧ o.syms = A.syms c ∧
    (∀ c', o.trans.get? c' = A.rules c c') ∧ o.jac = []

/-- Every chart has rules to every other one, and they can be inverted. -/
def Connected [CommRing K] (E : Engine K) (A : Atlas K) (w : World K) : Prop :=
  ∀ (c c' : Id') o o', w.objs[c]? = some o → w.objs[c']? = some o' → o.kind = .coordinates →
    o'.kind = .coordinates → c ≠ c' →
    ∃ rules Jinv, A.rules c c' = some rules ∧
      Inverse A.n (chartJacobian E (A.syms c) (A.syms c') rules) Jinv

/-- Calls that stay clear of the known defects of scalars and metrics: scalars keep their default coordinates;
metrics are declared with the configuration (-1,-1), keep it as default, and are asked for this configuration first in each coordinate system (the
dictionary of components has an entry for a coordinate system from the first request on). -/
def Op.Plain (w : World K) : Op K → Prop
  | .metric _ _ ix _ => ix = .tuple [-1, -1]
  | .tensor _ _ _ _ _ _ => True
  | .get t c ix => ∀ o, w.objs[t]? = some o → o.kind = .metric → ix = none ∨ ix = some [-1, -1] ∨
      o.comps.has (c.getD o.coords) = true
  | .setIndices t _ => ∀ o, w.objs[t]? = some o → o.kind = .tensor
  | .setCoords t _ => ∀ o, w.objs[t]? = some o → o.indices ≠ []

def AllPlain [DecidableEq K] [Zero K] [One K] [Add K] [Mul K] (E : Engine K) (home : Id') :
    List (Op K) → World K → Prop
  | [], _ => True
  | op :: ops, w => op.Plain w ∧ AllPlain E home ops (op.run E home w).2

/-- An event is explained by declarations in the home system. -/
def Event.ExplainedBy [CommRing K] (A : Atlas K) (F : Frames K) (H : Home K) : Event K → Prop
  | .metric i c ix a => H.metricOf i = i ∧ Config (H.rank i) ix ∧
      Agree A.n (H.rank i) a ((H.geometry A.n F).comp i c ix)
  | .tensor i m c ix a => H.metricOf i = m ∧ Config (H.rank i) ix ∧
      Agree A.n (H.rank i) a ((H.geometry A.n F).comp i c ix)
  | .got t c ix b => Config (H.rank t) ix ∧ Agree A.n (H.rank t) b ((H.geometry A.n F).comp t c ix)

end PyOGRe.Spec
