import Verif.Model.Objects

/-!
# Changing defaults
-/

namespace PyOGRe.Spec
variable {K : Type}

/-- The sessions `w` and `w'` are the same, except that `c` are the default coordinates of `t` in `w'`. -/
def CoordsSet (t c : Id') (w w' : World K) : Prop := w'.instances = w.instances ∧
  ∀ i, w'.objs[i]? = if i = t then (w.objs[i]?).map fun o => { o with coords := c } else w.objs[i]?

/-- The sessions `w` and `w'` are the same, except that `ix` is the default configuration of `t` in `w'`. -/
def IndicesSet (t : Id') (ix : List Int) (w w' : World K) : Prop := w'.instances = w.instances ∧
  ∀ i, w'.objs[i]? = if i = t then (w.objs[i]?).map fun o => { o with indices := ix } else w.objs[i]?

/-- There are rules for the transformation from `c` to `c'`. -/
def Ruled (w : World K) (c c' : Id') : Prop := ∃ oc, w.objs[c]? = some oc ∧ oc.alive = true ∧ ∃ rules, oc.trans.get? c' = some rules

/-- There are none. -/
def Unruled (w : World K) (c c' : Id') : Prop := ∃ oc, w.objs[c]? = some oc ∧ oc.alive = true ∧ oc.trans.get? c' = none

/-- `c` are coordinates. -/
def AreCoordinates (w : World K) (c : Id') : Prop := ∃ oc, w.objs[c]? = some oc ∧ oc.alive = true ∧ oc.kind = .coordinates

end PyOGRe.Spec
