import Verif.Model.World

/-! # Stored components -/

namespace PyOGRe

/-- The components of an object that are stored for these coordinates and this configuration. -/
def Spec.stored {K : Type} (o : Obj K) (c : Id') (ix : List Int) : Option (Arr K) :=
  (o.comps.get? c).bind fun d => d.get? ix

end PyOGRe
