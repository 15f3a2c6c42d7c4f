import Verif.Model.Registry

/-!
# The list that `get_instances` returns

`OGReObject._instances` is one of Python's lists, which is changed in place (`append` in `OGReObject.py:52`, `remove` in
`OGReObject.py:259`) except in `clear_instances`, which replaces it by another list (`Options.py:343`).
-/

namespace PyOGRe
variable {K : Type}

/-- `Options.py:336-342`: `clear_instances` up to the last line. -/
def clearLoops : PyM K Unit := do
  deleteResults
  timesDo (deletePass (fun _ => true) tryDelete) 4

/-- The state with all lists that have been the registry. -/
structure Lists (K : Type) where
  world : World K
  /-- the contents of the lists -/
  lists : List (List Id')
  /-- which of them is `OGReObject._instances` -/
  now : Nat

/-- `OGReObject.py:30`: a new session. -/
def Lists.start : Lists K := ⟨⟨[], []⟩, [[]], 0⟩

/-- `Options.py:292-297` `get_instances`: the list itself. -/
def getInstances (L : Lists K) : Nat := L.now

/-- The objects in a list. -/
def Lists.read (L : Lists K) (r : Nat) : List Id' := L.lists.getD r []

/-- A call that leads to the state `w` and changes the registry in place. -/
def Lists.inPlace (L : Lists K) (w : World K) : Lists K := { L with world := w, lists := L.lists.set L.now w.instances }

/-- A call that begins with `clear_instances` and leads to the state `w`: a new list is the registry, the old one keeps what
the loops of `clear_instances` leave. -/
def Lists.replaced (L : Lists K) (w : World K) : Lists K :=
  { world := w, lists := L.lists.set L.now (clearLoops L.world).2.instances ++ [w.instances], now := L.lists.length }

end PyOGRe
