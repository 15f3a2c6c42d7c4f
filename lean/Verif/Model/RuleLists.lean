import Verif.Model.Labels
import Verif.Spec.Registry

/-!
# Lists of rules that belong to the caller

`Coordinates.py:483`: `add_coord_transformation` keeps the list `rules` that the caller passes.  Here sessions also have the lists
of the caller, and it is recorded which of them are stored in which coordinate system.
-/

namespace PyOGRe
open Spec
variable {K : Type}

/-- A list of rules. -/
abbrev RuleList (K : Type) := List (Option (Sym × K))

/-- A session with the lists of the caller.  `((c, coords), k)` in `held`: `_transformations[coords]` of the object `c` is the
`k`-th of these lists. -/
structure Handed (K : Type) where
  world : World K
  lists : List (RuleList K)
  held : Dict (Id' × Id') Nat

/-- The `k`-th list gets the content `l`; all objects in which it is stored see this. -/
def Handed.put (s : Handed K) (k : Nat) (l : RuleList K) : Handed K :=
  { s with
    lists := s.lists.set k l
    world := { s.world with
      objs := s.world.objs.mapIdx fun i o =>
        { o with trans := o.trans.map fun p => if s.held.get? (i, p.1) = some k then (p.1, l) else p } } }

/-- What the caller does: a new list; the `k`-th list gets a new content, by assignments to its entries, `append` and so on;
`c.add_coord_transformation(coords, rules)` with the `k`-th list; any other call (with new lists, if at all). -/
inductive Act (K : Type)
  | list (l : RuleList K)
  | change (k : Nat) (l : RuleList K)
  | add (c coords : Id') (k : Nat)
  | call (c : Call K)

variable [CommRing K] [DecidableEq K] [Algebra ℚ K]

/-- `Coordinates.py:406-485` `add_coord_transformation` with the `k`-th list, which is stored. -/
def Handed.add (s : Handed K) (c coords : Id') (k : Nat) : Handed K :=
  match addCoordTransformation c coords (some (s.lists.getD k [])) s.world with
  | (.ok _, w) => { s with world := w, held := s.held.set (c, coords) k }
  | (.error _, w) => { s with world := w }

/-- `Coordinates.py:406-485` `add_coord_transformation` with a new list or `None`. -/
def Handed.forget (s : Handed K) (c coords : Id') (rules : Option (RuleList K)) : Handed K :=
  match addCoordTransformation c coords rules s.world with
  | (.ok _, w) => { s with world := w, held := s.held.del (c, coords) }
  | (.error _, w) => { s with world := w }

/-- The session afterwards.  (Other calls do not touch the rules of objects that exist, see C81.) -/
def Act.run (E : Engine K) (letters : List Sym) : Act K → Handed K → Handed K
  | .list l, s => { s with lists := s.lists ++ [l] }
  | .change k l, s => s.put k l
  | .add c coords k, s => s.add c coords k
  | .call (.transformation c coords rules), s => s.forget c coords rules
  | .call c, s => { s with world := c.run E letters s.world }

/-- The session after several of these. -/
def acts (E : Engine K) (letters : List Sym) : List (Act K) → Handed K → Handed K
  | [], s => s
  | a :: as, s => acts E letters as (a.run E letters s)

end PyOGRe
