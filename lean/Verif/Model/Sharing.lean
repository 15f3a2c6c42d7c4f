import Verif.Model.Labels
import Verif.Spec.Registry

/-!
# Dictionaries of rules that belong to the caller

`Coordinates.py:77-79`: the constructor keeps the dictionary `transformations` that the caller passes, if it is not empty, and
`add_coord_transformation` (`Coordinates.py:474`, `483`) changes it in place.  Here sessions also have the dictionaries of the
caller, and it is recorded which coordinate system has which of them as its attribute.
-/

namespace PyOGRe
open Spec
variable {K : Type}

/-- A dictionary of transformations: for each target the list of rules. -/
abbrev RuleDict (K : Type) := Dict Id' (List (Option (Sym × K)))

/-- A session with the dictionaries of the caller.  `(i, k) ∈ uses`: the attribute `_transformations` of the object `i` is the
`k`-th of these dictionaries. -/
structure Shared (K : Type) where
  world : World K
  dicts : List (RuleDict K)
  uses : List (Id' × Nat)

/-- The `k`-th dictionary gets the content `d`; all objects of which it is an attribute see this. -/
def Shared.put (s : Shared K) (k : Nat) (d : RuleDict K) : Shared K :=
  { s with
    dicts := s.dicts.set k d
    world := { s.world with
      objs := s.world.objs.mapIdx fun i o => if (i, k) ∈ s.uses then { o with trans := d } else o } }

/-- The rules as they are given to the constructor. -/
def ruleArg : Option (Sym × K) → RuleArg K
  | some (x, e) => .rule x e
  | none => .none

/-- What the caller does: a new dictionary; `d[coords] = rules` for the `k`-th dictionary; a new coordinate system with the `k`-th
dictionary as `transformations`; any other call. -/
inductive Deed (K : Type)
  | dict (d : RuleDict K)
  | assign (k : Nat) (coords : Id') (rules : List (Option (Sym × K)))
  | coordinates (name : Arg String) (shape : Arg (List Nat)) (syms : List Sym) (indices : IndicesArg) (symbol : Arg String)
      (k : Nat)
  | call (c : Call K)

variable [CommRing K] [DecidableEq K] [Algebra ℚ K]

/-- `Coordinates.py:45-82` with `transformations=d` for the `k`-th dictionary `d` of the caller: an empty dictionary is not
kept. -/
def Shared.newCoordinates (s : Shared K) (name : Arg String) (shape : Arg (List Nat)) (syms : List Sym)
    (indices : IndicesArg) (symbol : Arg String) (k : Nat) : Shared K :=
  match newCoordinatesWith name shape syms indices symbol
      ((s.dicts.getD k []).map fun p => (p.1, p.2.map ruleArg)) s.world with
  | (.ok i, w) => { s with world := w, uses := if (s.dicts.getD k []).isEmpty then s.uses else s.uses ++ [(i, k)] }
  | (.error _, w) => { s with world := w }

/-- `Coordinates.py:406-485` `add_coord_transformation`, which changes the dictionary in place. -/
def Shared.addTransformation (s : Shared K) (c coords : Id') (rules : Option (List (Option (Sym × K)))) : Shared K :=
  match addCoordTransformation c coords rules s.world with
  | (.ok _, w) =>
    match s.uses.lookup c, w.objs[c]? with
    | some k, some o => ({ s with world := w } : Shared K).put k o.trans
    | _, _ => { s with world := w }
  | (.error _, w) => { s with world := w }

/-- The session afterwards. -/
def Deed.run (E : Engine K) (letters : List Sym) : Deed K → Shared K → Shared K
  | .dict d, s => { s with dicts := s.dicts ++ [d] }
  | .assign k c rules, s => s.put k ((s.dicts.getD k []).set c rules)
  | .coordinates name shape syms indices symbol k, s => s.newCoordinates name shape syms indices symbol k
  | .call (.transformation c c' rules), s => s.addTransformation c c' rules
  | .call c, s => { s with world := c.run E letters s.world }

/-- The session after several of these. -/
def deeds (E : Engine K) (letters : List Sym) : List (Deed K) → Shared K → Shared K
  | [], s => s
  | d :: ds, s => deeds E letters ds (d.run E letters s)

end PyOGRe
