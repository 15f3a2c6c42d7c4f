import Mathlib.Data.List.Basic

/-! Vocabulary for stating array properties.  It refers to no model definition. -/

namespace PyOGRe.Spec

/-- The entries of a list at the positions that are not among `axes`, in order. -/
def dropAxes {α : Type} (axes : List Nat) (xs : List α) : List α :=
  (xs.zipIdx.filter fun p => decide (p.2 ∉ axes)).map (·.1)

/-- The position `I` with the entry at `axes[j]` replaced by `s[j]` for every `j`. -/
def withAxes (I axes s : List Nat) : List Nat :=
  I.zipIdx.map fun p => if p.2 ∈ axes then s.getD (axes.idxOf p.2) 0 else p.1

/-- All lists of `k` numbers below `n`. -/
def tuples (n : Nat) : Nat → List (List Nat)
  | 0 => [[]]
  | k + 1 => (List.range n).flatMap fun i => (tuples n k).map (i :: ·)

example : dropAxes [0, 2] ["a", "b", "c", "d"] = ["b", "d"] := by decide
example : withAxes [7, 8, 9] [2, 0] [1, 4] = [4, 8, 1] := by decide
example : tuples 2 2 = [[0, 0], [0, 1], [1, 0], [1, 1]] := by decide

end PyOGRe.Spec
