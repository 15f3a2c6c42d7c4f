import Verif.Spec.Registry
import Verif.Spec.Geometry
import Mathlib.Algebra.Field.Rat

/-!
# Constants on a line: an engine that can be run

Used for sessions that are evaluated in full: dimension one, all components rational constants.
-/

namespace PyOGRe.Spec

/-- Constants: nothing to simplify or to substitute, all derivatives vanish, matrices of size one. -/
def lineEngine : Engine ℚ where
  simp x := x
  diff _ _ := 0
  subst _ _ x := x
  inv a := if a.shape = [1, 1] ∧ a.get [0, 0] ≠ 0 then .ok ⟨[1, 1], [(a.get [0, 0])⁻¹]⟩
    else .error .nonInvertibleMatrixError
  det a := a.get [0, 0]

theorem lineEngine_ok : EngineOK lineEngine where
  simp_eq _ := rfl
  inv_ok n a b hs hb := by
    unfold lineEngine at hb
    dsimp only at hb
    split_ifs at hb with h
    rw [hs] at h
    obtain ⟨h1, h2⟩ := h
    have hn : n = 1 := by simpa using h1
    subst hn
    cases hb
    refine ⟨rfl, rfl, fun i j hi hj => ?_⟩
    have : i = 0 := by omega
    have : j = 0 := by omega
    subst i j
    have hg : (⟨[1, 1], [(a.get [0, 0])⁻¹]⟩ : Arr ℚ).get [0, 0] = (a.get [0, 0])⁻¹ := rfl
    simp [matMul, delta, hg, h2]

/-- A coordinate (object 0), the metric (object 1) and two vectors (objects 2 and 3) with the given names. -/
def lineCalls (name name' : String) : List (Call ℚ) :=
  [.coordinates (.val "Line") (.val [1]) ["x"] (.tuple [1]) (.val "x"),
   .metric (.val "Flat") (.val ⟨[1, 1], [1]⟩) 0 (.tuple [-1, -1]) (.val "g"),
   .tensor (.val name) (.val ⟨[1], [1]⟩) 1 0 (.tuple [1]) (.val "v"),
   .tensor (.val name') (.val ⟨[1], [2]⟩) 1 0 (.tuple [1]) (.val "v")]

example : (history lineEngine [] (lineCalls "V" "W") fresh).instances = [0, 1, 2, 3] := by decide +kernel

example : (history lineEngine ["a","b","c"] (lineCalls "V" "TEMP" ++ [.calc (.tensor 2 ["a"]) "Result" "r" []]) fresh).instances = [0, 1, 2, 4] := by decide +kernel

end PyOGRe.Spec
