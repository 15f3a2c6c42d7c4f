import Verif.Spec.Curved
import Verif.Spec.Geodesic
import Verif.Spec.Charts

/-!
# Curves in a space with polynomial functions

Used in the examples beside the theorems about geodesics.  The function `x(lambda)` and its derivatives are further
variables, with names like `x(lambda)`.
-/

namespace PyOGRe.Spec
open MvPolynomial Finset

/-- The coordinates, velocities and accelerations. -/
def jetNames : List Sym := ["x", "y", "z", "xdot", "ydot", "zdot", "xddot", "yddot", "zddot"]

/-- The function of the curve parameter for a symbol, and the symbol for a function. -/
def jet : Equiv.Perm Sym := (jetNames.map fun s => Equiv.swap s (s ++ "(lambda)")).prod

/-- Functions for symbols and symbols for functions. -/
noncomputable def toFunctions : Poly →ₐ[ℚ] Poly := rename jet
noncomputable def toSymbols : Poly →ₐ[ℚ] Poly := rename jet.symm

theorem toSymbols_toFunctions (x : Poly) : toSymbols (toFunctions x) = x := by
  rw [toSymbols, toFunctions, rename_rename]
  simp

/-- The derivative along a curve. -/
noncomputable def along (x : Poly) : Poly :=
  (["x", "y", "z"].map fun s => pderiv s x * X (dot s) + pderiv (dot s) x * X (ddot s)).sum

/-- The operations with curves. -/
noncomputable def polyCurves : Curves Poly where
  var s := X s
  parameter := "lambda"
  asFunctions p _ x := aeval (fun t => if t = p then (X t : Poly) else X (jet t)) x
  byFunction s x := toFunctions (pderiv s (toSymbols x))
  rate x := toFunctions (along (toSymbols x))
  later x := toFunctions (along (toSymbols x)) * X "pending"
  asSymbols _ x := toSymbols x
  velocity syms x := (syms.map fun s => pderiv s x * X (dot s)).sum
  clear x := x

theorem polyCurves_functions (syms : List Sym) (x : Poly) : polyCurves.asFunctions "lambda" syms x = toFunctions x := by
  show aeval (fun t => if t = "lambda" then (X t : Poly) else X (jet t)) x = rename jet x
  rw [rename_eq_aeval] 
  congr 2
  funext t
  split_ifs with h
  · subst h
    show X "lambda" = X (jet "lambda")
    rw [show jet "lambda" = "lambda" by decide]
  · rfl

theorem polyCurves_ok : CurvesOK polyEngine polyCurves ["x", "y", "z"] where
  var s t := by
    show pderiv s (X t) = _
    rw [pderiv_X, Pi.single_apply]
    split_ifs with h1 h2 h2
    · rfl
    · exact absurd h1.symm h2
    · exact absurd h2.symm h1
    · rfl
  one p := map_one (aeval _)
  add p := map_add (aeval _)
  mul p := map_mul (aeval _)
  byFunction s _ x := by
    rw [show polyCurves.parameter = "lambda" from rfl, polyCurves_functions, polyCurves_functions]
    show toFunctions (pderiv s (toSymbols (toFunctions x))) = _
    rw [toSymbols_toFunctions]
    rfl
  sub x y := map_sub toSymbols x y
  back x _ := by
    rw [show polyCurves.parameter = "lambda" from rfl, polyCurves_functions]
    exact toSymbols_toFunctions x
  chain x _ _ := by
    rw [show polyCurves.parameter = "lambda" from rfl, polyCurves_functions]
    show toSymbols (toFunctions (along (toSymbols (toFunctions x)))) = _
    rw [toSymbols_toFunctions, toSymbols_toFunctions]
    rfl
  clear x := ⟨1, isUnit_one, (one_mul x).symm⟩

theorem polyCurves_names : ProperNames polyCurves ["x", "y", "z"] := by
  unfold ProperNames
  decide

theorem nil_static {G : Ground Poly} (hs : G.syms = ["x", "y", "z"]) (hn : G.n = 3) (hg : ∀ i j, G.g i j = entry nil i j) :
    Static polyEngine polyCurves G := by
  have key : ∀ s : Sym, s ≠ "z" → ∀ i j, i < 3 → j < 3 → polyEngine.diff s (entry nil i j) = 0 := by
    intro s hz i j hi hj
    show pderiv s _ = 0
    match i, hi, j, hj with
    | 0, _, 0, _ => simp [entry, nil, Arr.get, ravel, pderiv_X, hz.symm, Ne.symm hz]
    | 0, _, 1, _ => simp [entry, nil, Arr.get, ravel, pderiv_X, Ne.symm hz]
    | 0, _, 2, _ => simp [entry, nil, Arr.get, ravel]
    | 1, _, 0, _ => simp [entry, nil, Arr.get, ravel, pderiv_X, Ne.symm hz]
    | 1, _, 1, _ => simp [entry, nil, Arr.get, ravel]
    | 1, _, 2, _ => simp [entry, nil, Arr.get, ravel]
    | 2, _, 0, _ => simp [entry, nil, Arr.get, ravel]
    | 2, _, 1, _ => simp [entry, nil, Arr.get, ravel]
    | 2, _, 2, _ => simp [entry, nil, Arr.get, ravel]
  intro i j hi hj
  rw [hn] at hi hj
  rw [hs, hg]
  refine ⟨key _ (by decide) i j hi hj, fun s h => ⟨key _ ?_ i j hi hj, key _ ?_ i j hi hj⟩⟩
  · revert s; decide
  · revert s; decide

theorem not_mem_vars {s : Sym} {x : Poly} (h : pderiv s x = 0) : s ∉ x.vars := by
  intro hs
  obtain ⟨d, hd, hsd⟩ := (mem_vars_iff_mem_support s).1 hs
  rw [Finsupp.mem_support_iff] at hsd
  have hd' : d - Finsupp.single s 1 + Finsupp.single s 1 = d := by
    refine tsub_add_cancel_of_le ?_
    rw [Finsupp.single_le_iff]
    omega
  have := congrArg (coeff (d - Finsupp.single s 1)) h
  rw [coeff_pderiv, hd', coeff_zero] at this
  rcases mul_eq_zero.1 this with h0 | h0
  · exact (mem_support_iff.1 hd) h0
  · exact absurd h0 (by positivity)

theorem polyEngine_subst : SubstOK polyEngine polyCurves where
  one s v := map_one (aeval _)
  add s v := map_add (aeval _)
  mul s v := map_mul (aeval _)
  var s v t := by
    show aeval (Function.update X s v) (X t) = if s = t then v else X t
    rw [aeval_X]
    by_cases h : s = t
    · rw [if_pos h, ← h, Function.update_self]
    · rw [if_neg h, Function.update_of_ne (Ne.symm h)]
  const s v x h := by
    show aeval (Function.update X s v) x = x
    have hs := not_mem_vars (show pderiv s x = 0 from h)
    have : aeval (Function.update X s v) x = aeval (X : Sym → Poly) x := by
      refine eval₂Hom_congr' rfl (fun i hi _ => ?_) rfl
      rw [Function.update_of_ne]
      rintro rfl
      exact hs hi
    rw [this]
    exact aeval_X_left_apply x
  chain s v t x h := by
    show pderiv t (aeval (Function.update X s v) x) = aeval (Function.update X s v) (pderiv t x) +
      aeval (Function.update X s v) (pderiv s x) * pderiv t v
    induction x using MvPolynomial.induction_on with
    | C a => simp
    | add p q hp hq => simp only [map_add, hp, hq]; ring
    | mul_X p i hp =>
      rw [map_mul, aeval_X, pderiv_mul, hp, pderiv_mul, pderiv_mul]
      simp only [map_add, map_mul, aeval_X, pderiv_X, Pi.single_apply]
      by_cases hi : i = s
      · subst hi
        simp only [Function.update_self, if_true, if_neg h, if_neg (Ne.symm h), map_zero, map_one]
        ring
      · rw [Function.update_of_ne hi]
        rw [pderiv_X, Pi.single_apply]
        by_cases hj : i = t
        · subst hj
          simp [hi]
          ring
        · simp [hi, hj, Ne.symm hi, Ne.symm hj]
          ring

theorem polyCurves_velocity (new : List Sym) : VelocityOK polyEngine polyCurves new := fun _ _ => rfl

/-- The plane with its two systems of coordinates after the metric has been declared. -/
theorem flat_scene : ∃ (G : Ground Poly) (V : View Poly), Scene G V flatWorld ∧ G.n = 2 ∧ G.c = 0 ∧
    G.syms = ["x", "y"] ∧ (∀ i j, i < 2 → j < 2 → G.g i j = delta i j) ∧
    LowerMetric G V ⟨"Flat", 0, [-1, -1], flat.get⟩ ∧ Unnamed flatWorld Kind.isLagrangian "Flat Lagrangian" ∧
    Charts flatWorld 0 1 ["x", "y"] ["u", "v"] (some rules01) ∧ ∀ o, flatWorld.objs[1]? = some o → o.name ≠ "TEMP" := by
  obtain ⟨b, -, hS⟩ := scene_start polyEngine_ok uvWorld_registry (show flat.WF from rfl) (by decide) rfl rfl
    (by simp [uvWorld]) flatWorld_eq
  obtain ⟨o, h1, h1'⟩ := flatWorld_objs
  refine ⟨_, _, hS, rfl, rfl, rfl, fun i j hi hj => flat_entry i j hi hj, ⟨if_pos rfl, by decide, rfl, rfl⟩, ?_,
    ⟨⟨_, by rw [h1]; rfl, rfl, rfl, rfl, rfl⟩, _, by rw [h1]; rfl, rfl, rfl, rfl⟩, ?_⟩
  · intro i hi oi hoi hk
    rw [h1] at hoi
    match i, hoi with
    | 0, hoi => cases hoi; exact absurd hk (by decide)
    | 1, hoi => cases hoi; exact absurd hk (by decide)
    | 2, hoi =>
      cases hoi
      rw [h1'.1] at hk
      exact absurd hk (by decide)
    | i + 3, hoi => simp [uvWorld] at hoi
  · intro o1 ho1
    rw [h1] at ho1
    cases ho1
    decide

/-- The rules between the systems of the plane. -/
theorem flat_rules : FullRules polyEngine ["x", "y"] ["u", "v"] rules01 := by
  refine ⟨by unfold GoodRules; decide, fun s => ⟨fun hs => ?_, fun ⟨v, hv⟩ => ?_⟩, fun r hr s hs => ?_⟩
  · have : s = "x" ∨ s = "y" := by simpa using hs
    rcases this with rfl | rfl
    · exact ⟨_, List.mem_cons_self⟩
    · exact ⟨_, List.mem_cons_of_mem _ List.mem_cons_self⟩
  · simp only [rules01, List.mem_cons, Option.some.injEq, Prod.mk.injEq, List.not_mem_nil, or_false] at hv
    rcases hv with ⟨rfl, -⟩ | ⟨rfl, -⟩ <;> simp
  · simp only [List.mem_cons, List.not_mem_nil, or_false, not_or] at hs
    simp only [rules01, List.mem_cons, Option.some.injEq, List.not_mem_nil, or_false] at hr
    show pderiv s _ = 0
    rcases hr with rfl | rfl
    · simp [pderiv_X, Pi.single_apply, Ne.symm hs.1, Ne.symm hs.2]
    · simp [pderiv_X, Pi.single_apply, Ne.symm hs.2]

end PyOGRe.Spec
