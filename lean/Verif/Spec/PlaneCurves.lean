import Verif.Spec.Shear
import Verif.Spec.Jets
import Verif.Lemmas.Replace
import Verif.Lemmas.Exported

/-!
# Curves in the plane

Used in the examples beside the theorems about replacements.  The function `x` of the parameter `lambda` is a variable
called `x(lambda)`, its derivatives are called `x(lambda)'` and `x(lambda)''`; likewise for other symbols and parameters.
The function `xdot(lambda)` is not the derivative of `x(lambda)`.
-/

namespace PyOGRe.Spec
open MvPolynomial

/-- The function of the parameter with this name. -/
def functionName (p s : Sym) : Sym := s ++ "(" ++ p ++ ")"

/-- The symbols for which functions are written. -/
def motion (syms : List Sym) : List Sym := syms ++ syms.map dot ++ syms.map ddot

/-- The names of functions of the parameter and of their derivatives. -/
def functionNames (p : Sym) : List Sym :=
  (motion ["x", "y"]).map (functionName p) ++ (motion ["x", "y"]).map fun s => functionName p s ++ "'"

/-- The function of the parameter for a symbol. -/
noncomputable def planeFunction (p : Sym) (syms : List Sym) (t : Sym) : Poly :=
  if t ∈ motion syms ∧ t ∉ [p, dot p, ddot p] then X (functionName p t) else X t

/-- The symbol for a function of the parameter or for its derivative. -/
noncomputable def planeSymbol (p : Sym) (syms : List Sym) (t : Sym) : Poly :=
  match (syms.filter (· ≠ p)).find? fun s => functionName p s ++ "''" = t with
  | some s => X (ddot s)
  | none => match (syms.filter (· ≠ p)).find? fun s => functionName p s ++ "'" = t with
    | some s => X (dot s)
    | none => match (syms.filter (· ≠ p)).find? fun s => functionName p s = t with
      | some s => X s
      | none => X t

/-- The derivative of a variable with respect to the parameter. -/
noncomputable def planeRate (p t : Sym) : Poly :=
  if t = p then 1 else if t ∈ functionNames p then X (t ++ "'") else 0

noncomputable def planeCurves : Curves Poly := { polyCurves with
  asFunctions := fun p syms x => aeval (planeFunction p syms) x }

/-- A number that is 0 is replaced as a whole; symbols are replaced wherever they occur. -/
noncomputable def planeRewriter : Rewriter Poly where
  subs rules x := if x = 0 then (rules.get? 0).getD 0 else aeval (fun t => (rules.get? (X t)).getD (X t)) x
  rate p x := mkDerivation ℚ (planeRate p) x
  back p syms x := aeval (planeSymbol p syms) x
  doit x := x

theorem substEach_hom : ∀ l : List (Sym × Poly), ∃ φ : Poly →ₐ[ℚ] Poly, ∀ x, substEach polyEngine l x = φ x
  | [] => ⟨AlgHom.id ℚ Poly, fun _ => rfl⟩
  | r :: l => by
    obtain ⟨φ, h⟩ := substEach_hom l
    exact ⟨φ.comp (aeval (Function.update X r.1 r.2)), fun x => h _⟩

theorem planeSubs : SubsOK polyEngine planeCurves planeRewriter := by
  intro rules l hn ha hm x
  obtain ⟨φ, hφ⟩ := substEach_hom l
  have hB : SubstOK polyEngine planeCurves := ⟨polyEngine_subst.one, polyEngine_subst.add, polyEngine_subst.mul,
    polyEngine_subst.var, polyEngine_subst.const, polyEngine_subst.chain⟩
  show (if x = 0 then (rules.get? 0).getD 0 else aeval (fun t => (rules.get? (X t)).getD (X t)) x) = substEach polyEngine l x
  rw [hφ]
  split_ifs with hx
  · subst hx
    rw [map_zero]
    cases hg : rules.get? (0 : Poly) with
    | none => rfl
    | some v =>
      by_contra hv
      obtain ⟨r, -, hr⟩ := (hm (0, v) fun h => hv (Prod.mk.inj h).2).1 (Dict.get?_mem hg)
      exact X_ne_zero (R := ℚ) r.1 (Prod.mk.inj hr).1.symm
  · rw [aeval_unique φ]
    congr 2
    funext t
    show _ = φ (X t)
    rw [← hφ]
    have hne : ∀ v : Poly, ((X t : Poly), v) ≠ (0, 0) := fun v h => X_ne_zero (R := ℚ) t (Prod.mk.inj h).1
    cases hg : rules.get? (X t : Poly) with
    | some v =>
      obtain ⟨r, h1, h2⟩ := (hm (X t, v) (hne v)).1 (Dict.get?_mem hg)
      obtain ⟨h3, h4⟩ := Prod.mk.inj h2
      have : t = r.1 := X_injective h3
      subst this
      exact h4.trans (substEach_var hB l hn ha r h1).symm
    | none =>
      refine (substEach_const (C := planeCurves) hB l fun r hr => ?_).symm
      show pderiv r.1 (X t) = 0
      refine pderiv_X_of_ne ?_
      rintro rfl
      have hin := (hm (X r.1, r.2) (hne _)).2 ⟨r, hr, rfl⟩
      have hh : rules.has (X r.1 : Poly) = true := List.any_eq_true.2 ⟨_, hin, by simp⟩
      rw [(Dict.has_eq_false _ _).2 hg] at hh
      cases hh

theorem planeRewriter_ok : RewriterOK polyEngine planeCurves planeRewriter where
  calculus := polyEngine_calculus
  var := polyCurves_ok.var
  subst := ⟨polyEngine_subst.one, polyEngine_subst.add, polyEngine_subst.mul,
    polyEngine_subst.var, polyEngine_subst.const, polyEngine_subst.chain⟩
  subs := planeSubs

section
attribute [local simp] planeCurves planeRewriter polyEngine polyCurves Derivation.leibniz_pow

theorem fn_x : planeFunction "lambda" ["x", "y"] "x" = X "x(lambda)" := by
  rw [planeFunction, if_pos (by decide)]; rfl
theorem fn_y : planeFunction "lambda" ["x", "y"] "y" = X "y(lambda)" := by
  rw [planeFunction, if_pos (by decide)]; rfl
theorem fn_xdot : planeFunction "lambda" ["x", "y"] "xdot" = X "xdot(lambda)" := by
  rw [planeFunction, if_pos (by decide)]; rfl
theorem fn_ydot : planeFunction "lambda" ["x", "y"] "ydot" = X "ydot(lambda)" := by
  rw [planeFunction, if_pos (by decide)]; rfl
theorem fn_M (p : Sym) (h : p = "x" ∨ p = "lambda") : planeFunction p ["x", "y"] "M" = X "M" := by
  rw [planeFunction, if_neg (by rcases h with rfl | rfl <;> decide)]
theorem fn_xy : planeFunction "x" ["x", "y"] "y" = X "y(x)" := by
  rw [planeFunction, if_pos (by decide)]; rfl

theorem rate_name {p t : Sym} (h : t ≠ p ∧ t ∈ functionNames p) : planeRate p t = X (t ++ "'") := by
  rw [planeRate, if_neg h.1, if_pos h.2]
theorem rate_other {p t : Sym} (h : t ≠ p ∧ t ∉ functionNames p) : planeRate p t = 0 := by
  rw [planeRate, if_neg h.1, if_neg h.2]

theorem symbol_two {p : Sym} {syms : List Sym} {t : Sym} (s : Sym)
    (h : ((syms.filter (· ≠ p)).find? fun s => functionName p s ++ "''" = t) = some s) : planeSymbol p syms t = X (ddot s) := by
  unfold planeSymbol; rw [h]
theorem symbol_one {p : Sym} {syms : List Sym} {t : Sym} (s : Sym)
    (h : ((syms.filter (· ≠ p)).find? fun s => functionName p s ++ "''" = t) = none ∧
      ((syms.filter (· ≠ p)).find? fun s => functionName p s ++ "'" = t) = some s) : planeSymbol p syms t = X (dot s) := by
  unfold planeSymbol; rw [h.1]; dsimp only; rw [h.2]
theorem symbol_zero {p : Sym} {syms : List Sym} {t : Sym} (s : Sym)
    (h : ((syms.filter (· ≠ p)).find? fun s => functionName p s ++ "''" = t) = none ∧
      ((syms.filter (· ≠ p)).find? fun s => functionName p s ++ "'" = t) = none ∧
      ((syms.filter (· ≠ p)).find? fun s => functionName p s = t) = some s) : planeSymbol p syms t = X s := by
  unfold planeSymbol; rw [h.1]; dsimp only; rw [h.2.1]; dsimp only; rw [h.2.2]
theorem symbol_other {p : Sym} {syms : List Sym} {t : Sym}
    (h : ((syms.filter (· ≠ p)).find? fun s => functionName p s ++ "''" = t) = none ∧
      ((syms.filter (· ≠ p)).find? fun s => functionName p s ++ "'" = t) = none ∧
      ((syms.filter (· ≠ p)).find? fun s => functionName p s = t) = none) : planeSymbol p syms t = X t := by
  unfold planeSymbol; rw [h.1]; dsimp only; rw [h.2.1]; dsimp only; rw [h.2.2]

theorem rate_y : planeRate "lambda" "y(lambda)" = X "y(lambda)'" := rate_name (by decide)
theorem rate_y' : planeRate "lambda" "y(lambda)'" = X "y(lambda)''" := rate_name (by decide)
theorem rate_x : planeRate "lambda" "x(lambda)" = X "x(lambda)'" := rate_name (by decide)
theorem rate_x' : planeRate "lambda" "x(lambda)'" = X "x(lambda)''" := rate_name (by decide)
theorem symbol_y : planeSymbol "lambda" ["x", "y"] "y(lambda)" = X "y" := symbol_zero "y" (by decide)
theorem symbol_y' : planeSymbol "lambda" ["x", "y"] "y(lambda)'" = X "ydot" := symbol_one "y" (by decide)
theorem symbol_y'' : planeSymbol "lambda" ["x", "y"] "y(lambda)''" = X "yddot" := symbol_two "y" (by decide)
theorem symbol_x : planeSymbol "lambda" ["x", "y"] "x(lambda)" = X "x" := symbol_zero "x" (by decide)
theorem symbol_x' : planeSymbol "lambda" ["x", "y"] "x(lambda)'" = X "xdot" := symbol_one "x" (by decide)
theorem symbol_x'' : planeSymbol "lambda" ["x", "y"] "x(lambda)''" = X "xddot" := symbol_two "x" (by decide)

theorem pderiv_var (s t : Sym) : pderiv s (X t : Poly) = if s = t then 1 else 0 := polyCurves_ok.var s t

theorem derivation_two (D : Derivation ℚ Poly Poly) : D 2 = 0 := by
  have := D.map_natCast 2
  rwa [Nat.cast_ofNat] at this

/-- The derivatives of `y²`. -/
theorem along_square : alongCurve polyEngine planeCurves "lambda" ["x", "y"] (X "y" ^ 2) = 2 * X "y" * X "ydot" := by
  show pderiv "lambda" (X "y" ^ 2 : Poly) + ((["x", "y"].filter (· ≠ "lambda")).map fun s =>
    pderiv s (X "y" ^ 2 : Poly) * X (dot s) + pderiv (dot s) (X "y" ^ 2 : Poly) * X (ddot s)).sum = _
  rw [show ["x", "y"].filter (· ≠ "lambda") = ["x", "y"] by decide]
  simp [pderiv_var, dot, ddot]
theorem along_square_two : alongCurve polyEngine planeCurves "lambda" ["x", "y"] (2 * X "y" * X "ydot") =
    2 * X "ydot" ^ 2 + 2 * X "y" * X "yddot" := by
  show pderiv "lambda" (2 * X "y" * X "ydot" : Poly) + ((["x", "y"].filter (· ≠ "lambda")).map fun s =>
    pderiv s (2 * X "y" * X "ydot" : Poly) * X (dot s) + pderiv (dot s) (2 * X "y" * X "ydot" : Poly) * X (ddot s)).sum = _
  rw [show ["x", "y"].filter (· ≠ "lambda") = ["x", "y"] by decide]
  simp [pderiv_var, dot, ddot, derivation_two]
  ring

theorem plane_value : Differentiates polyEngine planeCurves planeRewriter "lambda" ["x", "y"] (X "y" ^ 2) where
  zero := by simp [fn_y, symbol_y]
  one := by rw [along_square]; simp [fn_y, symbol_y, rate_y, symbol_y']; ring
  two := by
    rw [along_square, along_square_two]
    simp [fn_y, symbol_y, rate_y, symbol_y', rate_y', symbol_y'', derivation_two]; ring

theorem along_x : alongCurve polyEngine planeCurves "lambda" ["x", "y"] (X "x") = X "xdot" := by
  show pderiv "lambda" (X "x" : Poly) + ((["x", "y"].filter (· ≠ "lambda")).map fun s =>
    pderiv s (X "x" : Poly) * X (dot s) + pderiv (dot s) (X "x" : Poly) * X (ddot s)).sum = _
  rw [show ["x", "y"].filter (· ≠ "lambda") = ["x", "y"] by decide]
  simp [pderiv_var, dot, ddot]
theorem along_xdot : alongCurve polyEngine planeCurves "lambda" ["x", "y"] (X "xdot") = X "xddot" := by
  show pderiv "lambda" (X "xdot" : Poly) + ((["x", "y"].filter (· ≠ "lambda")).map fun s =>
    pderiv s (X "xdot" : Poly) * X (dot s) + pderiv (dot s) (X "xdot" : Poly) * X (ddot s)).sum = _
  rw [show ["x", "y"].filter (· ≠ "lambda") = ["x", "y"] by decide]
  simp [pderiv_var, dot, ddot]

theorem plane_key : Differentiates polyEngine planeCurves planeRewriter "lambda" ["x", "y"] (X "x") where
  zero := by simp [fn_x, symbol_x]
  one := by rw [along_x]; simp [fn_x, rate_x, symbol_x']
  two := by rw [along_x, along_xdot]; simp [fn_x, rate_x, rate_x', symbol_x'']

theorem along_M (v : Poly) (h : ∀ s, pderiv s v = 0 ∨ s = "M") :
    alongCurve polyEngine planeCurves "lambda" ["x", "y"] v = 0 := by
  have h' : ∀ s, s ≠ "M" → pderiv s v = 0 := fun s hs => (h s).resolve_right hs
  show pderiv "lambda" v + ((["x", "y"].filter (· ≠ "lambda")).map fun s =>
    pderiv s v * X (dot s) + pderiv (dot s) v * X (ddot s)).sum = _
  rw [show ["x", "y"].filter (· ≠ "lambda") = ["x", "y"] by decide]
  simp [h' "lambda" (by decide), h' "x" (by decide), h' "y" (by decide), h' (dot "x") (by decide), h' (dot "y") (by decide)]

theorem plane_constant : Differentiates polyEngine planeCurves planeRewriter "lambda" ["x", "y"] (X "M") where
  zero := by simp [fn_M, symbol_other (p := "lambda") (syms := ["x", "y"]) (t := "M") (by decide)]
  one := by
    rw [along_M _ fun s => by rw [pderiv_var]; by_cases h : s = "M" <;> simp [h]]
    simp [fn_M, rate_other (p := "lambda") (t := "M") (by decide)]
  two := by
    rw [along_M (X "M") fun s => by rw [pderiv_var]; by_cases h : s = "M" <;> simp [h], along_M 0 fun s => by simp]
    simp [fn_M, rate_other (p := "lambda") (t := "M") (by decide)]

theorem plane_two : Differentiates polyEngine planeCurves planeRewriter "lambda" ["x", "y"] 2 where
  zero := by simp
  one := by rw [along_M _ fun s => .inl (derivation_two _)]; simp [derivation_two]
  two := by rw [along_M 2 fun s => .inl (derivation_two _), along_M 0 fun s => by simp]; simp [derivation_two]

theorem fx_x : planeFunction "x" ["x", "y"] "x" = X "x" := by rw [planeFunction, if_neg (by decide)]
theorem ratex_x : planeRate "x" "x" = 1 := by rw [planeRate, if_pos rfl]
theorem ratex_y : planeRate "x" "y(x)" = X "y(x)'" := rate_name (by decide)
theorem ratex_y' : planeRate "x" "y(x)'" = X "y(x)''" := rate_name (by decide)
theorem symbolx_x : planeSymbol "x" ["x", "y"] "x" = X "x" := symbol_other (by decide)
theorem symbolx_y : planeSymbol "x" ["x", "y"] "y(x)" = X "y" := symbol_zero "y" (by decide)
theorem symbolx_y' : planeSymbol "x" ["x", "y"] "y(x)'" = X "ydot" := symbol_one "y" (by decide)
theorem symbolx_y'' : planeSymbol "x" ["x", "y"] "y(x)''" = X "yddot" := symbol_two "y" (by decide)

theorem alongx (v : Poly) : alongCurve polyEngine planeCurves "x" ["x", "y"] v =
    pderiv "x" v + (pderiv "y" v * X "ydot" + pderiv "ydot" v * X "yddot") := by
  show pderiv "x" v + ((["x", "y"].filter (· ≠ "x")).map fun s =>
    pderiv s v * X (dot s) + pderiv (dot s) v * X (ddot s)).sum = _
  rw [show ["x", "y"].filter (· ≠ "x") = ["y"] by decide]
  simp [dot, ddot]

theorem time_key : Differentiates polyEngine planeCurves planeRewriter "x" ["x", "y"] (X "y") where
  zero := by simp [fn_xy, symbolx_y]
  one := by rw [alongx]; simp [fn_xy, ratex_y, symbolx_y', pderiv_var]
  two := by rw [alongx, alongx]; simp [fn_xy, ratex_y, ratex_y', symbolx_y'', pderiv_var]

theorem time_value : Differentiates polyEngine planeCurves planeRewriter "x" ["x", "y"] (X "x" ^ 2) where
  zero := by simp [fx_x, symbolx_x]
  one := by rw [alongx]; simp [fx_x, ratex_x, symbolx_x, pderiv_var]
  two := by rw [alongx, alongx]; simp [fx_x, ratex_x, pderiv_var, derivation_two]

end

/-- The replacements of `x` by `y²` and of the constant `M` by 2. -/
noncomputable def planeReplace : List (Sym × Poly) := [("x", X "y" ^ 2), ("M", 2)]

theorem planeReplace_ok (kind : Kind) (h : kind ≠ .geodesicTime) :
    ProperReplace polyEngine planeCurves planeRewriter kind "lambda" ["x", "y"] (some planeReplace) := by
  have hd : ∀ s : Sym, polyEngine.diff s (2 : Poly) = 0 := fun s => derivation_two (pderiv s)
  have hy : ∀ s : Sym, s ≠ "y" → polyEngine.diff s (X "y" ^ 2 : Poly) = 0 := by
    intro s hs
    show pderiv s (X "y" ^ 2 : Poly) = 0
    simp [Derivation.leibniz_pow, pderiv_var, hs]
  intro rules hr
  cases hr
  refine ⟨⟨by decide, by decide⟩, fun hk => absurd hk h, ⟨by decide, ?_, ?_, ?_, ?_, ?_⟩⟩
  · simp only [planeReplace, List.mem_cons, List.not_mem_nil, or_false]
    rintro r (rfl | rfl)
    · exact ⟨by decide, .inl (by decide)⟩
    · exact ⟨by decide, .inr ⟨by decide, hd _, fun s _ => hd _⟩⟩
  · simp only [planeReplace, List.mem_cons, List.not_mem_nil, or_false]
    rintro r (rfl | rfl) s (rfl | rfl)
    · exact ⟨hy _ (by decide), hy _ (by decide)⟩
    · exact ⟨hy _ (by decide), hy _ (by decide)⟩
    · exact ⟨hd _, hd _⟩
    · exact ⟨hd _, hd _⟩
  · simp only [planeReplace, List.mem_cons, List.not_mem_nil, or_false]
    rintro r (rfl | rfl) t (rfl | rfl)
    · exact hy _ (by decide)
    · exact hd _
    · exact hy _ (by decide)
    · exact hd _
  · simp only [planeReplace, List.mem_cons, List.not_mem_nil, or_false]
    rintro r (rfl | rfl)
    · exact plane_key
    · exact plane_constant
  · simp only [planeReplace, List.mem_cons, List.not_mem_nil, or_false]
    rintro r (rfl | rfl)
    · exact plane_value
    · exact plane_two

theorem flat_metric {G : Ground Poly} {V : View Poly} (h : Scene G V flatWorld) : G.m = 2 := by
  obtain ⟨D, o, -, h1, h2, -⟩ := h.metric
  obtain ⟨o', k1, -⟩ := flatWorld_objs
  rw [k1] at h1
  generalize G.m = m at h1
  match m, h1 with
  | 0, h1 => cases h1; exact absurd h2 (by decide)
  | 1, h1 => cases h1; exact absurd h2 (by decide)
  | 2, _ => rfl
  | m + 3, h1 => simp [uvWorld] at h1

/-- The Lagrangian of the plane. -/
theorem plane_lagrangian : ∃ r w b raw o oc, calcLagrangian polyEngine planeCurves 2 none flatWorld = (.ok r, w) ∧
    curveComponents polyEngine planeCurves r none none w = (.ok b, w) ∧ w.objs[r]? = some o ∧ o.kind = .lagrangian ∧
    o.name = "Flat Lagrangian" ∧ o.indices = [] ∧ o.coords = 0 ∧ w.objs[0]? = some oc ∧ oc.syms = ["x", "y"] ∧
    b.shape = [] ∧ HasComps w r 0 [] raw ∧ raw.get [] = X "xdot" ^ 2 + X "ydot" ^ 2 := by
  obtain ⟨G, V, Dm, h1, h2, h3, h4, h5, h6, h7, h8, h9, -⟩ := flat_moved
  have hm : G.m = 2 := flat_metric h1
  obtain ⟨r, w, e, V', k1, k2, -, k4, k5, k6, k7⟩ := given_lagrangian polyEngine_ok.simp_eq h1 planeCurves h6.view h6.name h8
    (coords := none) (.inr ⟨rfl, h6.coords⟩) (namesCurve_unnamed fun i hi o ho hk => h9 _ (by decide) (by decide) (by decide) i hi o ho)
  obtain ⟨b, f1, f2⟩ := holds_components (E := polyEngine) (C := planeCurves) k1 k6 (Or.inl rfl) (Or.inl rfl)
  obtain ⟨o, g1, g2, g3, g4, g5, g6, g7, g8, d, a, g9, g10, g11⟩ := id k6
  obtain ⟨oc, c1, c2, c3, c4⟩ := k1.chart
  refine ⟨r, w, b, a, o, oc, by rw [← hm]; exact e, f1, g1, g3, by rw [g4, h7]; rfl, g7, by rw [g6, h3], by rw [← h3]; exact c1,
    by rw [c4, h4], f2.2.1, ⟨o, d, g1, by rw [← h3]; exact g9, g10⟩, ?_⟩
  rw [g11.2.2 [] rfl (by simp)]
  unfold lagrangian Ground.speed
  rw [h2, h4]
  simp only [Finset.sum_range_succ, Finset.sum_range_zero, zero_add]
  rw [h5 0 0 (by omega) (by omega), h5 0 1 (by omega) (by omega), h5 1 0 (by omega) (by omega), h5 1 1 (by omega) (by omega)]
  show delta 0 0 * X "xdot" * X "xdot" + delta 0 1 * X "xdot" * X "ydot" +
    (delta 1 0 * X "ydot" * X "xdot" + delta 1 1 * X "ydot" * X "ydot") = _
  simp [delta]
  ring

/-- The replacement of `y` by `x²`, when `x` is the parameter. -/
noncomputable def timeReplace : List (Sym × Poly) := [("y", X "x" ^ 2)]

theorem timeReplace_ok (kind : Kind) :
    ProperReplace polyEngine planeCurves planeRewriter kind "x" ["x", "y"] (some timeReplace) := by
  have hy : ∀ s : Sym, s ≠ "x" → polyEngine.diff s (X "x" ^ 2 : Poly) = 0 := by
    intro s hs
    show pderiv s (X "x" ^ 2 : Poly) = 0
    simp [Derivation.leibniz_pow, pderiv_var, hs]
  intro rules hr
  cases hr
  refine ⟨⟨by decide, by decide⟩, fun _ => by decide, ⟨by decide, ?_, ?_, ?_, ?_, ?_⟩⟩
  · simp only [timeReplace, List.mem_cons, List.not_mem_nil, or_false]
    rintro r rfl
    exact ⟨by decide, .inl (by decide)⟩
  · simp only [timeReplace, List.mem_cons, List.not_mem_nil, or_false]
    rintro r rfl s (rfl | rfl)
    · exact ⟨hy _ (by decide), hy _ (by decide)⟩
    · exact ⟨hy _ (by decide), hy _ (by decide)⟩
  · simp only [timeReplace, List.mem_cons, List.not_mem_nil, or_false]
    rintro r rfl t rfl
    exact hy _ (by decide)
  · simp only [timeReplace, List.mem_cons, List.not_mem_nil, or_false]
    rintro r rfl
    exact time_key
  · simp only [timeReplace, List.mem_cons, List.not_mem_nil, or_false]
    rintro r rfl
    exact time_value

theorem flat_symbols {G : Ground Poly} (hn : G.n = 2) (hg : ∀ i j, i < 2 → j < 2 → G.g i j = delta i j) (i j k : Nat)
    (hj : j < 2) (hk : k < 2) : christoffel polyEngine G i j k = 0 := by
  have h0 : ∀ i j k, i < 2 → j < 2 → G.d polyEngine k (G.g i j) = 0 := fun i j k hi hj => by
    rw [hg i j hi hj]
    show pderiv _ _ = 0
    unfold delta
    split_ifs <;> simp
  unfold christoffel
  rw [hn, Finset.sum_range_succ, Finset.sum_range_succ, Finset.sum_range_zero]
  simp [h0 _ _ _ hj hk, h0 _ _ _ hk (show 0 < 2 by omega), h0 _ _ _ hk (show 1 < 2 by omega),
    h0 _ _ _ (show 0 < 2 by omega) hj, h0 _ _ _ (show 1 < 2 by omega) hj]

/-- The geodesic equations of the plane with the parameter `x`. -/
theorem plane_time : ∃ r w b raw o oc, calcGeodesicTime polyEngine planeCurves 2 none flatWorld = (.ok r, w) ∧
    curveComponents polyEngine planeCurves r none none w = (.ok b, w) ∧ w.objs[r]? = some o ∧ o.kind = .geodesicTime ∧
    o.name = "Flat Geodesic With Time Parameter" ∧ o.indices = [1] ∧ o.coords = 0 ∧ w.objs[0]? = some oc ∧
    oc.alive = true ∧ oc.syms = ["x", "y"] ∧ b.shape = [2] ∧ HasComps w r 0 [1] raw ∧ raw.get [0] = 0 ∧
    raw.get [1] = X "yddot" := by
  obtain ⟨G, V, Dm, h1, h2, h3, h4, h5, h6, h7, h8, h9, -⟩ := flat_moved
  have hm : G.m = 2 := flat_metric h1
  obtain ⟨r, w, e, V', k1, k2, -, k4, k5, k6, k7⟩ := given_geodesicTime polyEngine_ok.simp_eq h1 planeCurves h6 h8
    (coords := none) (.inr rfl) (namesCurve_unnamed fun i hi o ho hk => h9 _ (by decide) (by decide) (by decide) i hi o ho)
  obtain ⟨b, f1, f2⟩ := holds_components (E := polyEngine) (C := planeCurves) k1 k6 (Or.inl rfl) (Or.inl rfl)
  obtain ⟨o, g1, g2, g3, g4, g5, g6, g7, g8, d, a, g9, g10, g11⟩ := id k6
  obtain ⟨oc, c1, c2, c3, c4⟩ := k1.chart
  refine ⟨r, w, b, a, o, oc, by rw [← hm]; exact e, f1, g1, g3, by rw [g4, h7]; rfl, g7, by rw [g6, h3], by rw [← h3]; exact c1,
    c3, by rw [c4, h4], by rw [f2.2.1, h2]; rfl, ⟨o, d, g1, by rw [← h3]; exact g9, g10⟩, ?_, ?_⟩
  · rw [g11.2.2 [0] rfl (by simp [h2])]
    show geodesicT polyEngine planeCurves G 0 = 0
    simp [geodesicT, Ground.accelT, Ground.speedT]
  · rw [g11.2.2 [1] rfl (by simp [h2])]
    show geodesicT polyEngine planeCurves G 1 = _
    unfold geodesicT
    rw [h2]
    simp only [Finset.sum_range_succ, Finset.sum_range_zero, flat_symbols h2 h5 _ 0 0 (by omega) (by omega),
      flat_symbols h2 h5 _ 0 1 (by omega) (by omega), flat_symbols h2 h5 _ 1 0 (by omega) (by omega),
      flat_symbols h2 h5 _ 1 1 (by omega) (by omega), zero_mul, sub_zero, add_zero]
    rw [Ground.accelT, if_neg (by omega), Ground.accel, h4]
    rfl

end PyOGRe.Spec
