import Verif.Lemmas.WeylReady
import Verif.Spec.Shear

/-!
# The curved metric in new coordinates

Used in the examples beside the theorems about curvature in new coordinates: the metric `dx² + (dy + z dx)² + dz²`
(object 2) of the coordinates x, y, z (object 0), and the coordinates u, v, z (object 1) with `x = u + v²`, `y = v`;
there is no rule for z.
-/

namespace PyOGRe.Spec
open MvPolynomial Finset

noncomputable def bentRules : List (Option (Sym × Poly)) :=
  [some ("x", X "u" + X "v" ^ 2), some ("y", X "v")]

/-- The two systems of coordinates. -/
noncomputable def bentCharts : World Poly where
  objs := [
    { kind := .coordinates, name := "Cartesian", symbol := "x", indices := [1], coords := 0, metric := 0,
      comps := [], syms := ["x", "y", "z"], trans := [(1, bentRules)], jac := [], alive := true },
    { kind := .coordinates, name := "Parabolic", symbol := "u", indices := [1], coords := 0, metric := 0,
      comps := [], syms := ["u", "v", "z"], trans := [], jac := [], alive := true }]
  instances := [0, 1]

theorem bentCharts_registry : RegistryOK bentCharts := by
  refine ⟨by decide, fun i hi => ?_, fun i hi o ho t ht => ?_, fun i hi o ho hn => ?_⟩
  · have : i = 0 ∨ i = 1 := by simpa [bentCharts] using hi
    rcases this with rfl | rfl <;> exact ⟨_, rfl, rfl⟩
  · match i, ho with
    | 0, ho =>
      cases ho
      have : 1 = t := by simpa [Obj.uses, Dict.has] using ht
      subst this
      exact ⟨_, rfl, Or.inl rfl⟩
    | 1, ho => cases ho; simp [Obj.uses, Dict.has] at ht
    | i + 2, ho => simp [bentCharts] at ho
  · match i, ho with
    | 0, ho => cases ho; exact absurd hn (by decide)
    | 1, ho => cases ho; exact absurd hn (by decide)
    | i + 2, ho => simp [bentCharts] at ho

theorem bentCharts_fresh : NoStale polyEngine bentCharts := by
  intro i o ho c' j hj
  match i, ho with
  | 0, ho => cases ho; cases hj
  | 1, ho => cases ho; cases hj
  | i + 2, ho => simp [bentCharts] at ho

/-- The inverse of the Jacobian. -/
noncomputable def bentInv (i j : Nat) : Poly := if i = 0 ∧ j = 1 then -(2 * X "v") else delta i j

theorem bent_jacobian (i j : Nat) (hi : i < 3) (hj : j < 3) :
    chartJacobian polyEngine ["x", "y", "z"] ["u", "v", "z"] bentRules i j =
      if i = 0 ∧ j = 1 then 2 * X "v" else delta i j := by
  have h1 : pderiv "v" (X "u" : Poly) = 0 := pderiv_X_ne (by decide)
  have h2 : pderiv "u" (X "v" : Poly) = 0 := pderiv_X_ne (by decide)
  have h3 : pderiv "z" (X "u" : Poly) = 0 := pderiv_X_ne (by decide)
  have h4 : pderiv "z" (X "v" : Poly) = 0 := pderiv_X_ne (by decide)
  match i, hi, j, hj with
  | 0, _, 0, _ => simp [chartJacobian, ruleFor, bentRules, polyEngine, delta, h2]
  | 0, _, 1, _ => simp [chartJacobian, ruleFor, bentRules, polyEngine, delta, h1]
  | 0, _, 2, _ => simp [chartJacobian, ruleFor, bentRules, polyEngine, delta, h3, h4]
  | 1, _, 0, _ => simp [chartJacobian, ruleFor, bentRules, polyEngine, delta, h2]
  | 1, _, 1, _ => simp [chartJacobian, ruleFor, bentRules, polyEngine, delta]
  | 1, _, 2, _ => simp [chartJacobian, ruleFor, bentRules, polyEngine, delta, h4]
  | 2, _, 0, _ => simp [chartJacobian, ruleFor, bentRules, polyEngine, delta]
  | 2, _, 1, _ => simp [chartJacobian, ruleFor, bentRules, polyEngine, delta]
  | 2, _, 2, _ => simp [chartJacobian, ruleFor, bentRules, polyEngine, delta]

theorem bent_inverse : Inverse 3 (chartJacobian polyEngine ["x", "y", "z"] ["u", "v", "z"] bentRules) bentInv := by
  refine inverse_congr (M := fun i j => if i = 0 ∧ j = 1 then 2 * X "v" else delta i j) ?_
    (fun i j hi hj => (bent_jacobian i j hi hj).symm) fun _ _ _ _ => rfl
  intro i j hi hj
  constructor <;>
  · match i, hi, j, hj with
    | 0, _, 0, _ => simp [matMul, Finset.sum_range_succ, delta, bentInv]
    | 0, _, 1, _ => simp [matMul, Finset.sum_range_succ, delta, bentInv]
    | 0, _, 2, _ => simp [matMul, Finset.sum_range_succ, delta, bentInv]
    | 1, _, 0, _ => simp [matMul, Finset.sum_range_succ, delta, bentInv]
    | 1, _, 1, _ => simp [matMul, Finset.sum_range_succ, delta, bentInv]
    | 1, _, 2, _ => simp [matMul, Finset.sum_range_succ, delta, bentInv]
    | 2, _, 0, _ => simp [matMul, Finset.sum_range_succ, delta, bentInv]
    | 2, _, 1, _ => simp [matMul, Finset.sum_range_succ, delta, bentInv]
    | 2, _, 2, _ => simp [matMul, Finset.sum_range_succ, delta, bentInv]

theorem bent_rules : ChartRules polyEngine ["x", "y", "z"] ["u", "v", "z"] bentRules := by
  refine ⟨by unfold GoodRules; decide, fun s v h => ?_, fun r hr s hs => ?_, fun i j hi hj h => ?_⟩
  · simp only [bentRules, List.mem_cons, Option.some.injEq, Prod.mk.injEq, List.not_mem_nil, or_false] at h
    rcases h with ⟨rfl, -⟩ | ⟨rfl, -⟩ <;> decide
  · simp only [List.mem_cons, List.not_mem_nil, or_false, not_or] at hs
    simp only [bentRules, List.mem_cons, Option.some.injEq, List.not_mem_nil, or_false] at hr
    show pderiv s _ = 0
    rcases hr with rfl | rfl
    · simp [pderiv_X, Pi.single_apply, Ne.symm hs.1, Ne.symm hs.2.1]
    · simp [pderiv_X, Pi.single_apply, Ne.symm hs.2.1]
  · match i, hi with
    | 0, _ => exact absurd ⟨_, List.mem_cons_self⟩ h
    | 1, _ => exact absurd ⟨_, List.mem_cons_of_mem _ List.mem_cons_self⟩ h
    | 2, _ =>
      match j, hj with
      | 0, _ => decide
      | 1, _ => decide
      | 2, _ => decide

theorem bent_args : MetricArgsOK polyEngine bentCharts (.val "Nil") (.val nil) 0 (.tuple [-1, -1]) (.val "g") :=
  ⟨⟨_, rfl⟩, ⟨_, rfl⟩, Or.inl rfl, _, nil, rfl, rfl, rfl, rfl, rfl, nil_symm, polyEngine_det rfl nil_inverse⟩

theorem nil_const (s : Sym) (hs : s ∉ ["x", "y", "z"]) (i j : Nat) (hi : i < 3) (hj : j < 3) :
    pderiv s (entry nil i j) = 0 := by
  have h : pderiv s (X "z" : Poly) = 0 := pderiv_X_ne (by rintro rfl; exact hs (by decide))
  match i, hi, j, hj with
  | 0, _, 0, _ => simp [entry, nil, Arr.get, ravel, h]
  | 0, _, 1, _ => simp [entry, nil, Arr.get, ravel, h]
  | 0, _, 2, _ => simp [entry, nil, Arr.get, ravel]
  | 1, _, 0, _ => simp [entry, nil, Arr.get, ravel, h]
  | 1, _, 1, _ => simp [entry, nil, Arr.get, ravel]
  | 1, _, 2, _ => simp [entry, nil, Arr.get, ravel]
  | 2, _, 0, _ => simp [entry, nil, Arr.get, ravel]
  | 2, _, 1, _ => simp [entry, nil, Arr.get, ravel]
  | 2, _, 2, _ => simp [entry, nil, Arr.get, ravel]

/-- All that is needed for requests in the new coordinates. -/
theorem bent_moved : ∃ (G : Ground Poly) (V : View Poly) (w : World Poly) (Dm : TField Poly), Scene G V w ∧ G.n = 3 ∧ G.c = 0 ∧
    G.syms = ["x", "y", "z"] ∧ LowerMetric G V Dm ∧ Dm.name = "Nil" ∧ NamesOK polyEngine G V w Dm.name ∧
    (∀ suffix, "Nil" ++ suffix ≠ "Cartesian" → "Nil" ++ suffix ≠ "Parabolic" → "Nil" ++ suffix ≠ "Nil" →
      NotNamed w (Dm.name ++ suffix)) ∧ NoStale polyEngine w ∧
    Charts w G.c 1 G.syms ["u", "v", "z"] (some bentRules) ∧ (∀ o, w.objs[1]? = some o → o.name ≠ "TEMP") ∧
    FreshNames polyEngine G ["u", "v", "z"] ∧ ChartRules polyEngine G.syms ["u", "v", "z"] bentRules ∧
    Inverse G.n (chartJacobian polyEngine G.syms ["u", "v", "z"] bentRules) bentInv := by
  obtain ⟨m, w', h1, h0, o, h2, h3, h4, h5, h6⟩ :=
    (C20_metric_constructor polyEngine polyEngine_total _ _ _ _ _ _).1 bent_args
  obtain ⟨b, hb, hS⟩ := scene_start polyEngine_ok bentCharts_registry (show nil.WF from rfl) (by decide) rfl rfl
    (by simp [bentCharts]) h1
  have hfresh : NoStale polyEngine w' := by
    have := Safe.newMetric (E := polyEngine) (.val "Nil") (.val nil) 0 (.tuple [-1, -1]) (.val "g") bentCharts bentCharts_fresh
    rw [h1] at this
    exact this
  have hnames : ∀ i ∈ w'.instances, ∀ o, w'.objs[i]? = some o →
      o.name = "Cartesian" ∨ o.name = "Parabolic" ∨ o.name = "Nil" := by
    intro i hi oi hoi
    rw [h0] at hi
    have : i = 0 ∨ i = 1 ∨ i = m := by simpa [bentCharts, or_assoc] using hi
    rcases this with rfl | rfl | rfl
    · rw [h2] at hoi; cases hoi; exact Or.inl rfl
    · rw [h2] at hoi; cases hoi; exact Or.inr (Or.inl rfl)
    · exact Or.inr (Or.inr (scene_object_name hS (if_pos rfl) hoi))
  refine ⟨_, _, w', ⟨"Nil", 0, [-1, -1], nil.get⟩, hS, rfl, rfl, rfl, ⟨if_pos rfl, by decide, rfl, rfl⟩, rfl, ?_, ?_, hfresh,
    ⟨⟨_, by rw [h2]; rfl, rfl, rfl, rfl, rfl⟩, _, by rw [h2]; rfl, rfl, rfl, rfl⟩, ?_, ⟨?_⟩, bent_rules, bent_inverse⟩
  · intro q i hi o ho hn
    rcases hnames i hi o ho with h | h | h <;> rw [h] at hn <;> cases q <;> exact absurd hn (by decide)
  · intro suffix s1 s2 s3 i hi o ho hn
    rcases hnames i hi o ho with h | h | h <;> rw [h] at hn
    · exact s1 hn.symm
    · exact s2 hn.symm
    · exact s3 hn.symm
  · intro o1 ho1
    rw [h2] at ho1
    cases ho1
    decide
  · intro i j hi hj s _ hs
    exact nil_const s hs i j hi hj

end PyOGRe.Spec
