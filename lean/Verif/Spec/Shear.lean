import Verif.Lemmas.First
import Verif.Spec.Jets
import Verif.Props.Curvature

/-!
# The plane in new coordinates

The flat metric of the plane, declared in `x` and `y`, and the coordinates `u`, `v` with `x = u + v²`, `y = v`.
-/

namespace PyOGRe.Spec
open MvPolynomial Finset

theorem polyEngine_swap : SwapOK polyEngine := by
  intro s v t u x hst hu hv
  have h1 : polyEngine.subst s v u = u := polyEngine_subst.const s v u hu
  have h2 : polyEngine.subst t u v = v := polyEngine_subst.const t u v hv
  show aeval (Function.update X s v) (aeval (Function.update X t u) x) =
    aeval (Function.update X t u) (aeval (Function.update X s v) x)
  induction x using MvPolynomial.induction_on with
  | C a => simp
  | add p q hp hq => simp only [map_add, hp, hq]
  | mul_X p i hp =>
    rw [map_mul, map_mul, map_mul, map_mul, hp, aeval_X, aeval_X]
    congr 1
    by_cases h : i = s
    · subst h
      rw [Function.update_self, Function.update_of_ne hst, aeval_X, Function.update_self]
      exact h2.symm
    · rw [Function.update_of_ne (a' := s) h]
      by_cases h' : i = t
      · subst h'
        rw [Function.update_self, aeval_X, Function.update_self]
        exact h1
      · rw [Function.update_of_ne h', aeval_X, aeval_X, Function.update_of_ne h', Function.update_of_ne h]

theorem uvWorld_fresh : NoStale polyEngine uvWorld := by
  intro i o ho c' j hj
  rcases uvWorld_cases ho with ⟨-, -, -, -, h, -⟩ | ⟨-, -, -, -, h, -⟩ <;> rw [h] at hj <;> cases hj

theorem flatWorld_fresh : NoStale polyEngine flatWorld := by
  have := Safe.newMetric (E := polyEngine) (.val "Flat") (.val flat) 0 (.tuple [-1, -1]) (.val "eta") uvWorld uvWorld_fresh
  rw [flatWorld_eq] at this
  exact this

/-- The inverse of the Jacobian. -/
noncomputable def shearInv (i j : Nat) : Poly := if i = 0 ∧ j = 1 then -(2 * X "v") else delta i j

theorem shear_inverse : Inverse 2 (chartJacobian polyEngine ["x", "y"] ["u", "v"] rules01) shearInv :=
  inverse_congr (inverse_shear (2 * X "v" : Poly)) (fun i j hi hj => (jac01 i j hi hj).symm) fun _ _ _ _ => rfl

theorem shear_second (l j k : Nat) (hl : l < 2) (hj : j < 2) (hk : k < 2) :
    chartJacobian2 polyEngine ["x", "y"] ["u", "v"] rules01 l j k = if l = 0 ∧ j = 1 ∧ k = 1 then 2 else 0 := by
  have h1 : pderiv "v" (X "u" : Poly) = 0 := pderiv_X_ne (by decide)
  have h2 : pderiv "u" (X "v" : Poly) = 0 := pderiv_X_ne (by decide)
  have h3 : ∀ s, pderiv s (2 : Poly) = 0 := fun s => by rw [show (2 : Poly) = C 2 from rfl, pderiv_C]
  match l, hl, j, hj, k, hk with
  | 0, _, 0, _, 0, _ => simp [chartJacobian2, chartJacobian, ruleFor, rules01, polyEngine, h1, h2, h3]
  | 0, _, 0, _, 1, _ => simp [chartJacobian2, chartJacobian, ruleFor, rules01, polyEngine, h1, h2, h3]
  | 0, _, 1, _, 0, _ => simp [chartJacobian2, chartJacobian, ruleFor, rules01, polyEngine, h1, h2, h3]
  | 0, _, 1, _, 1, _ => simp [chartJacobian2, chartJacobian, ruleFor, rules01, polyEngine, h1, h2, h3]
  | 1, _, 0, _, 0, _ => simp [chartJacobian2, chartJacobian, ruleFor, rules01, polyEngine, h1, h2, h3]
  | 1, _, 0, _, 1, _ => simp [chartJacobian2, chartJacobian, ruleFor, rules01, polyEngine, h1, h2, h3]
  | 1, _, 1, _, 0, _ => simp [chartJacobian2, chartJacobian, ruleFor, rules01, polyEngine, h1, h2, h3]
  | 1, _, 1, _, 1, _ => simp [chartJacobian2, chartJacobian, ruleFor, rules01, polyEngine, h1, h2, h3]

/-- All that is needed for requests in the new coordinates. -/
theorem flat_moved : ∃ (G : Ground Poly) (V : View Poly) (Dm : TField Poly), Scene G V flatWorld ∧ G.n = 2 ∧ G.c = 0 ∧
    G.syms = ["x", "y"] ∧ (∀ i j, i < 2 → j < 2 → G.g i j = delta i j) ∧ LowerMetric G V Dm ∧ Dm.name = "Flat" ∧
    NamesOK polyEngine G V flatWorld Dm.name ∧
    (∀ suffix, "Flat" ++ suffix ≠ "Cartesian" → "Flat" ++ suffix ≠ "Parabolic" → "Flat" ++ suffix ≠ "Flat" →
      NotNamed flatWorld (Dm.name ++ suffix)) ∧ NoStale polyEngine flatWorld ∧
    Charts flatWorld G.c 1 G.syms ["u", "v"] (some rules01) ∧ (∀ o, flatWorld.objs[1]? = some o → o.name ≠ "TEMP") ∧
    FreshNames polyEngine G ["u", "v"] ∧ ChartRules polyEngine G.syms ["u", "v"] rules01 ∧
    Inverse G.n (chartJacobian polyEngine G.syms ["u", "v"] rules01) shearInv := by
  obtain ⟨G, V, h1, h2, h3, h4, h5, h6, h7, h8, h9⟩ := flat_scene
  obtain ⟨o, k1, -⟩ := flatWorld_objs
  have hnames : ∀ i ∈ flatWorld.instances, ∀ o, flatWorld.objs[i]? = some o →
      o.name = "Cartesian" ∨ o.name = "Parabolic" ∨ o.name = "Flat" := by
    intro i hi oi hoi
    match i, hoi with
    | 0, hoi => rw [k1] at hoi; cases hoi; exact Or.inl rfl
    | 1, hoi => rw [k1] at hoi; cases hoi; exact Or.inr (Or.inl rfl)
    | 2, hoi =>
      obtain ⟨b, -, hS⟩ := scene_start polyEngine_ok uvWorld_registry (show flat.WF from rfl) (by decide) rfl rfl
        (by simp [uvWorld]) flatWorld_eq
      exact Or.inr (Or.inr (scene_object_name hS (if_pos rfl) hoi))
    | i + 3, hoi => rw [k1] at hoi; simp [uvWorld] at hoi
  refine ⟨G, V, _, h1, h2, h3, h4, h5, h6, rfl, ?_, ?_, flatWorld_fresh, by rw [h3, h4]; exact h8, h9, ⟨?_⟩,
    by rw [h4]; exact chartRules_full flat_rules (by decide), by rw [h2, h4]; exact shear_inverse⟩
  · intro q i hi o ho hn
    rcases hnames i hi o ho with h | h | h <;> rw [h] at hn <;> cases q <;> exact absurd hn (by decide)
  · intro suffix s1 s2 s3 i hi o ho hn
    rcases hnames i hi o ho with h | h | h <;> rw [h] at hn
    · exact s1 hn.symm
    · exact s2 hn.symm
    · exact s3 hn.symm
  · intro i j hi hj s _ _
    rw [h2] at hi hj
    rw [h5 i j hi hj]
    show pderiv s _ = 0
    unfold delta
    split_ifs <;> simp

/-- The law with the Christoffel symbols of the flat metric, which vanish. -/
theorem flat_law {G : Ground Poly} (hn : G.n = 2) (hs : G.syms = ["x", "y"])
    (hg : ∀ i j, i < 2 → j < 2 → G.g i j = delta i j) {a b c : Nat} (hb : b < 2) (hc : c < 2) :
    christoffelLaw polyEngine G.n (chartJacobian polyEngine G.syms ["u", "v"] rules01) shearInv
      (chartJacobian2 polyEngine G.syms ["u", "v"] rules01) rules01 (fun I => christoffel polyEngine G (I.getD 0 0) (I.getD 1 0)
        (I.getD 2 0)) a b c = substAll polyEngine rules01 (if b = 1 ∧ c = 1 then shearInv a 0 * 2 else 0) := by
  have h0 : ∀ i j k, i < 2 → j < 2 → G.d polyEngine k (G.g i j) = 0 := fun i j k hi hj => by
    rw [hg i j hi hj]
    show pderiv _ _ = 0
    unfold delta
    split_ifs <;> simp
  have h1 : ∀ i j k, j < 2 → k < 2 → christoffel polyEngine G i j k = 0 := fun i j k hj hk => by
    unfold christoffel
    rw [hn, sum_range_succ, sum_range_succ, sum_range_zero]
    simp [h0 _ _ _ hj hk, h0 _ _ _ hk (show 0 < 2 by omega), h0 _ _ _ hk (show 1 < 2 by omega),
      h0 _ _ _ (show 0 < 2 by omega) hj, h0 _ _ _ (show 1 < 2 by omega) hj]
  unfold christoffelLaw
  congr 1
  rw [List.map_cons, List.map_cons, List.map_cons, List.map_nil, applyFactors_three, hn, hs,
    sum_eq_zero fun i hi => sum_eq_zero fun j hj => sum_eq_zero fun k hk => ?_, zero_add, sum_range_succ, sum_range_succ,
    sum_range_zero, shear_second 0 b c (by omega) hb hc, shear_second 1 b c (by omega) hb hc]
  · by_cases h : b = 1 ∧ c = 1
    · simp [h]
    · simp [h]
  · simp [h1 i j k (mem_range.1 hj) (mem_range.1 hk)]

/-- Christoffel symbols of the plane. -/
noncomputable def shearSymbols : Obj Poly :=
  { kind := .christoffel, name := "Flat Christoffel", symbol := "Gamma", indices := [1, -1, -1],
    coords := 0, metric := 0, comps := [(0, [([1, -1, -1], Arr.ofFn [2, 2, 2] fun _ => 0)])], syms := [], trans := [],
    jac := [], alive := true }

/-- The plane with Christoffel symbols. -/
noncomputable def shearWorld : World Poly := ⟨uvWorld.objs ++ [shearSymbols], [0, 1, 2]⟩

theorem shearWorld_fresh : NoStale polyEngine shearWorld := noStale_push uvWorld_fresh (Or.inl rfl) _

end PyOGRe.Spec
