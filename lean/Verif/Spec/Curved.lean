import Verif.Lemmas.Symmetry
import Verif.Lemmas.Provided
import Verif.Spec.Plane
import Mathlib.RingTheory.Derivation.Lie

/-!
# A curved metric

Used in the examples beside the theorems about curvature: the metric `dx² + (dy + z dx)² + dz²` of
three-dimensional space (object 1) in the coordinates x, y, z (object 0).
-/

namespace PyOGRe.Spec
open MvPolynomial Finset

/-- Polynomials obey the laws of partial derivatives. -/
theorem polyEngine_calculus : Calculus polyEngine where
  add s x y := map_add (pderiv s) x y
  mul s x y := by
    show pderiv s (x * y) = _
    rw [pderiv_mul]
    rfl
  comm s t x := by
    show pderiv s (pderiv t x) = pderiv t (pderiv s x)
    have h : ⁅(pderiv s : Derivation ℚ Poly Poly), (pderiv t : Derivation ℚ Poly Poly)⁆ = 0 := by
      refine derivation_ext fun i => ?_
      rw [Derivation.commutator_apply]
      simp only [pderiv_X, Pi.single_apply]
      split_ifs <;> simp
    have := congrArg (fun d : Derivation ℚ Poly Poly => d x) h
    rw [Derivation.commutator_apply] at this
    exact sub_eq_zero.1 this

/-- The coordinates. -/
noncomputable def spaceWorld : World Poly where
  objs := [
    { kind := .coordinates, name := "Cartesian", symbol := "x", indices := [1], coords := 0, metric := 0,
      comps := [], syms := ["x", "y", "z"], trans := [], jac := [], alive := true }]
  instances := [0]

theorem spaceWorld_registry : RegistryOK spaceWorld := by
  refine ⟨by simp [spaceWorld], fun i hi => ?_, fun i hi o ho t ht => ?_, fun i hi o ho hn => ?_⟩
  · have : i = 0 := by simpa [spaceWorld] using hi
    subst this
    exact ⟨_, rfl, rfl⟩
  · have : i = 0 := by simpa [spaceWorld] using hi
    subst this
    cases ho
    simp [Obj.uses, Dict.has] at ht
  · have : i = 0 := by simpa [spaceWorld] using hi
    subst this
    cases ho
    exact absurd hn (by decide)

/-- The components of the metric and of its inverse. -/
noncomputable def nil : Arr Poly :=
  ⟨[3, 3], [1 + X "z" * X "z", X "z", 0, X "z", 1, 0, 0, 0, 1]⟩
noncomputable def nilInv : Arr Poly :=
  ⟨[3, 3], [1, -X "z", 0, -X "z", 1 + X "z" * X "z", 0, 0, 0, 1]⟩

theorem nil_inverse : Inverse 3 (fun i j => nil.get [i, j]) (fun i j => nilInv.get [i, j]) := by
  intro i j hi hj
  constructor
  · match i, hi, j, hj with
    | 0, _, 0, _ => simp [matMul, Finset.sum_range_succ, delta, nil, nilInv, Arr.get, ravel]
    | 0, _, 1, _ => simp [matMul, Finset.sum_range_succ, delta, nil, nilInv, Arr.get, ravel]; ring
    | 0, _, 2, _ => simp [matMul, Finset.sum_range_succ, delta, nil, nilInv, Arr.get, ravel]
    | 1, _, 0, _ => simp [matMul, Finset.sum_range_succ, delta, nil, nilInv, Arr.get, ravel]
    | 1, _, 1, _ => simp [matMul, Finset.sum_range_succ, delta, nil, nilInv, Arr.get, ravel]
    | 1, _, 2, _ => simp [matMul, Finset.sum_range_succ, delta, nil, nilInv, Arr.get, ravel]
    | 2, _, 0, _ => simp [matMul, Finset.sum_range_succ, delta, nil, nilInv, Arr.get, ravel]
    | 2, _, 1, _ => simp [matMul, Finset.sum_range_succ, delta, nil, nilInv, Arr.get, ravel]
    | 2, _, 2, _ => simp [matMul, Finset.sum_range_succ, delta, nil, nilInv, Arr.get, ravel]
  · match i, hi, j, hj with
    | 0, _, 0, _ => simp [matMul, Finset.sum_range_succ, delta, nil, nilInv, Arr.get, ravel]
    | 0, _, 1, _ => simp [matMul, Finset.sum_range_succ, delta, nil, nilInv, Arr.get, ravel]
    | 0, _, 2, _ => simp [matMul, Finset.sum_range_succ, delta, nil, nilInv, Arr.get, ravel]
    | 1, _, 0, _ => simp [matMul, Finset.sum_range_succ, delta, nil, nilInv, Arr.get, ravel]; ring
    | 1, _, 1, _ => simp [matMul, Finset.sum_range_succ, delta, nil, nilInv, Arr.get, ravel]
    | 1, _, 2, _ => simp [matMul, Finset.sum_range_succ, delta, nil, nilInv, Arr.get, ravel]
    | 2, _, 0, _ => simp [matMul, Finset.sum_range_succ, delta, nil, nilInv, Arr.get, ravel]
    | 2, _, 1, _ => simp [matMul, Finset.sum_range_succ, delta, nil, nilInv, Arr.get, ravel]
    | 2, _, 2, _ => simp [matMul, Finset.sum_range_succ, delta, nil, nilInv, Arr.get, ravel]

theorem nil_symm (i j : Nat) (hi : i < 3) (hj : j < 3) : entry nil i j = entry nil j i := by
  match i, hi, j, hj with
  | 0, _, 0, _ => rfl
  | 0, _, 1, _ => rfl
  | 0, _, 2, _ => rfl
  | 1, _, 0, _ => rfl
  | 1, _, 1, _ => rfl
  | 1, _, 2, _ => rfl
  | 2, _, 0, _ => rfl
  | 2, _, 1, _ => rfl
  | 2, _, 2, _ => rfl

theorem nil_args : MetricArgsOK polyEngine spaceWorld (.val "Nil") (.val nil) 0 (.tuple [-1, -1])
    (.val "g") := by
  refine ⟨⟨_, rfl⟩, ⟨_, rfl⟩, Or.inl rfl, _, nil, rfl, rfl, rfl, rfl, rfl, nil_symm, polyEngine_det rfl nil_inverse⟩

theorem nilInv_unique {b : Nat → Nat → Poly} (h : Inverse 3 (fun i j => nil.get [i, j]) b) :
    b 2 0 = 0 ∧ b 2 1 = 0 ∧ b 2 2 = 1 := by
  have h0 := (h 2 0 (by decide) (by decide)).2
  have h1 := (h 2 1 (by decide) (by decide)).2
  have h2 := (h 2 2 (by decide) (by decide)).2
  simp [matMul, Finset.sum_range_succ, delta, nil, Arr.get, ravel] at h0 h1 h2
  have e0 : b 2 0 = 0 := by linear_combination h0 - X "z" * h1
  refine ⟨e0, ?_, h2⟩
  rw [e0] at h1
  simpa using h1

/-- The scene after the metric has been declared, which has no computed tensors yet. -/
theorem curved_full : ∃ (G : Ground Poly) (V : View Poly) (w : World Poly), Scene G V w ∧ G.n = 3 ∧ G.m = 1 ∧
    LowerMetric G V ⟨"Nil", 0, [-1, -1], nil.get⟩ ∧
    (∀ i ∈ w.instances, ∀ o, w.objs[i]? = some o → o.name = "Cartesian" ∨ o.name = "Nil") ∧
    christoffel polyEngine G 2 0 1 = -rat (1 / 2) ∧ G.syms = ["x", "y", "z"] ∧ ∀ i j, G.g i j = entry nil i j := by
  obtain ⟨m, w', h1, h0, o, h2, h3, h4, h5, h6⟩ :=
    (C20_metric_constructor polyEngine polyEngine_total _ _ _ _ _ _).1 nil_args
  obtain ⟨b, hb, hS⟩ := scene_start polyEngine_ok spaceWorld_registry (show nil.WF from rfl) (by decide) rfl rfl
    (by simp [spaceWorld]) h1
  have ho : w'.objs = spaceWorld.objs ++ [o] := h2
  have hm : m = 1 := by
    rcases newMetric_cases polyEngine (.val "Nil") nil 0 (.tuple [-1, -1]) (.val "g") spaceWorld with
      ⟨e, h⟩ | ⟨oc, -, -, -, -, -, -, ⟨e, -, h⟩ | ⟨b, -, h⟩⟩
    · rw [h1] at h; cases h
    · rw [h1] at h; cases h
    · rw [h1] at h; cases h; rfl
  subst hm
  refine ⟨_, _, w', hS, rfl, rfl,
    ⟨by rw [show (groundOf 0 1 _ [-1, -1] nil b).m = 1 from rfl, if_pos rfl], by decide, rfl, rfl⟩, ?_, ?_, rfl, fun _ _ => rfl⟩
  · intro i hi oi hoi
    rw [h0] at hi
    have : i = 0 ∨ i = 1 := by simpa [spaceWorld] using hi
    rcases this with rfl | rfl
    · rw [ho] at hoi
      cases hoi
      exact Or.inl rfl
    · exact Or.inr (scene_object_name hS (if_pos rfl) hoi)
  · obtain ⟨b1, b2, b3⟩ := polyEngine_ok.inv_ok 3 nil b rfl hb
    obtain ⟨e0, e1, e2⟩ := nilInv_unique b3
    simp only [christoffel, groundOf, Ground.d]
    simp [Finset.sum_range_succ, entry, e0, e1, e2, spaceWorld, polyEngine, nil, Arr.get, ravel]
    rw [show b.data[ravel b.shape [2, 2]]?.getD 0 = 1 from e2, mul_one]

/-- The same without the names and components. -/
theorem curved : ∃ (G : Ground Poly) (V : View Poly) (w : World Poly), Scene G V w ∧ G.n = 3 ∧ G.m = 1 ∧
    LowerMetric G V ⟨"Nil", 0, [-1, -1], nil.get⟩ ∧
    (∀ i ∈ w.instances, ∀ o, w.objs[i]? = some o → o.name = "Cartesian" ∨ o.name = "Nil") ∧
    christoffel polyEngine G 2 0 1 = -rat (1 / 2) := by
  obtain ⟨G, V, w, h1, h2, h3, h4, h5, h6, -⟩ := curved_full
  exact ⟨G, V, w, h1, h2, h3, h4, h5, h6⟩

theorem curved_half : -rat (1 / 2) ≠ (0 : Poly) := by
  intro h
  have := congrArg (MvPolynomial.eval (fun _ : Sym => (0 : ℚ))) h
  simp [rat] at this

theorem nilInv_entry {b : Nat → Nat → Poly} (h : Inverse 3 (fun i j => nil.get [i, j]) b) :
    b 0 1 = -X "z" ∧ b 0 2 = 0 ∧ b 1 2 = 0 ∧ b 2 0 = 0 ∧ b 1 0 = -X "z" := by
  have h0 := (h 0 0 (by decide) (by decide)).2
  have h1 := (h 0 1 (by decide) (by decide)).2
  have h2 := (h 0 2 (by decide) (by decide)).2
  have k0 := (h 1 0 (by decide) (by decide)).2
  have k1 := (h 1 1 (by decide) (by decide)).2
  have k2 := (h 1 2 (by decide) (by decide)).2
  have l := nilInv_unique h
  simp [matMul, Finset.sum_range_succ, delta, nil, Arr.get, ravel] at h0 h1 h2 k0 k1 k2
  have e0 : b 0 0 = 1 := by linear_combination h0 - X "z" * h1
  have e1 : b 1 0 = -X "z" := by linear_combination k0 - X "z" * k1
  refine ⟨?_, h2, k2, l.1, e1⟩
  rw [e0] at h1
  linear_combination h1

/-- The same components with upper indices. -/
theorem curved_upper : ∃ (G : Ground Poly) (V : View Poly) (w : World Poly), Scene G V w ∧ G.n = 3 ∧
    UpperMetric G V ⟨"Nil", 0, [1, 1], nil.get⟩ ∧
    (∀ i ∈ w.instances, ∀ o, w.objs[i]? = some o → o.name = "Cartesian" ∨ o.name = "Nil") ∧
    christoffel polyEngine G 2 0 1 = rat (1 / 2) := by
  obtain ⟨m, w', h1, h0, o, h2, h3, h4, h5, h6⟩ :=
    (C20_metric_constructor polyEngine polyEngine_total _ _ _ _ _ _).1
      (show MetricArgsOK polyEngine spaceWorld (.val "Nil") (.val nil) 0 (.tuple [1, 1]) (.val "g") from
        ⟨⟨_, rfl⟩, ⟨_, rfl⟩, Or.inr rfl, _, nil, rfl, rfl, rfl, rfl, rfl, nil_symm, polyEngine_det rfl nil_inverse⟩)
  obtain ⟨b, hb, hS⟩ := scene_start polyEngine_ok spaceWorld_registry (show nil.WF from rfl) (by decide) rfl rfl
    (by simp [spaceWorld]) h1
  refine ⟨_, _, w', hS, rfl, ⟨by rw [show (groundOf 0 m _ [1, 1] nil b).m = m from rfl, if_pos rfl], by decide, rfl, rfl⟩,
    ?_, ?_⟩
  · intro i hi oi hoi
    rw [h0] at hi
    have : i = 0 ∨ i = m := by simpa [spaceWorld] using hi
    rcases this with rfl | rfl
    · rw [h2] at hoi
      cases hoi
      exact Or.inl rfl
    · exact Or.inr (scene_object_name hS (if_pos rfl) hoi)
  · obtain ⟨b1, b2, b3⟩ := polyEngine_ok.inv_ok 3 nil b rfl hb
    obtain ⟨e0, e1, e2, e3, e4⟩ := nilInv_entry b3
    have d0 : entry b 0 1 = -X "z" := e0
    have d1 : entry b 0 2 = 0 := e1
    have d2 : entry b 1 2 = 0 := e2
    have d3 : entry b 2 0 = 0 := e3
    have n0 : entry nil 2 0 = 0 := rfl
    have n1 : entry nil 2 1 = 0 := rfl
    have n2 : entry nil 2 2 = 1 := rfl
    simp only [christoffel, groundOf, Ground.d]
    simp [Finset.sum_range_succ, d0, d1, d2, d3, n0, n1, n2, spaceWorld, polyEngine]

/-- No object has the name of a tensor that is computed from the metric. -/
theorem curved_names {G : Ground Poly} {V : View Poly} {w : World Poly}
    (h : ∀ i ∈ w.instances, ∀ o, w.objs[i]? = some o → o.name = "Cartesian" ∨ o.name = "Nil") :
    NamesOK polyEngine G V w "Nil" := by
  intro q i hi o ho hn
  rcases h i hi o ho with h | h <;> rw [h] at hn <;> cases q <;> exact absurd hn (by decide)

end PyOGRe.Spec
