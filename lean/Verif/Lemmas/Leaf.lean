import Verif.Lemmas.Nil

/-! Helper lemmas: the metric with upper components `x² ∂x² + 2 ∂x ∂y` in the plane, used in examples of identities that fail
with the wrong sign of the Christoffel symbols. -/

namespace PyOGRe
open Spec Finset MvPolynomial

/-- The coordinates. -/
noncomputable def leafWorld : World Poly where
  objs := [
    { kind := .coordinates, name := "Cartesian", symbol := "x", indices := [1], coords := 0, metric := 0,
      comps := [], syms := ["x", "y"], trans := [], jac := [], alive := true }]
  instances := [0]

theorem leafWorld_registry : RegistryOK leafWorld := by
  refine ⟨by simp [leafWorld], fun i hi => ?_, fun i hi o ho t ht => ?_, fun i hi o ho hn => ?_⟩
  · have : i = 0 := by simpa [leafWorld] using hi
    subst this
    exact ⟨_, rfl, rfl⟩
  · have : i = 0 := by simpa [leafWorld] using hi
    subst this
    cases ho
    simp [Obj.uses, Dict.has] at ht
  · have : i = 0 := by simpa [leafWorld] using hi
    subst this
    cases ho
    exact absurd hn (by decide)

/-- The components of the metric and of its inverse. -/
noncomputable def leaf : Arr Poly := ⟨[2, 2], [X "x" * X "x", 1, 1, 0]⟩
noncomputable def leafInv : Arr Poly := ⟨[2, 2], [0, 1, 1, -(X "x" * X "x")]⟩

theorem leaf_inverse : Inverse 2 (fun i j => leaf.get [i, j]) (fun i j => leafInv.get [i, j]) := by
  intro i j hi hj
  interval_cases i <;> interval_cases j <;>
    simp [matMul, Finset.sum_range_succ, delta, leaf, leafInv, Arr.get, ravel]

theorem leaf_symm (i j : Nat) (hi : i < 2) (hj : j < 2) : entry leaf i j = entry leaf j i := by
  interval_cases i <;> interval_cases j <;> rfl

/-- The lower components of the metric whose upper components are `leaf`. -/
structure LeafGround (G : Ground Poly) : Prop where
  n : G.n = 2
  syms : G.syms = ["x", "y"]
  gi : ∀ i j, G.gi i j = entry leaf i j
  g00 : G.g 0 0 = 0
  g01 : G.g 0 1 = 1
  g10 : G.g 1 0 = 1
  g11 : G.g 1 1 = -(X "x" * X "x")

theorem leafInv_table {b : Nat → Nat → Poly} (h : Inverse 2 (fun i j => leaf.get [i, j]) b) :
    b 0 0 = 0 ∧ b 0 1 = 1 ∧ b 1 0 = 1 ∧ b 1 1 = -(X "x" * X "x") := by
  have h0 := (h 0 0 (by decide) (by decide)).1
  have h1 := (h 0 1 (by decide) (by decide)).1
  have h2 := (h 1 0 (by decide) (by decide)).1
  have h3 := (h 1 1 (by decide) (by decide)).1
  simp [matMul, Finset.sum_range_succ, delta, leaf, Arr.get, ravel] at h0 h1 h2 h3
  refine ⟨h2, h3, ?_, ?_⟩
  · rw [h2] at h0; simpa using h0
  · rw [h3] at h1; linear_combination h1

theorem leaf_names_table : ∃ (G : Ground Poly) (V : View Poly) (w : World Poly), Scene G V w ∧ LeafGround G ∧
    UpperMetric G V ⟨"Leaf", 0, [1, 1], leaf.get⟩ ∧
    ∀ i ∈ w.instances, ∀ o, w.objs[i]? = some o → o.name = "Cartesian" ∨ o.name = "Leaf" := by
  obtain ⟨m, w', h1, h0, o, h2, h3, h4, h5, h6⟩ :=
    (C20_metric_constructor polyEngine polyEngine_total _ _ _ _ _ _).1
      (show MetricArgsOK polyEngine leafWorld (.val "Leaf") (.val leaf) 0 (.tuple [1, 1]) (.val "g") from
        ⟨⟨_, rfl⟩, ⟨_, rfl⟩, Or.inr rfl, _, leaf, rfl, rfl, rfl, rfl, rfl, leaf_symm, polyEngine_det rfl leaf_inverse⟩)
  obtain ⟨b, hb, hS⟩ := scene_start polyEngine_ok leafWorld_registry (show leaf.WF from rfl) (by decide) rfl rfl
    (by simp [leafWorld]) h1
  obtain ⟨b1, b2, b3⟩ := polyEngine_ok.inv_ok 2 leaf b rfl hb
  obtain ⟨e1, e2, e3, e4⟩ := leafInv_table b3
  refine ⟨_, _, w', hS, ⟨rfl, rfl, fun _ _ => rfl, e1, e2, e3, e4⟩,
    ⟨by rw [show (groundOf 0 m _ [1, 1] leaf b).m = m from rfl, if_pos rfl], by decide, rfl, rfl⟩, ?_⟩
  intro i hi oi hoi
  rw [h0] at hi
  have : i = 0 ∨ i = m := by simpa [leafWorld] using hi
  rcases this with rfl | rfl
  · rw [h2] at hoi
    cases hoi
    exact Or.inl rfl
  · exact Or.inr (scene_object_name hS (if_pos rfl) hoi)

theorem leaf_d {G : Ground Poly} (h : LeafGround G) (p : Poly) : G.d polyEngine 0 p = pderiv "x" p ∧
    G.d polyEngine 1 p = pderiv "y" p := by
  unfold Ground.d
  rw [h.syms]
  exact ⟨rfl, rfl⟩

/-- The opposite of the Christoffel symbols. -/
noncomputable def leafGamma (l m n : Nat) : Poly :=
  if l = 0 then (if m = 1 ∧ n = 1 then -(X "x" * X "x" * X "x") else if m = 0 ∧ n = 0 then 0 else X "x")
  else if m = 1 ∧ n = 1 then -X "x" else 0

theorem leaf_christoffel {G : Ground Poly} (h : LeafGround G) (l m n : Nat) (hl : l < 2) (hm : m < 2) (hn : n < 2) :
    -christoffel polyEngine G l m n = leafGamma l m n := by
  have h2 := rat_half_two
  have i00 : entry leaf 0 0 = X "x" * X "x" := rfl
  have i01 : entry leaf 0 1 = 1 := rfl
  have i10 : entry leaf 1 0 = 1 := rfl
  have i11 : entry leaf 1 1 = 0 := rfl
  unfold christoffel leafGamma
  rw [h.n]
  simp only [Finset.sum_range_succ, Finset.sum_range_zero, h.gi]
  interval_cases l <;> interval_cases m <;> interval_cases n <;>
    simp [(leaf_d h _).1, (leaf_d h _).2, h.g00, h.g01, h.g10, h.g11, i00, i01, i10, i11, -one_div]
  all_goals first
    | linear_combination X "x" * h2
    | linear_combination X "x" * X "x" * X "x" * h2

/-- The curvature of these coefficients. -/
theorem leaf_riemann {G : Ground Poly} (h : LeafGround G) {Γ : Nat → Nat → Nat → Poly}
    (hΓ : ∀ l m n, l < 2 → m < 2 → n < 2 → Γ l m n = leafGamma l m n) :
    riemannOf polyEngine G Γ 0 0 0 1 = 1 ∧ riemannOf polyEngine G Γ 0 1 0 1 = -(5 * X "x" * X "x") ∧
    riemannOf polyEngine G Γ 1 0 0 1 = 0 ∧ riemannOf polyEngine G Γ 1 1 0 1 = -1 := by
  unfold riemannOf
  rw [h.n]
  simp only [Finset.sum_range_succ, Finset.sum_range_zero, hΓ 0 0 0, hΓ 0 0 1, hΓ 0 1 0, hΓ 0 1 1, hΓ 1 0 0, hΓ 1 0 1,
    hΓ 1 1 0, hΓ 1 1 1, Nat.zero_lt_two, Nat.one_lt_two, (leaf_d h _).1, (leaf_d h _).2]
  refine ⟨?_, ?_, ?_, ?_⟩ <;> simp [leafGamma]
  ring

theorem riemannOf_antisymm {K : Type} [CommRing K] [Algebra ℚ K] {E : Engine K} {G : Ground K} (Γ : Nat → Nat → Nat → K)
    (r s m n : Nat) : riemannOf E G Γ r s m n = -riemannOf E G Γ r s n m := by
  unfold riemannOf
  ring

theorem leaf_ricci {G : Ground Poly} (h : LeafGround G) {Γ : Nat → Nat → Nat → Poly}
    (hΓ : ∀ l m n, l < 2 → m < 2 → n < 2 → Γ l m n = leafGamma l m n) :
    ricciOf polyEngine G Γ 0 0 = 0 ∧ ricciOf polyEngine G Γ 0 1 = 1 ∧ ricciOf polyEngine G Γ 1 0 = 1 ∧
    ricciOf polyEngine G Γ 1 1 = -(5 * X "x" * X "x") := by
  obtain ⟨r1, r2, r3, r4⟩ := leaf_riemann h hΓ
  have e : ∀ r s m, riemannOf polyEngine G Γ r s m m = 0 := fun r s m => by unfold riemannOf; ring
  unfold ricciOf
  rw [h.n]
  simp only [Finset.sum_range_succ, Finset.sum_range_zero, e, riemannOf_antisymm Γ 1 _ 1 0, r1, r2, r3, r4]
  refine ⟨by ring, by ring, by ring, by ring⟩

theorem leaf_einstein {G : Ground Poly} (h : LeafGround G) {Γ : Nat → Nat → Nat → Poly}
    (hΓ : ∀ l m n, l < 2 → m < 2 → n < 2 → Γ l m n = leafGamma l m n) :
    einsteinOf polyEngine G Γ 0 0 = 0 ∧ einsteinOf polyEngine G Γ 0 1 = 0 ∧ einsteinOf polyEngine G Γ 1 0 = 0 ∧
    einsteinOf polyEngine G Γ 1 1 = -(4 * X "x" * X "x") := by
  obtain ⟨r1, r2, r3, r4⟩ := leaf_ricci h hΓ
  have h2 := rat_half_two
  have i00 : entry leaf 0 0 = X "x" * X "x" := rfl
  have i01 : entry leaf 0 1 = 1 := rfl
  have i10 : entry leaf 1 0 = 1 := rfl
  have i11 : entry leaf 1 1 = 0 := rfl
  have hs : scalarOf polyEngine G Γ = 2 := by
    unfold scalarOf
    rw [h.n]
    simp only [Finset.sum_range_succ, Finset.sum_range_zero, h.gi, i00, i01, i10, i11, r1, r2, r3, r4]
    ring
  unfold einsteinOf
  rw [hs, r1, r2, r3, r4, h.g00, h.g01, h.g10, h.g11, h2]
  refine ⟨by ring, by ring, by ring, by ring⟩

end PyOGRe
