import Verif.Lemmas.Connection
import Verif.Spec.Curved
import Mathlib.Tactic.IntervalCases

/-! Helper lemmas: the metric with upper components `nil`, used in examples of wrong curvature tensors. -/

namespace PyOGRe
open Spec Finset MvPolynomial

/-- The part of the Riemann tensor with derivatives: `∂_m Γ^r_{ns} - ∂_n Γ^r_{ms}`. -/
def Spec.slope {K : Type} [CommRing K] [Algebra ℚ K] (E : Engine K) (G : Ground K) (r s m n : Nat) : K :=
  G.d E m (christoffel E G r n s) - G.d E n (christoffel E G r m s)

/-- No tensor with the name of one that is computed from the metric is registered. -/
def Spec.NoNames {K : Type} (w : World K) (base : String) : Prop :=
  ∀ (q : Quantity), ∀ i ∈ w.instances, ∀ o, w.objs[i]? = some o → o.name ≠ base ++ q.suffix

/-- The lower components of the metric whose upper components are `nil`. -/
structure NilGround (G : Ground Poly) : Prop where
  n : G.n = 3
  syms : G.syms = ["x", "y", "z"]
  gi : ∀ i j, G.gi i j = entry nil i j
  g00 : G.g 0 0 = 1
  g01 : G.g 0 1 = -X "z"
  g02 : G.g 0 2 = 0
  g10 : G.g 1 0 = -X "z"
  g11 : G.g 1 1 = 1 + X "z" * X "z"
  g12 : G.g 1 2 = 0
  g20 : G.g 2 0 = 0
  g21 : G.g 2 1 = 0
  g22 : G.g 2 2 = 1

theorem nilInv_table {b : Nat → Nat → Poly} (h : Inverse 3 (fun i j => nil.get [i, j]) b) :
    b 0 0 = 1 ∧ b 0 1 = -X "z" ∧ b 0 2 = 0 ∧ b 1 0 = -X "z" ∧ b 1 1 = 1 + X "z" * X "z" ∧ b 1 2 = 0 ∧ b 2 0 = 0 ∧
      b 2 1 = 0 ∧ b 2 2 = 1 := by
  have h0 := (h 0 0 (by decide) (by decide)).2
  have h1 := (h 0 1 (by decide) (by decide)).2
  have k1 := (h 1 1 (by decide) (by decide)).2
  simp [matMul, Finset.sum_range_succ, delta, nil, Arr.get, ravel] at h0 h1 k1
  obtain ⟨l1, l2, l3⟩ := nilInv_unique h
  obtain ⟨e1, e2, e3, e4, e5⟩ := nilInv_entry h
  refine ⟨by linear_combination h0 - X "z" * h1, e1, e2, e5, ?_, e3, l1, l2, l3⟩
  rw [e5] at k1
  linear_combination k1

theorem curved_names_table : ∃ (G : Ground Poly) (V : View Poly) (w : World Poly), Scene G V w ∧ NilGround G ∧
    UpperMetric G V ⟨"Nil", 0, [1, 1], nil.get⟩ ∧
    ∀ i ∈ w.instances, ∀ o, w.objs[i]? = some o → o.name = "Cartesian" ∨ o.name = "Nil" := by
  obtain ⟨m, w', h1, h0, o, h2, h3, h4, h5, h6⟩ :=
    (C20_metric_constructor polyEngine polyEngine_total _ _ _ _ _ _).1
      (show MetricArgsOK polyEngine spaceWorld (.val "Nil") (.val nil) 0 (.tuple [1, 1]) (.val "g") from
        ⟨⟨_, rfl⟩, ⟨_, rfl⟩, Or.inr rfl, _, nil, rfl, rfl, rfl, rfl, rfl, nil_symm, polyEngine_det rfl nil_inverse⟩)
  obtain ⟨b, hb, hS⟩ := scene_start polyEngine_ok spaceWorld_registry (show nil.WF from rfl) (by decide) rfl rfl
    (by simp [spaceWorld]) h1
  obtain ⟨b1, b2, b3⟩ := polyEngine_ok.inv_ok 3 nil b rfl hb
  obtain ⟨e1, e2, e3, e4, e5, e6, e7, e8, e9⟩ := nilInv_table b3
  refine ⟨_, _, w', hS, ⟨rfl, rfl, fun _ _ => rfl, e1, e2, e3, e4, e5, e6, e7, e8, e9⟩,
    ⟨by rw [show (groundOf 0 m _ [1, 1] nil b).m = m from rfl, if_pos rfl], by decide, rfl, rfl⟩, ?_⟩
  intro i hi oi hoi
  rw [h0] at hi
  have : i = 0 ∨ i = m := by simpa [spaceWorld] using hi
  rcases this with rfl | rfl
  · rw [h2] at hoi
    cases hoi
    exact Or.inl rfl
  · exact Or.inr (scene_object_name hS (if_pos rfl) hoi)

theorem curved_table : ∃ (G : Ground Poly) (V : View Poly) (w : World Poly), Scene G V w ∧ NilGround G ∧
    UpperMetric G V ⟨"Nil", 0, [1, 1], nil.get⟩ ∧ NoNames w "Nil" := by
  obtain ⟨G, V, w, h1, h2, h3, h4⟩ := curved_names_table
  refine ⟨G, V, w, h1, h2, h3, fun q i hi o ho hn => ?_⟩
  rcases h4 i hi o ho with h | h <;> rw [h] at hn <;> cases q <;> exact absurd hn (by decide)

/-- Twice the Christoffel symbols. -/
noncomputable def nilGamma (l m n : Nat) : Poly :=
  if l = 2 then (if m = 1 ∧ n = 1 then -(X "z" + X "z") else if (m = 0 ∧ n = 1) ∨ (m = 1 ∧ n = 0) then 1 else 0)
  else if l = 1 then
    (if (m = 0 ∧ n = 2) ∨ (m = 2 ∧ n = 0) then -1 else if (m = 1 ∧ n = 2) ∨ (m = 2 ∧ n = 1) then X "z" else 0)
  else if (m = 0 ∧ n = 2) ∨ (m = 2 ∧ n = 0) then -X "z"
  else if (m = 1 ∧ n = 2) ∨ (m = 2 ∧ n = 1) then X "z" * X "z" - 1 else 0

theorem nil_d {G : Ground Poly} (h : NilGround G) (p : Poly) : G.d polyEngine 0 p = pderiv "x" p ∧
    G.d polyEngine 1 p = pderiv "y" p ∧ G.d polyEngine 2 p = pderiv "z" p := by
  unfold Ground.d
  rw [h.syms]
  exact ⟨rfl, rfl, rfl⟩

theorem nil_christoffel {G : Ground Poly} (h : NilGround G) (l m n : Nat) (hl : l < 3) (hm : m < 3) (hn : n < 3) :
    christoffel polyEngine G l m n = rat (1 / 2) * nilGamma l m n := by
  have i00 : entry nil 0 0 = 1 + X "z" * X "z" := rfl
  have i01 : entry nil 0 1 = X "z" := rfl
  have i02 : entry nil 0 2 = 0 := rfl
  have i10 : entry nil 1 0 = X "z" := rfl
  have i11 : entry nil 1 1 = 1 := rfl
  have i12 : entry nil 1 2 = 0 := rfl
  have i20 : entry nil 2 0 = 0 := rfl
  have i21 : entry nil 2 1 = 0 := rfl
  have i22 : entry nil 2 2 = 1 := rfl
  unfold christoffel nilGamma
  rw [h.n]
  congr 1
  simp only [Finset.sum_range_succ, Finset.sum_range_zero, h.gi]
  interval_cases l <;> interval_cases m <;> interval_cases n <;>
    simp [(nil_d h _).1, (nil_d h _).2.1, (nil_d h _).2.2, h.g00, h.g01, h.g02, h.g10, h.g11, h.g12, h.g20, h.g21, h.g22,
      i00, i01, i02, i10, i11, i12, i20, i21, i22] <;> ring

theorem rat_half_two : (rat (1 / 2) : Poly) * 2 = 1 := by
  unfold rat
  rw [show (2 : Poly) = algebraMap ℚ Poly 2 from (map_ofNat _ 2).symm, ← map_mul]
  norm_num

theorem rat_half : (rat 2⁻¹ : Poly) * 2 = 1 := by
  have := rat_half_two
  rwa [one_div] at this

theorem pderiv_rat (s : Sym) (p : Poly) : pderiv s (rat (1 / 2) * p) = rat (1 / 2) * pderiv s p := by
  unfold rat
  rw [algebraMap_eq, pderiv_C_mul]

theorem nil_derivative {G : Ground Poly} (h : NilGround G) (k a b c : Nat) (hk : k < 3) (ha : a < 3) (hb : b < 3) (hc : c < 3) :
    G.d polyEngine k (christoffel polyEngine G a b c) =
      if k = 2 then rat (1 / 2) * pderiv "z" (nilGamma a b c) else 0 := by
  rw [nil_christoffel h a b c ha hb hc]
  have hx : pderiv "x" (nilGamma a b c) = 0 := by
    unfold nilGamma
    interval_cases a <;> interval_cases b <;> interval_cases c <;> simp
  have hy : pderiv "y" (nilGamma a b c) = 0 := by
    unfold nilGamma
    interval_cases a <;> interval_cases b <;> interval_cases c <;> simp
  interval_cases k
  · rw [(nil_d h _).1, pderiv_rat, hx, mul_zero, if_neg (by decide)]
  · rw [(nil_d h _).2.1, pderiv_rat, hy, mul_zero, if_neg (by decide)]
  · rw [(nil_d h _).2.2, pderiv_rat, if_pos rfl]

theorem nil_slope {G : Ground Poly} (h : NilGround G) (r s m n : Nat) (hr : r < 3) (hs : s < 3) (hm : m < 3) (hn : n < 3) :
    slope polyEngine G r s m n = (if m = 2 then rat (1 / 2) * pderiv "z" (nilGamma r n s) else 0) -
      if n = 2 then rat (1 / 2) * pderiv "z" (nilGamma r m s) else 0 := by
  unfold slope
  rw [nil_derivative h _ _ _ _ hm hr hn hs, nil_derivative h _ _ _ _ hn hr hm hs]

theorem nil_ricciSlope {G : Ground Poly} (h : NilGround G) (m n : Nat) (hm : m < 3) (hn : n < 3) :
    ∑ l ∈ range G.n, slope polyEngine G l m l n = if m = 1 ∧ n = 1 then -1 else 0 := by
  rw [h.n]
  simp only [Finset.sum_range_succ, Finset.sum_range_zero]
  rw [nil_slope h 0 m 0 n (by decide) hm (by decide) hn, nil_slope h 1 m 1 n (by decide) hm (by decide) hn,
    nil_slope h 2 m 2 n (by decide) hm (by decide) hn]
  have h2 := rat_half
  unfold nilGamma
  interval_cases m <;> interval_cases n <;> simp
  linear_combination -h2

end PyOGRe
