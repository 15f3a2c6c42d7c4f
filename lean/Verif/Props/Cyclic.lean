import Verif.Props.Conserved

/-!
# Momenta are constant along geodesics: C103
-/

namespace PyOGRe
open Spec Finset
variable {K : Type} [CommRing K] [DecidableEq K] [Algebra ℚ K] {E : Engine K} {G : Ground K} {V : View K}
  {w : World K} {C : Curves K} {Dm : TField K} {Γ : Nat → Nat → Nat → K}

/-- The components of the metric do not depend on the `k`-th coordinate. -/
def Spec.Cyclic (E : Engine K) (G : Ground K) (k : Nat) : Prop :=
  ∀ i j, i < G.n → j < G.n → E.diff (G.syms.getD k "") (G.g i j) = 0

/-- The derivative of the Lagrangian by the velocity of the `k`-th coordinate, and its derivative by the curve parameter, with symbols
for functions. -/
def Spec.momentumRate (C : Curves K) (syms : List Sym) (k : Nat) (L : K) : K :=
  C.asFunctions C.parameter syms (C.asSymbols syms (C.rate (C.byFunction (dot (syms.getD k "")) L)))

omit [DecidableEq K] in
/-- `d/dλ (∂L/∂ẋ^k) = 2 g_{kj} (ẍ^j + Γ^j_{mn} ẋ^m ẋ^n)` when the metric does not depend on the `k`-th coordinate. -/
theorem rate_cyclic (hC : Calculus E) (hi : Inverse G.n G.g G.gi)
    (hs : ∀ i j, i < G.n → j < G.n → G.g i j = G.g j i) (hd : G.syms.length = G.n) (hO : CurvesOK E C G.syms)
    (hP : ProperNames C G.syms) (hT : Static E C G) {k : Nat} (hk : k < G.n) (hy : Cyclic E G k) :
    C.asSymbols G.syms (C.rate (C.byFunction (dot (G.syms.getD k "")) (C.asFunctions C.parameter G.syms (lagrangian C G)))) =
      2 * ∑ j ∈ range G.n, G.g k j * geodesic E C G j := by
  have hA := apart_of (C := C) hd hP
  have hmem := getD_mem hd hk
  have h2 : (2 * rat (1 / 2) : K) = 1 := by
    unfold rat
    rw [← map_ofNat (algebraMap ℚ K) 2, ← map_mul]
    norm_num
  have hdot : E.diff (dot (G.syms.getD k "")) (lagrangian C G) = 2 * momentum C G k := by
    rw [← diff_lagrangian_dot hC hO.var hA hs hk fun a b ha hb => ((hT a b ha hb).2 _ hmem).1,
      diff_rat hC, ← mul_assoc, h2, one_mul]
  have hdd : ∀ t ∈ G.syms, ∀ j, j < G.n → ddot t ≠ dot (G.syms.getD j "") := by
    intro t ht j hj
    obtain ⟨k, hk, rfl⟩ := List.mem_iff_getElem.1 ht
    have := hA.ddots k j (hd ▸ hk) hj
    rwa [show G.syms.getD k "" = G.syms[k] by simp [List.getD_eq_getElem?_getD, hk]] at this
  have two : ∀ s x, E.diff s (2 * x) = 2 * E.diff s x := fun s x => by rw [two_mul, hC.add, two_mul]
  rw [hO.byFunction _ (List.mem_append_right _ (List.mem_map_of_mem hmem)), hdot, hO.chain]
  · rw [sum_syms hd, ← eulerLagrange_eq hC hi hs hk]
    have hz : ∑ m ∈ range G.n, ∑ n ∈ range G.n, G.d E k (G.g m n) * G.speed C m * G.speed C n = 0 :=
      sum_eq_zero fun m hm => sum_eq_zero fun n hn => by
        rw [show G.d E k (G.g m n) = 0 from hy m n (mem_range.1 hm) (mem_range.1 hn)]
        ring
    rw [hz, mul_zero, sub_zero, mul_sum]
    refine sum_congr rfl fun l hl => ?_
    rw [two, two, diff_momentum hC hO.var hA fun j hj => hA.coord l j (mem_range.1 hl) hj,
      diff_momentum_dot hC hO.var hA (mem_range.1 hl) fun n hn => ((hT k n hk hn).2 _ (getD_mem hd (mem_range.1 hl))).1]
    show 2 * _ * G.speed C l + 2 * G.g k l * G.accel C l = _
    rw [mul_add, ← mul_assoc, ← mul_assoc]
    rfl
  · intro t ht
    rw [two, diff_momentum hC hO.var hA (hdd t ht), sum_eq_zero fun n hn => by
      rw [((hT k n hk (mem_range.1 hn)).2 t ht).2, zero_mul], mul_zero]
  · rw [two, diff_momentum hC hO.var hA hA.param, sum_eq_zero fun n hn => by
      rw [(hT k n hk (mem_range.1 hn)).1, zero_mul], mul_zero]

/-- **C103** for metrics of any default configuration and the geodesic equations from the Lagrangian: if the metric does not depend
on the `k`-th coordinate, then the derivative of the Lagrangian `x` by the velocity of this coordinate is constant along geodesics: its
derivative by the curve parameter is the `k`-th equation up to a unit, so it vanishes for all values of coordinates, velocities
and accelerations (homomorphisms `φ` to any ring) for which the equations `y` hold. -/
theorem C103_momentum_partial (hE : EngineOK E) (hS : Scene G V w) (hC : Calculus E) (hO : CurvesOK E C G.syms)
    (hP : ProperNames C G.syms) (hT : Static E C G) (hm : AnyMetric G V Dm) (hQ : NamesFor E G Γ V w Dm.name)
    (hN : NamesCurve G w Kind.isLagrangian .lagrangian (Dm.name ++ " Lagrangian") [] fun _ => lagrangian C G)
    (hU' : Unnamed w (· == .geodesicLagrangian) (Dm.name ++ " Geodesic From Lagrangian")) :
    Does (do
      let l ← calcLagrangian E C G.m none
      let x ← curveComponents E C l none none
      let r ← calcGeodesicLagrangian E C G.m none
      let y ← curveComponents E C r none none
      return (x, y)) w fun (x, y) _ => x.shape = [] ∧ y.shape = [G.n] ∧ ∀ k, k < G.n → Cyclic E G k →
        (∃ u, IsUnit u ∧ momentumRate C G.syms k (x.get []) = u * y.get [k]) ∧
        ∀ (R : Type) [CommRing R] (φ : K →+* R), φ (y.get [k]) = 0 → φ (momentumRate C G.syms k (x.get [])) = 0 := by
  refine Does.bind (anyGiven_lagrangian hE.simp_eq hS C hm.view hm.name hQ (Or.inr ⟨rfl, hm.coords⟩)
    hN) ?_
  intro l w1 hg
  have hU1 := anyUnnamed_given hg (sel := (· == .geodesicLagrangian)) (name' := Dm.name ++ " Geodesic From Lagrangian") rfl
    (suffix_ne (by decide) _) (fun hc => absurd (append_cancel hc) (by decide))
    (suffix_not_quantity (by intro q; cases q <;> decide) _) hU'
  obtain ⟨V1, h1, h2, -, h4, h5, h6, h7⟩ := hg
  obtain ⟨a, e1, e2⟩ := holds_components (E := E) (C := C) h1 h6 (Or.inl rfl) (Or.inl rfl)
  refine Does.step e1 ?_
  have hm1 := anyMetric_keeps hm h2
  refine Does.bind (anyGiven_geodesicLagrangian' hE.simp_eq h1 hC hO hP hT hm1.view hm1.name h4 (Or.inr ⟨rfl, hm1.coords⟩)
    (anyGiven_again h1 hm1.view h4 h5 h6 h7 (Or.inl rfl)) (namesCurve_unnamed hU1)) ?_
  rintro s w2 ⟨V2, k1, k2, -, k4, k5, k6, -⟩
  obtain ⟨b, f1, f2⟩ := holds_components (E := E) (C := C) k1 k6 (Or.inl rfl) (Or.inl rfl)
  refine Does.step f1 (Does.pure ⟨e2.2.1, f2.2.1, fun k hk hy => ?_⟩)
  have key : ∃ u, IsUnit u ∧ momentumRate C G.syms k (a.get []) = u * b.get [k] := by
    have ha : a.get [] = C.asFunctions C.parameter G.syms (lagrangian C G) := e2.2.2 [] rfl (by simp)
    obtain ⟨d, ⟨d', rfl⟩, hd'⟩ := hO.clear (∑ j ∈ range G.n, G.g k j * geodesic E C G j)
    have hb : b.get [k] = functionsHom hO C.parameter (d' * ∑ j ∈ range G.n, G.g k j * geodesic E C G j) :=
      (f2.2.2 [k] rfl (by simpa using hk)).trans (congrArg (C.asFunctions C.parameter G.syms) hd')
    have h2u : IsUnit (2 : K) := by
      have : (2 : K) = algebraMap ℚ K 2 := (map_ofNat (algebraMap ℚ K) 2).symm
      rw [this]
      exact (IsUnit.mk0 (2 : ℚ) (by norm_num)).map _
    refine ⟨functionsHom hO C.parameter (2 * ↑d'⁻¹), (h2u.mul (Units.isUnit _)).map _, ?_⟩
    unfold momentumRate
    rw [ha, rate_cyclic hC hS.inverse hS.symm hS.dim hO hP hT hk hy, hb]
    show functionsHom hO C.parameter _ = _
    rw [← map_mul, mul_assoc 2, ← mul_assoc (↑d'⁻¹ : K), Units.inv_mul, one_mul]
  obtain ⟨u, hu, h⟩ := key
  exact ⟨⟨u, hu, h⟩, fun R _ φ h0 => by rw [h, map_mul, h0, mul_zero]⟩

/-- **C103** for the geodesic equations from the Christoffel symbols and metrics with default configuration (-1,-1). -/
theorem C103_christoffel_partial (hE : EngineOK E) (hS : Scene G V w) (hC : Calculus E) (hO : CurvesOK E C G.syms)
    (hP : ProperNames C G.syms) (hT : Static E C G) (hm : LowerMetric G V Dm) (hQ : NamesOK E G V w Dm.name)
    (hN : NamesCurve G w Kind.isLagrangian .lagrangian (Dm.name ++ " Lagrangian") [] fun _ => lagrangian C G)
    (hU : Unnamed w (· == .geodesicChristoffel) (Dm.name ++ " Geodesic From Christoffel")) :
    Does (do
      let l ← calcLagrangian E C G.m none
      let x ← curveComponents E C l none none
      let r ← calcGeodesicChristoffel E C G.m none
      let y ← curveComponents E C r none none
      return (x, y)) w fun (x, y) _ => x.shape = [] ∧ y.shape = [G.n] ∧ ∀ k, k < G.n → Cyclic E G k →
        (∃ u : Nat → K, (∀ i, i < G.n → IsUnit (u i)) ∧ momentumRate C G.syms k (x.get []) =
          ∑ j ∈ range G.n, C.asFunctions C.parameter G.syms (2 * G.g k j) * (u j * y.get [j])) ∧
        ∀ (R : Type) [CommRing R] (φ : K →+* R), (∀ i, i < G.n → φ (y.get [i]) = 0) →
          φ (momentumRate C G.syms k (x.get [])) = 0 := by
  refine Does.bind (given_lagrangian hE.simp_eq hS C hm.view hm.name hQ (Or.inr ⟨rfl, hm.coords⟩) hN) ?_
  intro l w1 hg
  have hU1 := unnamed_given hg (sel := (· == .geodesicChristoffel)) (name' := Dm.name ++ " Geodesic From Christoffel") rfl
    (suffix_ne (by decide) _) (fun hc => absurd (append_cancel hc) (by decide))
    (suffix_not_quantity (by intro q; cases q <;> decide) _) hU
  obtain ⟨V1, h1, h2, -, h4, h5, h6, h7⟩ := hg
  obtain ⟨a, e1, e2⟩ := holds_components (E := E) (C := C) h1 h6 (Or.inl rfl) (Or.inl rfl)
  refine Does.step e1 ?_
  refine Does.bind (given_geodesicChristoffel hE.simp_eq h1 C (lowerMetric_keeps hm h2) h4 (Or.inr rfl)
    (namesCurve_unnamed hU1)) ?_
  rintro s w2 ⟨V2, k1, k2, -, k4, k5, k6, -⟩
  obtain ⟨b, f1, f2⟩ := holds_components (E := E) (C := C) k1 k6 (Or.inl rfl) (Or.inl rfl)
  refine Does.step f1 (Does.pure ⟨e2.2.1, f2.2.1, fun k hk hy => ?_⟩)
  obtain ⟨u, hu, hs⟩ := conserved_sum (functionsHom hO C.parameter) (n := G.n) (y := fun i => b.get [i])
    (e := geodesic E C G) fun i hi => by
      obtain ⟨u, hu, hu'⟩ := hO.clear (geodesic E C G i)
      exact ⟨u, hu, (f2.2.2 [i] rfl (by simpa using hi)).trans (congrArg (C.asFunctions C.parameter G.syms) hu')⟩
  have key : momentumRate C G.syms k (a.get []) =
      ∑ j ∈ range G.n, C.asFunctions C.parameter G.syms (2 * G.g k j) * (u j * b.get [j]) := by
    have ha : a.get [] = C.asFunctions C.parameter G.syms (lagrangian C G) := e2.2.2 [] rfl (by simp)
    unfold momentumRate
    rw [ha, rate_cyclic hC hS.inverse hS.symm hS.dim hO hP hT hk hy, mul_sum]
    refine Eq.trans (congrArg _ (sum_congr rfl fun i _ => (mul_assoc _ _ _).symm)) (hs fun j => 2 * G.g k j)
  refine ⟨⟨u, hu, key⟩, fun R _ φ h => ?_⟩
  rw [key, map_sum]
  exact sum_eq_zero fun i hi => by rw [map_mul, map_mul, h i (mem_range.1 hi), mul_zero, mul_zero]

/-! ## Metrics -/

theorem nil_cyclic {G : Ground Poly} (hs : G.syms = ["x", "y", "z"]) (hn : G.n = 3) (hg : ∀ i j, G.g i j = entry nil i j)
    {k : Nat} (hk : k = 0 ∨ k = 1) : Cyclic polyEngine G k := by
  intro i j hi hj
  rw [hn] at hi hj
  rw [hs, hg]
  show MvPolynomial.pderiv _ _ = 0
  rcases hk with rfl | rfl <;> interval_cases i <;> interval_cases j <;>
    simp [entry, nil, Arr.get, ravel, MvPolynomial.pderiv_X]

theorem nilUpper_cyclic {G : Ground Poly} (h : NilGround G) : Cyclic polyEngine G 0 := by
  intro i j hi hj
  rw [h.n] at hi hj
  rw [h.syms]
  show MvPolynomial.pderiv _ _ = 0
  have h0 := h.g00; have h1 := h.g01; have h2 := h.g02; have h3 := h.g10; have h4 := h.g11
  have h5 := h.g12; have h6 := h.g20; have h7 := h.g21; have h8 := h.g22
  interval_cases i <;> interval_cases j <;>
    simp [h0, h1, h2, h3, h4, h5, h6, h7, h8, MvPolynomial.pderiv_X]

/-- **C103** is false of the geodesic equations from the Christoffel symbols and the metric with default configuration
(1,1) and the components `nil`, which do not contain `x`: there are values of the coordinates, velocities and accelerations for
which the equations hold and the derivative of the momentum is not 0. -/
theorem C103_false : ∃ (E : Engine Poly) (C : Curves Poly) (G : Ground Poly) (V : View Poly) (w : World Poly)
    (Dm : TField Poly), EngineOK E ∧ Calculus E ∧ CurvesOK E C G.syms ∧ ProperNames C G.syms ∧ Static E C G ∧
    Scene G V w ∧ AnyMetric G V Dm ∧ 0 < G.n ∧ Cyclic E G 0 ∧
    Does (do
      let l ← calcLagrangian E C G.m none
      let x ← curveComponents E C l none none
      let r ← calcGeodesicChristoffel E C G.m none
      let y ← curveComponents E C r none none
      return (x, y)) w fun (x, y) _ => x.shape = [] ∧ y.shape = [G.n] ∧
        ∃ φ : Poly →+* ℚ, (∀ i, i < G.n → φ (y.get [i]) = 0) ∧
          φ (momentumRate C G.syms 0 (x.get [])) ≠ 0 := by
  obtain ⟨G, V, w, hS, hG, hm, hN⟩ := curved_names_table
  have hn := hG.n
  have hO : CurvesOK polyEngine polyCurves G.syms := by rw [hG.syms]; exact polyCurves_ok
  have hP : ProperNames polyCurves G.syms := by rw [hG.syms]; exact polyCurves_names
  have hT := nilUpper_static hG
  have hU : ∀ sel name, name ≠ "Cartesian" → name ≠ "Nil" → Unnamed w sel name := by
    intro sel name k1 k2 i hi o ho _ hn
    rcases hN i hi o ho with h | h
    · exact k1 (hn ▸ h)
    · exact k2 (hn ▸ h)
  have hQ : NamesFor polyEngine G (minusGamma polyEngine G) V w "Nil" := noNames_for fun q i hi o ho hn => by
    rcases hN i hi o ho with h | h <;> rw [h] at hn <;> cases q <;> exact absurd hn (by decide)
  have hm' : AnyMetric G V _ := ⟨hm.view, hm.name, hm.coords⟩
  refine ⟨polyEngine, polyCurves, G, V, w, _, polyEngine_ok, polyEngine_calculus, hO, hP, hT, hS, hm', by rw [hn]; decide,
    nilUpper_cyclic hG, ?_⟩
  refine Does.bind (anyGiven_lagrangian polyEngine_ok.simp_eq hS polyCurves hm.view hm.name hQ (Or.inr ⟨rfl, hm.coords⟩)
    (namesCurve_unnamed (hU _ _ (by decide) (by decide)))) ?_
  intro r w1 hg
  have hU1 := anyUnnamed_given hg (sel := (· == .geodesicChristoffel)) (name' := "Nil Geodesic From Christoffel") rfl
    (by decide) (by decide) (by intro q; cases q <;> decide) (hU _ _ (by decide) (by decide))
  obtain ⟨V1, h1, h2, -, h4, h5, h6, -⟩ := hg
  obtain ⟨a, e1, e2⟩ := holds_components (E := polyEngine) (C := polyCurves) h1 h6 (Or.inl rfl) (Or.inl rfl)
  refine Does.step e1 ?_
  refine Does.bind (anyGiven_geodesicChristoffel polyEngine_ok.simp_eq
    (gives_opposite polyEngine_ok.simp_eq polyEngine_calculus hm.ix) h1 polyCurves (anyMetric_keeps hm' h2) h4 (Or.inr rfl)
    (namesCurve_unnamed hU1)) ?_
  rintro s w2 ⟨V2, k1, k2, -, k4, k5, k6, -⟩
  obtain ⟨b, f1, f2⟩ := holds_components (E := polyEngine) (C := polyCurves) k1 k6 (Or.inl rfl) (Or.inl rfl)
  refine Does.step f1 (Does.pure ⟨e2.2.1, f2.2.1, turningValue, fun i hi => ?_, ?_⟩)
  · rw [f2.2.2 [i] rfl (by simpa using hi)]
    refine (turning_lambda _ _).trans ?_
    have hi' : i < 3 := hn ▸ hi
    show MvPolynomial.eval turning (geodesicOf polyCurves G (minusGamma polyEngine G) i) = 0
    have : geodesicOf polyCurves G (minusGamma polyEngine G) i = G.accel polyCurves i - ∑ m ∈ range G.n, ∑ n ∈ range G.n,
        christoffel polyEngine G i m n * G.speed polyCurves m * G.speed polyCurves n := by
      simp [geodesicOf, minusGamma, sub_eq_add_neg]
    rw [this, map_sub, turning_pull hG hi', turning_accel hG i hi', sub_self]
  · have ha : a.get [] = polyCurves.asFunctions polyCurves.parameter G.syms (lagrangian polyCurves G) :=
      e2.2.2 [] rfl (by simp)
    unfold momentumRate
    rw [ha, rate_cyclic polyEngine_calculus hS.inverse hS.symm hS.dim hO hP hT (by rw [hn]; decide) (nilUpper_cyclic hG)]
    refine ne_of_eq_of_ne (turning_lambda _ _) ?_
    have hg : ∀ j, j < 3 → MvPolynomial.eval turning (geodesic polyEngine polyCurves G j) = if j = 2 then 2 else -2 := by
      intro j hj
      unfold geodesic
      rw [map_add, turning_pull hG hj, turning_accel hG j hj]
      split_ifs <;> norm_num
    have hz : turning "z" = 0 := by simp [turning]
    rw [hn]
    simp only [Finset.sum_range_succ, Finset.sum_range_zero, map_mul, map_add, map_zero, map_ofNat, hG.g00, hG.g01, hG.g02, hG.g10,
      hG.g11, hG.g12, hG.g20, hG.g21, hG.g22, turning_speed hG 0 (by decide), turning_speed hG 1 (by decide),
      turning_speed hG 2 (by decide), hg 0 (by decide), hg 1 (by decide), hg 2 (by decide), map_one, map_neg,
      MvPolynomial.eval_X, hz]
    norm_num

/-- The hypotheses of `C103_momentum_partial` and `C103_christoffel_partial` hold of a metric whose Christoffel symbols are
not 0 and which does
not depend on two of the coordinates. -/
example : ∃ (E : Engine Poly) (C : Curves Poly) (G : Ground Poly) (V : View Poly) (w : World Poly) (Dm : TField Poly),
    EngineOK E ∧ Calculus E ∧ CurvesOK E C G.syms ∧ ProperNames C G.syms ∧ Static E C G ∧ Scene G V w ∧
    AnyMetric G V Dm ∧ LowerMetric G V Dm ∧ NamesFor E G (christoffel E G) V w Dm.name ∧ NamesOK E G V w Dm.name ∧
    NamesCurve G w Kind.isLagrangian .lagrangian (Dm.name ++ " Lagrangian") [] (fun _ => lagrangian C G) ∧
    Unnamed w (· == .geodesicLagrangian) (Dm.name ++ " Geodesic From Lagrangian") ∧
    Unnamed w (· == .geodesicChristoffel) (Dm.name ++ " Geodesic From Christoffel") ∧
    G.n = 3 ∧ Cyclic E G 0 ∧ Cyclic E G 1 ∧ christoffel E G 2 0 1 ≠ 0 := by
  obtain ⟨G, V, w, h1, h2, -, h3, h4, h5, h6, h7⟩ := curved_full
  have hU : ∀ sel name, name ≠ "Cartesian" → name ≠ "Nil" → Unnamed w sel name := by
    intro sel name k1 k2 i hi o ho _ hn
    rcases h4 i hi o ho with h | h
    · exact k1 (hn ▸ h)
    · exact k2 (hn ▸ h)
  refine ⟨polyEngine, polyCurves, G, V, w, _, polyEngine_ok, polyEngine_calculus, by rw [h6]; exact polyCurves_ok,
    by rw [h6]; exact polyCurves_names, nil_static h6 h2 h7, h1, ⟨h3.view, h3.name, h3.coords⟩, h3,
    namesFor_christoffel (curved_names h4), curved_names h4,
    namesCurve_unnamed (hU _ _ (by decide) (by decide)), hU _ _ (by decide) (by decide), hU _ _ (by decide) (by decide),
    h2, nil_cyclic h6 h2 h7 (Or.inl rfl), nil_cyclic h6 h2 h7 (Or.inr rfl), ?_⟩
  rw [h5]
  exact curved_half

end PyOGRe
