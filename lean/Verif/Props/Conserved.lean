import Verif.Lemmas.Conserved
import Verif.Lemmas.IdentitySessions
import Verif.Props.UpperGeodesic

/-!
# The Lagrangian is constant along geodesics: C95
-/

namespace PyOGRe
open Spec Finset
variable {K : Type} [CommRing K] [DecidableEq K] [Algebra ℚ K] {E : Engine K} {G : Ground K} {V : View K}
  {w : World K} {C : Curves K} {Dm : TField K} {Γ : Nat → Nat → Nat → K}

/-- Sums of equations that are multiplied by units. -/
theorem conserved_sum (ψ : K →+* K) {n : Nat} {e y : Nat → K}
    (hy : ∀ i, i < n → ∃ u, IsUnit u ∧ y i = ψ (u * e i)) :
    ∃ u : Nat → K, (∀ i, i < n → IsUnit (u i)) ∧ ∀ v : Nat → K,
      ψ (∑ i ∈ range n, v i * e i) = ∑ i ∈ range n, ψ (v i) * (u i * y i) := by
  have h2 : ∀ i, ∃ u : K, i < n → IsUnit u ∧ u * y i = ψ (e i) := by
    intro i
    by_cases hi : i < n
    · obtain ⟨u, ⟨u', rfl⟩, h⟩ := hy i hi
      refine ⟨ψ (↑u'⁻¹ : K), fun _ => ⟨(Units.isUnit u'⁻¹).map ψ, ?_⟩⟩
      rw [h, ← map_mul, ← mul_assoc, Units.inv_mul, one_mul]
    · exact ⟨0, fun h => absurd h hi⟩
  choose u hu using h2
  refine ⟨u, fun i hi => (hu i hi).1, fun v => ?_⟩
  rw [map_sum]
  exact sum_congr rfl fun i hi => by rw [map_mul, (hu i (mem_range.1 hi)).2]

/-- **C95** for metrics of any default configuration and the geodesic equations from the Lagrangian.  `x` is the
Lagrangian, with functions of the curve parameter for the coordinates, and `y` are the equations.  The derivative of `x` by
the curve parameter is `2 ẋ^i` times the equations, up to units, so it vanishes for all values of coordinates, velocities
and accelerations (homomorphisms `φ` to any ring) for which the equations hold.  Missing: metrics with components that
contain velocities, and sessions in which an object of another metric has one of the names. -/
theorem C95_conserved_partial (hE : EngineOK E) (hS : Scene G V w) (hC : Calculus E) (hO : CurvesOK E C G.syms)
    (hP : ProperNames C G.syms) (hT : Static E C G) (hm : AnyMetric G V Dm) (hQ : NamesFor E G Γ V w Dm.name)
    (hN : NamesCurve G w Kind.isLagrangian .lagrangian (Dm.name ++ " Lagrangian") [] fun _ => lagrangian C G)
    (hU' : Unnamed w (· == .geodesicLagrangian) (Dm.name ++ " Geodesic From Lagrangian")) :
    Does (do
      let l ← calcLagrangian E C G.m none
      let x ← curveComponents E C l none none
      let r ← calcGeodesicLagrangian E C G.m none
      let y ← curveComponents E C r none none
      return (x, y)) w fun (x, y) _ => x.shape = [] ∧ y.shape = [G.n] ∧
        (∃ u : Nat → K, (∀ i, i < G.n → IsUnit (u i)) ∧
          C.asFunctions C.parameter G.syms (C.asSymbols G.syms (C.rate (x.get []))) =
            ∑ i ∈ range G.n, C.asFunctions C.parameter G.syms (2 * G.speed C i) * (u i * y.get [i])) ∧
        ∀ (R : Type) [CommRing R] (φ : K →+* R), (∀ i, i < G.n → φ (y.get [i]) = 0) →
          φ (C.asFunctions C.parameter G.syms (C.asSymbols G.syms (C.rate (x.get [])))) = 0 := by
  refine Does.bind (anyGiven_lagrangian hE.simp_eq hS C hm.view hm.name hQ (Or.inr ⟨rfl, hm.coords⟩)
    hN) ?_
  intro l w1 hg
  have hU1 := anyUnnamed_given hg (sel := (· == .geodesicLagrangian)) (name' := Dm.name ++ " Geodesic From Lagrangian") rfl
    (suffix_ne (by decide) _) (fun hc => absurd (append_cancel hc) (by decide))
    (suffix_not_quantity (by intro q; cases q <;> decide) _) hU'
  obtain ⟨V1, h1, h2, -, h4, h5, h6, h7⟩ := hg
  obtain ⟨a, e1, e2⟩ := holds_components (E := E) (C := C) h1 h6 (Or.inl rfl) (Or.inl rfl)
  refine Does.step e1 ?_
  have hm1 := anyMetric_keeps hm h2
  refine Does.bind (anyGiven_geodesicLagrangian' hE.simp_eq h1 hC hO hP hT hm1.view hm1.name h4 (Or.inr ⟨rfl, hm1.coords⟩)
    (anyGiven_again h1 hm1.view h4 h5 h6 h7 (Or.inl rfl)) (namesCurve_unnamed hU1)) ?_
  rintro s w2 ⟨V2, k1, k2, -, k4, k5, k6, -⟩
  obtain ⟨b, f1, f2⟩ := holds_components (E := E) (C := C) k1 k6 (Or.inl rfl) (Or.inl rfl)
  refine Does.step f1 (Does.pure ⟨e2.2.1, f2.2.1, ?_⟩)
  obtain ⟨u, hu, hs⟩ := conserved_sum (functionsHom hO C.parameter) (n := G.n) (y := fun i => b.get [i])
    (e := fun i => ∑ j ∈ range G.n, G.g i j * geodesic E C G j) fun i hi => by
      obtain ⟨u, hu, hu'⟩ := hO.clear (∑ j ∈ range G.n, G.g i j * geodesic E C G j)
      exact ⟨u, hu, (f2.2.2 [i] rfl (by simpa using hi)).trans (congrArg (C.asFunctions C.parameter G.syms) hu')⟩
  have key : C.asFunctions C.parameter G.syms (C.asSymbols G.syms (C.rate (a.get []))) =
      ∑ i ∈ range G.n, C.asFunctions C.parameter G.syms (2 * G.speed C i) * (u i * b.get [i]) := by
    have ha : a.get [] = C.asFunctions C.parameter G.syms (lagrangian C G) := e2.2.2 [] rfl (by simp)
    rw [ha, rate_lagrangian hC hS.inverse hS.symm hS.dim hO hP hT, mul_sum]
    refine Eq.trans (congrArg _ (sum_congr rfl fun i _ => (mul_assoc _ _ _).symm)) (hs fun i => 2 * G.speed C i)
  refine ⟨⟨u, hu, key⟩, fun R _ φ h => ?_⟩
  rw [key, map_sum]
  exact sum_eq_zero fun i hi => by rw [map_mul, map_mul, h i (mem_range.1 hi), mul_zero, mul_zero]

/-- **C95** for the geodesic equations from the Christoffel symbols and metrics with default configuration (-1,-1). -/
theorem C95_christoffel_partial (hE : EngineOK E) (hS : Scene G V w) (hC : Calculus E) (hO : CurvesOK E C G.syms)
    (hP : ProperNames C G.syms) (hT : Static E C G) (hm : LowerMetric G V Dm) (hQ : NamesOK E G V w Dm.name)
    (hN : NamesCurve G w Kind.isLagrangian .lagrangian (Dm.name ++ " Lagrangian") [] fun _ => lagrangian C G)
    (hU : Unnamed w (· == .geodesicChristoffel) (Dm.name ++ " Geodesic From Christoffel")) :
    Does (do
      let l ← calcLagrangian E C G.m none
      let x ← curveComponents E C l none none
      let r ← calcGeodesicChristoffel E C G.m none
      let y ← curveComponents E C r none none
      return (x, y)) w fun (x, y) _ => x.shape = [] ∧ y.shape = [G.n] ∧
        (∃ u : Nat → K, (∀ i, i < G.n → IsUnit (u i)) ∧
          C.asFunctions C.parameter G.syms (C.asSymbols G.syms (C.rate (x.get []))) =
            ∑ j ∈ range G.n, C.asFunctions C.parameter G.syms (2 * ∑ i ∈ range G.n, G.speed C i * G.g i j) *
              (u j * y.get [j])) ∧
        ∀ (R : Type) [CommRing R] (φ : K →+* R), (∀ i, i < G.n → φ (y.get [i]) = 0) →
          φ (C.asFunctions C.parameter G.syms (C.asSymbols G.syms (C.rate (x.get [])))) = 0 := by
  refine Does.bind (given_lagrangian hE.simp_eq hS C hm.view hm.name hQ (Or.inr ⟨rfl, hm.coords⟩) hN) ?_
  intro l w1 hg
  have hU1 := unnamed_given hg (sel := (· == .geodesicChristoffel)) (name' := Dm.name ++ " Geodesic From Christoffel") rfl
    (suffix_ne (by decide) _) (fun hc => absurd (append_cancel hc) (by decide))
    (suffix_not_quantity (by intro q; cases q <;> decide) _) hU
  obtain ⟨V1, h1, h2, -, h4, h5, h6, h7⟩ := hg
  obtain ⟨a, e1, e2⟩ := holds_components (E := E) (C := C) h1 h6 (Or.inl rfl) (Or.inl rfl)
  refine Does.step e1 ?_
  refine Does.bind (given_geodesicChristoffel hE.simp_eq h1 C (lowerMetric_keeps hm h2) h4 (Or.inr rfl)
    (namesCurve_unnamed hU1)) ?_
  rintro s w2 ⟨V2, k1, k2, -, k4, k5, k6, -⟩
  obtain ⟨b, f1, f2⟩ := holds_components (E := E) (C := C) k1 k6 (Or.inl rfl) (Or.inl rfl)
  refine Does.step f1 (Does.pure ⟨e2.2.1, f2.2.1, ?_⟩)
  obtain ⟨u, hu, hs⟩ := conserved_sum (functionsHom hO C.parameter) (n := G.n) (y := fun i => b.get [i])
    (e := geodesic E C G) fun i hi => by
      obtain ⟨u, hu, hu'⟩ := hO.clear (geodesic E C G i)
      exact ⟨u, hu, (f2.2.2 [i] rfl (by simpa using hi)).trans (congrArg (C.asFunctions C.parameter G.syms) hu')⟩
  have key : C.asFunctions C.parameter G.syms (C.asSymbols G.syms (C.rate (a.get []))) =
      ∑ j ∈ range G.n, C.asFunctions C.parameter G.syms (2 * ∑ i ∈ range G.n, G.speed C i * G.g i j) *
        (u j * b.get [j]) := by
    have ha : a.get [] = C.asFunctions C.parameter G.syms (lagrangian C G) := e2.2.2 [] rfl (by simp)
    rw [ha, rate_lagrangian hC hS.inverse hS.symm hS.dim hO hP hT]
    refine Eq.trans (congrArg _ ?_) (hs fun j => 2 * ∑ i ∈ range G.n, G.speed C i * G.g i j)
    simp only [mul_sum, sum_mul]
    rw [sum_comm]
    exact sum_congr rfl fun j _ => sum_congr rfl fun i _ => by ring
  refine ⟨⟨u, hu, key⟩, fun R _ φ h => ?_⟩
  rw [key, map_sum]
  exact sum_eq_zero fun i hi => by rw [map_mul, map_mul, h i (mem_range.1 hi), mul_zero, mul_zero]

/-! ## A metric with default configuration (1,1) -/

/-- Values of the coordinates, velocities and accelerations: at the origin, with velocity (1, 1, 1) and acceleration
(-1, -1, 1). -/
def turning (s : Sym) : ℚ :=
  if s = "xdot" ∨ s = "ydot" ∨ s = "zdot" ∨ s = "zddot" then 1 else if s = "xddot" ∨ s = "yddot" then -1 else 0

/-- The value of an expression in which functions stand for the coordinates. -/
noncomputable def turningValue : Poly →+* ℚ := MvPolynomial.eval fun s => turning (jet.symm s)

theorem turning_lambda (syms : List Sym) (p : Poly) :
    turningValue (polyCurves.asFunctions "lambda" syms p) = MvPolynomial.eval turning p := by
  rw [polyCurves_functions]
  unfold turningValue toFunctions
  exact eval_back jet _ p

theorem turning_speed {G : Ground Poly} (h : NilGround G) (m : Nat) (hm : m < 3) :
    MvPolynomial.eval turning (G.speed polyCurves m) = 1 := by
  unfold Ground.speed
  rw [h.syms]
  show MvPolynomial.eval turning (MvPolynomial.X _) = _
  rw [MvPolynomial.eval_X]
  interval_cases m <;> simp [turning, dot]

theorem turning_accel {G : Ground Poly} (h : NilGround G) (m : Nat) (hm : m < 3) :
    MvPolynomial.eval turning (G.accel polyCurves m) = if m = 2 then 1 else -1 := by
  unfold Ground.accel
  rw [h.syms]
  show MvPolynomial.eval turning (MvPolynomial.X _) = _
  rw [MvPolynomial.eval_X]
  interval_cases m <;> simp [turning, ddot]

theorem turning_pull {G : Ground Poly} (h : NilGround G) {i : Nat} (hi : i < 3) :
    MvPolynomial.eval turning (∑ m ∈ range G.n, ∑ n ∈ range G.n,
      christoffel polyEngine G i m n * G.speed polyCurves m * G.speed polyCurves n) = if i = 2 then 1 else -1 := by
  have hz : turning "z" = 0 := by simp [turning]
  have hc : ∀ m n, m < 3 → n < 3 → MvPolynomial.eval turning (christoffel polyEngine G i m n *
      G.speed polyCurves m * G.speed polyCurves n) = 1 / 2 * MvPolynomial.eval turning (nilGamma i m n) := by
    intro m n hm hn
    rw [map_mul, map_mul, turning_speed h m hm, turning_speed h n hn, nil_christoffel h i m n hi hm hn, map_mul]
    have : MvPolynomial.eval turning (rat (1 / 2) : Poly) = 1 / 2 := by simp [rat]
    rw [this, mul_one, mul_one]
  rw [h.n, map_sum]
  simp only [map_sum]
  rw [Finset.sum_congr rfl fun m hm => Finset.sum_congr rfl fun n hn =>
    hc m n (Finset.mem_range.1 hm) (Finset.mem_range.1 hn)]
  interval_cases i <;> simp [Finset.sum_range_succ, nilGamma, hz] <;> norm_num

/-- **C95** is false of the geodesic equations from the Christoffel symbols and the metric with default configuration
(1,1) and the components `nil`: there are values of the coordinates, velocities and accelerations for which the equations
hold and the derivative of the Lagrangian is not 0. -/
theorem C95_false : ∃ (E : Engine Poly) (C : Curves Poly) (G : Ground Poly) (V : View Poly) (w : World Poly)
    (Dm : TField Poly), EngineOK E ∧ Calculus E ∧ CurvesOK E C G.syms ∧ ProperNames C G.syms ∧ Static E C G ∧
    Scene G V w ∧ AnyMetric G V Dm ∧
    Does (do
      let l ← calcLagrangian E C G.m none
      let x ← curveComponents E C l none none
      let r ← calcGeodesicChristoffel E C G.m none
      let y ← curveComponents E C r none none
      return (x, y)) w fun (x, y) _ => x.shape = [] ∧ y.shape = [G.n] ∧
        ∃ φ : Poly →+* ℚ, (∀ i, i < G.n → φ (y.get [i]) = 0) ∧
          φ (C.asFunctions C.parameter G.syms (C.asSymbols G.syms (C.rate (x.get [])))) ≠ 0 := by
  obtain ⟨G, V, w, hS, hG, hm, hN⟩ := curved_names_table
  have hn := hG.n
  have hO : CurvesOK polyEngine polyCurves G.syms := by rw [hG.syms]; exact polyCurves_ok
  have hP : ProperNames polyCurves G.syms := by rw [hG.syms]; exact polyCurves_names
  have hT := nilUpper_static hG
  have hU : ∀ sel name, name ≠ "Cartesian" → name ≠ "Nil" → Unnamed w sel name := by
    intro sel name k1 k2 i hi o ho _ hn
    rcases hN i hi o ho with h | h
    · exact k1 (hn ▸ h)
    · exact k2 (hn ▸ h)
  have hQ : NamesFor polyEngine G (minusGamma polyEngine G) V w "Nil" := noNames_for fun q i hi o ho hn => by
    rcases hN i hi o ho with h | h <;> rw [h] at hn <;> cases q <;> exact absurd hn (by decide)
  have hm' : AnyMetric G V _ := ⟨hm.view, hm.name, hm.coords⟩
  refine ⟨polyEngine, polyCurves, G, V, w, _, polyEngine_ok, polyEngine_calculus, hO, hP, hT, hS, hm', ?_⟩
  refine Does.bind (anyGiven_lagrangian polyEngine_ok.simp_eq hS polyCurves hm.view hm.name hQ (Or.inr ⟨rfl, hm.coords⟩)
    (namesCurve_unnamed (hU _ _ (by decide) (by decide)))) ?_
  intro r w1 hg
  have hU1 := anyUnnamed_given hg (sel := (· == .geodesicChristoffel)) (name' := "Nil Geodesic From Christoffel") rfl
    (by decide) (by decide) (by intro q; cases q <;> decide) (hU _ _ (by decide) (by decide))
  obtain ⟨V1, h1, h2, -, h4, h5, h6, -⟩ := hg
  obtain ⟨a, e1, e2⟩ := holds_components (E := polyEngine) (C := polyCurves) h1 h6 (Or.inl rfl) (Or.inl rfl)
  refine Does.step e1 ?_
  refine Does.bind (anyGiven_geodesicChristoffel polyEngine_ok.simp_eq
    (gives_opposite polyEngine_ok.simp_eq polyEngine_calculus hm.ix) h1 polyCurves (anyMetric_keeps hm' h2) h4 (Or.inr rfl)
    (namesCurve_unnamed hU1)) ?_
  rintro s w2 ⟨V2, k1, k2, -, k4, k5, k6, -⟩
  obtain ⟨b, f1, f2⟩ := holds_components (E := polyEngine) (C := polyCurves) k1 k6 (Or.inl rfl) (Or.inl rfl)
  refine Does.step f1 (Does.pure ⟨e2.2.1, f2.2.1, turningValue, fun i hi => ?_, ?_⟩)
  · rw [f2.2.2 [i] rfl (by simpa using hi)]
    refine (turning_lambda _ _).trans ?_
    have hi' : i < 3 := hn ▸ hi
    show MvPolynomial.eval turning (geodesicOf polyCurves G (minusGamma polyEngine G) i) = 0
    have : geodesicOf polyCurves G (minusGamma polyEngine G) i = G.accel polyCurves i - ∑ m ∈ range G.n, ∑ n ∈ range G.n,
        christoffel polyEngine G i m n * G.speed polyCurves m * G.speed polyCurves n := by
      simp [geodesicOf, minusGamma, sub_eq_add_neg]
    rw [this, map_sub, turning_pull hG hi', turning_accel hG i hi', sub_self]
  · have ha : a.get [] = polyCurves.asFunctions polyCurves.parameter G.syms (lagrangian polyCurves G) :=
      e2.2.2 [] rfl (by simp)
    rw [ha, rate_lagrangian polyEngine_calculus hS.inverse hS.symm hS.dim hO hP hT]
    refine ne_of_eq_of_ne (turning_lambda _ _) ?_
    have hg : ∀ j, j < 3 → MvPolynomial.eval turning (geodesic polyEngine polyCurves G j) = if j = 2 then 2 else -2 := by
      intro j hj
      unfold geodesic
      rw [map_add, turning_pull hG hj, turning_accel hG j hj]
      split_ifs <;> norm_num
    have hz : turning "z" = 0 := by simp [turning]
    rw [hn]
    simp only [Finset.sum_range_succ, Finset.sum_range_zero, map_mul, map_add, map_zero, map_ofNat, hG.g00, hG.g01, hG.g02, hG.g10,
      hG.g11, hG.g12, hG.g20, hG.g21, hG.g22, turning_speed hG 0 (by decide), turning_speed hG 1 (by decide),
      turning_speed hG 2 (by decide), hg 0 (by decide), hg 1 (by decide), hg 2 (by decide), map_one, map_neg,
      MvPolynomial.eval_X, hz]
    norm_num

/-- The hypotheses of `C95_conserved_partial` and `C95_christoffel_partial` hold of a metric whose Christoffel symbols are
not 0. -/
example : ∃ (E : Engine Poly) (C : Curves Poly) (G : Ground Poly) (V : View Poly) (w : World Poly) (Dm : TField Poly),
    EngineOK E ∧ Calculus E ∧ CurvesOK E C G.syms ∧ ProperNames C G.syms ∧ Static E C G ∧ Scene G V w ∧
    AnyMetric G V Dm ∧ LowerMetric G V Dm ∧ NamesFor E G (christoffel E G) V w Dm.name ∧ NamesOK E G V w Dm.name ∧
    NamesCurve G w Kind.isLagrangian .lagrangian (Dm.name ++ " Lagrangian") [] (fun _ => lagrangian C G) ∧
    Unnamed w (· == .geodesicLagrangian) (Dm.name ++ " Geodesic From Lagrangian") ∧
    Unnamed w (· == .geodesicChristoffel) (Dm.name ++ " Geodesic From Christoffel") ∧
    G.n = 3 ∧ christoffel E G 2 0 1 ≠ 0 := by
  obtain ⟨G, V, w, h1, h2, -, h3, h4, h5, h6, h7⟩ := curved_full
  have hU : ∀ sel name, name ≠ "Cartesian" → name ≠ "Nil" → Unnamed w sel name := by
    intro sel name k1 k2 i hi o ho _ hn
    rcases h4 i hi o ho with h | h
    · exact k1 (hn ▸ h)
    · exact k2 (hn ▸ h)
  refine ⟨polyEngine, polyCurves, G, V, w, _, polyEngine_ok, polyEngine_calculus, by rw [h6]; exact polyCurves_ok,
    by rw [h6]; exact polyCurves_names, nil_static h6 h2 h7, h1, ⟨h3.view, h3.name, h3.coords⟩, h3,
    namesFor_christoffel (curved_names h4), curved_names h4,
    namesCurve_unnamed (hU _ _ (by decide) (by decide)), hU _ _ (by decide) (by decide), hU _ _ (by decide) (by decide),
    h2, ?_⟩
  rw [h5]
  exact curved_half

end PyOGRe
