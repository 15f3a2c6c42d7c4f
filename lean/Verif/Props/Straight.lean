import Verif.Props.Constant
import Verif.Props.UpperGeodesic
import Verif.Spec.Straight

/-!
# Geodesics of constant metrics and of metrics multiplied by a constant: C100, C101
-/

namespace PyOGRe
open Spec Finset
variable {K : Type} [CommRing K] [DecidableEq K] [Algebra ℚ K] {E : Engine K} {G G' : Ground K} {V V' : View K}
  {w w' : World K} {C : Curves K} {Dm Dm' : TField K}

theorem obtains_given {Γ : Nat → Nat → Nat → K} {m : PyM K Id'} {base name : String} {sel : Kind → Bool} {kind : Kind}
    {ix : List Int} {f : List Nat → K} {P : Arr K → Prop} (h : Does m w (GivesFor E G Γ V w base sel kind name ix f))
    (hP : ∀ a, (∀ J, J.length = ix.length → (∀ x ∈ J, x < G.n) →
      a.get J = C.asFunctions (curveParameter C kind G.syms) G.syms (f J)) → P a) :
    Obtains E C w m (List.replicate ix.length G.n) P := by
  refine Does.mono h ?_
  rintro r w' ⟨V', h1, h2, -, h4, h5, h6, h7⟩
  obtain ⟨a, e1, e2⟩ := holds_components (E := E) (C := C) h1 h6 (Or.inl rfl) (Or.inl rfl)
  exact ⟨h5, a, e1, e2.2.1, hP a e2.2.2⟩

/-- **C100** If the components of the metric are constant (either default configuration), then all three functions return
equations that are satisfied exactly by the motions without acceleration. -/
theorem C100_straight (hE : EngineOK E) (hC : Calculus E) (hS : Scene G V w) (hO : CurvesOK E C G.syms)
    (hP : ProperNames C G.syms) (hT : Static E C G) (hm : AnyMetric G V Dm)
    (hix : Dm.ix = [-1, -1] ∨ Dm.ix = [1, 1]) (hN : NoNames w Dm.name)
    (hU : ∀ sel suffix, suffix ∈ [" Lagrangian", " Geodesic From Lagrangian", " Geodesic From Christoffel",
      " Geodesic With Time Parameter"] → Unnamed w sel (Dm.name ++ suffix))
    (hg : ∀ k i j, k < G.n → i < G.n → j < G.n → E.diff (G.syms.getD k "") (Dm.val [i, j]) = 0) :
    Obtains E C w (calcGeodesicLagrangian E C G.m none) [G.n] (fun a =>
      SameSolutions a G.n (fun i => C.asFunctions C.parameter G.syms (G.accel C i)) fun _ => True) ∧
    Obtains E C w (calcGeodesicChristoffel E C G.m none) [G.n] (fun a =>
      SameSolutions a G.n (fun i => C.asFunctions C.parameter G.syms (G.accel C i)) fun _ => True) ∧
    Obtains E C w (calcGeodesicTime E C G.m none) [G.n] (fun a =>
      SameSolutions a G.n (fun i => C.asFunctions (G.syms.getD 0 "") G.syms (G.accel C i)) fun i => 0 < i) := by
  have hl := constant_lower hC hS hm hix hg
  have hΓ := gives_zero hE.simp_eq hC hix hl
  have hNF : NamesFor E G (fun _ _ _ => 0) V w Dm.name := noNames_for hN
  have hunit : ∀ (p : Sym) (x y : K), (∃ u, IsUnit u ∧ x = C.asFunctions p G.syms (u * y)) →
      ∀ (R : Type) [CommRing R] (φ : K →+* R), φ x = 0 ↔ φ (C.asFunctions p G.syms y) = 0 := by
    rintro p x y ⟨u, hu, rfl⟩ R _ φ
    have hv : IsUnit (φ (C.asFunctions p G.syms u)) := (hu.map (functionsHom hO p)).map φ
    rw [hO.mul, map_mul]
    exact hv.mul_right_eq_zero
  refine ⟨?_, ?_, ?_⟩
  · refine obtains_given (anyGiven_geodesicLagrangian hE.simp_eq hS hC hO hP hT hm.view hm.name hNF (Or.inr ⟨rfl, hm.coords⟩)
      (namesCurve_unnamed (hU _ _ (by simp))) (namesCurve_unnamed (hU _ _ (by simp)))) fun a ha R _ φ => ?_
    have e : ∀ j, geodesic E C G j = G.accel C j := fun j => by
      unfold geodesic
      rw [sum_eq_zero fun m hm => sum_eq_zero fun n hn => ?_, add_zero]
      rw [constant_christoffel hl j (by simpa using hm) (by simpa using hn), zero_mul, zero_mul]
    have := (equations_equivalent (functionsHom hO C.parameter) hS.inverse (e := G.accel C) (x := fun i => a.get [i])
      (y := fun i => C.asFunctions C.parameter G.syms (G.accel C i)) (fun i hi => ?_) fun i _ =>
        ⟨1, isUnit_one, by rw [one_mul]; rfl⟩).2 R φ
    · simpa using this
    · obtain ⟨u, hu, hu'⟩ := hO.clear (∑ j ∈ range G.n, G.g i j * geodesic E C G j)
      refine ⟨u, hu, (ha [i] rfl (by simpa using hi)).trans ?_⟩
      simp only [e] at hu'
      simp only [List.getD_cons_zero, e]
      exact congrArg (C.asFunctions C.parameter G.syms) hu'
  · refine obtains_given (anyGiven_geodesicChristoffel hE.simp_eq hΓ hS C hm hNF (Or.inr rfl)
      (namesCurve_unnamed (hU _ _ (by simp)))) fun a ha R _ φ => forall_congr' fun i => forall_congr' fun hi => ?_
    simp only [forall_const]
    refine hunit _ _ _ ?_ R φ
    obtain ⟨u, hu, hu'⟩ := hO.clear (geodesicOf C G (fun _ _ _ => 0) i)
    refine ⟨u, hu, (ha [i] rfl (by simpa using hi)).trans ((congrArg (C.asFunctions C.parameter G.syms) hu').trans ?_)⟩
    simp [geodesicOf]
  · refine obtains_given (anyGiven_geodesicTime hE.simp_eq hΓ hS C hm hNF (Or.inr rfl)
      (namesCurve_unnamed (hU _ _ (by simp)))) fun a ha R _ φ => forall_congr' fun i => forall_congr' fun hi => ?_
    obtain ⟨u, hu, hu'⟩ := hO.clear (geodesicTOf C G (fun _ _ _ => 0) i)
    have ha' : a.get [i] = C.asFunctions (G.syms.getD 0 "") G.syms (u * G.accelT C i) :=
      (ha [i] rfl (by simpa using hi)).trans ((congrArg (C.asFunctions (G.syms.getD 0 "") G.syms) hu').trans
        (by simp [geodesicTOf]))
    rcases Nat.eq_zero_or_pos i with rfl | h
    · rw [ha', show G.accelT C 0 = 0 from if_pos rfl, mul_zero,
        show C.asFunctions (G.syms.getD 0 "") G.syms 0 = 0 from map_zero (functionsHom hO _)]
      simp
    · have e : G.accelT C i = G.accel C i := if_neg (by omega)
      rw [e] at ha'
      rw [hunit _ _ _ ⟨u, hu, ha'⟩ R φ]
      simp [h]

/-- Registered names for the example: a coordinate system and a metric. -/
theorem given_unnamed {w : World Poly} (h : ∀ i ∈ w.instances, ∀ o, w.objs[i]? = some o → o.name = "Chart" ∨ o.name = "Given")
    (sel : Kind → Bool) (suffix : String) (hs : suffix ∈ [" Lagrangian", " Geodesic From Lagrangian",
      " Geodesic From Christoffel", " Geodesic With Time Parameter"]) : Unnamed w sel ("Given" ++ suffix) := by
  intro i hi o ho _ hn
  simp only [List.mem_cons, List.not_mem_nil, or_false] at hs
  rcases h i hi o ho with h | h <;> rw [h] at hn <;> rcases hs with rfl | rfl | rfl | rfl <;> exact absurd hn (by decide)

theorem pderiv_nat (s : Sym) (n : ℕ) : MvPolynomial.pderiv s (n : Poly) = 0 := by
  rw [show ((n : ℕ) : Poly) = MvPolynomial.C (n : ℚ) from (map_natCast MvPolynomial.C n).symm, MvPolynomial.pderiv_C]

theorem oblique_constant (s : Sym) (i j : Nat) (hi : i < 3) (hj : j < 3) : MvPolynomial.pderiv s (oblique.get [i, j]) = 0 := by
  have := pderiv_nat s 2
  have := pderiv_nat s 5
  interval_cases i <;> interval_cases j <;> simp [oblique, Arr.get, ravel] <;> assumption

theorem obliqueInv_constant (s : Sym) (i j : Nat) (hi : i < 3) (hj : j < 3) :
    MvPolynomial.pderiv s (obliqueInv.get [i, j]) = 0 := by
  have := pderiv_nat s 2
  have := pderiv_nat s 5
  interval_cases i <;> interval_cases j <;> simp [obliqueInv, Arr.get, ravel] <;> assumption

/-- The metric of the example beside `C98_flat`, with either default configuration. -/
example (ix : List Int) (hix : ix = [-1, -1] ∨ ix = [1, 1]) :
    ∃ (G : Ground Poly) (V : View Poly) (w : World Poly) (Dm : TField Poly), EngineOK polyEngine ∧ Calculus polyEngine ∧
      Scene G V w ∧ CurvesOK polyEngine polyCurves G.syms ∧ ProperNames polyCurves G.syms ∧
      Static polyEngine polyCurves G ∧ AnyMetric G V Dm ∧ Dm.ix = ix ∧ NoNames w Dm.name ∧
      (∀ sel suffix, suffix ∈ [" Lagrangian", " Geodesic From Lagrangian", " Geodesic From Christoffel",
        " Geodesic With Time Parameter"] → Unnamed w sel (Dm.name ++ suffix)) ∧
      (∀ k i j, k < G.n → i < G.n → j < G.n → polyEngine.diff (G.syms.getD k "") (Dm.val [i, j]) = 0) ∧
      Dm.val [0, 1] = 2 := by
  obtain ⟨G, V, w, h1, h2, h3, h4, h5, h6, h7, h8⟩ := declared_all (syms := ["x", "y", "z"]) (a := oblique) rfl rfl oblique_symm
    oblique_inverse hix (by simp)
  have hg : ∀ s i j, i < G.n → j < G.n → polyEngine.diff s (G.g i j) = 0 := by
    intro s i j hi hj
    have hi' : i < 3 := by rw [h2] at hi; exact hi
    have hj' : j < 3 := by rw [h2] at hj; exact hj
    show MvPolynomial.pderiv s _ = 0
    rcases hix with rfl | rfl
    · rw [h6 rfl]
      exact oblique_constant s i j hi' hj'
    · have e := inverse_unique (n := G.n) (M := G.gi) (N := G.g) (N' := fun i j => obliqueInv.get [i, j])
        (fun i j hi hj => (h1.inverse i j hi hj).symm) (fun i j hi hj => ?_) i j hi hj
      · rw [e]
        exact obliqueInv_constant s i j hi' hj'
      · have e1 : G.gi = fun i j => oblique.get [i, j] := funext fun i => funext fun j => h7 rfl i j
        rw [e1, h2]
        rw [h2] at hi hj
        exact oblique_inverse i j hi hj
  refine ⟨G, V, w, _, polyEngine_ok, polyEngine_calculus, h1, by rw [h3]; exact polyCurves_ok, by rw [h3]; exact polyCurves_names,
    fun i j hi hj => ⟨hg _ i j hi hj, fun s _ => ⟨hg _ i j hi hj, hg _ i j hi hj⟩⟩, h4, rfl, h5, given_unnamed h8, ?_, rfl⟩
  intro k i j _ hi hj
  rw [h2] at hi hj
  exact oblique_constant _ i j hi hj

/-! ## C101: constant factors -/

theorem scaled_accel {c c' : K} (h : Scaled E G G' c c') (i : Nat) : G'.accel C i = G.accel C i := by
  unfold Ground.accel
  rw [h.syms]

theorem scaled_speed {c c' : K} (h : Scaled E G G' c c') (i : Nat) : G'.speed C i = G.speed C i := by
  unfold Ground.speed
  rw [h.syms]

theorem scaled_speedT {c c' : K} (h : Scaled E G G' c c') (i : Nat) : G'.speedT C i = G.speedT C i := by
  unfold Ground.speedT
  rw [scaled_speed h]

theorem scaled_accelT {c c' : K} (h : Scaled E G G' c c') (i : Nat) : G'.accelT C i = G.accelT C i := by
  unfold Ground.accelT
  rw [scaled_accel h]

theorem scaled_geodesic {Γ Γ' : Nat → Nat → Nat → K} {c c' : K} (h : Scaled E G G' c c')
    (he : ∀ l m n, l < G.n → m < G.n → n < G.n → Γ' l m n = Γ l m n) {i : Nat} (hi : i < G.n) :
    geodesicOf C G' Γ' i = geodesicOf C G Γ i := by
  unfold geodesicOf
  rw [h.n, scaled_accel h]
  congr 1
  refine sum_congr rfl fun m hm => sum_congr rfl fun n hn => ?_
  rw [he i m n hi (by simpa using hm) (by simpa using hn), scaled_speed h, scaled_speed h]

theorem scaled_geodesicT {Γ Γ' : Nat → Nat → Nat → K} {c c' : K} (h : Scaled E G G' c c')
    (he : ∀ l m n, l < G.n → m < G.n → n < G.n → Γ' l m n = Γ l m n) {i : Nat} (hi : i < G.n) :
    geodesicTOf C G' Γ' i = geodesicTOf C G Γ i := by
  unfold geodesicTOf
  rw [h.n, scaled_accelT h]
  congr 1
  refine sum_congr rfl fun m hm => sum_congr rfl fun n hn => ?_
  rw [he i m n hi (by simpa using hm) (by simpa using hn), he 0 m n (by omega) (by simpa using hm) (by simpa using hn),
    scaled_speedT h, scaled_speedT h, scaled_speedT h]

theorem scaled_lagrangian {c c' : K} (h : Scaled E G G' c c') : lagrangian C G' = c * lagrangian C G := by
  unfold lagrangian
  rw [h.n, mul_sum]
  refine sum_congr rfl fun m hm => ?_
  rw [mul_sum]
  refine sum_congr rfl fun n hn => ?_
  rw [h.g m n (by simpa using hm) (by simpa using hn), scaled_speed h, scaled_speed h]
  ring

/-- **C101** Two metrics with the same default configuration, the second `c` times the first with a constant `c`: the geodesic
equations from the Christoffel symbols and those with the time parameter are the same, the Lagrangian of the second is `c` times
that of the first, and the geodesic equations from the Lagrangian have the same solutions. -/
theorem C101_scaled {c c' : K} (hE : EngineOK E) (hC : Calculus E) (hF : Fresh E C G V w Dm) (hF' : Fresh E C G' V' w' Dm')
    (hix : Dm.ix = [-1, -1] ∧ Dm'.ix = [-1, -1] ∨ Dm.ix = [1, 1] ∧ Dm'.ix = [1, 1]) (h : Scaled E G G' c c') :
    Matches E C G G' w w' (fun m => calcGeodesicChristoffel E C m none) [G.n] 1 ∧
    Matches E C G G' w w' (fun m => calcGeodesicTime E C m none) [G.n] 1 ∧
    Matches E C G G' w w' (fun m => calcLagrangian E C m none) [] (C.asFunctions C.parameter G.syms c) ∧
    ∃ e, Obtains E C w (calcGeodesicLagrangian E C G.m none) [G.n] (fun a => SameSolutions a G.n e fun _ => True) ∧
      Obtains E C w' (calcGeodesicLagrangian E C G'.m none) [G.n] fun a => SameSolutions a G.n e fun _ => True := by
  have hc := fun l m n hl hm hn => scaled_christoffel (l := l) (m := m) (n := n) hC h hF.scene.inverse hF'.scene.inverse hl hm hn
  obtain ⟨Γ, Γ', hΓ, hΓ', he⟩ : ∃ Γ Γ', GivesConnection E G Γ Dm ∧ GivesConnection E G' Γ' Dm' ∧
      ∀ l m n, l < G.n → m < G.n → n < G.n → Γ' l m n = Γ l m n := by
    rcases hix with ⟨h1, h2⟩ | ⟨h1, h2⟩
    · exact ⟨_, _, gives_christoffel hE.simp_eq h1, gives_christoffel hE.simp_eq h2, hc⟩
    · exact ⟨_, _, gives_opposite hE.simp_eq hC h1, gives_opposite hE.simp_eq hC h2,
        fun l m n hl hm hn => congrArg Neg.neg (hc l m n hl hm hn)⟩
  have hQ : NamesFor E G Γ V w Dm.name := noNames_for hF.free
  have hQ' : NamesFor E G' Γ' V' w' Dm'.name := noNames_for hF'.free
  have hn := h.n
  refine ⟨⟨fun J => C.asFunctions C.parameter G.syms (C.clear (geodesicOf C G Γ (J.getD 0 0))), ?_, ?_⟩,
    ⟨fun J => C.asFunctions (G.syms.getD 0 "") G.syms (C.clear (geodesicTOf C G Γ (J.getD 0 0))), ?_, ?_⟩,
    ⟨fun _ => C.asFunctions C.parameter G.syms (lagrangian C G), ?_, ?_⟩,
    ⟨fun i => C.asFunctions C.parameter G.syms (geodesic E C G i), ?_, ?_⟩⟩
  · exact obtains_given (anyGiven_geodesicChristoffel hE.simp_eq hΓ hF.scene C hF.metric hQ (Or.inr rfl)
      (namesCurve_unnamed (hF.unnamed _ _ (by simp)))) fun a ha => ha
  · rw [← hn]
    refine obtains_given (anyGiven_geodesicChristoffel hE.simp_eq hΓ' hF'.scene C hF'.metric hQ' (Or.inr rfl)
      (namesCurve_unnamed (hF'.unnamed _ _ (by simp)))) fun a ha J hJ hJn => ?_
    match J, hJ with
    | [i], hJ =>
      rw [ha [i] hJ hJn, one_mul]
      simp only [List.getD_cons_zero, scaled_geodesic h he (hn ▸ hJn i (by simp)), h.syms]
      rfl
  · exact obtains_given (anyGiven_geodesicTime hE.simp_eq hΓ hF.scene C hF.metric hQ (Or.inr rfl)
      (namesCurve_unnamed (hF.unnamed _ _ (by simp)))) fun a ha => ha
  · rw [← hn]
    refine obtains_given (anyGiven_geodesicTime hE.simp_eq hΓ' hF'.scene C hF'.metric hQ' (Or.inr rfl)
      (namesCurve_unnamed (hF'.unnamed _ _ (by simp)))) fun a ha J hJ hJn => ?_
    match J, hJ with
    | [i], hJ =>
      rw [ha [i] hJ hJn, one_mul]
      simp only [List.getD_cons_zero, scaled_geodesicT h he (hn ▸ hJn i (by simp)), h.syms]
      rfl
  · exact obtains_given (anyGiven_lagrangian hE.simp_eq hF.scene C hF.metric.view hF.metric.name hQ
      (Or.inr ⟨rfl, hF.metric.coords⟩) (namesCurve_unnamed (hF.unnamed _ _ (by simp)))) fun a ha => ha
  · refine obtains_given (anyGiven_lagrangian hE.simp_eq hF'.scene C hF'.metric.view hF'.metric.name hQ'
      (Or.inr ⟨rfl, hF'.metric.coords⟩) (namesCurve_unnamed (hF'.unnamed _ _ (by simp)))) fun a ha J hJ hJn => ?_
    rw [ha J hJ (by rw [hn]; exact hJn), h.syms, scaled_lagrangian h]
    exact hF.curves.mul _ _ _
  · refine obtains_given (anyGiven_geodesicLagrangian hE.simp_eq hF.scene hC hF.curves hF.names hF.static hF.metric.view
      hF.metric.name hQ (Or.inr ⟨rfl, hF.metric.coords⟩) (namesCurve_unnamed (hF.unnamed _ _ (by simp)))
      (namesCurve_unnamed (hF.unnamed _ _ (by simp)))) fun a ha R _ φ => ?_
    have := (equations_equivalent (functionsHom hF.curves C.parameter) hF.scene.inverse (e := geodesic E C G)
      (x := fun i => a.get [i]) (y := fun i => C.asFunctions C.parameter G.syms (geodesic E C G i)) (fun i hi => ?_) fun i _ =>
        ⟨1, isUnit_one, by rw [one_mul]; rfl⟩).2 R φ
    · simpa using this
    · obtain ⟨u, hu, hu'⟩ := hF.curves.clear (∑ j ∈ range G.n, G.g i j * geodesic E C G j)
      exact ⟨u, hu, (ha [i] rfl (by simpa using hi)).trans (congrArg (C.asFunctions C.parameter G.syms) hu')⟩
  · rw [← hn]
    refine obtains_given (anyGiven_geodesicLagrangian hE.simp_eq hF'.scene hC hF'.curves hF'.names hF'.static hF'.metric.view
      hF'.metric.name hQ' (Or.inr ⟨rfl, hF'.metric.coords⟩) (namesCurve_unnamed (hF'.unnamed _ _ (by simp)))
      (namesCurve_unnamed (hF'.unnamed _ _ (by simp)))) fun a ha R _ φ => ?_
    have hg : ∀ i, i < G.n → geodesic E C G' i = geodesic E C G i := fun i hi => scaled_geodesic h hc hi
    have := (equations_equivalent (functionsHom hF'.curves C.parameter) hF'.scene.inverse (e := geodesic E C G')
      (x := fun i => a.get [i]) (y := fun i => C.asFunctions C.parameter G'.syms (geodesic E C G' i)) (fun i hi => ?_) fun i _ =>
        ⟨1, isUnit_one, by rw [one_mul]; rfl⟩).2 R φ
    · rw [this, hn, h.syms]
      refine forall_congr' fun i => forall_congr' fun hi => ?_
      rw [hg i hi]
      simp
    · obtain ⟨u, hu, hu'⟩ := hF'.curves.clear (∑ j ∈ range G'.n, G'.g i j * geodesic E C G' j)
      exact ⟨u, hu, (ha [i] rfl (by simpa using hi)).trans (congrArg (C.asFunctions C.parameter G'.syms) hu')⟩

theorem scaled_static {G G' : Ground Poly} {c c' : Poly} (h : Scaled polyEngine G G' c c') (hc : ∀ s, MvPolynomial.pderiv s c = 0)
    (hT : Static polyEngine polyCurves G) : Static polyEngine polyCurves G' := by
  have key : ∀ s i j, i < G.n → j < G.n → polyEngine.diff s (G.g i j) = 0 → polyEngine.diff s (G'.g i j) = 0 := by
    intro s i j hi hj h0
    rw [h.g i j hi hj]
    show MvPolynomial.pderiv s (c * G.g i j) = 0
    rw [Derivation.leibniz, hc, show MvPolynomial.pderiv s (G.g i j) = 0 from h0]
    simp
  intro i j hi hj
  rw [h.n] at hi hj
  rw [h.syms]
  exact ⟨key _ i j hi hj (hT i j hi hj).1, fun s hs => ⟨key _ i j hi hj ((hT i j hi hj).2 s hs).1,
    key _ i j hi hj ((hT i j hi hj).2 s hs).2⟩⟩

/-- The metrics of the example beside `C99_scaled`. -/
example : ∃ (G G' : Ground Poly) (V V' : View Poly) (w w' : World Poly) (Dm Dm' : TField Poly), EngineOK polyEngine ∧
    Calculus polyEngine ∧ Fresh polyEngine polyCurves G V w Dm ∧ Fresh polyEngine polyCurves G' V' w' Dm' ∧
    Dm.ix = [-1, -1] ∧ Dm'.ix = [-1, -1] ∧ Scaled polyEngine G G' 4 (MvPolynomial.C (1 / 4)) ∧
    ∀ i j, i < 3 → j < 3 → G.g i j = entry nil i j := by
  obtain ⟨G, V, w, h1, h2, h3, h4, h5, h6, -, h8⟩ := declared_all (syms := ["x", "y", "z"]) (a := nil) rfl rfl nil_symm
    nil_inverse (Or.inl rfl) (by simp)
  obtain ⟨G', V', w', h1', h2', h3', h4', h5', h6', -, h8'⟩ := declared_all (syms := ["x", "y", "z"]) (a := nilFour) rfl rfl
    nilFour_symm nilFour_inverse (Or.inl rfl) (by simp)
  have hc : ∀ s, MvPolynomial.pderiv s (4 : Poly) = 0 := fun s => by
    rw [show (4 : Poly) = MvPolynomial.C 4 from (map_ofNat MvPolynomial.C 4).symm, MvPolynomial.pderiv_C]
  have hs : Scaled polyEngine G G' 4 (MvPolynomial.C (1 / 4)) := by
    refine ⟨by rw [h2, h2'], by rw [h3, h3'], four_quarter, fun k _ => hc _, fun i j hi hj => ?_⟩
    rw [h2] at hi hj
    rw [h6 rfl, h6' rfl]
    exact nilFour_get i j hi hj
  have hT := nil_static h3 h2 (h6 rfl)
  exact ⟨G, G', V, V', w, w', _, _, polyEngine_ok, polyEngine_calculus,
    ⟨h1, by rw [h3]; exact polyCurves_ok, by rw [h3]; exact polyCurves_names, hT, h4, h5, given_unnamed h8⟩,
    ⟨h1', by rw [h3']; exact polyCurves_ok, by rw [h3']; exact polyCurves_names, scaled_static hs hc hT, h4', h5',
      given_unnamed h8'⟩, rfl, rfl, hs, fun i j _ _ => h6 rfl i j⟩

end PyOGRe
