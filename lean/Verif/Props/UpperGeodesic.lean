import Verif.Lemmas.AnyGeodesic
import Verif.Props.Upper
import Verif.Props.Geodesic

/-!
# Geodesics of metrics whose default indices are upper, and of metrics with the same name: C42, C43, C44
-/

namespace PyOGRe
open Spec Finset
variable {K : Type} [CommRing K] [DecidableEq K] [Algebra ℚ K] {E : Engine K} {G : Ground K} {V : View K}
  {w : World K} {C : Curves K} {Dm : TField K}

/-- For a metric with default configuration (1,1), the geodesic equations from the Christoffel symbols are
`ẍ^i - Γ^i_{mn} ẋ^m ẋ^n`, multiplied by units, and with functions of the curve parameter for the coordinates. -/
theorem C43_upper (hE : EngineOK E) (hC : Calculus E) (hS : Scene G V w)
    (hclear : ∀ x, ∃ d, IsUnit d ∧ C.clear x = d * x) (hm : UpperMetric G V Dm)
    {coords : Option Id'} (hco : coords = some G.c ∨ coords = none) (hQ : NoNames w Dm.name)
    (hU : Unnamed w (· == .geodesicChristoffel) (Dm.name ++ " Geodesic From Christoffel")) :
    Does (calcGeodesicChristoffel E C G.m coords) w fun r w' => r ∈ w'.instances ∧
      (∃ a, curveComponents E C r none none w' = (.ok a, w') ∧ a.shape = [G.n] ∧
        ∀ i, i < G.n → ∃ u, IsUnit u ∧ a.get [i] = C.asFunctions C.parameter G.syms (u * (G.accel C i -
          ∑ m ∈ range G.n, ∑ n ∈ range G.n, christoffel E G i m n * G.speed C m * G.speed C n))) := by
  refine Does.mono (anyGiven_geodesicChristoffel hE.simp_eq (gives_opposite hE.simp_eq hC hm.ix) hS C
    ⟨hm.view, hm.name, hm.coords⟩ (noNames_for hQ) hco (namesCurve_unnamed hU)) ?_
  rintro r w' ⟨V', h1, h2, -, h4, h5, h6, h7⟩
  obtain ⟨a, e1, e2⟩ := holds_components (E := E) (C := C) h1 h6 (Or.inl rfl) (Or.inl rfl)
  refine ⟨h5, ⟨a, e1, e2.2.1, fun i hi => ?_⟩⟩
  obtain ⟨u, hu, hu'⟩ := hclear (geodesicOf C G (minusGamma E G) i)
  refine ⟨u, hu, (e2.2.2 [i] rfl (by simpa using hi)).trans ?_⟩
  refine (congrArg (C.asFunctions C.parameter G.syms) hu').trans ?_
  congr 2
  simp [geodesicOf, minusGamma, sub_eq_add_neg]

/-- For a metric with default configuration (1,1), the geodesic equations with the time parameter have the wrong sign
in front of all Christoffel symbols. -/
theorem C44_upper (hE : EngineOK E) (hC : Calculus E) (hS : Scene G V w) (hO : CurvesOK E C G.syms)
    (hm : UpperMetric G V Dm)
    {coords : Option Id'} (hco : coords = some G.c ∨ coords = none) (hQ : NoNames w Dm.name)
    (hU : Unnamed w (· == .geodesicTime) (Dm.name ++ " Geodesic With Time Parameter")) :
    Does (calcGeodesicTime E C G.m coords) w fun r w' => r ∈ w'.instances ∧
      (∃ a, curveComponents E C r none none w' = (.ok a, w') ∧ a.shape = [G.n] ∧
        ∀ i, i < G.n → ∃ u, IsUnit u ∧ a.get [i] = C.asFunctions (G.syms.getD 0 "") G.syms (u *
          (G.accelT C i - ∑ m ∈ range G.n, ∑ n ∈ range G.n,
            (christoffel E G i m n - christoffel E G 0 m n * G.speedT C i) * G.speedT C m * G.speedT C n))) := by
  refine Does.mono (anyGiven_geodesicTime hE.simp_eq (gives_opposite hE.simp_eq hC hm.ix) hS C
    ⟨hm.view, hm.name, hm.coords⟩ (noNames_for hQ) hco (namesCurve_unnamed hU)) ?_
  rintro r w' ⟨V', h1, h2, -, h4, h5, h6, h7⟩
  obtain ⟨a, e1, e2⟩ := holds_components (E := E) (C := C) h1 h6 (Or.inl rfl) (Or.inl rfl)
  refine ⟨h5, ⟨a, e1, e2.2.1, fun i hi => ?_⟩⟩
  obtain ⟨u, hu, hu'⟩ := hO.clear (geodesicTOf C G (minusGamma E G) i)
  refine ⟨u, hu, (e2.2.2 [i] rfl (by simpa using hi)).trans ?_⟩
  refine (congrArg (C.asFunctions (G.syms.getD 0 "") G.syms) hu').trans ?_
  congr 2
  simp only [geodesicTOf, minusGamma, sub_eq_add_neg, ← Finset.sum_neg_distrib]
  congr 1
  refine Finset.sum_congr rfl fun m _ => Finset.sum_congr rfl fun n _ => ?_
  ring

/-! ## A metric for which C43 and C44 fail -/

theorem nilUpper_static {G : Ground Poly} (h : NilGround G) : Static polyEngine polyCurves G := by
  have key : ∀ s : Sym, s ≠ "z" → ∀ i j, i < 3 → j < 3 → polyEngine.diff s (G.g i j) = 0 := by
    intro s hz i j hi hj
    show MvPolynomial.pderiv s _ = 0
    have h0 := h.g00; have h1 := h.g01; have h2 := h.g02; have h3 := h.g10; have h4 := h.g11
    have h5 := h.g12; have h6 := h.g20; have h7 := h.g21; have h8 := h.g22
    interval_cases i <;> interval_cases j <;>
      simp [h0, h1, h2, h3, h4, h5, h6, h7, h8, MvPolynomial.pderiv_X, hz.symm, Ne.symm hz]
  intro i j hi hj
  rw [h.n] at hi hj
  rw [h.syms]
  refine ⟨key _ (by decide) i j hi hj, fun s h => ⟨key _ ?_ i j hi hj, key _ ?_ i j hi hj⟩⟩
  · revert s; decide
  · revert s; decide

/-- Values of the coordinates, velocities and accelerations: at the origin, with velocity (1, 1, 0) and acceleration
(0, 0, a). -/
def atPoint (a : ℚ) (s : Sym) : ℚ := if s = "xdot" ∨ s = "ydot" then 1 else if s = "zddot" then a else 0

/-- The value of an expression in which functions stand for the coordinates. -/
noncomputable def valueAt (a : ℚ) : Poly →+* ℚ := (MvPolynomial.eval fun s => atPoint a (jet.symm s))

theorem eval_back (e : Equiv.Perm Sym) (f : Sym → ℚ) (p : Poly) :
    MvPolynomial.eval (fun s => f (e.symm s)) (MvPolynomial.rename e p) = MvPolynomial.eval f p := by
  rw [MvPolynomial.eval_rename]
  have : (fun s => f (e.symm s)) ∘ e = f := funext fun s => by simp
  rw [this]

theorem valueAt_lambda (a : ℚ) (syms : List Sym) (p : Poly) :
    valueAt a (polyCurves.asFunctions "lambda" syms p) = MvPolynomial.eval (atPoint a) p := by
  rw [polyCurves_functions]
  unfold valueAt toFunctions
  exact eval_back jet _ p

theorem valueAt_time (a : ℚ) (syms : List Sym) (p : Poly) :
    valueAt a (polyCurves.asFunctions "x" syms p) = MvPolynomial.eval (atPoint a) p := by
  show MvPolynomial.eval (fun s => atPoint a (jet.symm s))
    (MvPolynomial.aeval (fun t => if t = "x" then (MvPolynomial.X t : Poly) else MvPolynomial.X (jet t)) p) = _
  induction p using MvPolynomial.induction_on with
  | C q => rw [MvPolynomial.aeval_C, MvPolynomial.algebraMap_eq, MvPolynomial.eval_C, MvPolynomial.eval_C]
  | add p q hp hq => rw [map_add, map_add, map_add, hp, hq]
  | mul_X p t hp =>
    rw [map_mul, map_mul, map_mul, hp, MvPolynomial.aeval_X, MvPolynomial.eval_X]
    congr 1
    split_ifs with h
    · rw [MvPolynomial.eval_X, h, show jet.symm "x" = "x(lambda)" by decide]
      simp [atPoint]
    · rw [MvPolynomial.eval_X, Equiv.symm_apply_apply]

theorem nilGamma_eval (a : ℚ) {i m n : Nat} (hi : i < 3) (hm : m < 3) (hn : n < 3) :
    MvPolynomial.eval (atPoint a) (nilGamma i m n) = if i = 2 ∧ (m = 0 ∧ n = 1 ∨ m = 1 ∧ n = 0) then 1 else
      if i = 1 ∧ (m = 0 ∧ n = 2 ∨ m = 2 ∧ n = 0) then -1 else if i = 0 ∧ (m = 1 ∧ n = 2 ∨ m = 2 ∧ n = 1) then -1 else 0 := by
  have hz : atPoint a "z" = 0 := by simp [atPoint]
  interval_cases i <;> interval_cases m <;> interval_cases n <;> simp [nilGamma, hz]

theorem nil_speed (a : ℚ) {G : Ground Poly} (h : NilGround G) (m : Nat) (hm : m < 3) :
    MvPolynomial.eval (atPoint a) (G.speed polyCurves m) = if m = 2 then 0 else 1 := by
  unfold Ground.speed
  rw [h.syms]
  show MvPolynomial.eval (atPoint a) (MvPolynomial.X _) = _
  rw [MvPolynomial.eval_X]
  interval_cases m <;> simp [atPoint, dot]

theorem nil_speedT (a : ℚ) {G : Ground Poly} (h : NilGround G) (m : Nat) (hm : m < 3) :
    MvPolynomial.eval (atPoint a) (G.speedT polyCurves m) = if m = 2 then 0 else 1 := by
  unfold Ground.speedT
  split_ifs with h1
  · omega
  · simp
  · rename_i h2
    rw [nil_speed a h m hm, if_pos h2]
  · rename_i h2
    rw [nil_speed a h m hm, if_neg h2]

theorem nil_accel (a : ℚ) {G : Ground Poly} (h : NilGround G) (m : Nat) (hm : m < 3) :
    MvPolynomial.eval (atPoint a) (G.accel polyCurves m) = if m = 2 then a else 0 := by
  unfold Ground.accel
  rw [h.syms]
  show MvPolynomial.eval (atPoint a) (MvPolynomial.X _) = _
  rw [MvPolynomial.eval_X]
  interval_cases m <;> simp [atPoint, ddot]

theorem nil_pull (a : ℚ) {G : Ground Poly} (h : NilGround G) {i : Nat} (hi : i < 3) :
    MvPolynomial.eval (atPoint a) (∑ m ∈ range G.n, ∑ n ∈ range G.n,
      christoffel polyEngine G i m n * G.speed polyCurves m * G.speed polyCurves n) = if i = 2 then 1 else 0 := by
  have hc : ∀ m n, m < 3 → n < 3 → MvPolynomial.eval (atPoint a) (christoffel polyEngine G i m n *
      G.speed polyCurves m * G.speed polyCurves n) =
      if i = 2 ∧ (m = 0 ∧ n = 1 ∨ m = 1 ∧ n = 0) then 1 / 2 else 0 := by
    intro m n hm hn
    rw [map_mul, map_mul, nil_speed a h m hm, nil_speed a h n hn, nil_christoffel h i m n hi hm hn, map_mul,
      nilGamma_eval a hi hm hn]
    have : MvPolynomial.eval (atPoint a) (rat (1 / 2) : Poly) = 1 / 2 := by simp [rat]
    rw [this]
    interval_cases m <;> interval_cases n <;> simp
  rw [h.n, map_sum]
  simp only [map_sum]
  rw [Finset.sum_congr rfl fun m hm => Finset.sum_congr rfl fun n hn =>
    hc m n (Finset.mem_range.1 hm) (Finset.mem_range.1 hn)]
  interval_cases i <;> simp [Finset.sum_range_succ]
  norm_num

theorem nil_pullT (a : ℚ) {G : Ground Poly} (h : NilGround G) :
    MvPolynomial.eval (atPoint a) (∑ m ∈ range G.n, ∑ n ∈ range G.n,
      (christoffel polyEngine G 2 m n - christoffel polyEngine G 0 m n * G.speedT polyCurves 2) *
        G.speedT polyCurves m * G.speedT polyCurves n) = 1 := by
  have hc : ∀ m n, m < 3 → n < 3 → MvPolynomial.eval (atPoint a) ((christoffel polyEngine G 2 m n -
      christoffel polyEngine G 0 m n * G.speedT polyCurves 2) * G.speedT polyCurves m * G.speedT polyCurves n) =
      if m = 0 ∧ n = 1 ∨ m = 1 ∧ n = 0 then 1 / 2 else 0 := by
    intro m n hm hn
    rw [map_mul, map_mul, map_sub, map_mul, nil_speedT a h m hm, nil_speedT a h n hn, nil_speedT a h 2 (by decide),
      nil_christoffel h 2 m n (by decide) hm hn, map_mul, nilGamma_eval a (by decide) hm hn]
    have : MvPolynomial.eval (atPoint a) (rat (1 / 2) : Poly) = 1 / 2 := by simp [rat]
    rw [this]
    interval_cases m <;> interval_cases n <;> simp
  rw [h.n, map_sum]
  simp only [map_sum]
  rw [Finset.sum_congr rfl fun m hm => Finset.sum_congr rfl fun n hn =>
    hc m n (Finset.mem_range.1 hm) (Finset.mem_range.1 hn)]
  simp [Finset.sum_range_succ]
  norm_num

/-- **C43** is false of the metric with default configuration (1,1) and the components `nil`: there are values of the
coordinates, velocities and accelerations for which the equations from the Christoffel symbols hold and those from the
Lagrangian do not. -/
theorem C43_false : ∃ (E : Engine Poly) (C : Curves Poly) (G : Ground Poly) (V : View Poly) (w : World Poly)
    (Dm : TField Poly), EngineOK E ∧ Calculus E ∧ CurvesOK E C G.syms ∧ Scene G V w ∧ AnyMetric G V Dm ∧
    Does (do
      let r ← calcGeodesicLagrangian E C G.m none
      let x ← curveComponents E C r none none
      let s ← calcGeodesicChristoffel E C G.m none
      let y ← curveComponents E C s none none
      return (x, y)) w fun (x, y) _ => x.shape = [G.n] ∧ y.shape = [G.n] ∧
        ∃ φ : Poly →+* ℚ, (∀ i, i < G.n → φ (y.get [i]) = 0) ∧ ∃ i, i < G.n ∧ φ (x.get [i]) ≠ 0 := by
  obtain ⟨G, V, w, hS, hG, hm, hN⟩ := curved_names_table
  have hn := hG.n
  have hO : CurvesOK polyEngine polyCurves G.syms := by rw [hG.syms]; exact polyCurves_ok
  have hU : ∀ sel name, name ≠ "Cartesian" → name ≠ "Nil" → Unnamed w sel name := by
    intro sel name k1 k2 i hi o ho _ hn
    rcases hN i hi o ho with h | h
    · exact k1 (hn ▸ h)
    · exact k2 (hn ▸ h)
  have hQ : NamesFor polyEngine G (minusGamma polyEngine G) V w "Nil" := noNames_for fun q i hi o ho hn => by
    rcases hN i hi o ho with h | h <;> rw [h] at hn <;> cases q <;> exact absurd hn (by decide)
  have hm' : AnyMetric G V _ := ⟨hm.view, hm.name, hm.coords⟩
  refine ⟨polyEngine, polyCurves, G, V, w, _, polyEngine_ok, polyEngine_calculus, hO, hS, hm', ?_⟩
  refine Does.bind (anyGiven_geodesicLagrangian polyEngine_ok.simp_eq hS polyEngine_calculus hO
    (by rw [hG.syms]; exact polyCurves_names) (nilUpper_static hG) hm.view hm.name hQ (Or.inr ⟨rfl, hm.coords⟩)
    (namesCurve_unnamed (hU _ _ (by decide) (by decide))) (namesCurve_unnamed (hU _ _ (by decide) (by decide)))) ?_
  intro r w1 hg
  have hU1 := anyUnnamed_given hg (sel := (· == .geodesicChristoffel)) (name' := "Nil Geodesic From Christoffel") rfl
    (by decide) (by decide) (by intro q; cases q <;> decide) (hU _ _ (by decide) (by decide))
  obtain ⟨V1, h1, h2, -, h4, h5, h6, -⟩ := hg
  obtain ⟨a, e1, e2⟩ := holds_components (E := polyEngine) (C := polyCurves) h1 h6 (Or.inl rfl) (Or.inl rfl)
  refine Does.step e1 ?_
  refine Does.bind (anyGiven_geodesicChristoffel polyEngine_ok.simp_eq
    (gives_opposite polyEngine_ok.simp_eq polyEngine_calculus hm.ix) h1 polyCurves (anyMetric_keeps hm' h2) h4 (Or.inr rfl)
    (namesCurve_unnamed hU1)) ?_
  rintro s w2 ⟨V2, k1, k2, -, k4, k5, k6, -⟩
  obtain ⟨b, f1, f2⟩ := holds_components (E := polyEngine) (C := polyCurves) k1 k6 (Or.inl rfl) (Or.inl rfl)
  refine Does.step f1 (Does.pure ⟨e2.2.1, f2.2.1, valueAt 1, fun i hi => ?_, 2, by omega, ?_⟩)
  · rw [f2.2.2 [i] rfl (by simpa using hi)]
    refine (valueAt_lambda 1 _ _).trans ?_
    have hi' : i < 3 := hn ▸ hi
    show MvPolynomial.eval (atPoint 1) (geodesicOf polyCurves G (minusGamma polyEngine G) i) = 0
    have : geodesicOf polyCurves G (minusGamma polyEngine G) i = G.accel polyCurves i - ∑ m ∈ range G.n, ∑ n ∈ range G.n,
        christoffel polyEngine G i m n * G.speed polyCurves m * G.speed polyCurves n := by
      simp [geodesicOf, minusGamma, sub_eq_add_neg]
    rw [this, map_sub, nil_pull 1 hG hi', nil_accel 1 hG i hi']
    split_ifs <;> simp
  · rw [e2.2.2 [2] rfl (by simp; omega)]
    rw [show polyCurves.asFunctions (curveParameter polyCurves .geodesicLagrangian G.syms) G.syms = polyCurves.asFunctions "lambda" G.syms from rfl, valueAt_lambda]
    show MvPolynomial.eval (atPoint 1) (∑ j ∈ range G.n, G.g 2 j * geodesic polyEngine polyCurves G j) ≠ 0
    rw [hn, map_sum]
    simp only [Finset.sum_range_succ, Finset.sum_range_zero, map_mul, hG.g20, hG.g21, hG.g22, map_zero, map_one, zero_mul,
      zero_add, one_mul]
    unfold geodesic
    rw [map_add, nil_pull 1 hG (by decide), nil_accel 1 hG 2 (by decide)]
    norm_num

/-- **C44** is false of the same metric: the second component is no multiple of the textbook expression. -/
theorem C44_false : ∃ (E : Engine Poly) (C : Curves Poly) (G : Ground Poly) (V : View Poly) (w : World Poly)
    (Dm : TField Poly), EngineOK E ∧ Calculus E ∧ CurvesOK E C G.syms ∧ Scene G V w ∧ AnyMetric G V Dm ∧
    Does (do
      let r ← calcGeodesicTime E C G.m none
      curveComponents E C r none none) w fun a _ => a.shape = [G.n] ∧
        ∀ u, a.get [2] ≠ C.asFunctions (G.syms.getD 0 "") G.syms (u *
          (G.accelT C 2 + ∑ m ∈ range G.n, ∑ n ∈ range G.n,
            (christoffel E G 2 m n - christoffel E G 0 m n * G.speedT C 2) * G.speedT C m * G.speedT C n)) := by
  obtain ⟨G, V, w, hS, hG, hm, hN⟩ := curved_names_table
  have hn := hG.n
  have hO : CurvesOK polyEngine polyCurves G.syms := by rw [hG.syms]; exact polyCurves_ok
  have hU : ∀ sel name, name ≠ "Cartesian" → name ≠ "Nil" → Unnamed w sel name := by
    intro sel name k1 k2 i hi o ho _ hn
    rcases hN i hi o ho with h | h
    · exact k1 (hn ▸ h)
    · exact k2 (hn ▸ h)
  have hQ : NoNames w "Nil" := fun q i hi o ho hn => by
    rcases hN i hi o ho with h | h <;> rw [h] at hn <;> cases q <;> exact absurd hn (by decide)
  refine ⟨polyEngine, polyCurves, G, V, w, _, polyEngine_ok, polyEngine_calculus, hO, hS, ⟨hm.view, hm.name, hm.coords⟩, ?_⟩
  refine Does.bind (C44_upper polyEngine_ok polyEngine_calculus hS hO hm (Or.inr rfl) hQ
    (hU _ _ (by decide) (by decide))) ?_
  rintro r w1 ⟨-, a, e1, e2, e3⟩
  refine ⟨a, w1, e1, e2, fun u hu => ?_⟩
  obtain ⟨v, hv, hav⟩ := e3 2 (by omega)
  have hx : G.syms.getD 0 "" = "x" := by rw [hG.syms]; rfl
  have h := congrArg (valueAt (-1)) (hav.symm.trans hu)
  have hacc : MvPolynomial.eval (atPoint (-1)) (G.accelT polyCurves 2) = -1 := by
    rw [show G.accelT polyCurves 2 = G.accel polyCurves 2 from rfl, nil_accel _ hG 2 (by decide), if_pos rfl]
  rw [hx, valueAt_time, valueAt_time, map_mul, map_mul, map_sub, map_add, nil_pullT _ hG, hacc] at h
  have hv0 : MvPolynomial.eval (atPoint (-1)) v ≠ 0 := (hv.map (MvPolynomial.eval (atPoint (-1)))).ne_zero
  apply hv0
  linarith

/-! ## Metrics with the same name -/

/-- Whatever Lagrangian is first found with this name is returned, for every metric of this name. -/
theorem C42_found_by_name {m t : Id'} {om ot : Obj K} (h1 : w.objs[m]? = some om) (h2 : om.kind = .metric)
    (h3 : om.alive = true) (h4 : Finds w Kind.isLagrangian (om.name ++ " Lagrangian") t)
    (h5 : w.objs[t]? = some ot) (h6 : ot.alive = true) (h7 : ot.coords = om.coords) :
    calcLagrangian E C m none w = (.ok t, w) := by
  have hq : requireMetric m w = (.ok (), w) := by
    have : isMetric m w = (.ok true, w) := by
      unfold isMetric
      simp [PyM.bind_apply, PyM.world, h1, h2]
    unfold requireMetric
    rw [PyM.bind_apply, this]
    rfl
  have : Does (calcLagrangian E C m none) w fun r w' => r = t ∧ w' = w := by
    unfold calcLagrangian
    refine Does.step hq (Does.step (a := ()) rfl (Does.step (getObj_ok h1 h3) ?_))
    unfold unlessCurve
    refine Does.step (a := w) rfl ?_
    rw [show w.instances.find? _ = some t from h4]
    refine Does.step (getObj_ok h5 h6) ?_
    rw [h7]
    exact Does.step (a := ()) (by simp [PyM.onlyIf]; rfl) (Does.pure ⟨rfl, rfl⟩)
  obtain ⟨r, w', e, rfl, rfl⟩ := this
  exact e

/-- **C42** is false: of the metrics `dx²` and `5 dx²` with the same name, the second one gets the Lagrangian `xdot²`
of the first one. -/
theorem C42_false : ∃ (E : Engine ℚ) (C : Curves ℚ), EngineOK E ∧
    ((do
      let c ← newCoordinates (.val "Line") (.val [1]) ["x"] (.tuple [1]) (.val "x")
      let m ← newMetric E (.val "Flat") (.val ⟨[1, 1], [1]⟩) c (.tuple [-1, -1]) (.val "g")
      let _ ← calcLagrangian E C m none
      let m' ← newMetric E (.val "Flat") (.val ⟨[1, 1], [5]⟩) c (.tuple [-1, -1]) (.val "h")
      let r ← calcLagrangian E C m' none
      curveComponents E C r none none) (fresh : World ℚ)).1 = .ok ⟨[], [C.var "xdot" * C.var "xdot"]⟩ ∧
    C.var "xdot" * C.var "xdot" ≠ 5 * C.var "xdot" * C.var "xdot" :=
  ⟨rodEngine, rodCurves, rodEngine_ok, by decide +kernel, by decide +kernel⟩

end PyOGRe
