import Verif.Lemmas.NewLagrangian
import Verif.Spec.Jets
import Verif.Spec.Line
import Verif.Props.Curvature

/-!
# Lagrangians and geodesic equations: C42, C43, C44, C45

The theorems are about sessions (`Scene`) in which registered objects that are called like a Lagrangian or a
geodesic equation of the metric hold what their name says (`NamesCurve`), for instance because there are none.
What sympy does with symbols, functions of the curve parameter and denominators is assumed to obey `CurvesOK`.
-/

namespace PyOGRe
open Spec Finset
variable {K : Type} [CommRing K] [DecidableEq K] [Algebra ℚ K] {E : Engine K} {G : Ground K} {V : View K}
  {w : World K} {C : Curves K} {Dm : TField K}

/-- **C42**, in the default coordinates of the metric or in any others in which the metric is in view: the Lagrangian
is `g_{mn} ẋ^m ẋ^n` with functions of the curve parameter for the coordinates, it is registered under the name of the
metric, and asking again gives the same object. -/
theorem C42_lagrangian_partial (hE : EngineOK E) (hS : Scene G V w) (C : Curves K) (hm : V G.m = some Dm)
    (hmn : Dm.name ≠ "TEMP") {coords : Option Id'} (hco : coords = some G.c ∨ coords = none ∧ Dm.coords = G.c)
    (hQ : NamesOK E G V w Dm.name)
    (hN : NamesCurve G w Kind.isLagrangian .lagrangian (Dm.name ++ " Lagrangian") [] fun _ => lagrangian C G) :
    Does (calcLagrangian E C G.m coords) w fun r w' => r ∈ w'.instances ∧
      (∃ o, w'.objs[r]? = some o ∧ o.kind = .lagrangian ∧ o.name = Dm.name ++ " Lagrangian") ∧
      (∃ a, curveComponents E C r none none w' = (.ok a, w') ∧ a.shape = [] ∧
        a.get [] = C.asFunctions C.parameter G.syms
          (∑ m ∈ range G.n, ∑ n ∈ range G.n, G.g m n * G.speed C m * G.speed C n)) ∧
      calcLagrangian E C G.m coords w' = (.ok r, w') := by
  refine Does.mono (given_lagrangian hE.simp_eq hS C hm hmn hQ hco hN) ?_
  rintro r w' ⟨V', h1, h2, -, h4, h5, h6, h7⟩
  obtain ⟨a, e1, e2⟩ := holds_components (E := E) (C := C) h1 h6 (Or.inl rfl) (Or.inl rfl)
  obtain ⟨o, k1, -, k3, k4, -⟩ := id h6
  refine ⟨h5, ⟨o, k1, k3, k4⟩, ⟨a, e1, e2.2.1, e2.2.2 [] rfl (by simp)⟩, ?_⟩
  have := does_curve_start (k := fun n c => unlessCurve E C Kind.isLagrangian (n ++ " Lagrangian") c
    (computeLagrangian E C G.m c)) h1 (h2 _ _ hm hmn) hco (unlessCurve_again h7 h6 _)
  obtain ⟨r', w'', f1, rfl, rfl⟩ := this
  exact f1

/-- The components of the geodesic equations from the Lagrangian are those of the textbook with the index lowered,
multiplied by units, and with functions of the curve parameter for the coordinates. -/
theorem C43_lagrangian (hE : EngineOK E) (hS : Scene G V w) (hC : Calculus E) (hO : CurvesOK E C G.syms)
    (hP : ProperNames C G.syms) (hT : Static E C G) (hm : V G.m = some Dm) (hmn : Dm.name ≠ "TEMP")
    {coords : Option Id'} (hco : coords = some G.c ∨ coords = none ∧ Dm.coords = G.c) (hQ : NamesOK E G V w Dm.name)
    (hN : NamesCurve G w Kind.isLagrangian .lagrangian (Dm.name ++ " Lagrangian") [] fun _ => lagrangian C G)
    (hU : Unnamed w (· == .geodesicLagrangian) (Dm.name ++ " Geodesic From Lagrangian")) :
    Does (calcGeodesicLagrangian E C G.m coords) w fun r w' => r ∈ w'.instances ∧
      (∃ o, w'.objs[r]? = some o ∧ o.kind = .geodesicLagrangian ∧ o.name = Dm.name ++ " Geodesic From Lagrangian") ∧
      (∃ a, curveComponents E C r none none w' = (.ok a, w') ∧ a.shape = [G.n] ∧
        ∀ i, i < G.n → ∃ u, IsUnit u ∧ a.get [i] = C.asFunctions C.parameter G.syms (u *
          ∑ j ∈ range G.n, G.g i j * (G.accel C j +
            ∑ m ∈ range G.n, ∑ n ∈ range G.n, christoffel E G j m n * G.speed C m * G.speed C n))) ∧
      calcGeodesicLagrangian E C G.m coords w' = (.ok r, w') := by
  refine Does.mono (given_geodesicLagrangian hE.simp_eq hS hC hO hP hT hm hmn hQ hco hN (namesCurve_unnamed hU)) ?_
  rintro r w' ⟨V', h1, h2, -, h4, h5, h6, h7⟩
  obtain ⟨a, e1, e2⟩ := holds_components (E := E) (C := C) h1 h6 (Or.inl rfl) (Or.inl rfl)
  obtain ⟨o, k1, -, k3, k4, -⟩ := id h6
  refine ⟨h5, ⟨o, k1, k3, k4⟩, ⟨a, e1, e2.2.1, fun i hi => ?_⟩, ?_⟩
  · obtain ⟨u, hu, hu'⟩ := hO.clear (∑ j ∈ range G.n, G.g i j * geodesic E C G j)
    refine ⟨u, hu, (e2.2.2 [i] rfl (by simpa using hi)).trans ?_⟩
    exact congrArg (C.asFunctions C.parameter G.syms) hu'
  have := does_curve_start (k := fun n c => unlessCurve E C (· == .geodesicLagrangian)
    (n ++ " Geodesic From Lagrangian") c (computeGeodesicLagrangian E C G.m c)) h1 (h2 _ _ hm hmn) hco
    (unlessCurve_again h7 h6 _)
  obtain ⟨r', w'', f1, rfl, rfl⟩ := this
  exact f1

/-- The components of the geodesic equations from the Christoffel symbols are those of the textbook, multiplied by
units, and with functions of the curve parameter for the coordinates. -/
theorem C43_christoffel (hE : EngineOK E) (hS : Scene G V w)
    (hclear : ∀ x, ∃ d, IsUnit d ∧ C.clear x = d * x) (hm : LowerMetric G V Dm)
    {coords : Option Id'} (hco : coords = some G.c ∨ coords = none) (hQ : NamesOK E G V w Dm.name)
    (hU : Unnamed w (· == .geodesicChristoffel) (Dm.name ++ " Geodesic From Christoffel")) :
    Does (calcGeodesicChristoffel E C G.m coords) w fun r w' => r ∈ w'.instances ∧
      (∃ o, w'.objs[r]? = some o ∧ o.kind = .geodesicChristoffel ∧ o.name = Dm.name ++ " Geodesic From Christoffel") ∧
      (∃ a, curveComponents E C r none none w' = (.ok a, w') ∧ a.shape = [G.n] ∧
        ∀ i, i < G.n → ∃ u, IsUnit u ∧ a.get [i] = C.asFunctions C.parameter G.syms (u * (G.accel C i +
          ∑ m ∈ range G.n, ∑ n ∈ range G.n, christoffel E G i m n * G.speed C m * G.speed C n))) ∧
      calcGeodesicChristoffel E C G.m coords w' = (.ok r, w') := by
  refine Does.mono (given_geodesicChristoffel hE.simp_eq hS C hm hQ hco (namesCurve_unnamed hU)) ?_
  rintro r w' ⟨V', h1, h2, -, h4, h5, h6, h7⟩
  obtain ⟨a, e1, e2⟩ := holds_components (E := E) (C := C) h1 h6 (Or.inl rfl) (Or.inl rfl)
  obtain ⟨o, k1, -, k3, k4, -⟩ := id h6
  refine ⟨h5, ⟨o, k1, k3, k4⟩, ⟨a, e1, e2.2.1, fun i hi => ?_⟩, ?_⟩
  · obtain ⟨u, hu, hu'⟩ := hclear (geodesic E C G i)
    refine ⟨u, hu, (e2.2.2 [i] rfl (by simpa using hi)).trans ?_⟩
    exact congrArg (C.asFunctions C.parameter G.syms) hu'
  have := does_curve_start (k := fun n c => unlessCurve E C (· == .geodesicChristoffel)
    (n ++ " Geodesic From Christoffel") c (computeGeodesicChristoffel E C G.m c)) h1 (h2 _ _ hm.view hm.name)
    (hco.imp id fun h => ⟨h, hm.coords⟩) (unlessCurve_again h7 h6 _)
  obtain ⟨r', w'', f1, rfl, rfl⟩ := this
  exact f1

/-- **C43**: the two systems of equations are equivalent.  One is, up to units, the other one with the index lowered,
so for all values of coordinates, velocities and accelerations (homomorphisms `φ` to any ring) one vanishes if the other
one does.  Missing: metrics with components that contain velocities, and sessions in which an object of another metric
has one of the names. -/
theorem C43_equivalent_partial (hE : EngineOK E) (hS : Scene G V w) (hC : Calculus E) (hO : CurvesOK E C G.syms)
    (hP : ProperNames C G.syms) (hT : Static E C G) (hm : LowerMetric G V Dm) (hQ : NamesOK E G V w Dm.name)
    (hN : NamesCurve G w Kind.isLagrangian .lagrangian (Dm.name ++ " Lagrangian") [] fun _ => lagrangian C G)
    (hU : Unnamed w (· == .geodesicLagrangian) (Dm.name ++ " Geodesic From Lagrangian"))
    (hU' : Unnamed w (· == .geodesicChristoffel) (Dm.name ++ " Geodesic From Christoffel")) :
    Does (do
      let r ← calcGeodesicLagrangian E C G.m none
      let x ← curveComponents E C r none none
      let s ← calcGeodesicChristoffel E C G.m none
      let y ← curveComponents E C s none none
      return (x, y)) w fun (x, y) _ => x.shape = [G.n] ∧ y.shape = [G.n] ∧
        (∃ u v : Nat → K, (∀ i, i < G.n → IsUnit (u i) ∧ IsUnit (v i) ∧
          u i * x.get [i] = ∑ j ∈ range G.n, C.asFunctions C.parameter G.syms (G.g i j) * (v j * y.get [j]))) ∧
        ∀ (R : Type) [CommRing R] (φ : K →+* R),
          (∀ i, i < G.n → φ (x.get [i]) = 0) ↔ ∀ i, i < G.n → φ (y.get [i]) = 0 := by
  refine Does.bind (given_geodesicLagrangian hE.simp_eq hS hC hO hP hT hm.view hm.name hQ (Or.inr ⟨rfl, hm.coords⟩) hN
    (namesCurve_unnamed hU)) ?_
  intro r w1 hg
  have hU1 := unnamed_given hg (sel := (· == .geodesicChristoffel)) (name' := Dm.name ++ " Geodesic From Christoffel") rfl
    (suffix_ne (by decide) _) (fun hc => absurd (append_cancel hc) (by decide))
    (suffix_not_quantity (by intro q; cases q <;> decide) _) hU'
  obtain ⟨V1, h1, h2, -, h4, h5, h6, -⟩ := hg
  obtain ⟨a, e1, e2⟩ := holds_components (E := E) (C := C) h1 h6 (Or.inl rfl) (Or.inl rfl)
  refine Does.step e1 ?_
  refine Does.bind (given_geodesicChristoffel hE.simp_eq h1 C (lowerMetric_keeps hm h2) h4 (Or.inr rfl)
    (namesCurve_unnamed hU1)) ?_
  rintro s w2 ⟨V2, k1, k2, -, k4, k5, k6, -⟩
  obtain ⟨b, f1, f2⟩ := holds_components (E := E) (C := C) k1 k6 (Or.inl rfl) (Or.inl rfl)
  refine Does.step f1 (Does.pure ⟨e2.2.1, f2.2.1, ?_⟩)
  refine equations_equivalent (functionsHom hO C.parameter) hS.inverse (e := geodesic E C G)
    (x := fun i => a.get [i]) (y := fun i => b.get [i]) (fun i hi => ?_) fun i hi => ?_
  · obtain ⟨u, hu, hu'⟩ := hO.clear (∑ j ∈ range G.n, G.g i j * geodesic E C G j)
    exact ⟨u, hu, (e2.2.2 [i] rfl (by simpa using hi)).trans (congrArg (C.asFunctions C.parameter G.syms) hu')⟩
  · obtain ⟨u, hu, hu'⟩ := hO.clear (geodesic E C G i)
    exact ⟨u, hu, (f2.2.2 [i] rfl (by simpa using hi)).trans (congrArg (C.asFunctions C.parameter G.syms) hu')⟩

/-- **C44** in the default coordinates of the metric: the zeroth component is 0, the others are `a^i + (Γ^i_{mn} -
Γ^0_{mn} v^i) v^m v^n` with `v^0 = 1` and `a^0 = 0`, multiplied by units, and with functions of the zeroth coordinate for
the others. -/
theorem C44_time_partial (hE : EngineOK E) (hS : Scene G V w) (hO : CurvesOK E C G.syms) (hm : LowerMetric G V Dm)
    {coords : Option Id'} (hco : coords = some G.c ∨ coords = none) (hQ : NamesOK E G V w Dm.name)
    (hU : Unnamed w (· == .geodesicTime) (Dm.name ++ " Geodesic With Time Parameter")) :
    Does (calcGeodesicTime E C G.m coords) w fun r w' => r ∈ w'.instances ∧
      (∃ o, w'.objs[r]? = some o ∧ o.kind = .geodesicTime ∧ o.name = Dm.name ++ " Geodesic With Time Parameter") ∧
      (∃ a, curveComponents E C r none none w' = (.ok a, w') ∧ a.shape = [G.n] ∧ a.get [0] = 0 ∧
        ∀ i, i < G.n → ∃ u, IsUnit u ∧ a.get [i] = C.asFunctions (G.syms.getD 0 "") G.syms (u *
          (G.accelT C i + ∑ m ∈ range G.n, ∑ n ∈ range G.n,
            (christoffel E G i m n - christoffel E G 0 m n * G.speedT C i) * G.speedT C m * G.speedT C n))) ∧
      calcGeodesicTime E C G.m coords w' = (.ok r, w') := by
  refine Does.mono (given_geodesicTime hE.simp_eq hS C hm hQ hco (namesCurve_unnamed hU)) ?_
  rintro r w' ⟨V', h1, h2, -, h4, h5, h6, h7⟩
  obtain ⟨a, e1, e2⟩ := holds_components (E := E) (C := C) h1 h6 (Or.inl rfl) (Or.inl rfl)
  obtain ⟨o, k1, -, k3, k4, -⟩ := id h6
  have hval : ∀ i, i < G.n → ∃ u, IsUnit u ∧ a.get [i] =
      C.asFunctions (G.syms.getD 0 "") G.syms (u * geodesicT E C G i) := fun i hi => by
    obtain ⟨u, hu, hu'⟩ := hO.clear (geodesicT E C G i)
    refine ⟨u, hu, (e2.2.2 [i] rfl (by simpa using hi)).trans ?_⟩
    exact congrArg (C.asFunctions (G.syms.getD 0 "") G.syms) hu'
  refine ⟨h5, ⟨o, k1, k3, k4⟩, ⟨a, e1, e2.2.1, ?_, hval⟩, ?_⟩
  · obtain ⟨u, -, h⟩ := hval 0 hS.pos
    rw [h, show geodesicT E C G 0 = 0 by simp [geodesicT, Ground.accelT, Ground.speedT], mul_zero]
    exact map_zero (functionsHom hO _)
  have := does_curve_start (k := fun n c => unlessCurve E C (· == .geodesicTime)
    (n ++ " Geodesic With Time Parameter") c (computeGeodesicTime E C G.m c)) h1 (h2 _ _ hm.view hm.name)
    (hco.imp id fun h => ⟨h, hm.coords⟩) (unlessCurve_again h7 h6 _)
  obtain ⟨r', w'', f1, rfl, rfl⟩ := this
  exact f1

/-- **C42** in new coordinates: a Lagrangian that is requested there is `g'_{ab} u̇^a u̇^b` with the components of the
metric that C13 gives in the new coordinates.  An old coordinate without a rule has to be the new one at the same
place.  It is assumed that no coordinate is called like a velocity and that the metric contains no velocities. -/
theorem C42_new_coordinates_partial (hE : EngineOK E) (hT : EngineTotal E) (hS : Scene G V w) (hs : SubstOK E C)
    (hC : Calculus E) (hvar : ∀ s t, E.diff s (C.var t) = if s = t then 1 else 0)
    (hm : LowerMetric G V Dm) (hU : Unnamed w Kind.isLagrangian (Dm.name ++ " Lagrangian"))
    {c' : Id'} {new : List Sym} {rules : List (Option (Sym × K))} (hch : Charts w G.c c' G.syms new (some rules))
    (hcc : c' ≠ G.c) (hct : ∀ o, w.objs[c']? = some o → o.name ≠ "TEMP") (hN : NewNames G.syms new)
    (hV : VelocityOK E C new) (hR : ChartRules E G.syms new rules) (hnew : new.length = G.n) {Jinv : Nat → Nat → K}
    (hI : Inverse G.n (chartJacobian E G.syms new rules) Jinv)
    (hg : ∀ i j, i < G.n → j < G.n → ∀ s ∈ G.syms, E.diff (dot s) (G.g i j) = 0) :
    Does (do
      let r ← calcLagrangian E C G.m none
      curveComponents E C r (some c') none) w fun a _ => a.shape = [] ∧ a.get [] =
        C.asFunctions C.parameter new (∑ a ∈ range G.n, ∑ b ∈ range G.n,
          transformed E G.n (chartJacobian E G.syms new rules) Jinv rules [-1, -1]
            (fun I => G.g (I.getD 0 0) (I.getD 1 0)) [a, b] *
          C.var (dot (new.getD a "")) * C.var (dot (new.getD b ""))) := by
  refine Does.bind (Q := Curved G V w .lagrangian (Dm.name ++ " Lagrangian") [] fun _ => lagrangian C G) ?_ ?_
  · unfold calcLagrangian
    refine does_curve_start (k := fun n c => unlessCurve E C Kind.isLagrangian (n ++ " Lagrangian") c
      (computeLagrangian E C G.m c)) hS hm.view (Or.inr ⟨rfl, hm.coords⟩)
      (does_unlessCurve hS (kind := .lagrangian) (ix := []) (f := fun _ => lagrangian C G) (namesCurve_unnamed hU) (fun t ht hH _ => ?_) fun _ =>
        does_computeLagrangian hE.simp_eq hS C hm.view hm.name)
    obtain ⟨o, h1, -, h3, h4, -⟩ := hH
    exact absurd h4 (hU t ht o h1 (by rw [h3]; rfl))
  · rintro r w1 ⟨V1, h1, -, h3, -, -, h6, h7⟩
    obtain ⟨⟨oc, c1, c2, c3, c4, c5⟩, oc', c1', c2', c3', c4'⟩ := hch
    obtain ⟨o1, a1, a2, -, -, -, -, -, a8, a9, -⟩ := h3.1 _ _ c1
    obtain ⟨o2, b1, b2, -, -, -, -, -, b8, -, b10⟩ := h3.1 _ _ c1'
    obtain ⟨o3, d1, d2, d3, -⟩ := h1.chart
    rw [a1] at d1; cases d1
    have hch1 : Charts w1 G.c c' G.syms new (some rules) :=
      ⟨⟨o1, a1, a2.trans c2, d3, a8.trans c4, by rw [a9]; exact c5⟩,
        o2, b1, b2.trans c2', (b10 (hct _ c1')).1.trans c3', b8.trans c4'⟩
    obtain ⟨a, w', e1, e2, e3⟩ := lagrangian_new_chart hE hT h1 hs hC hvar hch1 hcc hN hV hR hnew hI hg h6 h7
    exact ⟨a, w', e1, e2, e3⟩

/-- **C45** is false: whatever the rules between the coordinates are, and whatever sympy does, the components of a
geodesic equation that are returned in new coordinates are the equations in the old coordinates (multiplied by
something if there is a denominator), in which functions are substituted for the *new* coordinates. -/
theorem C45_false (hE : EngineOK E) (hT : EngineTotal E) {w : World K} {t c c' : Id'} {o : Obj K} {b : Arr K}
    {d : Dict (List Int) (Arr K)} {n : Nat} (hn : 0 < n) {old new : List Sym} {rules : List (Option (Sym × K))}
    (C : Curves K) (ho : w.objs[t]? = some o) (hal : o.alive = true)
    (hk : o.kind = .geodesicLagrangian ∨ o.kind = .geodesicChristoffel ∨ o.kind = .geodesicTime) (hoc : o.coords = c)
    (hix : o.indices = [1]) (hd : o.comps.get? c = some d) (hb : d.get? [1] = some b) (hs : b.shape = [n])
    (hu : Unseen w t c') (hch : Charts w c c' old new (some rules)) (hold : old.length = n) (hnew : new.length = n)
    (hg : GoodRules rules) (hj : cachedJacobian w c c' = none) {Jinv : Nat → Nat → K}
    (hI : Inverse n (chartJacobian E old new rules) Jinv) :
    ∃ a w', curveComponents E C t (some c') none w = (.ok a, w') ∧ a.shape = [n] ∧ ∀ i, i < n →
      a.get [i] = C.asFunctions (if o.kind = .geodesicTime then new.getD 0 "" else C.parameter) new
        (C.clear (b.get [i])) := by
  obtain ⟨j, e⟩ := calculateJacobian_total hE hT hn hold hnew hg hI
  obtain ⟨-, s1, -, s2, -⟩ := calculateJacobian_sound E hE old new n hold rules hg j e
  obtain ⟨⟨oc, c1, c2, c3, c4, c5⟩, oc', c1', c2', c3', c4'⟩ := hch
  have hj' : UsedJacobians E oc oc' c' rules j := by
    unfold cachedJacobian at hj
    rw [c1] at hj
    exact Or.inr ⟨hj, by rw [c4, c4']; exact e⟩
  obtain ⟨b', e1, -⟩ := transformComponents_spec E hE.simp_eq hn j.J j.Jinv b (eqRules rules) [1] s1 s2 (by simp) hs
  obtain ⟨f, hf⟩ := contraction_ok e1
  obtain ⟨w', hw'⟩ := curveComponents_direct (C := C) ho hal (by rcases hk with h | h | h <;> rw [h] <;> decide) hoc hd hb
    (hu o ho) (by rw [hix]; rfl) c1 c3 c2 c1' c3' c2' c5 hj'
    (isArray_of_ne (by rw [hix]; simp) c) hf
  have hreq : curveComponents E C t (some c') none w = curveComponents E C t (some c') (some [1]) w := by
    unfold curveComponents
    rw [PyM.bind_apply, PyM.bind_apply, getObj_ok ho hal]
    dsimp only
    rw [Option.getD_none, Option.getD_some, Option.getD_some, hix]
  have hne : ¬ o.kind = .lagrangian := by rcases hk with h | h | h <;> rw [h] <;> decide
  rw [hreq]
  refine ⟨_, _, hw', ?_, fun i hi => ?_⟩
  · rw [newCurve, if_neg hne]
    exact hs
  · have hv : Valid b.shape [i] := by rw [hs]; exact valid_cons.2 ⟨hi, valid_nil.2 rfl⟩
    rw [newCurve, if_neg hne, c4', Arr.get_map (a := Arr.map _ (Arr.map _ b)) hv, Arr.get_map (a := Arr.map _ b) hv,
      Arr.get_map hv, hE.simp_eq]
    congr 1
    rcases hk with h | h | h <;> rw [h] <;> rfl

/-- The hypotheses of C42, C43 and C44 hold after the metric `dx² + (dy + z dx)² + dz²` of space has been declared; its
geodesic equations are not only accelerations. -/
example : ∃ (E : Engine Poly) (C : Curves Poly) (G : Ground Poly) (V : View Poly) (w : World Poly) (Dm : TField Poly),
    EngineOK E ∧ Calculus E ∧ CurvesOK E C G.syms ∧ ProperNames C G.syms ∧ Static E C G ∧ Scene G V w ∧
    LowerMetric G V Dm ∧ NamesOK E G V w Dm.name ∧ Unnamed w Kind.isLagrangian (Dm.name ++ " Lagrangian") ∧
    NamesCurve G w Kind.isLagrangian .lagrangian (Dm.name ++ " Lagrangian") [] (fun _ => lagrangian C G) ∧
    Unnamed w (· == .geodesicLagrangian) (Dm.name ++ " Geodesic From Lagrangian") ∧
    Unnamed w (· == .geodesicChristoffel) (Dm.name ++ " Geodesic From Christoffel") ∧
    Unnamed w (· == .geodesicTime) (Dm.name ++ " Geodesic With Time Parameter") ∧
    G.n = 3 ∧ christoffel E G 2 0 1 ≠ 0 := by
  obtain ⟨G, V, w, h1, h2, -, h3, h4, h5, h6, h7⟩ := curved_full
  have hU : ∀ sel name, name ≠ "Cartesian" → name ≠ "Nil" → Unnamed w sel name := by
    intro sel name k1 k2 i hi o ho _ hn
    rcases h4 i hi o ho with h | h
    · exact k1 (hn ▸ h)
    · exact k2 (hn ▸ h)
  refine ⟨polyEngine, polyCurves, G, V, w, _, polyEngine_ok, polyEngine_calculus, by rw [h6]; exact polyCurves_ok,
    by rw [h6]; exact polyCurves_names, nil_static h6 h2 h7, h1, h3, curved_names h4, hU _ _ (by decide) (by decide),
    namesCurve_unnamed (hU _ _ (by decide) (by decide)), hU _ _ (by decide) (by decide), hU _ _ (by decide) (by decide),
    hU _ _ (by decide) (by decide), h2, ?_⟩
  rw [h5]
  exact curved_half

/-- C42 in new coordinates: in the plane with the coordinates `x = u + v²`, `y = v`, the Lagrangian of the flat metric. -/
example : ∃ (C : Curves Poly) (G : Ground Poly), G.n = 2 ∧
    Does (do
      let r ← calcLagrangian polyEngine C G.m none
      curveComponents polyEngine C r (some 1) none) flatWorld fun a _ => a.shape = [] := by
  obtain ⟨G, V, h1, h2, h3, h4, h5, h6, h7, h8, h9⟩ := flat_scene
  have hI := inverse_congr (inverse_shear (2 * MvPolynomial.X "v" : Poly)) (fun i j hi hj => (jac01 i j hi hj).symm)
    fun _ _ _ _ => rfl
  refine ⟨polyCurves, G, h2, Does.mono (C42_new_coordinates_partial polyEngine_ok polyEngine_total h1 polyEngine_subst
    polyEngine_calculus polyCurves_ok.var h6 h7 (c' := 1) (new := ["u", "v"]) (rules := rules01) (by rw [h3, h4]; exact h8)
    (by rw [h3]; decide) h9 (by rw [h4]; unfold NewNames; decide) (polyCurves_velocity _) (by rw [h4]; exact chartRules_full flat_rules (by decide))
    h2.symm (by rw [h2, h4]; exact hI) ?_) fun a _ h => h.1⟩
  · intro i j hi hj s _
    rw [h2] at hi hj
    rw [h5 i j hi hj]
    show MvPolynomial.pderiv _ _ = 0
    unfold delta
    split_ifs <;> simp

/-- A session with constants, symbols coded as numbers, and one derivative. -/
def Spec.rodEngine : Engine ℚ := { lineEngine with diff := fun s x => if s = "u" ∧ x = 210 then 2 else 0 }

theorem Spec.rodEngine_ok : EngineOK rodEngine := ⟨fun _ => rfl, lineEngine_ok.inv_ok⟩

/-- The symbols `xdot`, `xddot`, `udot` and `uddot` are coded as 101, 102, 104 and 105. -/
def Spec.rodCurves : Curves ℚ where
  var s := (["x", "xdot", "xddot", "u", "udot", "uddot"].idxOf s : ℚ) + 100
  parameter := "lambda"
  asFunctions _ _ x := x
  byFunction _ _ := 0
  rate x := x
  later x := x + 1000
  asSymbols _ x := x
  velocity _ x := x
  clear x := x

/-- C45: in the session with the coordinate `x`, the new coordinate `u` with the rule `x = 2 u` (coded as 210) and the
metric `dx²`, the geodesic equation `xddot = 0` is returned in both systems of coordinates. -/
example : ((do
      let c ← newCoordinates (.val "Old") (.val [1]) ["x"] (.tuple [1]) (.val "x")
      let c' ← newCoordinates (.val "New") (.val [1]) ["u"] (.tuple [1]) (.val "u")
      addCoordTransformation c c' (some [some ("x", 210)])
      let m ← newMetric rodEngine (.val "Flat") (.val ⟨[1, 1], [1]⟩) c (.tuple [-1, -1]) (.val "g")
      let r ← calcGeodesicChristoffel rodEngine rodCurves m none
      let a ← curveComponents rodEngine rodCurves r none none
      let b ← curveComponents rodEngine rodCurves r (some c') none
      return (a, b)) (fresh : World ℚ)).1 =
    .ok (⟨[1], [rodCurves.var "xddot"]⟩, ⟨[1], [rodCurves.var "xddot"]⟩) := by
  decide +kernel

end PyOGRe
