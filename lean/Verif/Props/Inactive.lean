import Verif.Lemmas.Inactive
import Verif.Props.Conserved

/-!
# Geodesic equations with derivatives that are not carried out: C96
-/

namespace PyOGRe
open Spec Finset
variable {K : Type} [CommRing K] [DecidableEq K] [Algebra ℚ K] {E : Engine K} {G : Ground K} {V : View K}
  {w : World K} {C : Curves K} {Dm : TField K} {Γ : Nat → Nat → Nat → K}

/-- `CalcGeodesicFromLagrangian(metric, coords, activate)`. -/
def Spec.geodesicLagrangian (E : Engine K) (C : Curves K) (activate : Bool) (m : Id') (coords : Option Id') : PyM K Id' :=
  if activate then calcGeodesicLagrangian E C m coords else calcGeodesicInactive E C m coords

/-- **C96** for the first request: with `activate=False` the components are the equations of Euler and Lagrange in which
the derivative by the curve parameter (`later`, of which nothing is assumed) is not carried out, and which are not
simplified; with `activate=True` they are the explicit ones, up to units. -/
theorem C96_first_partial (hE : EngineOK E) (hS : Scene G V w) (hC : Calculus E) (hO : CurvesOK E C G.syms)
    (hP : ProperNames C G.syms) (hT : Static E C G) (hm : AnyMetric G V Dm) (hQ : NamesFor E G Γ V w Dm.name)
    (hN : NamesCurve G w Kind.isLagrangian .lagrangian (Dm.name ++ " Lagrangian") [] fun _ => lagrangian C G)
    (hU : Unnamed w (· == .geodesicLagrangian) (Dm.name ++ " Geodesic From Lagrangian")) {coords : Option Id'}
    (hco : coords = some G.c ∨ coords = none) :
    Does (do
      let r ← geodesicLagrangian E C false G.m coords
      curveComponents E C r none none) w (fun a _ => a.shape = [G.n] ∧
        ∀ i, i < G.n → a.get [i] = C.asFunctions C.parameter G.syms (C.asSymbols G.syms
          (C.later (C.asFunctions C.parameter G.syms (∑ n ∈ range G.n, G.g i n * G.speed C n)) -
            C.asFunctions C.parameter G.syms (rat (1 / 2) * ∑ m ∈ range G.n, ∑ n ∈ range G.n,
              G.d E i (G.g m n) * G.speed C m * G.speed C n)))) ∧
    Does (do
      let r ← geodesicLagrangian E C true G.m coords
      curveComponents E C r none none) w (fun a _ => a.shape = [G.n] ∧
        ∀ i, i < G.n → ∃ u, IsUnit u ∧ a.get [i] = C.asFunctions C.parameter G.syms (u *
          ∑ j ∈ range G.n, G.g i j * (G.accel C j +
            ∑ m ∈ range G.n, ∑ n ∈ range G.n, christoffel E G j m n * G.speed C m * G.speed C n))) := by
  have hco' : coords = some G.c ∨ coords = none ∧ Dm.coords = G.c := hco.imp id fun h => ⟨h, hm.coords⟩
  constructor
  · refine Does.bind (anyGiven_inactive hE.simp_eq hS hC hO hP hT hm.view hm.name hQ hco' hN (namesCurve_unnamed hU)) ?_
    rintro r w' ⟨V', h1, h2, -, h4, h5, h6, h7⟩
    obtain ⟨a, e1, e2⟩ := holds_components (E := E) (C := C) h1 h6 (Or.inl rfl) (Or.inl rfl)
    exact ⟨a, w', e1, e2.2.1, fun i hi => e2.2.2 [i] rfl (by simpa using hi)⟩
  · refine Does.bind (anyGiven_geodesicLagrangian hE.simp_eq hS hC hO hP hT hm.view hm.name hQ hco' hN
      (namesCurve_unnamed hU)) ?_
    rintro r w' ⟨V', h1, h2, -, h4, h5, h6, h7⟩
    obtain ⟨a, e1, e2⟩ := holds_components (E := E) (C := C) h1 h6 (Or.inl rfl) (Or.inl rfl)
    refine ⟨a, w', e1, e2.2.1, fun i hi => ?_⟩
    obtain ⟨u, hu, hu'⟩ := hO.clear (∑ j ∈ range G.n, G.g i j * geodesic E C G j)
    exact ⟨u, hu, (e2.2.2 [i] rfl (by simpa using hi)).trans (congrArg (C.asFunctions C.parameter G.syms) hu')⟩

/-- The hypotheses of `C96_first_partial` hold of a metric whose Christoffel symbols are not 0. -/
example : ∃ (G : Ground Poly) (w : World Poly), christoffel polyEngine G 2 0 1 ≠ 0 ∧
    Does (do
      let r ← geodesicLagrangian polyEngine polyCurves false G.m none
      curveComponents polyEngine polyCurves r none none) w fun a _ => a.shape = [3] := by
  obtain ⟨G, V, w, h1, h2, -, h3, h4, h5, h6, h7⟩ := curved_full
  have hU : ∀ sel name, name ≠ "Cartesian" → name ≠ "Nil" → Unnamed w sel name := by
    intro sel name k1 k2 i hi o ho _ hn
    rcases h4 i hi o ho with h | h
    · exact k1 (hn ▸ h)
    · exact k2 (hn ▸ h)
  refine ⟨G, w, by rw [h5]; exact curved_half, Does.mono (C96_first_partial polyEngine_ok h1 polyEngine_calculus
    (by rw [h6]; exact polyCurves_ok) (by rw [h6]; exact polyCurves_names) (nil_static h6 h2 h7)
    ⟨h3.view, h3.name, h3.coords⟩ (namesFor_christoffel (curved_names h4))
    (namesCurve_unnamed (hU _ _ (by decide) (by decide))) (hU _ _ (by decide) (by decide)) (Or.inr rfl)).1 fun a _ h => ?_⟩
  rw [h.1, h2]

/-- **C96** is false of every later request: whatever equations were computed first are returned, in every session. -/
theorem C96_found_by_name {m t : Id'} {om ot : Obj K} (h1 : w.objs[m]? = some om) (h2 : om.kind = .metric)
    (h3 : om.alive = true) (h4 : Finds w (· == .geodesicLagrangian) (om.name ++ " Geodesic From Lagrangian") t)
    (h5 : w.objs[t]? = some ot) (h6 : ot.alive = true) (h7 : ot.coords = om.coords) (activate : Bool) :
    geodesicLagrangian E C activate m none w = (.ok t, w) := by
  have hq : requireMetric m w = (.ok (), w) := by
    have : isMetric m w = (.ok true, w) := by
      unfold isMetric
      simp [PyM.bind_apply, PyM.world, h1, h2]
    unfold requireMetric
    rw [PyM.bind_apply, this]
    rfl
  have key : ∀ k : String → Id' → PyM K Id', Does (do
      requireMetric m
      requireCoords none
      let om ← getObj m
      unlessCurve E C (· == .geodesicLagrangian) (om.name ++ " Geodesic From Lagrangian") ((none : Option Id').getD om.coords)
        (k om.name ((none : Option Id').getD om.coords))) w fun r w' => r = t ∧ w' = w := by
    intro k
    refine Does.step hq (Does.step (a := ()) rfl (Does.step (getObj_ok h1 h3) ?_))
    unfold unlessCurve
    refine Does.step (a := w) rfl ?_
    rw [show w.instances.find? _ = some t from h4]
    refine Does.step (getObj_ok h5 h6) ?_
    rw [h7]
    exact Does.step (a := ()) (by simp [PyM.onlyIf]; rfl) (Does.pure ⟨rfl, rfl⟩)
  cases activate
  · obtain ⟨r, w', e, rfl, rfl⟩ := key fun _ c => computeGeodesicInactive E C m c
    exact e
  · obtain ⟨r, w', e, rfl, rfl⟩ := key fun _ c => computeGeodesicLagrangian E C m c
    exact e

/-- **C96** is false: after a request with `activate=False`, the request with `activate=True` returns the same equations,
in which the derivative is not carried out (coded by the number 1000). -/
theorem C96_false : ∃ (E : Engine ℚ) (C : Curves ℚ), EngineOK E ∧
    ((do
      let c ← newCoordinates (.val "Line") (.val [1]) ["x"] (.tuple [1]) (.val "x")
      let m ← newMetric E (.val "Flat") (.val ⟨[1, 1], [1]⟩) c (.tuple [-1, -1]) (.val "g")
      let _ ← geodesicLagrangian E C false m none
      let r ← geodesicLagrangian E C true m none
      curveComponents E C r none none) (fresh : World ℚ)).1 = .ok ⟨[1], [1000]⟩ ∧
    ((do
      let c ← newCoordinates (.val "Line") (.val [1]) ["x"] (.tuple [1]) (.val "x")
      let m ← newMetric E (.val "Flat") (.val ⟨[1, 1], [1]⟩) c (.tuple [-1, -1]) (.val "g")
      let r ← geodesicLagrangian E C true m none
      curveComponents E C r none none) (fresh : World ℚ)).1 = .ok ⟨[1], [0]⟩ :=
  ⟨rodEngine, rodCurves, rodEngine_ok, by decide +kernel, by decide +kernel⟩

end PyOGRe
