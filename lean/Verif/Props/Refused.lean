import Verif.Props.Registry

/-!
# Arguments of the wrong class: C75
-/

namespace PyOGRe
open Spec
variable {K : Type}

/-- There is an object with this number, and it is of one of these classes. -/
def Spec.OfKind (w : World K) (t : Id') (p : Kind → Bool) : Prop := ∃ o, w.objs[t]? = some o ∧ p o.kind = true

theorem requireMetric_refuses {w : World K} {m : Id'} (h : OfKind w m (· != .metric)) :
    requireMetric (K := K) m w = (.error .typeError, w) := by
  obtain ⟨o, ho, hk⟩ := h
  have h1 : isMetric (K := K) m w = (.ok false, w) := by
    show (Except.ok ((w.objs[m]?).any _), w) = _
    rw [ho]
    have : (o.kind == .metric) = false := by simpa using hk
    simp [this]
  unfold requireMetric
  exact PyM.then_ok h1 rfl

theorem requireMetric_accepts {w : World K} {m : Id'} (h : OfKind w m (· == .metric)) :
    requireMetric (K := K) m w = (.ok (), w) := by
  obtain ⟨o, ho, hk⟩ := h
  have h1 : isMetric (K := K) m w = (.ok true, w) := by
    show (Except.ok ((w.objs[m]?).any _), w) = _
    rw [ho]
    simp [hk]
  unfold requireMetric
  exact PyM.then_ok h1 rfl

theorem requireTensor_refuses {w : World K} {t : Id'} (h : OfKind w t (· == .coordinates)) :
    requireTensor (K := K) t w = (.error .typeError, w) := by
  obtain ⟨o, ho, hk⟩ := h
  unfold requireTensor
  rw [ho, if_pos (by simpa using hk)]

theorem isCoordinates_refuses {w : World K} {c : Id'} (h : OfKind w c (· != .coordinates)) :
    isCoordinates (K := K) c w = (.ok false, w) := by
  obtain ⟨o, ho, hk⟩ := h
  show (Except.ok ((w.objs[c]?).any _), w) = _
  rw [ho]
  have : (o.kind == .coordinates) = false := by simpa using hk
  simp [this]

theorem requireCoords_refuses {w : World K} {c : Id'} (h : OfKind w c (· != .coordinates)) :
    requireCoords (K := K) (some c) w = (.error .typeError, w) := by
  unfold requireCoords
  exact PyM.then_ok (isCoordinates_refuses h) rfl

theorem PyM.then_error {α β : Type} {m : PyM K α} {f : α → PyM K β} {w w' : World K} {e : PyErr}
    (h : m w = (.error e, w')) : (m >>= f) w = (.error e, w') := by rw [PyM.bind_apply, h]

variable [CommRing K] [DecidableEq K] [Algebra ℚ K]

/-- **C75**: the functions that compute something from a metric refuse every other object with `TypeError`, and nothing
changes. -/
theorem C75_metric (E : Engine K) {w : World K} {m : Id'} (h : OfKind w m (· != .metric)) :
    (∀ f : Computation, f ≠ .norm → f.fn E m w = (.error .typeError, w)) ∧
    (∀ (C : Curves K) (f : CurveComputation) (c : Option Id'), f.fn E C m c w = (.error .typeError, w)) ∧
    (∀ name comps c ix symbol, newTensor .tensor name comps m c ix symbol w = (.error .typeError, w)) := by
  have hr := requireMetric_refuses h
  refine ⟨fun f hf => ?_, fun C f c => ?_, fun name comps c ix symbol => ?_⟩
  · cases f with
    | christoffel => unfold Computation.fn calcChristoffel; exact PyM.then_error hr
    | riemann => unfold Computation.fn calcRiemann; exact PyM.then_error hr
    | ricci => unfold Computation.fn calcRicci; exact PyM.then_error hr
    | scalar => unfold Computation.fn calcScalar; exact PyM.then_error hr
    | einstein => unfold Computation.fn calcEinstein; exact PyM.then_error hr
    | weyl => unfold Computation.fn calcWeyl; exact PyM.then_error hr
    | norm => exact absurd rfl hf
  · cases f with
    | lagrangian => unfold CurveComputation.fn calcLagrangian; exact PyM.then_error hr
    | fromLagrangian => unfold CurveComputation.fn calcGeodesicLagrangian; exact PyM.then_error hr
    | inactive => unfold CurveComputation.fn calcGeodesicInactive; exact PyM.then_error hr
    | fromChristoffel => unfold CurveComputation.fn calcGeodesicChristoffel; exact PyM.then_error hr
    | withTime => unfold CurveComputation.fn calcGeodesicTime; exact PyM.then_error hr
  · obtain ⟨o, ho, hk⟩ := h
    have h1 : isMetric (K := K) m w = (.ok false, w) := by
      show (Except.ok ((w.objs[m]?).any _), w) = _
      rw [ho]
      have : (o.kind == .metric) = false := by simpa using hk
      simp [this]
    unfold newTensor
    exact PyM.then_ok h1 rfl

/-- **C75**: what needs a tensor refuses a coordinate system with `TypeError`, and nothing changes. -/
theorem C75_tensor (E : Engine K) {w : World K} {t : Id'} (h : OfKind w t (· == .coordinates)) :
    Computation.norm.fn E t w = (.error .typeError, w) ∧
    ∀ labels, calcInit E t labels w = (.error .typeError, w) := by
  have hr := requireTensor_refuses h
  refine ⟨?_, fun labels => ?_⟩
  · unfold Computation.fn; exact PyM.then_error hr
  · unfold calcInit; exact PyM.then_error hr

/-- **C75**: where a coordinate system is asked for, every other object is refused with `TypeError`, and nothing
changes. -/
theorem C75_coordinates (E : Engine K) {w : World K} {t c : Id'} (h : OfKind w c (· != .coordinates))
    (ht : InUse w t) :
    (∀ ix, getComponents E t (some c) ix w = (.error .typeError, w)) ∧
    changeDefaultCoords E t c w = (.error .typeError, w) ∧
    (∀ (C : Curves K) ix, curveComponents E C t (some c) ix w = (.error .typeError, w)) ∧
    (∀ C : Curves K, curveChangeCoords E C t c w = (.error .typeError, w)) ∧
    (∀ var, lineElement E var t (some c) w = (.error .typeError, w)) ∧
    volumeElement E t (some c) w = (.error .typeError, w) ∧
    (∀ (C : Curves K) (f : CurveComputation), OfKind w t (· == .metric) →
      f.fn E C t (some c) w = (.error .typeError, w)) ∧
    (∀ name comps ix symbol, OfKind w t (· == .metric) →
      newTensor .tensor name comps t c ix symbol w = (.error .typeError, w)) := by
  obtain ⟨o, ho, ha⟩ := ht
  have hc := isCoordinates_refuses h
  have hlow : lowerComponents E t (some c) w = (.error .typeError, w) := by
    unfold lowerComponents
    exact PyM.then_ok hc rfl
  refine ⟨fun ix => ?_, ?_, fun C ix => ?_, fun C => ?_, fun var => ?_, ?_, fun C f hm => ?_, fun name comps ix symbol hm => ?_⟩
  · unfold getComponents
    refine PyM.then_ok (getObj_ok ho ha) ?_
    unfold getRepresentation
    exact PyM.then_ok hc rfl
  · unfold changeDefaultCoords
    exact PyM.then_ok hc rfl
  · unfold curveComponents
    refine PyM.then_ok (getObj_ok ho ha) (PyM.then_error ?_)
    unfold curveRepresentation
    exact PyM.then_ok hc rfl
  · unfold curveChangeCoords
    exact PyM.then_ok hc rfl
  · unfold lineElement
    exact PyM.then_error hlow
  · unfold volumeElement
    exact PyM.then_error hlow
  · have hr := requireMetric_accepts hm
    have hq := requireCoords_refuses h
    cases f with
    | lagrangian => unfold CurveComputation.fn calcLagrangian; exact PyM.then_ok hr (PyM.then_error hq)
    | fromLagrangian => unfold CurveComputation.fn calcGeodesicLagrangian; exact PyM.then_ok hr (PyM.then_error hq)
    | inactive => unfold CurveComputation.fn calcGeodesicInactive; exact PyM.then_ok hr (PyM.then_error hq)
    | fromChristoffel => unfold CurveComputation.fn calcGeodesicChristoffel; exact PyM.then_ok hr (PyM.then_error hq)
    | withTime => unfold CurveComputation.fn calcGeodesicTime; exact PyM.then_ok hr (PyM.then_error hq)
  · obtain ⟨om, hom, hkm⟩ := hm
    have h1 : isMetric (K := K) t w = (.ok true, w) := by
      show (Except.ok ((w.objs[t]?).any _), w) = _
      rw [hom]
      simp [hkm]
    unfold newTensor newBaseTensor
    exact PyM.then_ok h1 (PyM.then_ok hc rfl)

/-- **C75**: a metric in coordinates that are not a coordinate system is refused, with the error of the first argument
that is wrong; a transformation to such an object is refused with `TransformationError`. -/
theorem C75_declarations (E : Engine K) {w : World K} {c : Id'} (h : OfKind w c (· != .coordinates)) :
    (∀ name comps ix symbol, ∃ e, newMetric E name comps c ix symbol w = (.error e, w)) ∧
    ∀ t rules, addCoordTransformation t c rules w = (.error .transformationError, w) := by
  have hc := isCoordinates_refuses h
  refine ⟨fun name comps ix symbol => ?_, fun t rules => ?_⟩
  · unfold newMetric
    cases hv : validateMetric E name comps ix symbol with
    | error e => exact ⟨e, PyM.then_error (by rw [PyM.lift_apply])⟩
    | ok u =>
      refine ⟨.typeError, PyM.then_ok (a := u) (by rw [PyM.lift_apply]) ?_⟩
      refine PyM.then_error ?_
      unfold newBaseTensor
      exact PyM.then_ok hc rfl
  · unfold addCoordTransformation
    exact PyM.then_ok hc rfl

/-- C75: in a session with a coordinate system, a metric and a vector, the vector and the coordinate system are not
metrics, the metric and the vector are not coordinate systems. -/
example : OfKind (history lineEngine [] (lineCalls "V" "W") fresh) 0 (· == .coordinates) ∧
    OfKind (history lineEngine [] (lineCalls "V" "W") fresh) 1 (· == .metric) ∧
    OfKind (history lineEngine [] (lineCalls "V" "W") fresh) 2 (· != .metric) ∧
    OfKind (history lineEngine [] (lineCalls "V" "W") fresh) 2 (· != .coordinates) := by
  have : ((history lineEngine [] (lineCalls "V" "W") fresh).objs.map fun o => o.kind).take 3 =
      [.coordinates, .metric, .tensor] := by decide +kernel
  have key : ∀ i k, ((history lineEngine [] (lineCalls "V" "W") fresh).objs.map fun o => o.kind)[i]? = some k →
      ∀ p : Kind → Bool, p k = true → OfKind (history lineEngine [] (lineCalls "V" "W") fresh) i p := by
    intro i k h p hp
    rw [List.getElem?_map, Option.map_eq_some_iff] at h
    obtain ⟨o, h1, h2⟩ := h
    exact ⟨o, h1, by rw [h2]; exact hp⟩
  have get : ∀ i < 3, ((history lineEngine [] (lineCalls "V" "W") fresh).objs.map fun o => o.kind)[i]? =
      [Kind.coordinates, .metric, .tensor][i]? := by
    intro i hi
    rw [← this, List.getElem?_take, if_pos hi]
  exact ⟨key 0 _ (get 0 (by omega)) _ rfl, key 1 _ (get 1 (by omega)) _ rfl, key 2 _ (get 2 (by omega)) _ rfl,
    key 2 _ (get 2 (by omega)) _ rfl⟩

end PyOGRe
