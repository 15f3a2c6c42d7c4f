import Verif.Spec.Default
import Verif.Lemmas.Attributes
import Verif.Lemmas.Session
import Verif.Props.Geodesic

/-!
# C125: changing defaults
-/

namespace PyOGRe
open Spec
variable {K : Type} [CommRing K] {E : Engine K} {w w' w1 : World K}

omit [CommRing K] in
theorem bind_raised {α β : Type} {m : PyM K α} {f : α → PyM K β} {e : PyErr} (h : (m >>= f) w = (.error e, w')) :
    m w = (.error e, w') ∨ ∃ a w1, m w = (.ok a, w1) ∧ f a w1 = (.error e, w') := by
  rw [PyM.bind_apply] at h
  rcases hm : m w with ⟨r, w1⟩
  rw [hm] at h
  cases r with
  | ok a => exact Or.inr ⟨a, w1, rfl, h⟩
  | error e' => cases h; exact Or.inl rfl

omit [CommRing K] in
theorem objs_modified (t : Id') (u : Obj K → Obj K) (i : Id') :
    (w.objs.modify t u)[i]? = if i = t then (w.objs[i]?).map u else w.objs[i]? := by
  rw [List.getElem?_modify]
  by_cases h : i = t
  · subst h
    simp
  · rw [if_neg h]
    simp [Ne.symm h]

omit [CommRing K] in
/-- The attributes other than the caches. -/
theorem core_attributes {o o' : Obj K} (h : o'.core = o.core) : o'.coords = o.coords ∧ o'.indices = o.indices ∧ o'.kind = o.kind ∧
    o'.alive = o.alive ∧ o'.syms = o.syms := by
  unfold Obj.core at h
  simp only [Prod.mk.injEq] at h
  tauto

/-- What is already there is found without computation. -/
theorem check_stored {t c : Id'} {ix : List Int} {o : Obj K} {d : Dict (List Int) (Arr K)} {a : Arr K}
    (ho : w.objs[t]? = some o) (ha : o.alive = true) (hd : o.comps.get? c = some d) (hb : d.get? ix = some a) :
    checkRepresentation E t c ix w = (.ok true, w) ∧ tensorCheck E t c ix w = (.ok true, w) ∧
    readComps t c ix w = (.ok a, w) := by
  have hx : d.has ix = true := by
    by_contra hx
    rw [(Dict.has_eq_false _ _).1 (by simpa using hx)] at hb
    cases hb
  have hc : o.comps.has c = true := by
    by_contra hc
    rw [(Dict.has_eq_false _ _).1 (by simpa using hc)] at hd
    cases hd
  have e1 : tensorCheck E t c ix w = (.ok true, w) := by
    unfold tensorCheck
    refine PyM.then_ok (getObj_ok ho ha) ?_
    rw [hd]
    dsimp only
    rw [hx]
    rfl
  have e2 : metricCheck t c w = (.ok true, w) := by
    unfold metricCheck
    refine PyM.then_ok (getObj_ok ho ha) ?_
    rw [hc]
    rfl
  refine ⟨?_, e1, ?_⟩
  · unfold checkRepresentation
    refine PyM.then_ok (getObj_ok ho ha) ?_
    cases o.kind with
    | metric => exact e2
    | _ => exact e1
  · unfold readComps lookup
    refine PyM.then_ok (getObj_ok ho ha) ?_
    rw [hd]
    refine PyM.then_ok rfl ?_
    rw [hb]
    rfl

omit [CommRing K] in
theorem lift_result {α : Type} {x : Py α} {a : α} (h : (PyM.lift x : PyM K α) w = (.ok a, w')) : w' = w ∧ x = .ok a := by
  rw [PyM.lift_apply] at h
  injection h with h1 h2
  exact ⟨h2.symm, h1⟩

/-- The steps of a request that is answered. -/
theorem representation_steps {t c : Id'} {ix : List Int} {a : Arr K} (h : getRepresentation E t c ix w = (.ok a, w1)) :
    ∃ o b w2, isCoordinates c w = (.ok true, w) ∧ w.objs[t]? = some o ∧ o.alive = true ∧ validateIndices ix o.indices = .ok () ∧
      checkRepresentation E t c ix w = (.ok b, w2) ∧ PyM.onlyIf (!b) (transformCoordinates E t c ix) w2 = (.ok (), w1) ∧
      readComps t c ix w1 = (.ok a, w1) := by
  unfold getRepresentation at h
  obtain ⟨b, w2, h1, h⟩ := bind_ok h
  rw [isCoordinates_apply] at h1
  cases hb : (w.objs[c]?).any fun o => o.kind == .coordinates with
  | false => rw [hb] at h1; cases h1; cases h
  | true =>
    rw [hb] at h1
    cases h1
    rw [if_neg (by simp)] at h
    obtain ⟨o, w3, h2, k⟩ := bind_ok h
    obtain ⟨rfl, ho, hal⟩ := getObj_inv h2
    obtain ⟨⟨⟩, w4, h3, k1⟩ := bind_ok k
    obtain ⟨rfl, hv⟩ := lift_result h3
    obtain ⟨b', w5, h4, k2⟩ := bind_ok k1
    obtain ⟨⟨⟩, w6, h5, k3⟩ := bind_ok k2
    obtain ⟨rfl, hr⟩ := readComps_inv k3
    exact ⟨o, b', w5, by rw [isCoordinates_apply, hb], ho, hal, hv, h4, h5, k3⟩

/-- The same for Lagrangians and geodesic equations. -/
theorem curve_steps {C : Curves K} {t c : Id'} {ix : List Int} {a : Arr K} (h : curveRepresentation E C t c ix w = (.ok a, w1)) :
    ∃ o b w2, isCoordinates c w = (.ok true, w) ∧ w.objs[t]? = some o ∧ o.alive = true ∧ validateIndices ix o.indices = .ok () ∧
      tensorCheck E t c ix w = (.ok b, w2) ∧ PyM.onlyIf (!b) (curveTransform E C t c ix) w2 = (.ok (), w1) ∧
      readComps t c ix w1 = (.ok a, w1) := by
  unfold curveRepresentation at h
  obtain ⟨b, w2, h1, h⟩ := bind_ok h
  rw [isCoordinates_apply] at h1
  cases hb : (w.objs[c]?).any fun o => o.kind == .coordinates with
  | false => rw [hb] at h1; cases h1; cases h
  | true =>
    rw [hb] at h1
    cases h1
    rw [if_neg (by simp)] at h
    obtain ⟨o, w3, h2, k⟩ := bind_ok h
    obtain ⟨rfl, ho, hal⟩ := getObj_inv h2
    obtain ⟨⟨⟩, w4, h3, k1⟩ := bind_ok k
    obtain ⟨rfl, hv⟩ := lift_result h3
    obtain ⟨b', w5, h4, k2⟩ := bind_ok k1
    obtain ⟨⟨⟩, w6, h5, k3⟩ := bind_ok k2
    obtain ⟨rfl, hr⟩ := readComps_inv k3
    exact ⟨o, b', w5, by rw [isCoordinates_apply, hb], ho, hal, hv, h4, h5, k3⟩

theorem coordinates_kept (h : Persists w w1) {c : Id'} (hc : isCoordinates c w = (.ok true, w)) (t : Id') {u : Obj K → Obj K}
    (hu : ∀ o, (u o).kind = o.kind) :
    isCoordinates c { w1 with objs := w1.objs.modify t u } = (.ok true, { w1 with objs := w1.objs.modify t u }) := by
  rw [isCoordinates_apply] at hc ⊢
  have hc : ((w.objs[c]?).any fun o => o.kind == .coordinates) = true := by injection hc with hc _; injection hc
  cases hw : w.objs[c]? with
  | none => rw [hw] at hc; cases hc
  | some o =>
    obtain ⟨o', h1, h2⟩ := h.1.get hw
    rw [hw] at hc
    have hk : (o.kind == .coordinates) = true := hc
    show (Except.ok (((w1.objs.modify t u)[c]?).any _), _) = _
    rw [objs_modified, h1]
    have : o'.kind == .coordinates := by rw [(core_attributes h2).2.2.1]; exact hk
    split_ifs <;> simp [hu, this] <;> simpa using this

/-- Whether there are rules. -/
theorem ruled_has {c c' : Id'} : (Ruled w c c' → ∃ oc, w.objs[c]? = some oc ∧ oc.alive = true ∧ oc.trans.has c' = true) ∧
    (Unruled w c c' → ∃ oc, w.objs[c]? = some oc ∧ oc.alive = true ∧ oc.trans.has c' = false) := by
  constructor
  · rintro ⟨oc, h1, h2, rules, h3⟩
    refine ⟨oc, h1, h2, ?_⟩
    by_contra hx
    rw [(Dict.has_eq_false _ _).1 (by simpa using hx)] at h3
    cases h3
  · rintro ⟨oc, h1, h2, h3⟩
    exact ⟨oc, h1, h2, (Dict.has_eq_false _ _).2 h3⟩

theorem areCoordinates_apply {c : Id'} (h : AreCoordinates w c) : isCoordinates c w = (.ok true, w) := by
  obtain ⟨oc, h1, -, h3⟩ := h
  rw [isCoordinates_apply, h1]
  simp [h3]

/-- **C125, coordinates.** If the components of a tensor can be requested in other coordinates for which there are rules, then
`change_default_coords` makes these the default and changes nothing else, apart from storing the same as the request, and
`get_components` without arguments then returns the same components.  The present default coordinates may be given, too.
Without rules, and whenever it raises, the defaults stay as they are. -/
theorem C125_coords {t c : Id'} {o : Obj K} (ho : w.objs[t]? = some o) (hal : o.alive = true) :
    (∀ a w1, c ≠ o.coords → Ruled w o.coords c → getComponents E t (some c) none w = (.ok a, w1) →
      ∃ w', changeDefaultCoords E t c w = (.ok (), w') ∧ CoordsSet t c w1 w' ∧ getComponents E t none none w' = (.ok a, w')) ∧
    (AreCoordinates w o.coords → changeDefaultCoords E t o.coords w = (.ok (), w)) ∧
    (AreCoordinates w c → c ≠ o.coords → Unruled w o.coords c → changeDefaultCoords E t c w = (.error .transformationError, w)) ∧
    ∀ e w', changeDefaultCoords E t c w = (.error e, w') →
      ∃ o', w'.objs[t]? = some o' ∧ o'.coords = o.coords ∧ o'.indices = o.indices := by
  refine ⟨fun a w1 hne hr hg => ?_, fun hc => ?_, fun hc hne hr => ?_, fun e w' he => ?_⟩
  · obtain ⟨oc, r1, r2, r3⟩ := ruled_has.1 hr
    have hp : Persists w w1 := by have := Kp.getComponents (E := E) t (some c) none w; rw [hg] at this; exact this
    unfold getComponents at hg
    obtain ⟨o0, w0, h0, hg⟩ := bind_ok hg
    obtain ⟨rfl, ho0, -⟩ := getObj_inv h0
    rw [ho] at ho0
    cases ho0
    obtain ⟨o1, b, w2, i1, i2, -, i4, i5, i6, i7⟩ := representation_steps hg
    obtain ⟨-, o2, d, j1, j2, j3, j4⟩ := readComps_inv i7
    obtain ⟨o3, k1, k2⟩ := hp.1.get ho
    rw [j1] at k1
    cases k1
    obtain ⟨k3, k4, k5, k6, -⟩ := core_attributes k2
    rw [ho] at i2
    cases i2
    refine ⟨{ w1 with objs := w1.objs.modify t fun o => { o with coords := c } }, ?_, ⟨rfl, objs_modified t _⟩, ?_⟩
    · unfold changeDefaultCoords
      refine PyM.then_ok i1 (PyM.then_ok (getObj_ok ho hal) ?_)
      rw [if_neg hne]
      refine PyM.then_ok (getObj_ok r1 r2) ?_
      rw [r3]
      exact PyM.then_ok i5 (PyM.then_ok i6 rfl)
    · have hm : (w1.objs.modify t fun o => { o with coords := c })[t]? = some { o2 with coords := c } := by
        rw [objs_modified, if_pos rfl, j1]
        rfl
      unfold getComponents
      refine PyM.then_ok (getObj_ok hm j2) ?_
      obtain ⟨q1, -, q3⟩ := check_stored (E := E) (w := { w1 with objs := w1.objs.modify t fun o => { o with coords := c } })
        hm j2 j3 j4
      unfold getRepresentation
      refine PyM.then_ok (coordinates_kept hp i1 t fun _ => rfl) (PyM.then_ok (getObj_ok hm j2) ?_)
      show (PyM.lift (validateIndices o2.indices o2.indices) >>= _) _ = _
      rw [k4]
      refine PyM.then_ok (a := ()) (by rw [PyM.lift_apply]; exact congrArg (·, _) i4) (PyM.then_ok q1 (PyM.then_ok rfl q3))
  · unfold changeDefaultCoords
    refine PyM.then_ok (areCoordinates_apply hc) (PyM.then_ok (getObj_ok ho hal) ?_)
    rw [if_pos rfl]
    rfl
  · obtain ⟨oc, r1, r2, r3⟩ := ruled_has.2 hr
    unfold changeDefaultCoords
    refine PyM.then_ok (areCoordinates_apply hc) (PyM.then_ok (getObj_ok ho hal) ?_)
    rw [if_neg hne]
    refine PyM.then_ok (getObj_ok r1 r2) ?_
    rw [r3]
    obtain ⟨oc', s1, s2, -⟩ := hc
    exact PyM.then_ok (getObj_ok s1 s2) rfl
  · have hp : Persists w w' := by
      unfold changeDefaultCoords at he
      rcases bind_raised he with k | ⟨b, w1, hb, k1⟩
      · rw [isCoordinates_apply] at k; cases k
      rw [isCoordinates_apply] at hb
      cases hb
      split_ifs at k1 with h1
      · cases k1; exact Persists.refl _
      rcases bind_raised k1 with k | ⟨o1, w1, h2, k2⟩
      · rw [getObj_ok ho hal] at k; cases k
      rw [getObj_ok ho hal] at h2
      cases h2
      split_ifs at k2 with h3
      · cases k2
      rcases bind_raised k2 with k | ⟨oc, w1, h4, k3⟩
      · have := getObj_state o.coords w; rw [k] at this; cases this; exact Persists.refl _
      obtain ⟨rfl, -, -⟩ := getObj_inv h4
      split_ifs at k3 with h5
      · rcases bind_raised k3 with k | ⟨oc, w1, h6, k4⟩
        · have := getObj_state c w1; rw [k] at this; cases this; exact Persists.refl _
        · obtain ⟨rfl, -, -⟩ := getObj_inv h6
          cases k4
          exact Persists.refl _
      · have hk := checkRepresentation_kept (E := E) t c o.indices w1
        rcases bind_raised k3 with k | ⟨b, w2, h6, k4⟩
        · rw [k] at hk; exact hk.1
        · rcases bind_raised k4 with k | ⟨_, w3, -, k5⟩
          · cases b with
            | true => cases k
            | false =>
              obtain ⟨rfl, hab⟩ := hk.2 w2 h6
              have := kept_transformCoordinates (E := E) (ix := o.indices) hab
              rw [show transformCoordinates E t c o.indices w2 = (.error e, w') from k] at this
              exact this
          · cases k5
    obtain ⟨o', h1, h2⟩ := hp.1.get ho
    exact ⟨o', h1, (core_attributes h2).1, (core_attributes h2).2.1⟩

/-- **C125, coordinates of Lagrangians and geodesic equations.** The same for their `get_components`. -/
theorem C125_curve {C : Curves K} {t c : Id'} {o : Obj K} (ho : w.objs[t]? = some o) (hal : o.alive = true) :
    (∀ a w1, c ≠ o.coords → Ruled w o.coords c → curveComponents E C t (some c) none w = (.ok a, w1) →
      ∃ w', curveChangeCoords E C t c w = (.ok (), w') ∧ CoordsSet t c w1 w' ∧ curveComponents E C t none none w' = (.ok a, w')) ∧
    (AreCoordinates w o.coords → curveChangeCoords E C t o.coords w = (.ok (), w)) ∧
    (AreCoordinates w c → c ≠ o.coords → Unruled w o.coords c → curveChangeCoords E C t c w = (.error .transformationError, w)) ∧
    ∀ e w', curveChangeCoords E C t c w = (.error e, w') →
      ∃ o', w'.objs[t]? = some o' ∧ o'.coords = o.coords ∧ o'.indices = o.indices := by
  refine ⟨fun a w1 hne hr hg => ?_, fun hc => ?_, fun hc hne hr => ?_, fun e w' he => ?_⟩
  · obtain ⟨oc, r1, r2, r3⟩ := ruled_has.1 hr
    have hp : Persists w w1 := by have := Kp.curveComponents (E := E) (C := C) t (some c) none w; rw [hg] at this; exact this
    unfold curveComponents at hg
    obtain ⟨o0, w0, h0, hg⟩ := bind_ok hg
    obtain ⟨rfl, ho0, -⟩ := getObj_inv h0
    rw [ho] at ho0
    cases ho0
    obtain ⟨a0, w3, h00, h01⟩ := bind_ok hg
    obtain ⟨oc', w4, h02, h03⟩ := bind_ok h01
    obtain ⟨rfl, n1, n2⟩ := getObj_inv h02
    cases h03
    obtain ⟨o1, b, w2, i1, i2, -, i4, i5, i6, i7⟩ := curve_steps h00
    obtain ⟨-, o2, d, j1, j2, j3, j4⟩ := readComps_inv i7
    obtain ⟨o3, k1, k2⟩ := hp.1.get ho
    rw [j1] at k1
    cases k1
    obtain ⟨k3, k4, k5, k6, -⟩ := core_attributes k2
    rw [ho] at i2
    cases i2
    refine ⟨{ w1 with objs := w1.objs.modify t fun o => { o with coords := c } }, ?_, ⟨rfl, objs_modified t _⟩, ?_⟩
    · unfold curveChangeCoords
      refine PyM.then_ok i1 (PyM.then_ok (getObj_ok ho hal) ?_)
      rw [if_neg hne]
      refine PyM.then_ok (getObj_ok r1 r2) ?_
      rw [r3]
      exact PyM.then_ok i5 (PyM.then_ok i6 rfl)
    · have hm : (w1.objs.modify t fun o => { o with coords := c })[t]? = some { o2 with coords := c } := by
        rw [objs_modified, if_pos rfl, j1]
        rfl
      unfold curveComponents
      refine PyM.then_ok (getObj_ok hm j2) ?_
      obtain ⟨-, q1, q3⟩ := check_stored (E := E) (w := { w1 with objs := w1.objs.modify t fun o => { o with coords := c } })
        hm j2 j3 j4
      refine PyM.then_ok (a := a0) (w' := { w1 with objs := w1.objs.modify t fun o => { o with coords := c } }) ?_ ?_
      unfold curveRepresentation
      · refine PyM.then_ok (coordinates_kept hp i1 t fun _ => rfl) (PyM.then_ok (getObj_ok hm j2) ?_)
        show (PyM.lift (validateIndices o2.indices o2.indices) >>= _) _ = _
        rw [k4]
        exact PyM.then_ok (a := ()) (by rw [PyM.lift_apply]; exact congrArg (·, _) i4) (PyM.then_ok q1 (PyM.then_ok rfl q3))
      · obtain ⟨oc2, p1, p2, p3⟩ : ∃ oc2, (w1.objs.modify t fun o => { o with coords := c })[c]? = some oc2 ∧ oc2.alive = true ∧
            oc2.syms = oc'.syms := by
          have n1 : w1.objs[c]? = some oc' := n1
          rw [objs_modified, n1]
          split_ifs
          · exact ⟨_, rfl, n2, rfl⟩
          · exact ⟨_, rfl, n2, rfl⟩
        refine PyM.then_ok (getObj_ok p1 p2) ?_
        rw [p3]
        show (Except.ok (Arr.map (C.asFunctions (curveParameter C o2.kind oc'.syms) oc'.syms) a0), _) = _
        rw [k5]
  · unfold curveChangeCoords
    refine PyM.then_ok (areCoordinates_apply hc) (PyM.then_ok (getObj_ok ho hal) ?_)
    rw [if_pos rfl]
    rfl
  · obtain ⟨oc, r1, r2, r3⟩ := ruled_has.2 hr
    unfold curveChangeCoords
    refine PyM.then_ok (areCoordinates_apply hc) (PyM.then_ok (getObj_ok ho hal) ?_)
    rw [if_neg hne]
    refine PyM.then_ok (getObj_ok r1 r2) ?_
    rw [r3]
    obtain ⟨oc', s1, s2, -⟩ := hc
    exact PyM.then_ok (getObj_ok s1 s2) rfl
  · have hp : Persists w w' := by
      unfold curveChangeCoords at he
      rcases bind_raised he with k | ⟨b, w1, hb, k1⟩
      · rw [isCoordinates_apply] at k; cases k
      rw [isCoordinates_apply] at hb
      cases hb
      split_ifs at k1 with h1
      · cases k1; exact Persists.refl _
      rcases bind_raised k1 with k | ⟨o1, w1, h2, k2⟩
      · rw [getObj_ok ho hal] at k; cases k
      rw [getObj_ok ho hal] at h2
      cases h2
      split_ifs at k2 with h3
      · cases k2
      rcases bind_raised k2 with k | ⟨oc, w1, h4, k3⟩
      · have := getObj_state o.coords w; rw [k] at this; cases this; exact Persists.refl _
      obtain ⟨rfl, -, -⟩ := getObj_inv h4
      split_ifs at k3 with h5
      · rcases bind_raised k3 with k | ⟨oc, w1, h6, k4⟩
        · have := getObj_state c w1; rw [k] at this; cases this; exact Persists.refl _
        · obtain ⟨rfl, -, -⟩ := getObj_inv h6
          cases k4
          exact Persists.refl _
      · have hk := tensorCheck_kept (E := E) t c o.indices w1
        rcases bind_raised k3 with k | ⟨b, w2, h6, k4⟩
        · rw [k] at hk; exact hk.1
        · rcases bind_raised k4 with k | ⟨_, w3, -, k5⟩
          · cases b with
            | true => cases k
            | false =>
              obtain ⟨rfl, hab⟩ := hk.2 w2 h6
              have := (Persists.refl w2).only (Wr.curveTransform (E := E) (C := C) o.indices _) hab
              rw [show curveTransform E C t c o.indices w2 = (.error e, w') from k] at this
              exact this
          · cases k5
    obtain ⟨o', h1, h2⟩ := hp.1.get ho
    exact ⟨o', h1, (core_attributes h2).1, (core_attributes h2).2.1⟩

/-- **C125, index configuration.** If the components of a tensor can be requested in another configuration, then
`change_default_indices` makes this the default and changes nothing else, apart from storing the same as the request, and
`get_components` without arguments then returns the same components.  Whenever it raises, the defaults stay as they are. -/
theorem C125_indices {t : Id'} {ix : List Int} {o : Obj K} (ho : w.objs[t]? = some o) (hal : o.alive = true)
    (hs : ∃ d, o.comps.get? o.coords = some d) :
    (∀ a w1, getComponents E t none (some ix) w = (.ok a, w1) →
      ∃ w', changeDefaultIndices E t ix w = (.ok (), w') ∧ IndicesSet t ix w1 w' ∧ getComponents E t none none w' = (.ok a, w')) ∧
    ∀ e w', changeDefaultIndices E t ix w = (.error e, w') →
      ∃ o', w'.objs[t]? = some o' ∧ o'.coords = o.coords ∧ o'.indices = o.indices := by
  have hk := checkRepresentation_kept (E := E) t o.coords ix w
  constructor
  · intro a w1 hg
    have hp : Persists w w1 := by have := Kp.getComponents (E := E) t none (some ix) w; rw [hg] at this; exact this
    unfold getComponents at hg
    obtain ⟨o0, w0, h0, hg⟩ := bind_ok hg
    obtain ⟨rfl, ho0, -⟩ := getObj_inv h0
    rw [ho] at ho0
    cases ho0
    obtain ⟨o1, b, w2, i1, i2, -, i4, i5, i6, i7⟩ := representation_steps hg
    obtain ⟨-, o2, d, j1, j2, j3, j4⟩ := readComps_inv i7
    obtain ⟨o3, k1, k2⟩ := hp.1.get ho
    rw [j1] at k1
    cases k1
    obtain ⟨k3, k4, k5, k6, -⟩ := core_attributes k2
    rw [ho] at i2
    cases i2
    have hb : b = true := by
      cases b with
      | true => rfl
      | false =>
        obtain ⟨d, hd⟩ := hs
        have := (hk.2 w2 i5).2 o ho
        rw [hd] at this
        cases this
    subst hb
    cases i6
    have hl : ix.length = o.indices.length ∧ ∀ i ∈ ix, i = 1 ∨ i = -1 := by
      unfold validateIndices at i4
      split_ifs at i4 with q1 q2
      exact ⟨(not_not.1 q2).symm, by simpa [not_or, or_iff_not_imp_left] using q1⟩
    refine ⟨{ w1 with objs := w1.objs.modify t fun o => { o with indices := ix } }, ?_, ⟨rfl, objs_modified t _⟩, ?_⟩
    · unfold changeDefaultIndices
      exact PyM.then_ok (getObj_ok ho hal) (PyM.then_ok (a := ()) (by rw [PyM.lift_apply]; exact congrArg (·, _) i4)
        (PyM.then_ok i5 rfl))
    · have hm : (w1.objs.modify t fun o => { o with indices := ix })[t]? = some { o2 with indices := ix } := by
        rw [objs_modified, if_pos rfl, j1]
        rfl
      unfold getComponents
      refine PyM.then_ok (getObj_ok hm j2) ?_
      obtain ⟨q1, -, q3⟩ := check_stored (E := E) (w := { w1 with objs := w1.objs.modify t fun o => { o with indices := ix } })
        hm j2 j3 j4
      show getRepresentation E t o2.coords ix _ = _
      rw [k3]
      unfold getRepresentation
      refine PyM.then_ok (coordinates_kept hp i1 t fun _ => rfl) (PyM.then_ok (getObj_ok hm j2) ?_)
      have hv : validateIndices ix ix = .ok () := by
        unfold validateIndices
        rw [if_neg (by simpa [not_or, or_iff_not_imp_left] using hl.2), if_neg (by simp)]
        rfl
      exact PyM.then_ok (a := ()) (by rw [PyM.lift_apply]; exact congrArg (·, _) hv) (PyM.then_ok q1 (PyM.then_ok rfl q3))
  · intro e w' he
    have hp : Persists w w' := by
      unfold changeDefaultIndices at he
      rcases bind_raised he with k | ⟨o1, w1, h2, k2⟩
      · rw [getObj_ok ho hal] at k; cases k
      rw [getObj_ok ho hal] at h2
      cases h2
      rcases bind_raised k2 with k | ⟨_, w1, h4, k3⟩
      · rw [PyM.lift_apply] at k
        injection k with _ k
        subst k
        exact Persists.refl _
      obtain ⟨rfl, -⟩ := lift_result h4
      rcases bind_raised k3 with k | ⟨b, w2, h6, k4⟩
      · rw [k] at hk; exact hk.1
      · cases b <;> cases k4
    obtain ⟨o', h1, h2⟩ := hp.1.get ho
    exact ⟨o', h1, (core_attributes h2).1, (core_attributes h2).2.1⟩

/-- The coordinates `x` (object 0) and `u` (object 1) with the rule `x = 2 u`, the metric `dx²` (object 2), the vector 5
(object 3) and a geodesic equation. -/
def rodWithVector : World ℚ := ((do
  let c ← newCoordinates (.val "Old") (.val [1]) ["x"] (.tuple [1]) (.val "x")
  let c' ← newCoordinates (.val "New") (.val [1]) ["u"] (.tuple [1]) (.val "u")
  addCoordTransformation c c' (some [some ("x", 210)])
  let m ← newMetric rodEngine (.val "Flat") (.val ⟨[1, 1], [3]⟩) c (.tuple [-1, -1]) (.val "g")
  let _ ← newTensor .tensor (.val "V") (.val ⟨[1], [5]⟩) m c (.tuple [1]) (.val "V")
  let _ ← calcGeodesicChristoffel rodEngine rodCurves m none
  pure ()) (fresh : World ℚ)).2

omit [CommRing K] in
theorem some_of_any {α : Type} {x : Option α} {p : α → Bool} (h : x.any p = true) : ∃ a, x = some a ∧ p a = true := by
  cases x with
  | none => cases h
  | some a => exact ⟨a, rfl, h⟩

/-- A vector is moved to other coordinates. -/
example : (∃ o, rodWithVector.objs[3]? = some o ∧ o.alive = true ∧ o.coords = 0) ∧ Ruled rodWithVector 0 1 ∧
    AreCoordinates rodWithVector 0 ∧ AreCoordinates rodWithVector 1 ∧
    (getComponents rodEngine 3 (some 1) none rodWithVector).1 = .ok ⟨[1], [5 / 2]⟩ ∧
    (getComponents rodEngine 3 none none (changeDefaultCoords rodEngine 3 1 rodWithVector).2).1 = .ok ⟨[1], [5 / 2]⟩ ∧
    (getComponents rodEngine 3 none none rodWithVector).1 = .ok ⟨[1], [5]⟩ := by
  obtain ⟨o, h1, h2⟩ := some_of_any (x := rodWithVector.objs[3]?) (p := fun o => o.alive && o.coords == 0) (by decide +kernel)
  obtain ⟨oc, h3, h4⟩ := some_of_any (x := rodWithVector.objs[0]?)
    (p := fun o => o.alive && o.kind == .coordinates && o.trans.get? 1 == some [some ("x", 210)]) (by decide +kernel)
  obtain ⟨oc', h5, h6⟩ := some_of_any (x := rodWithVector.objs[1]?) (p := fun o => o.alive && o.kind == .coordinates) (by decide +kernel)
  simp only [Bool.and_eq_true, beq_iff_eq] at h2 h4 h6
  exact ⟨⟨o, h1, h2⟩, ⟨oc, h3, h4.1.1, _, h4.2⟩, ⟨oc, h3, h4.1⟩, ⟨oc', h5, h6⟩, by decide +kernel, by decide +kernel, by decide +kernel⟩

/-- There are no rules for the way back, so it is refused. -/
example : (∃ o, (changeDefaultCoords rodEngine 3 1 rodWithVector).2.objs[3]? = some o ∧ o.alive = true ∧ o.coords = 1) ∧
    Unruled (changeDefaultCoords rodEngine 3 1 rodWithVector).2 1 0 ∧
    (changeDefaultCoords rodEngine 3 0 (changeDefaultCoords rodEngine 3 1 rodWithVector).2).1 = .error .transformationError := by
  obtain ⟨o, h1, h2⟩ := some_of_any (x := (changeDefaultCoords rodEngine 3 1 rodWithVector).2.objs[3]?)
    (p := fun o => o.alive && o.coords == 1) (by decide +kernel)
  obtain ⟨oc, h3, h4⟩ := some_of_any (x := (changeDefaultCoords rodEngine 3 1 rodWithVector).2.objs[1]?)
    (p := fun o => o.alive && o.trans.get? 0 == none) (by decide +kernel)
  simp only [Bool.and_eq_true, beq_iff_eq] at h2 h4
  exact ⟨⟨o, h1, h2⟩, ⟨oc, h3, h4⟩, by decide +kernel⟩

/-- An equation is moved to other coordinates. -/
example : ∃ t o, rodWithVector.objs[t]? = some o ∧ o.alive = true ∧ o.kind = .geodesicChristoffel ∧ o.coords = 0 ∧
    (curveComponents rodEngine rodCurves t (some 1) none rodWithVector).1 = .ok ⟨[1], [102]⟩ := by
  obtain ⟨t, h0⟩ : ∃ t, (rodWithVector.objs[t]?).any (fun o => o.alive && o.kind == .geodesicChristoffel && o.coords == 0) &&
      ((curveComponents rodEngine rodCurves t (some 1) none rodWithVector).1 == .ok ⟨[1], [102]⟩) := ⟨21, by decide +kernel⟩
  simp only [Bool.and_eq_true, beq_iff_eq] at h0
  obtain ⟨o, h1, h2⟩ := some_of_any h0.1
  simp only [Bool.and_eq_true, beq_iff_eq] at h2
  exact ⟨t, o, h1, h2.1.1, h2.1.2, h2.2, h0.2⟩

/-- The index of a vector is lowered. -/
example : (∃ o, rodWithVector.objs[3]? = some o ∧ o.alive = true ∧ ∃ d, o.comps.get? o.coords = some d) ∧
    (getComponents rodEngine 3 none (some [-1]) rodWithVector).1 = .ok ⟨[1], [15]⟩ ∧
    (getComponents rodEngine 3 none none (changeDefaultIndices rodEngine 3 [-1] rodWithVector).2).1 = .ok ⟨[1], [15]⟩ := by
  obtain ⟨o, h1, h2⟩ := some_of_any (x := rodWithVector.objs[3]?)
    (p := fun o => o.alive && o.comps.get? o.coords == some [([1], ⟨[1], [5]⟩)]) (by decide +kernel)
  simp only [Bool.and_eq_true, beq_iff_eq] at h2
  exact ⟨⟨o, h1, h2.1, _, h2.2⟩, by decide +kernel, by decide +kernel⟩

end PyOGRe
