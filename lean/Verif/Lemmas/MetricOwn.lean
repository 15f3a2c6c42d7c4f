import Verif.Lemmas.Own

/-! Helper lemmas: what is stored for a metric in a coordinate system never changes. -/

namespace PyOGRe
open Spec
variable {K : Type} [CommRing K]

/-- The representations `d` are stored for metric `m` in `c`; `f` are its default coordinates and
configuration. -/
structure MOwn (m c : Id') (f : Id' × List Int) (d : Dict (List Int) (Arr K)) (w : World K) : Prop where
  chart : ∃ oc, w.objs[c]? = some oc ∧ oc.kind = .coordinates
  metric : ∃ om, w.objs[m]? = some om ∧ om.alive = true ∧ om.kind = .metric ∧ (om.coords, om.indices) = f ∧
    om.comps.get? c = some d

section
variable {E : Engine K} {m c : Id'} {f : Id' × List Int} {d : Dict (List Int) (Arr K)}

def Apart (m c i c' : Id') : Prop := i = m → c' ≠ c

theorem mown_modify {w : World K} (h : MOwn m c f d w) (i : Id') (u : Obj K → Obj K)
    (hf : ∀ o, (u o).kind = o.kind ∧ (u o).alive = o.alive ∧ (u o).coords = o.coords ∧ (u o).indices = o.indices)
    (hc : ∀ o, w.objs[i]? = some o → i = m → (u o).comps.get? c = o.comps.get? c) :
    MOwn m c f d { w with objs := w.objs.modify i u } := by
  have key : ∀ (k : Nat) o, w.objs[k]? = some o → ∃ o', (w.objs.modify i u)[k]? = some o' ∧ o'.kind = o.kind ∧
      o'.alive = o.alive ∧ o'.coords = o.coords ∧ o'.indices = o.indices ∧
      (k = m → o'.comps.get? c = o.comps.get? c) := by
    intro k o ho
    rw [List.getElem?_modify, ho]
    by_cases hik : i = k
    · subst hik
      obtain ⟨h1, h2, h3, h4⟩ := hf o
      exact ⟨u o, by simp, h1, h2, h3, h4, hc o ho⟩
    · exact ⟨o, by simp [hik], rfl, rfl, rfl, rfl, fun _ => rfl⟩
  refine ⟨?_, ?_⟩
  · obtain ⟨oc, h1, h2⟩ := h.chart
    obtain ⟨o', e1, e2, -⟩ := key c oc h1
    exact ⟨o', e1, e2.trans h2⟩
  · obtain ⟨o, h1, h2, h3, h4, h5⟩ := h.metric
    obtain ⟨o', e1, e2, e3, e4, e5, e6⟩ := key m o h1
    exact ⟨o', e1, e3.trans h2, e2.trans h3, by rw [e4, e5]; exact h4, (e6 rfl).trans h5⟩

theorem MOwn.apart {w : World K} (h : MOwn m c f d w) {i c' : Id'} {o : Obj K}
    (ho : w.objs[i]? = some o) (hn : o.comps.get? c' = none) : Apart m c i c' := by
  rintro rfl rfl
  obtain ⟨o', h1, h2, h3, h4, h5⟩ := h.metric
  rw [ho] at h1; cases h1
  rw [hn] at h5; cases h5

theorem writeComps_mown (i c' : Id') (ix : List Int) (b : Arr K) (he : Apart m c i c') :
    Keeps (MOwn m c f d) (fun _ => True) (writeComps i c' ix b) fun _ _ => True := by
  unfold writeComps
  refine Keeps.bind (Keeps.getObj i) fun o => ?_
  refine Keeps.bind (Keeps.lookup _ _) fun d => ?_
  refine Keeps.modifyObj _ _ ?_
  rintro w hP ⟨⟨-, ho, -⟩, -⟩
  refine ⟨mown_modify hP i _ (fun _ => ⟨rfl, rfl, rfl, rfl⟩) ?_, trivial⟩
  intro o' _ hi
  show (o'.comps.set c' _).get? c = _
  rw [Dict.get?_set, if_neg (he hi)]

theorem ensureCoords_mown (i c' : Id') :
    Keeps (MOwn m c f d) (fun _ => True) (ensureCoords i c') fun _ _ => True := by
  unfold ensureCoords
  refine Keeps.modifyObj _ _ ?_
  intro w hP _
  refine ⟨mown_modify hP i _ (fun o => ?_) ?_, trivial⟩
  · split_ifs <;> exact ⟨rfl, rfl, rfl, rfl⟩
  · intro o ho hi
    split_ifs with hh
    · rfl
    · have hn : o.comps.get? c' = none := by
        rw [← Dict.has_eq_false]; simpa using hh
      show (o.comps.set c' _).get? c = _
      rw [Dict.get?_set, if_neg (hP.apart ho hn hi)]

theorem checkJacobians_mown (i c' : Id') :
    Keeps (MOwn m c f d) (fun _ => True) (checkJacobians E i c') fun _ _ => True := by
  unfold checkJacobians calcJacobian
  refine Keeps.bind (Keeps.getObj i) fun o => ?_
  refine Keeps.ite (fun _ => Keeps.pure _ fun _ _ _ => trivial) fun _ => ?_
  refine Keeps.ite (fun _ => ?_) fun _ => Keeps.bind (Keeps.getObj c') fun _ => Keeps.raise _
  refine Keeps.bind (Keeps.getObj i) fun o => ?_
  refine Keeps.bind (Keeps.getObj c') fun oc => ?_
  refine Keeps.bind (Keeps.lookup _ _) fun rules => ?_
  refine Keeps.bind (Keeps.lift (Q := fun _ _ => True) _ fun _ _ _ _ _ => trivial) fun j => ?_
  refine Keeps.modifyObj _ _ ?_
  intro w hP _
  exact ⟨mown_modify hP i _ (fun _ => ⟨rfl, rfl, rfl, rfl⟩) fun _ _ _ => rfl, trivial⟩

theorem baseTransform_mown (i c' : Id') (ix : List Int) (he : Apart m c i c') :
    Keeps (MOwn m c f d) (fun _ => True) (baseTransform E i c' ix) fun _ _ => True := by
  unfold baseTransform
  refine Keeps.bind (Keeps.getObj i) fun o => ?_
  refine Keeps.bind (Keeps.anyR (checkJacobians_mown _ _)) fun _ => ?_
  refine Keeps.bind (Keeps.readComps _ _ _) fun b => ?_
  refine Keeps.bind (Keeps.getObj _) fun oc => ?_
  refine Keeps.bind (Keeps.lookup _ _) fun j => ?_
  refine Keeps.bind (Keeps.lookup _ _) fun rules => ?_
  refine Keeps.bind (Keeps.lift (Q := fun _ _ => True) _ fun _ _ _ _ _ => trivial) fun b' => ?_
  refine Keeps.bind (Keeps.anyR (ensureCoords_mown i c')) fun _ => ?_
  exact writeComps_mown i c' ix b' he

theorem metricTransform_mown (i c' : Id') (ix : List Int) (he : Apart m c i c') :
    Keeps (MOwn m c f d) (fun _ => True) (metricTransform E i c' ix) fun _ _ => True := by
  have W : ∀ (R : World K → Prop) ix b, Keeps (MOwn m c f d) R (writeComps i c' ix b)
      fun _ _ => True := fun R ix b => Keeps.anyR (writeComps_mown i c' ix b he)
  unfold metricTransform
  refine Keeps.bind (baseTransform_mown i c' ix he) fun _ => ?_
  refine Keeps.bind (Keeps.getObj i) fun o => ?_
  refine Keeps.bind (Keeps.readComps _ _ _) fun b => ?_
  refine Keeps.bind (Keeps.lift (Q := fun _ _ => True) _ fun _ _ _ _ _ => trivial) fun b' => ?_
  refine Keeps.bind (W _ _ _) fun _ => ?_
  refine Keeps.bind (Keeps.readComps _ _ _) fun _ => ?_
  refine Keeps.bind (Keeps.readComps _ _ _) fun _ => ?_
  refine Keeps.bind (Keeps.lift (Q := fun _ _ => True) _ fun _ _ _ _ _ => trivial) fun _ => ?_
  refine Keeps.bind (W _ _ _) fun _ => ?_
  refine Keeps.bind (Keeps.readComps _ _ _) fun _ => ?_
  refine Keeps.bind (Keeps.readComps _ _ _) fun _ => ?_
  refine Keeps.bind (Keeps.lift (Q := fun _ _ => True) _ fun _ _ _ _ _ => trivial) fun _ => ?_
  exact W _ _ _

theorem metricCheck_mown (i c' : Id') (R : World K → Prop) :
    Keeps (MOwn m c f d) R (metricCheck i c') fun b w =>
      R w ∧ (b = false → Apart m c i c') := by
  unfold metricCheck
  refine Keeps.bind (Keeps.getObj i) fun o => ?_
  refine Keeps.pure _ ?_
  rintro w hP ⟨hR, ho, -⟩
  refine ⟨hR, fun hb => ?_⟩
  exact hP.apart ho ((Dict.has_eq_false _ _).1 hb)

theorem tensorRaiseLower_mown (i c' : Id') (ix : List Int) (hm : i ≠ m) :
    Keeps (MOwn m c f d) (fun _ => True) (tensorRaiseLower E i c' ix) fun _ _ => True := by
  unfold tensorRaiseLower
  refine Keeps.bind (Keeps.getObj i) fun o => ?_
  refine Keeps.bind (metricCheck_mown _ _ _) fun b => ?_
  refine Keeps.bind (Q := fun _ _ => True) ?_ fun _ => ?_
  · refine Keeps.onlyIf (Q := fun _ => True) (fun hb => ?_) fun _ _ _ _ => trivial
    refine Keeps.fact (φ := Apart m c o.metric c') (fun w _ hR => hR.2 (by simpa using hb)) fun hm => ?_
    exact Keeps.anyR (metricTransform_mown _ _ _ hm)
  refine Keeps.bind (Keeps.getObj i) fun o => ?_
  refine Keeps.bind (Keeps.lookup _ _) fun d => ?_
  match d with
  | [] => exact Keeps.raise _
  | (s, b) :: d =>
    refine Keeps.bind (Keeps.readComps _ _ _) fun _ => ?_
    refine Keeps.bind (Keeps.readComps _ _ _) fun _ => ?_
    refine Keeps.bind (Keeps.lift (Q := fun _ _ => True) _ fun _ _ _ _ _ => trivial) fun _ => ?_
    exact writeComps_mown i c' ix _ fun h => absurd h hm

theorem tensorCheck_mown (i c' : Id') (ix : List Int) (hm : i ≠ m) (R : World K → Prop) :
    Keeps (MOwn m c f d) R (tensorCheck E i c' ix) fun _ _ => True := by
  unfold tensorCheck
  refine Keeps.bind (Keeps.getObj i) fun o => ?_
  cases o.comps.get? c' with
  | none => exact Keeps.pure _ fun _ _ _ => trivial
  | some d =>
    refine Keeps.bind (Q := fun _ _ => True) ?_ fun _ => Keeps.pure _ fun _ _ _ => trivial
    exact Keeps.onlyIf (Q := fun _ => True) (fun hb => Keeps.anyR (tensorRaiseLower_mown i c' ix hm))
      fun _ _ _ _ => trivial

theorem tensorTransform_mown (i c' : Id') (ix : List Int) (hm : i ≠ m) :
    Keeps (MOwn m c f d) (fun _ => True) (tensorTransform E i c' ix) fun _ _ => True := by
  unfold tensorTransform
  refine Keeps.bind (Keeps.getObj i) fun o => ?_
  refine Keeps.bind (tensorCheck_mown i o.coords ix hm _) fun b => ?_
  refine Keeps.bind (Q := fun _ _ => True) ?_ fun _ => baseTransform_mown i c' ix fun h => absurd h hm
  exact Keeps.onlyIf (Q := fun _ => True) (fun hb => Keeps.anyR (tensorRaiseLower_mown i _ ix hm))
    fun _ _ _ _ => trivial

theorem christoffelTransform_mown (i c' : Id') (ix : List Int) (he : Apart m c i c') :
    Keeps (MOwn m c f d) (fun _ => True) (christoffelTransform E i c' ix) fun _ _ => True := by
  unfold christoffelTransform
  refine Keeps.bind (Keeps.getObj i) fun o => ?_
  refine Keeps.bind (Keeps.anyR (checkJacobians_mown _ _)) fun _ => ?_
  refine Keeps.bind (Keeps.getObj _) fun oc => ?_
  refine Keeps.bind (Keeps.readComps _ _ _) fun b => ?_
  refine Keeps.bind (Keeps.lookup _ _) fun j => ?_
  refine Keeps.bind (Keeps.lookup _ _) fun rules => ?_
  refine Keeps.bind (Keeps.lift (Q := fun _ _ => True) _ fun _ _ _ _ _ => trivial) fun b' => ?_
  refine Keeps.bind (Keeps.anyR (ensureCoords_mown i c')) fun _ => ?_
  exact writeComps_mown i c' ix b' he

theorem MOwn.not_metric {w : World K} (h : MOwn m c f d w) {i : Id'} {o : Obj K}
    (ho : w.objs[i]? = some o) (hk : o.kind ≠ .metric) : i ≠ m := by
  rintro rfl
  obtain ⟨om, m1, m2, m3, m4, m5⟩ := h.metric
  rw [ho] at m1; cases m1
  exact hk m3

theorem checkRepresentation_mown (i c' : Id') (ix : List Int) (R : World K → Prop) :
    Keeps (MOwn m c f d) R (checkRepresentation E i c' ix)
      fun b _ => b = false → Apart m c i c' := by
  unfold checkRepresentation
  refine Keeps.bind (Keeps.getObj i) fun o => ?_
  by_cases hk : o.kind = .metric
  · rw [hk]
    exact Keeps.weaken (metricCheck_mown i c' _) (fun _ _ h => h) fun _ _ _ h => h.2
  · refine Keeps.fact (φ := i ≠ m) (fun w hP hR => hP.not_metric hR.2.1 hk) fun hm => ?_
    have := tensorCheck_mown (E := E) (f := f) (d := d) (c := c) i c' ix hm
      (fun w => R w ∧ w.objs[i]? = some o ∧ o.alive = true)
    cases hkk : o.kind <;> first
      | exact absurd hkk hk
      | exact Keeps.weaken this (fun _ _ h => h) fun _ _ _ _ _ h => absurd h hm

theorem transformCoordinates_mown (i c' : Id') (ix : List Int) (he : Apart m c i c') :
    Keeps (MOwn m c f d) (fun _ => True) (transformCoordinates E i c' ix)
      fun _ _ => True := by
  unfold transformCoordinates
  refine Keeps.bind (Keeps.getObj i) fun o => ?_
  by_cases hk : o.kind = .metric
  · rw [hk]
    exact Keeps.anyR (metricTransform_mown i c' ix he)
  · refine Keeps.fact (φ := i ≠ m) (fun w hP hR => hP.not_metric hR.2.1 hk) fun hm => ?_
    cases hkk : o.kind <;> first
      | exact absurd hkk hk
      | exact Keeps.anyR (christoffelTransform_mown i c' ix he)
      | exact Keeps.anyR (tensorTransform_mown i c' ix hm)

/-- Any request of any object in any coordinate system. -/
theorem getComponents_mown (i : Id') (c' : Option Id') (ix : Option (List Int)) :
    Keeps (MOwn m c f d) (fun _ => True) (getComponents E i c' ix) fun _ _ => True := by
  unfold getComponents
  refine Keeps.bind (Keeps.getObj i) fun o0 => ?_
  generalize c'.getD o0.coords = c'
  generalize ix.getD o0.indices = ix
  unfold getRepresentation
  refine Keeps.bind (Q := fun _ _ => True) ?_ fun b => ?_
  · intro w hP _
    exact ⟨hP, fun _ _ => trivial⟩
  refine Keeps.ite (fun _ => Keeps.raise _) fun _ => ?_
  refine Keeps.bind (Keeps.getObj i) fun o => ?_
  refine Keeps.bind (Keeps.lift (Q := fun _ _ => True) _ fun _ _ _ _ _ => trivial) fun _ => ?_
  refine Keeps.bind (checkRepresentation_mown i c' ix _) fun b => ?_
  refine Keeps.bind (Q := fun _ _ => True) ?_ fun _ => Keeps.weaken (Keeps.readComps _ _ _)
    (fun _ _ h => h) fun _ _ _ _ => trivial
  refine Keeps.onlyIf (Q := fun _ => True) (fun hb => ?_) fun _ _ _ _ => trivial
  refine Keeps.fact (φ := Apart m c i c') (fun w _ hR => hR (by simpa using hb)) fun he => ?_
  exact Keeps.anyR (transformCoordinates_mown i c' ix he)

/-- A request of the metric in this coordinate system reads the dictionary, and changes nothing. -/
theorem getRepresentation_mown {w : World K} (h : MOwn m c f d w) (ix : List Int) :
    getRepresentation E m c ix w = (match validateIndices ix f.2 with
      | .error e => (.error e, w)
      | .ok _ => match d.get? ix with
        | some a => (.ok a, w)
        | none => (.error .keyError, w)) := by
  obtain ⟨oc, c1, c2⟩ := h.chart
  obtain ⟨o, h1, h2, h3, h4, h5⟩ := h.metric
  subst h4
  unfold getRepresentation
  rw [PyM.bind_apply, isCoordinates_apply, c1]
  simp only [Option.any_some, c2, beq_self_eq_true, Bool.not_true, Bool.false_eq_true, if_false]
  rw [PyM.bind_apply, getObj_ok h1 h2]
  dsimp only
  rw [PyM.bind_apply, PyM.lift_apply]
  cases hv : validateIndices ix o.indices with
  | error e => rfl
  | ok u =>
    dsimp only
    have hc : checkRepresentation E m c ix w = (.ok true, w) := by
      unfold checkRepresentation
      rw [PyM.bind_apply, getObj_ok h1 h2]
      dsimp only
      rw [h3]
      dsimp only
      unfold metricCheck
      rw [PyM.bind_apply, getObj_ok h1 h2]
      simp [(Dict.has_iff _ _).2 ⟨d, h5⟩]
    rw [PyM.bind_apply, hc]
    dsimp only
    simp only [Bool.not_true, PyM.onlyIf, Bool.false_eq_true, if_false, PyM.bind_apply]
    rw [show (PyM.pure () : PyM K Unit) w = (.ok (), w) from rfl]
    dsimp only
    unfold readComps
    rw [PyM.bind_apply, getObj_ok h1 h2]
    dsimp only
    rw [PyM.bind_apply, lookup_ok h5, PyM.pure_apply]
    dsimp only
    unfold lookup
    cases d.get? ix <;> rfl

end
end PyOGRe
