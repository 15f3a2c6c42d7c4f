import Verif.Lemmas.MetricOwn

/-! Helper lemmas: requests change nothing but caches. -/

namespace PyOGRe
open Spec
variable {K : Type}

/-- Everything but the stored components and Jacobians. -/
def Obj.core (o : Obj K) : Kind × String × String × List Int × Id' × Id' × List Sym ×
    Dict Id' (List (Option (Sym × K))) × Bool :=
  (o.kind, o.name, o.symbol, o.indices, o.coords, o.metric, o.syms, o.trans, o.alive)

/-- `w'` differs from `w` only in caches. -/
def Frame (w w' : World K) : Prop := w'.objs.map Obj.core = w.objs.map Obj.core ∧ w'.instances = w.instances

theorem Frame.refl (w : World K) : Frame w w := ⟨rfl, rfl⟩
theorem Frame.trans {w w' w'' : World K} (h : Frame w w') (h' : Frame w' w'') : Frame w w'' :=
  ⟨h'.1.trans h.1, h'.2.trans h.2⟩

theorem Frame.get {w w' : World K} (h : Frame w w') {i : Id'} {o : Obj K} (ho : w.objs[i]? = some o) :
    ∃ o', w'.objs[i]? = some o' ∧ o'.core = o.core := by
  have h1 : (w'.objs.map Obj.core)[i]? = (w.objs.map Obj.core)[i]? := by rw [h.1]
  rw [List.getElem?_map, List.getElem?_map, ho] at h1
  cases h2 : w'.objs[i]? with
  | none => rw [h2] at h1; cases h1
  | some o' => rw [h2] at h1; exact ⟨o', rfl, by simpa using h1⟩

theorem Frame.symm {w w' : World K} (h : Frame w w') : Frame w' w := ⟨h.1.symm, h.2.symm⟩

/-- A computation that changes only caches. -/
def Steady {α : Type} (m : PyM K α) : Prop := ∀ w, Frame w (m w).2

theorem Steady.bind {α β : Type} {m : PyM K α} {f : α → PyM K β} (hm : Steady m) (hf : ∀ a, Steady (f a)) :
    Steady (m >>= f) := by
  intro w
  have h1 := hm w
  rw [PyM.bind_apply]
  rcases h : m w with ⟨r, w'⟩
  rw [h] at h1
  cases r with
  | ok a => exact h1.trans (hf a w')
  | error e => exact h1

theorem Steady.pure {α : Type} (a : α) : Steady (Pure.pure a : PyM K α) := fun w => Frame.refl w
theorem Steady.raise {α : Type} (e : PyErr) : Steady (PyM.raise e : PyM K α) := fun w => Frame.refl w
theorem Steady.lift {α : Type} (x : Py α) : Steady (PyM.lift x : PyM K α) := fun w => Frame.refl w
theorem Steady.ite {α : Type} {b : Prop} [Decidable b] {m m' : PyM K α} (h : Steady m) (h' : Steady m') :
    Steady (if b then m else m') := by split_ifs <;> assumption
theorem Steady.onlyIf {b : Bool} {m : PyM K Unit} (h : Steady m) : Steady (PyM.onlyIf b m) :=
  Steady.ite h (Steady.pure ())
theorem Steady.getObj (i : Id') : Steady (K := K) (PyOGRe.getObj i) := by
  intro w
  rcases getObj_cases i w with ⟨o, -, -, h⟩ | h <;> rw [h] <;> exact Frame.refl w
theorem Steady.lookup {α β : Type} [DecidableEq α] (d : Dict α β) (k : α) :
    Steady (K := K) (PyOGRe.lookup d k) := by
  unfold PyOGRe.lookup
  cases d.get? k <;> first | exact Steady.raise _ | exact Steady.pure _
theorem Steady.readComps (i c : Id') (ix : List Int) : Steady (K := K) (PyOGRe.readComps i c ix) := by
  unfold PyOGRe.readComps
  exact Steady.bind (Steady.getObj _) fun _ => Steady.bind (Steady.lookup _ _) fun _ => Steady.lookup _ _

theorem modify_map_eq {α β : Type} (f : α → β) (u : α → α) (h : ∀ a, f (u a) = f a) (l : List α) (i : Nat) :
    (l.modify i u).map f = l.map f := by
  apply List.ext_getElem?
  intro k
  rw [List.getElem?_map, List.getElem?_map, List.getElem?_modify]
  cases l[k]? with
  | none => rfl
  | some a => by_cases hik : i = k <;> simp [hik, h]

theorem Steady.modifyObj (i : Id') (u : Obj K → Obj K) (h : ∀ o, (u o).core = o.core) :
    Steady (PyOGRe.modifyObj i u) := by
  intro w
  exact ⟨modify_map_eq _ _ h _ _, rfl⟩
theorem Steady.writeComps (i c : Id') (ix : List Int) (a : Arr K) : Steady (PyOGRe.writeComps i c ix a) := by
  unfold PyOGRe.writeComps
  exact Steady.bind (Steady.getObj _) fun _ => Steady.bind (Steady.lookup _ _) fun _ =>
    Steady.modifyObj _ _ fun _ => rfl
theorem Steady.ensureCoords (i c : Id') : Steady (K := K) (PyOGRe.ensureCoords i c) := by
  unfold PyOGRe.ensureCoords
  refine Steady.modifyObj _ _ fun o => ?_
  split_ifs <;> rfl

section
variable [CommRing K] {E : Engine K}

theorem checkJacobians_steady (i c : Id') : Steady (checkJacobians E i c) := by
  unfold checkJacobians calcJacobian
  refine Steady.bind (Steady.getObj _) fun _ => Steady.ite (Steady.pure _) (Steady.ite ?_ ?_)
  · exact Steady.bind (Steady.getObj _) fun _ => Steady.bind (Steady.getObj _) fun _ =>
      Steady.bind (Steady.lookup _ _) fun _ => Steady.bind (Steady.lift _) fun _ =>
      Steady.modifyObj _ _ fun _ => rfl
  · exact Steady.bind (Steady.getObj _) fun _ => Steady.raise _

theorem baseTransform_steady (i c : Id') (ix : List Int) : Steady (baseTransform E i c ix) := by
  unfold baseTransform
  exact Steady.bind (Steady.getObj _) fun _ => Steady.bind (checkJacobians_steady _ _) fun _ =>
    Steady.bind (Steady.readComps _ _ _) fun _ => Steady.bind (Steady.getObj _) fun _ =>
    Steady.bind (Steady.lookup _ _) fun _ => Steady.bind (Steady.lookup _ _) fun _ =>
    Steady.bind (Steady.lift _) fun _ => Steady.bind (Steady.ensureCoords _ _) fun _ =>
    Steady.writeComps _ _ _ _

theorem metricTransform_steady (i c : Id') (ix : List Int) : Steady (metricTransform E i c ix) := by
  unfold metricTransform
  exact Steady.bind (baseTransform_steady _ _ _) fun _ => Steady.bind (Steady.getObj _) fun _ =>
    Steady.bind (Steady.readComps _ _ _) fun _ => Steady.bind (Steady.lift _) fun _ =>
    Steady.bind (Steady.writeComps _ _ _ _) fun _ => Steady.bind (Steady.readComps _ _ _) fun _ =>
    Steady.bind (Steady.readComps _ _ _) fun _ => Steady.bind (Steady.lift _) fun _ =>
    Steady.bind (Steady.writeComps _ _ _ _) fun _ => Steady.bind (Steady.readComps _ _ _) fun _ =>
    Steady.bind (Steady.readComps _ _ _) fun _ => Steady.bind (Steady.lift _) fun _ =>
    Steady.writeComps _ _ _ _

theorem metricCheck_steady (i c : Id') : Steady (K := K) (metricCheck i c) := by
  unfold metricCheck
  exact Steady.bind (Steady.getObj _) fun _ => Steady.pure _

theorem tensorRaiseLower_steady (i c : Id') (ix : List Int) : Steady (tensorRaiseLower E i c ix) := by
  unfold tensorRaiseLower
  refine Steady.bind (Steady.getObj _) fun _ => Steady.bind (metricCheck_steady _ _) fun _ =>
    Steady.bind (Steady.onlyIf (metricTransform_steady _ _ _)) fun _ => Steady.bind (Steady.getObj _) fun _ =>
    Steady.bind (Steady.lookup _ _) fun d => ?_
  match d with
  | [] => exact Steady.raise _
  | (s, b) :: d =>
    exact Steady.bind (Steady.readComps _ _ _) fun _ => Steady.bind (Steady.readComps _ _ _) fun _ =>
      Steady.bind (Steady.lift _) fun _ => Steady.writeComps _ _ _ _

theorem tensorCheck_steady (i c : Id') (ix : List Int) : Steady (tensorCheck E i c ix) := by
  unfold tensorCheck
  refine Steady.bind (Steady.getObj _) fun o => ?_
  cases o.comps.get? c with
  | none => exact Steady.pure _
  | some d => exact Steady.bind (Steady.onlyIf (tensorRaiseLower_steady _ _ _)) fun _ => Steady.pure _

theorem tensorTransform_steady (i c : Id') (ix : List Int) : Steady (tensorTransform E i c ix) := by
  unfold tensorTransform
  exact Steady.bind (Steady.getObj _) fun o => Steady.bind (tensorCheck_steady _ _ _) fun _ =>
    Steady.bind (Steady.onlyIf (tensorRaiseLower_steady _ _ _)) fun _ => baseTransform_steady _ _ _

theorem christoffelTransform_steady (i c : Id') (ix : List Int) : Steady (christoffelTransform E i c ix) := by
  unfold christoffelTransform
  exact Steady.bind (Steady.getObj _) fun _ => Steady.bind (checkJacobians_steady _ _) fun _ =>
    Steady.bind (Steady.getObj _) fun _ => Steady.bind (Steady.readComps _ _ _) fun _ =>
    Steady.bind (Steady.lookup _ _) fun _ => Steady.bind (Steady.lookup _ _) fun _ =>
    Steady.bind (Steady.lift _) fun _ => Steady.bind (Steady.ensureCoords _ _) fun _ =>
    Steady.writeComps _ _ _ _

theorem checkRepresentation_steady (i c : Id') (ix : List Int) : Steady (checkRepresentation E i c ix) := by
  unfold checkRepresentation
  refine Steady.bind (Steady.getObj _) fun o => ?_
  cases o.kind <;> first | exact metricCheck_steady _ _ | exact tensorCheck_steady _ _ _

theorem transformCoordinates_steady (i c : Id') (ix : List Int) : Steady (transformCoordinates E i c ix) := by
  unfold transformCoordinates
  refine Steady.bind (Steady.getObj _) fun o => ?_
  cases o.kind <;> first | exact metricTransform_steady _ _ _ | exact christoffelTransform_steady _ _ _ |
    exact tensorTransform_steady _ _ _

theorem getRepresentation_steady (i c : Id') (ix : List Int) : Steady (getRepresentation E i c ix) := by
  unfold getRepresentation
  refine Steady.bind (fun w => Frame.refl w) fun _ => Steady.ite (Steady.raise _) ?_
  exact Steady.bind (Steady.getObj _) fun _ => Steady.bind (Steady.lift _) fun _ =>
    Steady.bind (checkRepresentation_steady _ _ _) fun _ =>
    Steady.bind (Steady.onlyIf (transformCoordinates_steady _ _ _)) fun _ => Steady.readComps _ _ _

theorem getComponents_steady (i : Id') (c : Option Id') (ix : Option (List Int)) :
    Steady (getComponents E i c ix) := by
  unfold getComponents
  exact Steady.bind (Steady.getObj _) fun _ => getRepresentation_steady _ _ _

end

theorem PyM.then_ok {α β : Type} {m : PyM K α} {f : α → PyM K β} {w w' : World K} {a : α}
    {r : Except PyErr β × World K} (h : m w = (.ok a, w')) (h' : f a w' = r) : (m >>= f) w = r := by
  rw [PyM.bind_apply, h]; exact h'

theorem bind_ok {α β : Type} {m : PyM K α} {f : α → PyM K β} {w w' : World K} {b : β}
    (h : (m >>= f) w = (.ok b, w')) : ∃ a w1, m w = (.ok a, w1) ∧ f a w1 = (.ok b, w') := by
  rw [PyM.bind_apply] at h
  rcases hm : m w with ⟨r, w1⟩
  rw [hm] at h
  cases r with
  | ok a => exact ⟨a, w1, rfl, h⟩
  | error e => cases h

theorem getObj_inv {i : Id'} {w w' : World K} {o : Obj K} (h : getObj i w = (.ok o, w')) :
    w' = w ∧ w.objs[i]? = some o ∧ o.alive = true := by
  rcases getObj_cases i w with ⟨o', h1, h2, h3⟩ | h1
  · rw [h3] at h; cases h; exact ⟨rfl, h1, h2⟩
  · rw [h1] at h; cases h

theorem lookup_inv {α β : Type} [DecidableEq α] {d : Dict α β} {k : α} {w w' : World K} {v : β}
    (h : lookup d k w = (.ok v, w')) : w' = w ∧ d.get? k = some v := by
  unfold lookup at h
  cases hd : d.get? k with
  | none => rw [hd] at h; cases h
  | some v' => rw [hd] at h; cases h; exact ⟨rfl, rfl⟩

theorem readComps_inv {i c : Id'} {ix : List Int} {w w' : World K} {a : Arr K}
    (h : readComps i c ix w = (.ok a, w')) : w' = w ∧ ∃ o d, w.objs[i]? = some o ∧ o.alive = true ∧
      o.comps.get? c = some d ∧ d.get? ix = some a := by
  unfold readComps at h
  obtain ⟨o, w1, h1, hh⟩ := bind_ok h; clear h; rename' hh => h
  obtain ⟨rfl, h2, h3⟩ := getObj_inv h1
  obtain ⟨d, w2, h4, hh⟩ := bind_ok h; clear h; rename' hh => h
  obtain ⟨rfl, h5⟩ := lookup_inv h4
  obtain ⟨rfl, h6⟩ := lookup_inv h
  exact ⟨rfl, o, d, h2, h3, h5, h6⟩

section
variable [CommRing K] {E : Engine K}

/-- What was returned is stored. -/
theorem getComponents_stored {i c : Id'} {ix : List Int} {w w' : World K} {a : Arr K}
    (h : getComponents E i (some c) (some ix) w = (.ok a, w')) :
    (∃ oc, w'.objs[c]? = some oc ∧ oc.kind = .coordinates) ∧
    (∃ o, w.objs[i]? = some o ∧ validateIndices ix o.indices = .ok ()) ∧
    ∃ o d, w'.objs[i]? = some o ∧ o.alive = true ∧ o.comps.get? c = some d ∧ d.get? ix = some a := by
  have hs := getComponents_steady (E := E) i (some c) (some ix) w
  rw [h] at hs
  unfold getComponents at h
  obtain ⟨o, w1, h1, hh⟩ := bind_ok h; clear h; rename' hh => h
  obtain ⟨rfl, h2, h3⟩ := getObj_inv h1
  unfold getRepresentation at h
  obtain ⟨b, w2, h4, hh⟩ := bind_ok h; clear h; rename' hh => h
  rw [isCoordinates_apply] at h4
  cases h4
  have hc : ∃ oc, w1.objs[c]? = some oc ∧ oc.kind = .coordinates := by
    cases hcc : w1.objs[c]? with
    | none => simp [hcc] at h
    | some oc =>
      refine ⟨oc, rfl, ?_⟩
      by_contra hk
      simp [hcc, hk] at h
  obtain ⟨oc, hc1, hc2⟩ := hc
  rw [Option.getD_some, Option.getD_some] at h
  simp only [hc1, Option.any_some, hc2, beq_self_eq_true, Bool.not_true, Bool.false_eq_true, if_false] at h
  obtain ⟨o', w2, h4, h⟩ := bind_ok h
  obtain ⟨rfl, h5, h6⟩ := getObj_inv h4
  rw [h2] at h5; cases h5
  obtain ⟨u, w3, h7, hh⟩ := bind_ok h; clear h; rename' hh => h
  have h8 : validateIndices ix o.indices = .ok () := by
    have := congrArg Prod.fst h7
    exact this
  obtain ⟨b, w4, h9, hh⟩ := bind_ok h; clear h; rename' hh => h
  obtain ⟨u, w5, h10, hh⟩ := bind_ok h; clear h; rename' hh => h
  obtain ⟨rfl, h11⟩ := readComps_inv h
  obtain ⟨oc', e1, e2⟩ := hs.get hc1
  refine ⟨⟨oc', e1, ?_⟩, ⟨o, h2, h8⟩, h11⟩
  have := congrArg (·.1) e2
  exact this.trans hc2

/-- What was returned for a metric stays stored. -/
theorem getComponents_metric_stored {m c : Id'} {ix : List Int} {w w' : World K} {a : Arr K} {om : Obj K}
    (hm : w.objs[m]? = some om) (hk : om.kind = .metric)
    (h : getComponents E m (some c) (some ix) w = (.ok a, w')) :
    ∃ d, MOwn m c (om.coords, om.indices) d w' ∧ d.get? ix = some a := by
  obtain ⟨h1, -, o, d, h2, h3, h4, h5⟩ := getComponents_stored h
  have hs := getComponents_steady (E := E) m (some c) (some ix) w
  rw [h] at hs
  obtain ⟨o', e1, e2⟩ := hs.get hm
  rw [h2] at e1; cases e1
  refine ⟨d, ⟨h1, o, h2, h3, ?_, ?_, h4⟩, h5⟩
  · exact (congrArg (·.1) e2).trans hk
  · exact Prod.ext (congrArg (·.2.2.2.2.1) e2) (congrArg (·.2.2.2.1) e2)

end
end PyOGRe
