import Verif.Lemmas.Geodesic
import Verif.Lemmas.Charts

/-! Helper lemmas: Lagrangians and geodesic equations in new coordinates. -/

namespace PyOGRe
open Spec Finset
variable {K : Type} [CommRing K] {E : Engine K} {C : Curves K} {w : World K}

/-- The class is one of the three classes of geodesic equations. -/
def Kind.isGeodesic : Kind → Bool
  | .geodesicLagrangian | .geodesicChristoffel | .geodesicTime => true
  | _ => false

theorem store_new {i c' : Id'} {ix : List Int} {o : Obj K} (ho : w.objs[i]? = some o) (hal : o.alive = true)
    (hnew : o.comps.get? c' = none) (b : Arr K) :
    (do ensureCoords i c'; writeComps i c' ix b : PyM K Unit) w =
      (.ok (), upd w i fun o => { o with comps := o.comps.set c' (((o.comps.get? c').getD []).set ix b) }) := by
  rw [PyM.bind_apply]
  unfold ensureCoords
  rw [show ∀ f : Obj K → Obj K, modifyObj i f w = (.ok (), upd w i f) from fun _ => rfl]
  dsimp only
  have hh : ¬ (o.comps.has c' = true) := by rw [(Dict.has_eq_false _ _).2 hnew]; decide
  have g3 : (upd w i fun o => if o.comps.has c' then o else { o with comps := o.comps.set c' [] }).objs[i]? =
      some { o with comps := o.comps.set c' [] } := by
    refine (upd_self ho).trans ?_
    rw [if_neg hh]
  rw [writeComps_ok g3 hal (Dict.get?_set_self _ _ _)]
  unfold upd
  congr 2
  refine List.ext_getElem? fun k => ?_
  rw [List.getElem?_modify, List.getElem?_modify, List.getElem?_modify]
  by_cases hk : i = k
  · subst hk
    rw [ho]
    simp only [if_true, Option.map_eq_map, Option.map_some, if_neg hh, hnew, Option.getD_none]
    simp [set_set]
  · simp [hk]

theorem contraction_ok {J Jinv a b : Arr K} {rules : List (Sym × K)} {ix : List Int}
    (h : transformComponents E J Jinv rules ix a = .ok b) :
    ∃ e, ((jacobianFactors J Jinv ix).foldl Arr.tensorproduct a).tensorcontraction (jacobianPairs ix.length ix) = .ok e := by
  unfold transformComponents at h
  dsimp only at h
  cases hc : ((jacobianFactors J Jinv ix).foldl Arr.tensorproduct a).tensorcontraction (jacobianPairs ix.length ix) with
  | error e => rw [hc] at h; cases h
  | ok e => exact ⟨e, rfl⟩

/-- What a transformation to new coordinates stores, given what the contraction gives. -/
def newCurve (E : Engine K) (C : Curves K) (kind : Kind) (new : List Sym) (rules : List (Sym × K)) (a e : Arr K) : Arr K :=
  if kind = .lagrangian then (e.map (substCurve E C new rules)).map E.simp else (a.map C.clear).map E.simp

theorem lagrangianTransform_direct {i c' : Id'} {ix : List Int} {o oc oc' : Obj K}
    {d : Dict (List Int) (Arr K)} {a e : Arr K} {rules : List (Option (Sym × K))} {j : Jacobians K}
    (ho : w.objs[i]? = some o) (hal : o.alive = true) (hd : o.comps.get? o.coords = some d)
    (ha : d.get? ix = some a) (hnew : o.comps.get? c' = none) (h1 : w.objs[o.coords]? = some oc) (h2 : oc.alive = true)
    (hne : o.coords ≠ i) (hci : c' ≠ i)
    (h1' : w.objs[c']? = some oc') (h2' : oc'.alive = true) (htr : oc.trans.get? c' = some rules)
    (harr : o.isArray o.coords = true)
    (he : ((jacobianFactors j.J j.Jinv ix).foldl Arr.tensorproduct a).tensorcontraction (jacobianPairs ix.length ix) = .ok e) {J : Dict Id' (Jacobians K)}
    (e1 : checkJacobians E o.coords c' w = (.ok (), upd w o.coords fun o => { o with jac := J })) (e2 : J.get? c' = some j) :
    lagrangianTransform E C i c' ix w = (.ok (), upd (upd w o.coords fun o => { o with jac := J }) i fun o' =>
      { o' with comps := o'.comps.set c' (((o'.comps.get? c').getD []).set ix ((e.map (substCurve E C oc'.syms (eqRules rules))).map E.simp)) }) := by
  set w1 := upd w o.coords fun o => { o with jac := J } with hw1
  have g1 : w1.objs[i]? = some o := by rw [hw1, upd_ne hne]; exact ho
  have g2 : w1.objs[o.coords]? = some { oc with jac := J } := upd_self h1
  have g3 : ∃ oc1, w1.objs[c']? = some oc1 ∧ oc1.alive = true ∧ oc1.syms = oc'.syms := by
    by_cases hcc : o.coords = c'
    · subst hcc
      rw [h1] at h1'; cases h1'
      exact ⟨_, g2, h2, rfl⟩
    · exact ⟨oc', by rw [hw1, upd_ne hcc]; exact h1', h2', rfl⟩
  obtain ⟨oc1, q1, q2, q3⟩ := g3
  have hst := fun b => store_new (w := w1) (ix := ix) g1 hal hnew b
  unfold lagrangianTransform
  rw [PyM.bind_apply, getObj_ok ho hal]
  dsimp only
  rw [PyM.bind_apply, e1]
  dsimp only
  rw [PyM.bind_apply, readComps_ok g1 hal hd ha]
  dsimp only
  rw [PyM.bind_apply, getObj_ok g2 h2]
  dsimp only
  rw [PyM.bind_apply, lookup_ok e2, PyM.pure_apply]
  dsimp only
  rw [PyM.bind_apply, lookup_ok htr, PyM.pure_apply]
  dsimp only
  rw [PyM.bind_apply, PyM.lift_apply, needArray_true harr, he]
  dsimp only
  rw [PyM.bind_apply, getObj_ok q1 q2]
  dsimp only
  rw [q3]
  exact hst _

theorem geodesicTransform_direct {i c' : Id'} {ix : List Int} {o oc oc' : Obj K}
    {d : Dict (List Int) (Arr K)} {a e : Arr K} {rules : List (Option (Sym × K))} {j : Jacobians K}
    (ho : w.objs[i]? = some o) (hal : o.alive = true) (hd : o.comps.get? o.coords = some d)
    (ha : d.get? ix = some a) (hnew : o.comps.get? c' = none) (h1 : w.objs[o.coords]? = some oc) (h2 : oc.alive = true)
    (hne : o.coords ≠ i) (hci : c' ≠ i)
    (h1' : w.objs[c']? = some oc') (h2' : oc'.alive = true) (htr : oc.trans.get? c' = some rules)
    (he : ((jacobianFactors j.J j.Jinv ix).foldl Arr.tensorproduct a).tensorcontraction (jacobianPairs ix.length ix) = .ok e) {J : Dict Id' (Jacobians K)}
    (e1 : checkJacobians E o.coords c' w = (.ok (), upd w o.coords fun o => { o with jac := J })) (e2 : J.get? c' = some j) :
    geodesicTransform E C i c' ix w = (.ok (), upd (upd w o.coords fun o => { o with jac := J }) i fun o' =>
      { o' with comps := o'.comps.set c' (((o'.comps.get? c').getD []).set ix ((a.map C.clear).map E.simp)) }) := by
  set w1 := upd w o.coords fun o => { o with jac := J } with hw1
  have g1 : w1.objs[i]? = some o := by rw [hw1, upd_ne hne]; exact ho
  have g2 : w1.objs[o.coords]? = some { oc with jac := J } := upd_self h1
  have g3 : ∃ oc1, w1.objs[c']? = some oc1 ∧ oc1.alive = true ∧ oc1.syms = oc'.syms := by
    by_cases hcc : o.coords = c'
    · subst hcc
      rw [h1] at h1'; cases h1'
      exact ⟨_, g2, h2, rfl⟩
    · exact ⟨oc', by rw [hw1, upd_ne hcc]; exact h1', h2', rfl⟩
  obtain ⟨oc1, q1, q2, q3⟩ := g3
  have hst := fun b => store_new (w := w1) (ix := ix) g1 hal hnew b
  unfold geodesicTransform
  rw [PyM.bind_apply, getObj_ok ho hal]
  dsimp only
  rw [PyM.bind_apply, e1]
  dsimp only
  rw [PyM.bind_apply, readComps_ok g1 hal hd ha]
  dsimp only
  rw [PyM.bind_apply, getObj_ok g2 h2]
  dsimp only
  rw [PyM.bind_apply, lookup_ok e2, PyM.pure_apply]
  dsimp only
  rw [PyM.bind_apply, lookup_ok htr, PyM.pure_apply]
  dsimp only
  rw [PyM.bind_apply, PyM.lift_apply, he]
  dsimp only
  rw [PyM.bind_apply, getObj_ok q1 q2]
  dsimp only
  exact hst _

theorem curveTransform_direct {i c' : Id'} {ix : List Int} {o oc oc' : Obj K}
    {d : Dict (List Int) (Arr K)} {a e : Arr K} {rules : List (Option (Sym × K))} {j : Jacobians K}
    (ho : w.objs[i]? = some o) (hal : o.alive = true) (hd : o.comps.get? o.coords = some d)
    (ha : d.get? ix = some a) (hnew : o.comps.get? c' = none) (h1 : w.objs[o.coords]? = some oc) (h2 : oc.alive = true)
    (hne : o.coords ≠ i) (hci : c' ≠ i)
    (h1' : w.objs[c']? = some oc') (h2' : oc'.alive = true) (htr : oc.trans.get? c' = some rules)
    (hj : UsedJacobians E oc oc' c' rules j) (harr : o.isArray o.coords = true)
    (he : ((jacobianFactors j.J j.Jinv ix).foldl Arr.tensorproduct a).tensorcontraction (jacobianPairs ix.length ix) = .ok e) :
    ∃ J, J.get? c' = some j ∧ curveTransform E C i c' ix w = (.ok (), upd (upd w o.coords fun o => { o with jac := J }) i
      fun o' => { o' with comps := o'.comps.set c' (((o'.comps.get? c').getD []).set ix
        (newCurve E C o.kind oc'.syms (eqRules rules) a e)) }) := by
  obtain ⟨J, e1, e2⟩ := checkJacobians_direct (E := E) h1 h2 h1' h2' htr hj
  refine ⟨J, e2, ?_⟩
  have hL := lagrangianTransform_direct (E := E) (C := C) ho hal hd ha hnew h1 h2 hne hci h1' h2' htr harr he e1 e2
  have hG := geodesicTransform_direct (E := E) (C := C) ho hal hd ha hnew h1 h2 hne hci h1' h2' htr he e1 e2
  unfold curveTransform
  rw [PyM.bind_apply, getObj_ok ho hal]
  dsimp only
  by_cases hk : o.kind = .lagrangian
  · rw [newCurve, if_pos hk, ← hL, hk]
  · rw [newCurve, if_neg hk, ← hG]
    revert hk
    generalize o.kind = k
    intro hk
    cases k <;> first | exact absurd rfl hk | rfl

/-- A request of a Lagrangian or geodesic equation in a system where it has not been before. -/
theorem curveComponents_direct {t c c' : Id'} {ix : List Int} {o oc oc' : Obj K}
    {d : Dict (List Int) (Arr K)} {a e : Arr K} {rules : List (Option (Sym × K))} {j : Jacobians K}
    (ho : w.objs[t]? = some o) (hal : o.alive = true) (hk : o.kind ≠ .coordinates) (hoc : o.coords = c)
    (hd : o.comps.get? c = some d) (ha : d.get? ix = some a) (hnew : o.comps.get? c' = none)
    (hv : validateIndices ix o.indices = .ok ())
    (h1 : w.objs[c]? = some oc) (h2 : oc.alive = true) (hkc : oc.kind = .coordinates)
    (h1' : w.objs[c']? = some oc') (h2' : oc'.alive = true) (hkc' : oc'.kind = .coordinates)
    (htr : oc.trans.get? c' = some rules) (hj : UsedJacobians E oc oc' c' rules j)
    (harr : o.isArray c = true)
    (he : ((jacobianFactors j.J j.Jinv ix).foldl Arr.tensorproduct a).tensorcontraction (jacobianPairs ix.length ix) = .ok e) :
    ∃ w', curveComponents E C t (some c') (some ix) w =
      (.ok ((newCurve E C o.kind oc'.syms (eqRules rules) a e).map
        (C.asFunctions (curveParameter C o.kind oc'.syms) oc'.syms)), w') := by
  subst hoc
  have hne : o.coords ≠ t := by
    intro he
    rw [he, ho] at h1; cases h1
    exact hk hkc
  have hne' : c' ≠ t := by
    intro he
    rw [he, ho] at h1'; cases h1'
    exact hk hkc'
  obtain ⟨J, hJ, hbt⟩ := curveTransform_direct (E := E) (C := C) ho hal hd ha hnew h1 h2 hne hne' h1' h2' htr hj
    harr he
  set b := newCurve E C o.kind oc'.syms (eqRules rules) a e with hb
  set w1 := upd (upd w o.coords fun o => { o with jac := J }) t
      fun o => { o with comps := o.comps.set c' (((o.comps.get? c').getD []).set ix b) } with hw1
  have hchk : tensorCheck E t c' ix w = (.ok false, w) := by
    unfold tensorCheck
    rw [PyM.bind_apply, getObj_ok ho hal]
    dsimp only
    rw [hnew]
    rfl
  have g1 : w1.objs[t]? = some { o with comps := o.comps.set c' (((o.comps.get? c').getD []).set ix b) } := by
    rw [hw1]
    exact upd_self (by rw [upd_ne hne]; exact ho)
  have g3 : ∃ oc1, w1.objs[c']? = some oc1 ∧ oc1.alive = true ∧ oc1.syms = oc'.syms := by
    rw [hw1, upd_ne (Ne.symm hne')]
    by_cases hcc : o.coords = c'
    · subst hcc
      rw [h1] at h1'; cases h1'
      exact ⟨_, upd_self h1, h2, rfl⟩
    · exact ⟨oc', by rw [upd_ne hcc]; exact h1', h2', rfl⟩
  obtain ⟨oc1, q1, q2, q3⟩ := g3
  refine ⟨w1, ?_⟩
  unfold curveComponents
  rw [PyM.bind_apply, getObj_ok ho hal]
  dsimp only
  rw [Option.getD_some, Option.getD_some]
  have hrep : curveRepresentation E C t c' ix w = (.ok b, w1) := by
    unfold curveRepresentation
    rw [PyM.bind_apply, isCoordinates_apply, h1']
    dsimp only
    rw [if_neg (by simp [hkc']), PyM.bind_apply, getObj_ok ho hal]
    dsimp only
    rw [PyM.bind_apply, PyM.lift_apply, hv]
    dsimp only
    rw [PyM.bind_apply, hchk]
    dsimp only
    rw [PyM.bind_apply, show PyM.onlyIf (!false) (curveTransform E C t c' ix) w =
      curveTransform E C t c' ix w from rfl, hbt]
    dsimp only
    exact readComps_ok g1 hal (Dict.get?_set_self _ _ _) (Dict.get?_set_self _ _ _)
  rw [PyM.bind_apply, hrep]
  dsimp only
  rw [PyM.bind_apply, getObj_ok q1 q2]
  dsimp only
  rw [q3]
  rfl

end PyOGRe
