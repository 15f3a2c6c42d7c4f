import Verif.Lemmas.Validate

/-! Helper lemmas: requests in another coordinate system, step by step, in any state. -/

namespace PyOGRe
open Spec
variable {K : Type} [CommRing K] {E : Engine K}

/-- The Jacobians that a transformation from `c` to `c'` uses: the cached ones, or else those of the
rules. -/
def UsedJacobians (E : Engine K) (oc oc' : Obj K) (c' : Id') (rules : List (Option (Sym × K)))
    (j : Jacobians K) : Prop :=
  oc.jac.get? c' = some j ∨ (oc.jac.get? c' = none ∧ calculateJacobian E oc.syms oc'.syms rules = .ok j)

theorem upd_id {w : World K} {c : Id'} {oc : Obj K} (h : w.objs[c]? = some oc) :
    upd w c (fun o => { o with jac := oc.jac }) = w := by
  unfold upd
  cases w with
  | mk objs inst =>
    congr 1
    refine List.ext_getElem? fun k => ?_
    rw [List.getElem?_modify]
    by_cases hk : c = k
    · subst hk
      have h1 : objs[c]? = some oc := h
      rw [h1]; simp
    · simp [hk]

theorem checkJacobians_direct {w : World K} {c c' : Id'} {oc oc' : Obj K} {rules : List (Option (Sym × K))}
    {j : Jacobians K} (h1 : w.objs[c]? = some oc) (h2 : oc.alive = true) (h1' : w.objs[c']? = some oc')
    (h2' : oc'.alive = true) (htr : oc.trans.get? c' = some rules) (hj : UsedJacobians E oc oc' c' rules j) :
    ∃ J, checkJacobians E c c' w = (.ok (), upd w c fun o => { o with jac := J }) ∧ J.get? c' = some j := by
  unfold checkJacobians
  rw [PyM.bind_apply, getObj_ok h1 h2]
  dsimp only
  rcases hj with hj | ⟨hj, hjj⟩
  · refine ⟨oc.jac, ?_, hj⟩
    rw [if_pos ((Dict.has_iff _ _).2 ⟨j, hj⟩), PyM.pure_apply, upd_id h1]
  · rw [(Dict.has_eq_false _ _).2 hj, if_neg (by decide), if_pos ((Dict.has_iff _ _).2 ⟨rules, htr⟩)]
    unfold calcJacobian
    rw [PyM.bind_apply, getObj_ok h1 h2]
    dsimp only
    rw [PyM.bind_apply, getObj_ok h1' h2']
    dsimp only
    rw [PyM.bind_apply, lookup_ok htr, PyM.pure_apply]
    dsimp only
    rw [PyM.bind_apply, PyM.lift_apply, hjj]
    dsimp only
    refine ⟨oc.jac.set c' j, ?_, Dict.get?_set_self _ _ _⟩
    unfold modifyObj upd
    congr 2
    refine List.ext_getElem? fun k => ?_
    rw [List.getElem?_modify, List.getElem?_modify]
    by_cases hk : c = k
    · subst hk
      rw [h1]
      simp
    · simp [hk]

theorem baseTransform_direct {w : World K} {i c' : Id'} {ix : List Int} {o oc oc' : Obj K}
    {d : Dict (List Int) (Arr K)} {a b : Arr K} {rules : List (Option (Sym × K))} {j : Jacobians K}
    (ho : w.objs[i]? = some o) (hal : o.alive = true) (hd : o.comps.get? o.coords = some d)
    (ha : d.get? ix = some a) (h1 : w.objs[o.coords]? = some oc) (h2 : oc.alive = true) (hne : o.coords ≠ i)
    (h1' : w.objs[c']? = some oc') (h2' : oc'.alive = true) (htr : oc.trans.get? c' = some rules)
    (hj : UsedJacobians E oc oc' c' rules j) (harr : o.isArray o.coords = true)
    (hb : transformComponents E j.J j.Jinv (eqRules rules) ix a = .ok b) :
    ∃ J, J.get? c' = some j ∧ baseTransform E i c' ix w = (.ok (), upd (upd w o.coords fun o => { o with jac := J }) i
      fun o => { o with comps := o.comps.set c' (((o.comps.get? c').getD []).set ix b) }) := by
  obtain ⟨J, e1, e2⟩ := checkJacobians_direct (E := E) h1 h2 h1' h2' htr hj
  refine ⟨J, e2, ?_⟩
  unfold baseTransform
  rw [PyM.bind_apply, getObj_ok ho hal]
  dsimp only
  rw [PyM.bind_apply, e1]
  dsimp only
  set w1 := upd w o.coords fun o => { o with jac := J } with hw1
  have g1 : w1.objs[i]? = some o := by rw [hw1, upd_ne hne]; exact ho
  have g2 : w1.objs[o.coords]? = some { oc with jac := J } := upd_self h1
  rw [PyM.bind_apply, readComps_ok g1 hal hd ha]
  dsimp only
  rw [PyM.bind_apply, getObj_ok g2 h2]
  dsimp only
  rw [PyM.bind_apply, lookup_ok e2, PyM.pure_apply]
  dsimp only
  rw [PyM.bind_apply, lookup_ok htr, PyM.pure_apply]
  dsimp only
  rw [PyM.bind_apply, PyM.lift_apply, needArray_true harr, hb]
  dsimp only
  rw [PyM.bind_apply]
  unfold ensureCoords
  rw [show ∀ f : Obj K → Obj K, modifyObj i f w1 = (.ok (), upd w1 i f) from fun _ => rfl]
  dsimp only
  have g3 : (upd w1 i fun o => if o.comps.has c' then o else { o with comps := o.comps.set c' [] }).objs[i]? =
      some (if o.comps.has c' then o else { o with comps := o.comps.set c' [] }) := upd_self g1
  have g4 : (if o.comps.has c' then o else { o with comps := o.comps.set c' [] }).alive = true := by
    split_ifs <;> exact hal
  have g5 : (if o.comps.has c' then o else { o with comps := o.comps.set c' [] }).comps.get? c' =
      some ((o.comps.get? c').getD []) := by
    split_ifs with hh
    · obtain ⟨v, hv⟩ := (Dict.has_iff _ _).1 hh
      rw [hv]; rfl
    · have hno : o.comps.get? c' = none := (Dict.has_eq_false _ _).1 (by simpa using hh)
      rw [hno]
      exact Dict.get?_set_self _ _ _
  rw [writeComps_ok g3 g4 g5]
  unfold upd
  congr 2
  refine List.ext_getElem? fun k => ?_
  rw [List.getElem?_modify, List.getElem?_modify, List.getElem?_modify]
  by_cases hk : i = k
  · subst hk
    rw [g1]
    simp only [if_true, Option.map_eq_map, Option.map_some]
    split_ifs
    · rfl
    · simp [set_set]
  · simp [hk]

/-- A request of a tensor in a system where it has not been before. -/
theorem getComponents_direct {w : World K} {t c c' : Id'} {ix : List Int} {o oc oc' : Obj K}
    {d : Dict (List Int) (Arr K)} {a b : Arr K} {rules : List (Option (Sym × K))} {j : Jacobians K}
    (ho : w.objs[t]? = some o) (hal : o.alive = true) (hk : o.kind = .tensor) (hoc : o.coords = c)
    (hd : o.comps.get? c = some d) (ha : d.get? ix = some a) (hnew : o.comps.get? c' = none)
    (hv : validateIndices ix o.indices = .ok ())
    (h1 : w.objs[c]? = some oc) (h2 : oc.alive = true) (hkc : oc.kind = .coordinates)
    (h1' : w.objs[c']? = some oc') (h2' : oc'.alive = true) (hkc' : oc'.kind = .coordinates)
    (htr : oc.trans.get? c' = some rules) (hj : UsedJacobians E oc oc' c' rules j)
    (harr : o.isArray c = true)
    (hb : transformComponents E j.J j.Jinv (eqRules rules) ix a = .ok b) :
    ∃ J, J.get? c' = some j ∧ getComponents E t (some c') (some ix) w =
      (.ok b, upd (upd w c fun o => { o with jac := J }) t
        fun o => { o with comps := o.comps.set c' (((o.comps.get? c').getD []).set ix b) }) := by
  subst hoc
  have hne : o.coords ≠ t := by
    intro he
    rw [he, ho] at h1; cases h1
    rw [hk] at hkc; cases hkc
  obtain ⟨J, hJ, hbt⟩ := baseTransform_direct (E := E) ho hal hd ha h1 h2 hne h1' h2' htr hj harr hb
  set w1 := upd (upd w o.coords fun o => { o with jac := J }) t
      fun o => { o with comps := o.comps.set c' (((o.comps.get? c').getD []).set ix b) } with hw1
  have hchk : checkRepresentation E t c' ix w = (.ok false, w) := by
    rw [checkRepresentation_tensor t c' ix ho hal (by rw [hk]; decide)]
    unfold tensorCheck
    rw [PyM.bind_apply, getObj_ok ho hal]
    dsimp only
    rw [hnew]
    rfl
  have htc : tensorCheck E t o.coords ix w = (.ok true, w) := by
    unfold tensorCheck
    rw [PyM.bind_apply, getObj_ok ho hal]
    dsimp only
    rw [hd]
    dsimp only
    rw [(Dict.has_iff _ _).2 ⟨a, ha⟩]
    rfl
  have htt : transformCoordinates E t c' ix w = (.ok (), w1) := by
    unfold transformCoordinates
    rw [PyM.bind_apply, getObj_ok ho hal]
    dsimp only
    rw [hk]
    dsimp only
    unfold tensorTransform
    rw [PyM.bind_apply, getObj_ok ho hal]
    dsimp only
    rw [PyM.bind_apply, htc]
    dsimp only
    rw [PyM.bind_apply, show PyM.onlyIf (!true) (tensorRaiseLower E t o.coords ix) w = (.ok (), w) from rfl]
    exact hbt
  have g1 : w1.objs[t]? = some { o with comps := o.comps.set c' (((o.comps.get? c').getD []).set ix b) } := by
    rw [hw1]
    exact upd_self (by rw [upd_ne hne]; exact ho)
  refine ⟨J, hJ, ?_⟩
  unfold getComponents
  rw [PyM.bind_apply, getObj_ok ho hal]
  dsimp only
  rw [Option.getD_some, Option.getD_some]
  unfold getRepresentation
  rw [PyM.bind_apply, isCoordinates_apply, h1']
  dsimp only
  rw [if_neg (by simp [hkc']), PyM.bind_apply, getObj_ok ho hal]
  dsimp only
  rw [PyM.bind_apply, PyM.lift_apply, hv]
  dsimp only
  rw [PyM.bind_apply, hchk]
  dsimp only
  rw [PyM.bind_apply, show PyM.onlyIf (!false) (transformCoordinates E t c' ix) w =
    transformCoordinates E t c' ix w from rfl, htt]
  dsimp only
  exact readComps_ok g1 hal (Dict.get?_set_self _ _ _) (Dict.get?_set_self _ _ _)

end PyOGRe
