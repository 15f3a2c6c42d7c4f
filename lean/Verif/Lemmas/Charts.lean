import Verif.Lemmas.Direct
import Verif.Spec.Charts

/-! Helper lemmas for the properties about coordinate systems. -/

namespace PyOGRe
open Spec Finset
variable {K : Type} [CommRing K] {E : Engine K}

/-- What is stored when a request has no effect. -/
theorem known_stored {w : World K} {k : Kind} {t c : Id'} {ix : List Int} {b : Arr K}
    (h : Known E w k t c ix b) :
    ∃ o d, w.objs[t]? = some o ∧ o.alive = true ∧ o.kind = k ∧ o.coords = c ∧
      o.comps.get? c = some d ∧ d.get? ix = some b ∧ validateIndices ix o.indices = .ok () := by
  obtain ⟨o, h1, h2, h3⟩ := h.object
  obtain ⟨-, ⟨o', e1, e2⟩, o'', d, e3, e4, e5, e6⟩ := getComponents_stored h.returns
  rw [h1] at e1 e3
  cases e1; cases e3
  exact ⟨o, d, h1, e4, h2, h3, e5, e6, e2⟩

omit [CommRing K] in
theorem native_array {w : World K} {t c : Id'} {o : Obj K} (h : Native w t c) (ho : w.objs[t]? = some o) :
    o.isArray c = true :=
  isArray_head (h o ho)

omit [CommRing K] in
theorem isBare_native {w : World K} {t : Id'} {c : Option Id'}
    (h : ∀ o, w.objs[t]? = some o → Native w t (c.getD o.coords)) : isBare t c w = (.ok false, w) := by
  unfold isBare
  cases ho : w.objs[t]? with
  | none => rfl
  | some o => simp [native_array (h o ho) ho]

omit [CommRing K] in
theorem isBare_moved {w : World K} {t : Id'} {c : Option Id'} {o : Obj K} (ho : w.objs[t]? = some o)
    (h : ¬ Native w t (c.getD o.coords)) : isBare t c w = (.ok true, w) := by
  unfold isBare
  rw [ho]
  cases hb : o.isArray (c.getD o.coords) with
  | false => simp [hb]
  | true =>
    refine absurd (fun o' ho' hi => ?_) h
    rw [ho] at ho'; cases ho'
    exact head_isArray hb hi

theorem native_same {w w' : World K} {t c : Id'} (h : Native w t c) (hs : w'.objs[t]? = w.objs[t]?) : Native w' t c :=
  fun o ho => h o (hs ▸ ho)

theorem native_known {w : World K} {k : Kind} {t c : Id'} {ix : List Int} {b : Arr K}
    (h : Known E w k t c ix b) (hi : ix ≠ []) (c' : Id') : Native w t c' := by
  obtain ⟨o, d, h1, -, -, -, -, -, h7⟩ := known_stored h
  intro o' ho he
  rw [h1] at ho; cases ho
  have := (validateIndices_ok h7).1
  rw [he] at this
  exact absurd (List.length_eq_zero_iff.1 this) hi

/-- The transformation law with whatever Jacobians are used. -/
theorem transform_used (hE : EngineOK E) {w : World K} {t c c' : Id'} {ix : List Int} {b : Arr K}
    {n : Nat} (hn : 0 < n) {old new : List Sym} {rules : List (Option (Sym × K))}
    (hk : Known E w .tensor t c ix b) (hu : Unseen w t c') (hnat : Native w t c)
    (hb : b.shape = List.replicate ix.length n)
    (hch : Charts w c c' old new (some rules)) {j : Jacobians K}
    (hJ : j.J.shape = [n, n]) (hJi : j.Jinv.shape = [n, n])
    (hj : cachedJacobian w c c' = some j ∨
      (cachedJacobian w c c' = none ∧ calculateJacobian E old new rules = .ok j)) :
    ∃ b' w', getComponents E t (some c') (some ix) w = (.ok b', w') ∧
      Agree n ix.length b' (transformed E n (entry j.J) (entry j.Jinv) rules ix b.get) ∧
      cachedJacobian w' c c' = some j ∧ ∀ k, k ≠ t → k ≠ c → w'.objs[k]? = w.objs[k]? := by
  obtain ⟨o, d, h1, h2, h3, h4, h5, h6, h7⟩ := known_stored hk
  obtain ⟨⟨oc, c1, c2, c3, c4, c5⟩, oc', c1', c2', c3', c4'⟩ := hch
  obtain ⟨b', e1, e2, e3, e4⟩ := transformComponents_spec E hE.simp_eq hn j.J j.Jinv b (eqRules rules) ix hJ hJi
    (validateIndices_ok h7).2 hb
  have hj' : UsedJacobians E oc oc' c' rules j := by
    unfold cachedJacobian at hj
    rw [c1] at hj
    rw [← c4, ← c4'] at hj
    exact hj
  obtain ⟨J, hJc, hg⟩ := getComponents_direct (E := E) h1 h2 h3 h4 h5 h6 (hu o h1) h7 c1 c3 c2 c1' c3' c2' c5 hj'
    (native_array hnat h1) e1
  have hne : c ≠ t := by
    intro he
    rw [he, h1] at c1; cases c1
    rw [h3] at c2; cases c2
  refine ⟨b', _, hg, ⟨e2, e3.trans hb, ?_⟩, ?_, ?_⟩
  rotate_left
  · unfold cachedJacobian
    rw [upd_ne (Ne.symm hne), upd_self c1]
    exact hJc
  · intro k hk1 hk2
    rw [upd_ne (Ne.symm hk1), upd_ne (Ne.symm hk2)]
  intro I hl hI
  rw [e4 I (by rw [hb, valid_replicate]; exact ⟨hl, hI⟩)]
  rfl

/-- A metric that is asked for another than its default configuration, first in a new system. -/
theorem metric_poisoned (hE : EngineOK E) {w : World K} {m c c' : Id'} {ix : List Int} {b : Arr K} {o : Obj K}
    {n : Nat} (hn : 0 < n) {old new : List Sym} {rules : List (Option (Sym × K))}
    (hk : Known E w .metric m c ix b) (hu : Unseen w m c') (hb : b.shape = List.replicate ix.length n)
    (ho : w.objs[m]? = some o) (hix : o.indices ≠ ix) (hne0 : o.indices ≠ [])
    (hch : Charts w c c' old new (some rules)) {j : Jacobians K}
    (hJ : j.J.shape = [n, n]) (hJi : j.Jinv.shape = [n, n])
    (hj : cachedJacobian w c c' = some j ∨
      (cachedJacobian w c c' = none ∧ calculateJacobian E old new rules = .ok j)) :
    ∃ w', getComponents E m (some c') (some ix) w = (.error .keyError, w') ∧
      ∀ ix', ix' ≠ ix → ix'.length = ix.length → (∀ x ∈ ix', x = 1 ∨ x = -1) →
        getComponents E m (some c') (some ix') w' = (.error .keyError, w') := by
  obtain ⟨o', d, h1, h2, h3, h4, h5, h6, h7⟩ := known_stored hk
  rw [ho] at h1; cases h1
  obtain ⟨⟨oc, c1, c2, c3, c4, c5⟩, oc', c1', c2', c3', c4'⟩ := hch
  obtain ⟨b', e1, e2, e3, e4⟩ := transformComponents_spec E hE.simp_eq hn j.J j.Jinv b (eqRules rules) ix hJ hJi
    (validateIndices_ok h7).2 hb
  have hj' : UsedJacobians E oc oc' c' rules j := by
    unfold cachedJacobian at hj
    rw [c1] at hj
    rw [← c4, ← c4'] at hj
    exact hj
  have hne : o.coords ≠ m := by
    intro he
    rw [h4] at he
    rw [he, ho] at c1; cases c1
    rw [h3] at c2; cases c2
  have hno := hu o ho
  subst h4
  obtain ⟨J, -, hbt⟩ := baseTransform_direct (E := E) ho h2 h5 h6 c1 c3 hne c1' c3' c5 hj'
    (isArray_of_ne hne0 _) e1
  set w1 := upd (upd w o.coords fun o => { o with jac := J }) m
      fun o => { o with comps := o.comps.set c' (((o.comps.get? c').getD []).set ix b') } with hw1
  have hc'm : c' ≠ m := by
    intro he
    rw [he, ho] at c1'; cases c1'
    rw [h3] at c2'; cases c2'
  have g1 : w1.objs[m]? = some { o with comps := o.comps.set c' (((o.comps.get? c').getD []).set ix b') } := by
    rw [hw1]
    exact upd_self (by rw [upd_ne hne]; exact ho)
  have g2 : ∃ oc', w1.objs[c']? = some oc' ∧ oc'.kind = .coordinates := by
    rw [hw1, upd_ne (Ne.symm hc'm)]
    by_cases hcc : o.coords = c'
    · rw [← hcc]
      exact ⟨_, upd_self c1, c2⟩
    · rw [upd_ne hcc]
      exact ⟨oc', c1', c2'⟩
  have hread : ∀ ix', ix' ≠ ix → readComps m c' ix' w1 = (.error .keyError, w1) := by
    intro ix' hix'
    unfold readComps
    rw [PyM.bind_apply, getObj_ok g1 h2]
    dsimp only
    rw [PyM.bind_apply, lookup_ok (Dict.get?_set_self _ _ _), PyM.pure_apply]
    dsimp only
    unfold lookup
    rw [hno]
    simp only [Option.getD_none]
    rw [Dict.get?_set, if_neg (Ne.symm hix'), Dict.get?_nil]
    rfl
  refine ⟨w1, ?_, ?_⟩
  · unfold getComponents
    rw [PyM.bind_apply, getObj_ok ho h2]
    dsimp only
    rw [Option.getD_some, Option.getD_some]
    unfold getRepresentation
    rw [PyM.bind_apply, isCoordinates_apply, c1']
    dsimp only
    rw [if_neg (by simp [c2']), PyM.bind_apply, getObj_ok ho h2]
    dsimp only
    rw [PyM.bind_apply, PyM.lift_apply, h7]
    dsimp only
    have hchk : checkRepresentation E m c' ix w = (.ok false, w) := by
      unfold checkRepresentation
      rw [PyM.bind_apply, getObj_ok ho h2]
      dsimp only
      rw [h3]
      unfold metricCheck
      dsimp only
      rw [PyM.bind_apply, getObj_ok ho h2]
      dsimp only
      rw [(Dict.has_eq_false _ _).2 hno]
      rfl
    rw [PyM.bind_apply, hchk]
    dsimp only
    rw [PyM.bind_apply, show PyM.onlyIf (!false) (transformCoordinates E m c' ix) w =
      transformCoordinates E m c' ix w from rfl]
    have htt : transformCoordinates E m c' ix w = (.error .keyError, w1) := by
      unfold transformCoordinates
      rw [PyM.bind_apply, getObj_ok ho h2]
      dsimp only
      rw [h3]
      unfold metricTransform
      dsimp only
      rw [PyM.bind_apply, hbt]
      dsimp only
      rw [PyM.bind_apply, getObj_ok g1 h2]
      dsimp only
      rw [PyM.bind_apply, hread _ hix]
    rw [htt]
  · intro ix' hix' hl hx
    unfold getComponents
    rw [PyM.bind_apply, getObj_ok g1 h2]
    dsimp only
    rw [Option.getD_some, Option.getD_some]
    unfold getRepresentation
    obtain ⟨oc2, k1, k2⟩ := g2
    rw [PyM.bind_apply, isCoordinates_apply, k1]
    dsimp only
    rw [if_neg (by simp [k2]), PyM.bind_apply, getObj_ok g1 h2]
    dsimp only
    have hv : validateIndices ix' o.indices = .ok () := by
      unfold validateIndices
      rw [if_neg, if_neg]
      · rfl
      · rw [hl, (validateIndices_ok h7).1]; simp
      · simp only [List.any_eq_true, not_exists, not_and]
        intro x hx'
        rcases hx x hx' with rfl | rfl <;> decide
    rw [PyM.bind_apply, PyM.lift_apply, hv]
    dsimp only
    have hchk : checkRepresentation E m c' ix' w1 = (.ok true, w1) := by
      unfold checkRepresentation
      rw [PyM.bind_apply, getObj_ok g1 h2]
      dsimp only
      rw [h3]
      unfold metricCheck
      dsimp only
      rw [PyM.bind_apply, getObj_ok g1 h2]
      dsimp only
      rw [(Dict.has_iff _ _).2 ⟨_, Dict.get?_set_self _ _ _⟩]
      rfl
    rw [PyM.bind_apply, hchk]
    dsimp only
    rw [PyM.bind_apply, show PyM.onlyIf (!true) (transformCoordinates E m c' ix') w1 = (.ok (), w1) from rfl]
    exact hread ix' hix'

theorem session_append [DecidableEq K] (home : Id') (ops ops' : List (Op K)) (w : World K) :
    Spec.session E home (ops ++ ops') w =
      ((Spec.session E home ops w).1 ++ (Spec.session E home ops' (Spec.session E home ops w).2).1,
        (Spec.session E home ops' (Spec.session E home ops w).2).2) := by
  induction ops generalizing w with
  | nil => rfl
  | cons op ops ih =>
    simp only [List.cons_append, Spec.session, ih, List.append_assoc]

theorem allAllowed_append [DecidableEq K] (home : Id') (n : Nat) (F : Frames K) (ops ops' : List (Op K))
    (w : World K) : AllAllowed E home n F (ops ++ ops') w ↔
      AllAllowed E home n F ops w ∧ AllAllowed E home n F ops' (Spec.session E home ops w).2 := by
  induction ops generalizing w with
  | nil => simp [AllAllowed, Spec.session]
  | cons op ops ih =>
    simp only [List.cons_append, AllAllowed, Spec.session, ih, and_assoc]

/-- Contractions of all indices are scalars. -/
theorem contraction_scalar {n : Nat} {J Jinv : Nat → Nat → K} (hI : Inverse n J Jinv) (ix : List Int)
    (hix : ∀ x ∈ ix, x = 1 ∨ x = -1) (S T : List Nat → K) :
    ((tuples n ix.length).map fun I => applyFactors n (ix.map (coordFactor J Jinv)) S I *
      applyFactors n ((opposite ix).map (coordFactor J Jinv)) T I).sum =
    ((tuples n ix.length).map fun I => S I * T I).sum := by
  induction ix generalizing S T with
  | nil => simp [tuples, applyFactors_nil]
  | cons a ix ih =>
    have ha := hix a (by simp)
    have hin : ∀ k l, k < n → l < n →
        ∑ x ∈ range n, coordFactor J Jinv a x k * coordFactor J Jinv (-a) x l = delta k l := by
      intro k l hk hl
      rcases ha with rfl | rfl
      · have := (hI l k hl hk).1
        simp only [coordFactor, if_true, show ¬ ((-1 : Int) = 1) by decide, if_false]
        rw [show (delta k l : K) = delta l k by simp [delta, eq_comm], ← this]
        exact Finset.sum_congr rfl fun x _ => mul_comm _ _
      · have := (hI k l hk hl).1
        simp only [coordFactor, show ¬ ((-1 : Int) = 1) by decide, if_false, neg_neg, if_true]
        rw [← this]; rfl
    rw [List.length_cons, sum_map_tuples_succ, sum_map_tuples_succ]
    simp only [List.map_cons, opposite, applyFactors_cons]
    have key : ∀ x, ((tuples n ix.length).map fun s =>
        (∑ k ∈ range n, coordFactor J Jinv a x k *
          applyFactors n (ix.map (coordFactor J Jinv)) (fun s => S (k :: s)) s) *
        (∑ k ∈ range n, coordFactor J Jinv (-a) x k *
          applyFactors n ((opposite ix).map (coordFactor J Jinv)) (fun s => T (k :: s)) s)).sum =
        ∑ k ∈ range n, ∑ l ∈ range n, (coordFactor J Jinv a x k * coordFactor J Jinv (-a) x l) *
          ((tuples n ix.length).map fun I => S (k :: I) * T (l :: I)).sum := by
      intro x
      simp only [Finset.sum_mul_sum]
      rw [sum_map_finset_sum]
      refine Finset.sum_congr rfl fun k _ => ?_
      rw [sum_map_finset_sum]
      refine Finset.sum_congr rfl fun l _ => ?_
      have hih := ih (fun y hy => hix y (by simp [hy])) (fun s => S (k :: s)) (fun s => T (l :: s))
      rw [← hih, ← List.sum_map_mul_left]
      congr 1
      apply List.map_congr_left
      intro s _
      ring
    have : ∀ x ∈ range n, _ = _ := fun x _ => key x
    refine (Finset.sum_congr rfl this).trans ?_
    rw [Finset.sum_comm]
    refine Finset.sum_congr rfl fun k hk => ?_
    rw [Finset.sum_comm]
    have h2 : ∀ l ∈ range n, ∑ x ∈ range n, (coordFactor J Jinv a x k * coordFactor J Jinv (-a) x l) *
          ((tuples n ix.length).map fun I => S (k :: I) * T (l :: I)).sum =
        delta k l * ((tuples n ix.length).map fun I => S (k :: I) * T (l :: I)).sum := by
      intro l hl
      rw [← Finset.sum_mul, hin k l (by simpa using hk) (by simpa using hl)]
    rw [Finset.sum_congr rfl h2]
    simp only [delta, ite_mul, one_mul, zero_mul]
    rw [Finset.sum_ite_eq, if_pos hk]

end PyOGRe
