import Verif.Lemmas.Coherent

/-! Helper lemmas: the methods that look up, transform, raise and lower keep a state coherent. -/

namespace PyOGRe
open Spec Finset
variable {K : Type} [CommRing K] {E : Engine K} {A : Atlas K} {G : Geometry K} {κ : Nat → Option Kind}

theorem CohK.mt {w : World K} (h : CohK E A G κ w) {i : Nat} {o : Obj K}
    (hk : κ i = some .metric ∨ κ i = some .tensor) (ho : w.objs[i]? = some o) :
    o.kind = .metric ∨ o.kind = .tensor := by
  have := h.kind ho
  rcases hk with hk | hk <;> rw [hk] at this
  · exact Or.inl (Option.some.inj this).symm
  · exact Or.inr (Option.some.inj this).symm

theorem calcJacobian_keeps (hA : A.OK) (hE : EngineOK E) {R : World K → Prop} (c c' : Id')
    (hc : κ c = some .coordinates) (hc' : κ c' = some .coordinates)
    (hR : ∀ w j, R w → R { w with objs := w.objs.modify c fun o => { o with jac := o.jac.set c' j } }) :
    Keeps (CohK E A G κ) R (calcJacobian E c c') fun _ w => R w := by
  unfold calcJacobian
  refine Keeps.bind (Keeps.getObj c) fun o => ?_
  refine Keeps.bind (Keeps.getObj c') fun o' => ?_
  refine Keeps.bind (Keeps.lookup _ _) fun rules => ?_
  refine Keeps.bind (Q := fun j w => (((R w ∧ w.objs[c]? = some o ∧ o.alive = true) ∧
    w.objs[c']? = some o' ∧ o'.alive = true) ∧ o.trans.get? c' = some rules) ∧
    calculateJacobian E o.syms o'.syms rules = .ok j)
    (Keeps.lift _ fun j w hj _ h => ⟨h, hj⟩) fun j => ?_
  refine Keeps.modifyObj _ _ ?_
  rintro w hP ⟨⟨⟨⟨hRw, ho, -⟩, ho', -⟩, htr⟩, hj⟩
  refine ⟨⟨?_, kinds_modify hP.2 c _ fun _ => rfl⟩, hR w j hRw⟩
  have hko : o.kind = .coordinates := by
    have := hP.kind ho; rw [hc] at this; exact (Option.some.inj this).symm
  have hko' : o'.kind = .coordinates := by
    have := hP.kind ho'; rw [hc'] at this; exact (Option.some.inj this).symm
  obtain ⟨s1, s2, s3⟩ := hP.1.charts c o ho hko
  obtain ⟨s1', -, -⟩ := hP.1.charts c' o' ho' hko'
  have hr : A.rules c c' = some rules := by rw [← s2 c', htr]
  refine coherent_modify hP.1 c _ (fun o _ => ⟨rfl, rfl⟩) ?_ ?_ ?_ ?_
  · intro o1 ho1 hk1
    rw [ho] at ho1; cases ho1
    rw [hko] at hk1; simp at hk1
  · intro o1 ho1 _
    rw [ho] at ho1; cases ho1
    refine ⟨rfl, fun _ => rfl, ?_⟩
    intro d jd hjd
    dsimp only at hjd
    rw [Dict.get?_set] at hjd
    split_ifs at hjd with hd
    · subst hd
      cases hjd
      rw [s1, s1'] at hj
      obtain ⟨q1, q2, q3, q4, q5, q6, q7, q8, q9⟩ := calculateJacobian_sound E hE _ _ A.n
        (hA.length c) rules (hA.good c c' rules hr) j hj
      exact ⟨rules, hr, q2, q4, q7, q8, q6, q9⟩
    · exact s3 d jd hjd
  · intro o1 ho1 hk1
    rw [ho] at ho1; cases ho1
    rw [hko] at hk1; simp at hk1
  · intro o1 ho1 hk1
    rw [ho] at ho1; cases ho1
    rw [hko] at hk1; simp at hk1

theorem checkJacobians_keeps (hA : A.OK) (hE : EngineOK E) {R : World K → Prop} (c c' : Id')
    (hc : κ c = some .coordinates) (hc' : κ c' = some .coordinates)
    (hR : ∀ w j, R w → R { w with objs := w.objs.modify c fun o => { o with jac := o.jac.set c' j } }) :
    Keeps (CohK E A G κ) R (checkJacobians E c c') fun _ w => R w := by
  unfold checkJacobians
  refine Keeps.bind (Keeps.getObj c) fun o => ?_
  refine Keeps.ite (fun _ => Keeps.pure _ fun w _ h => h.1) fun _ => ?_
  refine Keeps.ite (fun _ => ?_) fun _ => ?_
  · exact (calcJacobian_keeps hA hE c c' hc hc' hR).weaken (fun w _ h => h.1) fun _ _ _ h => h
  · exact Keeps.bind (Keeps.getObj c') fun _ => Keeps.raise _

theorem set_set (d : Dict Id' (Dict (List Int) (Arr K))) (c : Id') (x y : Dict (List Int) (Arr K)) :
    (d.set c x).set c y = d.set c y := by
  induction d with
  | nil => simp [Dict.set]
  | cons p d ih =>
    unfold Dict.set
    by_cases h : p.1 = c
    · simp [h, Dict.set]
    · simp [h, Dict.set, ih]

theorem getElem?_modify_self {w : World K} {i : Nat} {f : Obj K → Obj K} {o : Obj K}
    (h : w.objs[i]? = some o) : (w.objs.modify i f)[i]? = some (f o) := by
  rw [List.getElem?_modify]; simp [h]

/-- Storing correct components. -/
theorem writeComps_keeps {R : World K → Prop} (self c : Id') (ix : List Int) (a : Arr K) (o0 : Obj K)
    (hk : κ self = some .metric ∨ κ self = some .tensor)
    (hR : ∀ w, CohK E A G κ w → R w → w.objs[self]? = some o0 ∧ Config (G.rank self) ix ∧
      Agree A.n (G.rank self) a (G.comp self c ix)) :
    Keeps (CohK E A G κ) R (writeComps self c ix a) fun _ w => ∃ d, o0.comps.get? c = some d ∧
      w.objs[self]? = some { o0 with comps := o0.comps.set c (d.set ix a) } := by
  unfold writeComps
  refine Keeps.bind (Keeps.getObj self) fun o => ?_
  refine Keeps.bind (Keeps.lookup _ _) fun d => ?_
  refine Keeps.modifyObj _ _ ?_
  rintro w hP ⟨⟨hRw, ho, -⟩, hd⟩
  obtain ⟨h0, hcfg, hag⟩ := hR w hP hRw
  rw [ho] at h0; cases h0
  refine ⟨hP.setComps self _ (fun o => ⟨_, rfl⟩) (by rcases hk with hk | hk <;> rw [hk] <;> simp) ?_,
    d, hd, getElem?_modify_self ho⟩
  intro o1 ho1 c1 d1 ix1 a1 hd1 ha1
  rw [ho] at ho1; cases ho1
  have hko := hP.mt hk ho
  have hold := (hP.1.tensors self o0 ho hko).2.2.2.2.2
  dsimp only at hd1
  rw [Dict.get?_set] at hd1
  split_ifs at hd1 with hc1
  · subst hc1
    cases hd1
    rw [Dict.get?_set] at ha1
    split_ifs at ha1 with hx
    · subst hx; cases ha1
      exact ⟨hcfg, hag⟩
    · exact hold c d ix1 a1 hd ha1
  · exact hold c1 d1 ix1 a1 hd1 ha1

theorem ensureCoords_keeps {R : World K → Prop} (self c : Id') (o0 : Obj K)
    (hk : κ self = some .metric ∨ κ self = some .tensor)
    (hR : ∀ w, CohK E A G κ w → R w → w.objs[self]? = some o0) :
    Keeps (CohK E A G κ) R (ensureCoords self c) fun _ w => w.objs[self]? = some
      (if o0.comps.has c then o0 else { o0 with comps := o0.comps.set c [] }) := by
  unfold ensureCoords
  refine Keeps.modifyObj _ _ ?_
  intro w hP hRw
  have h0 := hR w hP hRw
  refine ⟨hP.setComps self _ (fun o => ?_) (by rcases hk with hk | hk <;> rw [hk] <;> simp) ?_,
    getElem?_modify_self h0⟩
  · by_cases h : o.comps.has c
    · exact ⟨o.comps, by simp [h]⟩
    · exact ⟨o.comps.set c [], by simp [h]⟩
  · intro o1 ho1 c1 d1 ix1 a1 hd1 ha1
    rw [h0] at ho1; cases ho1
    have hko := hP.mt hk h0
    have hold := (hP.1.tensors self o0 h0 hko).2.2.2.2.2
    split_ifs at hd1 with h
    · exact hold c1 d1 ix1 a1 hd1 ha1
    · dsimp only at hd1
      rw [Dict.get?_set] at hd1
      split_ifs at hd1 with hc1
      · cases hd1; simp at ha1
      · exact hold c1 d1 ix1 a1 hd1 ha1

theorem substRules_eqRules (rules : List (Option (Sym × K))) (x : K) :
    substRules E (eqRules rules) x = substAll E rules x := rfl

/-- The coordinate transformation common to tensors and metrics. -/
theorem baseTransform_keeps (hA : A.OK) (hE : EngineOK E) (hG : G.Lawful E A) (self c' : Id')
    (ix : List Int) (o0 : Obj K) (hk : κ self = some .metric ∨ κ self = some .tensor)
    (hc' : κ c' = some .coordinates) :
    Keeps (CohK E A G κ) (fun w => w.objs[self]? = some o0) (baseTransform E self c' ix) fun _ w =>
      ∃ a, Config (G.rank self) ix ∧ Agree A.n (G.rank self) a (G.comp self c' ix) ∧
        w.objs[self]? = some { o0 with
          comps := o0.comps.set c' (((o0.comps.get? c').getD []).set ix a) } := by
  have hne : ∀ w, CohK E A G κ w → w.objs[self]? = some o0 →
      κ o0.coords = some .coordinates ∧ o0.coords ≠ self := by
    intro w hP h0
    have hko := hP.mt hk h0
    obtain ⟨oc, h1, h2⟩ := (hP.1.tensors self o0 h0 hko).2.2.2.2.1
    have h3 := hP.kind h1
    rw [h2] at h3
    refine ⟨h3, ?_⟩
    intro he
    rw [he] at h3
    rcases hk with hk | hk <;> rw [hk] at h3 <;> simp at h3
  intro w hP hRw
  obtain ⟨hcc, hcs⟩ := hne w hP hRw
  revert w
  suffices h : Keeps (CohK E A G κ) (fun w => w.objs[self]? = some o0) (baseTransform E self c' ix) fun _ w =>
      ∃ a, Config (G.rank self) ix ∧ Agree A.n (G.rank self) a (G.comp self c' ix) ∧
        w.objs[self]? = some { o0 with
          comps := o0.comps.set c' (((o0.comps.get? c').getD []).set ix a) } from
    fun w hP hRw => h w hP hRw
  unfold baseTransform
  refine Keeps.bind (Keeps.getObj self) fun o => ?_
  refine Keeps.bind (Q := fun _ w => w.objs[self]? = some o0 ∧ o = o0) ?_ fun _ => ?_
  · intro w hP hR
    obtain ⟨h1, h2, -⟩ := hR
    rw [h1] at h2; cases h2
    refine checkJacobians_keeps (R := fun w => w.objs[self]? = some o0 ∧ o0 = o0) hA hE o0.coords c' hcc hc' ?_ w hP ⟨h1, rfl⟩
    intro w j h
    refine ⟨?_, rfl⟩
    dsimp only
    rw [List.getElem?_modify, h.1]
    simp [hcs]
  refine Keeps.bind (Keeps.readComps self o.coords ix) fun comps => ?_
  refine Keeps.bind (Keeps.getObj o.coords) fun oc => ?_
  refine Keeps.bind (Keeps.lookup _ _) fun j => ?_
  refine Keeps.bind (Keeps.lookup _ _) fun rules => ?_
  refine Keeps.bind (Q := fun a w => w.objs[self]? = some o0 ∧ Config (G.rank self) ix ∧
    Agree A.n (G.rank self) a (G.comp self c' ix)) (Keeps.lift _ ?_) fun a => ?_
  · rintro a w ha hP ⟨⟨⟨⟨⟨h0, rfl⟩, o2, d, ho2, -, hd, hdx⟩, hoc, -⟩, hj⟩, hrules⟩
    rw [h0] at ho2; cases ho2
    have hko := hP.mt hk h0
    obtain ⟨hcfg, hag⟩ := (hP.1.tensors self o h0 hko).2.2.2.2.2 _ _ _ _ hd hdx
    have hkc : oc.kind = .coordinates := by
      have := hP.kind hoc; rw [hcc] at this; exact (Option.some.inj this).symm
    obtain ⟨s1, s2, s3⟩ := hP.1.charts _ oc hoc hkc
    obtain ⟨rules', hr', q1, q2, q3, q4, -, -⟩ := s3 c' j hj
    have hrr : rules' = rules := by
      rw [← s2 c', hrules] at hr'; exact (Option.some.inj hr').symm
    subst hrr
    refine ⟨h0, hcfg, ?_⟩
    obtain ⟨b, hb, hbw, hbs, hbg⟩ := transformComponents_spec E hE.simp_eq hA.pos j.J j.Jinv comps
      (eqRules rules') ix q1 q2 hcfg.2 (by rw [hag.2.1, hcfg.1])
    replace ha := (needArray_inv ha).2
    rw [hb] at ha
    cases ha
    refine ⟨hbw, by rw [hbs, hag.2.1], ?_⟩
    intro J hJ hJn
    have hv : Valid comps.shape J := by rw [hag.2.1, valid_replicate]; exact ⟨hJ, hJn⟩
    rw [hbg J hv, hG.chart self o.coords c' rules' j.Jinv.mat ix J hr'
      (inverse_congr q4 q3 fun _ _ _ _ => rfl) hcfg hJ hJn, substRules_eqRules]
    congr 1
    have hcf : applyFactors A.n (ix.map (coordFactor j.J.mat j.Jinv.mat)) comps.get J =
        applyFactors A.n (ix.map (coordFactor j.J.mat j.Jinv.mat)) (G.comp self o.coords ix) J := by
      refine applyFactors_congr _ _ _ ?_
      intro s hs hsn
      exact hag.2.2 s (hs.trans hJ) hsn
    rw [hcf]
    refine applyFactors_congr_factors _ _ _ hJn ?_
    rw [List.forall₂_map_left_iff, List.forall₂_map_right_iff, List.forall₂_same]
    intro x _ i k hi hk'
    unfold coordFactor
    split_ifs
    · rfl
    · exact q3 k i hk' hi
  refine Keeps.bind (Q := fun _ w => (w.objs[self]? = some
      (if o0.comps.has c' then o0 else { o0 with comps := o0.comps.set c' [] })) ∧
      Config (G.rank self) ix ∧ Agree A.n (G.rank self) a (G.comp self c' ix)) ?_ fun _ => ?_
  · intro w hP hR
    obtain ⟨h1, h2⟩ := ensureCoords_keeps (R := fun w => w.objs[self]? = some o0) self c' o0 hk
      (fun w _ h => h) w hP hR.1
    exact ⟨h1, fun u hu => ⟨h2 u hu, hR.2⟩⟩
  intro w hP hR
  obtain ⟨h1, h2⟩ := writeComps_keeps (R := fun w => (w.objs[self]? = some
      (if o0.comps.has c' then o0 else { o0 with comps := o0.comps.set c' [] })) ∧
      Config (G.rank self) ix ∧ Agree A.n (G.rank self) a (G.comp self c' ix)) self c' ix a _ hk
      (fun w _ h => h) w hP hR
  refine ⟨h1, fun u hu => ⟨a, hR.2.1, hR.2.2, ?_⟩⟩
  obtain ⟨d, hd, hw⟩ := h2 u hu
  rw [hw]
  cases hh : o0.comps.has c' with
  | true =>
    obtain ⟨v, hv⟩ := (Dict.has_iff _ _).1 hh
    simp only [hh, if_true] at hd ⊢
    rw [hd]; rfl
  | false =>
    have hn := (Dict.has_eq_false _ _).1 hh
    simp only [hh, Bool.false_eq_true, if_false] at hd ⊢
    rw [Dict.get?_set_self] at hd
    cases hd
    rw [set_set, hn]; rfl

/-- The two contractions with which a metric makes its mixed representations. -/
theorem mixedMetric_spec {n : Nat} (hn : 0 < n) {a b : Arr K} (ha : a.shape = [n, n])
    (hb : b.shape = [n, n]) :
    (∃ c, mixedMetric a b 1 3 = .ok c ∧ c.WF ∧ c.shape = [n, n] ∧
      ∀ i j, i < n → j < n → c.get [i, j] = ∑ k ∈ range n, a.mat i k * b.mat j k) ∧
    (∃ c, mixedMetric a b 0 2 = .ok c ∧ c.WF ∧ c.shape = [n, n] ∧
      ∀ i j, i < n → j < n → c.get [i, j] = ∑ k ∈ range n, a.mat k i * b.mat k j) := by
  have hs : (Arr.tensorproduct a b).shape = List.replicate 4 n := by
    simp [Arr.tensorproduct, Arr.ofFn, ha, hb, List.replicate_succ]
  have hg : ∀ i j k l, i < n → j < n → k < n → l < n →
      (Arr.tensorproduct a b).get [i, j, k, l] = a.mat i j * b.mat k l := by
    intro i j k l hi hj hk hl
    have h1 : Valid a.shape [i, j] := by rw [ha, valid_cons, valid_cons, valid_nil]; exact ⟨hi, hj, rfl⟩
    have h2 : Valid b.shape [k, l] := by rw [hb, valid_cons, valid_cons, valid_nil]; exact ⟨hk, hl, rfl⟩
    exact Arr.get_tensorproduct h1 h2
  have hv : ∀ i j k l, i < n → j < n → k < n → l < n → Valid (List.replicate 4 n) [i, j, k, l] := by
    intro i j k l hi hj hk hl
    rw [valid_replicate]
    refine ⟨rfl, ?_⟩
    intro x hx
    simp only [List.mem_cons, List.not_mem_nil, or_false] at hx
    omega
  constructor
  · obtain ⟨c, h1, h2, h3, h4, -⟩ := Arr.get_tensorcontraction hn hs [(1, 3)] (by simp) (by simp)
    refine ⟨c, h1, h2, by rw [h3]; rfl, ?_⟩
    intro i j hi hj
    have := h4 [i, 0, j, 0] (by rw [hs]; exact hv i 0 j 0 hi hn hj hn)
    have hd : dropAxes ([(1, 3)].flatMap fun p : Nat × Nat => [p.1, p.2]) [i, 0, j, 0] = [i, j] := rfl
    rw [hd] at this
    rw [this, ← sum_map_range]
    show ((tuples n 1).map _).sum = _
    rw [sum_map_tuples_succ]
    refine congrArg List.sum (List.map_congr_left ?_)
    intro k hk
    have hk : k < n := by simpa using hk
    have : tuples n 0 = [[]] := rfl
    rw [this]
    simp only [List.map_cons, List.map_nil, List.sum_cons, List.sum_nil, add_zero]
    exact hg i k j k hi hk hj hk
  · obtain ⟨c, h1, h2, h3, h4, -⟩ := Arr.get_tensorcontraction hn hs [(0, 2)] (by simp) (by simp)
    refine ⟨c, h1, h2, by rw [h3]; rfl, ?_⟩
    intro i j hi hj
    have := h4 [0, i, 0, j] (by rw [hs]; exact hv 0 i 0 j hn hi hn hj)
    have hd : dropAxes ([(0, 2)].flatMap fun p : Nat × Nat => [p.1, p.2]) [0, i, 0, j] = [i, j] := rfl
    rw [hd] at this
    rw [this, ← sum_map_range]
    show ((tuples n 1).map _).sum = _
    rw [sum_map_tuples_succ]
    refine congrArg List.sum (List.map_congr_left ?_)
    intro k hk
    have hk : k < n := by simpa using hk
    have : tuples n 0 = [[]] := rfl
    rw [this]
    simp only [List.map_cons, List.map_nil, List.sum_cons, List.sum_nil, add_zero]
    exact hg k i k j hk hi hk hj

theorem negIndices_neg : negIndices [-1, -1] = [1, 1] := rfl
theorem negIndices_pos : negIndices [1, 1] = [-1, -1] := rfl

theorem config_two {i j : Int} (hi : i = 1 ∨ i = -1) (hj : j = 1 ∨ j = -1) : Config 2 [i, j] := by
  refine ⟨rfl, ?_⟩
  intro x hx
  simp only [List.mem_cons, List.not_mem_nil, or_false] at hx
  rcases hx with rfl | rfl <;> assumption

theorem agree_two {n : Nat} {a : Arr K} {f : List Nat → K} (hw : a.WF) (hs : a.shape = [n, n])
    (h : ∀ i j, i < n → j < n → a.get [i, j] = f [i, j]) : Agree n 2 a f := by
  refine ⟨hw, hs, ?_⟩
  intro J hJ hJn
  match J, hJ with
  | [i, j], _ => exact h i j (hJn i (by simp)) (hJn j (by simp))

/-- The metric's transformation to a coordinate system in which it has no components yet. -/
theorem metricTransform_keeps (hA : A.OK) (hE : EngineOK E) (hG : G.Lawful E A) (self c' : Id')
    (ix : List Int) (o0 : Obj K) (hk : κ self = some .metric)
    (hc' : κ c' = some .coordinates) (hnew : o0.comps.get? c' = none) :
    Keeps (CohK E A G κ) (fun w => w.objs[self]? = some o0) (metricTransform E self c' ix)
      fun _ _ => True := by
  intro w hP hRw
  have hko : o0.kind = .metric := by
    have := hP.kind hRw; rw [hk] at this; exact (Option.some.inj this).symm
  obtain ⟨hr, hm, hix⟩ := hP.1.metrics self o0 hRw hko
  revert hRw hP
  revert w
  suffices h : Keeps (CohK E A G κ) (fun w => w.objs[self]? = some o0) (metricTransform E self c' ix)
      fun _ _ => True from fun w hP hRw => h w hP hRw
  unfold metricTransform
  have hk' : κ self = some .metric ∨ κ self = some .tensor := Or.inl hk
  refine Keeps.bind (baseTransform_keeps hA hE hG self c' ix o0 hk' hc') fun _ => ?_
  refine Keeps.bind (Keeps.getObj self) fun o => ?_
  refine Keeps.bind (Keeps.readComps self c' o.indices) fun d => ?_
  refine Keeps.bind (Q := fun inv w => (ix = [-1, -1] ∨ ix = [1, 1]) ∧
    Agree A.n 2 d (G.comp self c' ix) ∧ Agree A.n 2 inv (G.comp self c' (negIndices ix)) ∧
    w.objs[self]? = some { o0 with comps := o0.comps.set c' [(ix, d)] }) (Keeps.lift _ ?_) fun inv => ?_
  · rintro inv w hinv hP ⟨⟨⟨a, hcfg, hag, hw⟩, ho, -⟩, o2, dd, ho2, -, hd, hdx⟩
    rw [ho2] at ho hw
    cases hw; cases ho
    dsimp only at hd hdx
    rw [hnew, Dict.get?_set_self] at hd
    cases hd
    simp only [Option.getD_none, Dict.set, Dict.get?_cons, Dict.get?_nil] at hdx
    split_ifs at hdx with hx
    cases hdx
    have hix' : ix = [-1, -1] ∨ ix = [1, 1] := by rw [hx]; exact hix
    rw [hr] at hag hcfg
    obtain ⟨i1, i2, i3⟩ := hE.inv_ok A.n d inv hag.2.1 hinv
    refine ⟨hix', hag, ?_, by rw [ho2, hnew]; rfl⟩
    have hinvG := hG.inverse self c'
    unfold Geometry.g Geometry.ginv at hinvG
    rw [hm] at hinvG
    refine agree_two i1 i2 ?_
    intro i j hi hj
    have hd' : ∀ i j, i < A.n → j < A.n → d.get [i, j] = G.comp self c' ix [i, j] := by
      intro i j hi hj
      exact hag.2.2 _ rfl (by simp [hi, hj])
    have h3 := inverse_congr i3 hd' fun _ _ _ _ => rfl
    rcases hix' with h | h
    · rw [h, negIndices_neg]
      rw [h] at h3
      exact inverse_unique h3 hinvG i j hi hj
    · rw [h, negIndices_pos]
      rw [h] at h3
      exact inverse_unique h3 (inverse_swap hinvG) i j hi hj
  -- the facts that stay
  refine Keeps.bind (Q := fun _ w => (ix = [-1, -1] ∨ ix = [1, 1]) ∧
    Agree A.n 2 d (G.comp self c' ix) ∧ Agree A.n 2 inv (G.comp self c' (negIndices ix)) ∧
    w.objs[self]? = some { o0 with comps := o0.comps.set c' [(ix, d), (negIndices ix, inv)] }) ?_
    fun _ => ?_
  · intro w hP hR
    obtain ⟨h1, h2⟩ := writeComps_keeps (R := fun w => w.objs[self]? =
        some { o0 with comps := o0.comps.set c' [(ix, d)] }) self c' (negIndices ix) inv
      { o0 with comps := o0.comps.set c' [(ix, d)] } hk' (fun w _ h => ⟨h, by
        rw [hr]
        rcases hR.1 with hx | hx <;> rw [hx]
        · exact config_two (Or.inl rfl) (Or.inl rfl)
        · exact config_two (Or.inr rfl) (Or.inr rfl), by rw [hr]; exact hR.2.2.1⟩) w hP hR.2.2.2
    refine ⟨h1, fun u hu => ⟨hR.1, hR.2.1, hR.2.2.1, ?_⟩⟩
    obtain ⟨d', hd', hw'⟩ := h2 u hu
    rw [hw']
    dsimp only at hd'
    rw [Dict.get?_set_self] at hd'
    cases hd'
    rw [set_set]
    rcases hR.1 with rfl | rfl <;> simp [Dict.set, negIndices]
  -- reading the two representations back
  have hread : ∀ (w : World K) (more : Dict (List Int) (Arr K)) (x : Arr K), (ix = [-1, -1] ∨ ix = [1, 1]) →
      w.objs[self]? = some { o0 with comps := o0.comps.set c' ((ix, d) :: (negIndices ix, inv) :: more) } →
      (∀ o d', w.objs[self]? = some o → o.comps.get? c' = some d' → d'.get? (negIndices ix) = some x →
        x = inv) ∧
      (∀ o d', w.objs[self]? = some o → o.comps.get? c' = some d' → d'.get? ix = some x → x = d) := by
    intro w more x hx hw
    constructor
    · intro o d' ho hd' hxx
      rw [hw] at ho; cases ho
      dsimp only at hd'
      rw [Dict.get?_set_self] at hd'; cases hd'
      have : ix ≠ negIndices ix := by rcases hx with rfl | rfl <;> decide
      rw [Dict.get?_cons, if_neg this, Dict.get?_cons, if_pos rfl] at hxx
      exact (Option.some.inj hxx).symm
    · intro o d' ho hd' hxx
      rw [hw] at ho; cases ho
      dsimp only at hd'
      rw [Dict.get?_set_self] at hd'; cases hd'
      rw [Dict.get?_cons, if_pos rfl] at hxx
      exact (Option.some.inj hxx).symm
  have hδ : (ix = [-1, -1] ∨ ix = [1, 1]) → Agree A.n 2 d (G.comp self c' ix) →
      Agree A.n 2 inv (G.comp self c' (negIndices ix)) →
      (∀ i j, i < A.n → j < A.n → ∑ k ∈ range A.n, inv.mat i k * d.mat j k = delta i j) ∧
      (∀ i j, i < A.n → j < A.n → ∑ k ∈ range A.n, inv.mat k i * d.mat k j = delta i j) := by
    intro hx hd hi
    have hdm : ∀ i j, i < A.n → j < A.n → d.mat i j = G.comp self c' ix [i, j] :=
      fun i j hi hj => hd.2.2 _ rfl (by simp [hi, hj])
    have him : ∀ i j, i < A.n → j < A.n → inv.mat i j = G.comp self c' (negIndices ix) [i, j] :=
      fun i j h h' => hi.2.2 _ rfl (by simp [h, h'])
    have hI : Inverse A.n inv.mat d.mat := by
      have hinvG := hG.inverse self c'
      unfold Geometry.g Geometry.ginv at hinvG
      rw [hm] at hinvG
      rcases hx with rfl | rfl
      · exact inverse_congr (inverse_swap hinvG) (fun i j h h' => (him i j h h').symm)
          fun i j h h' => (hdm i j h h').symm
      · exact inverse_congr hinvG (fun i j h h' => (him i j h h').symm)
          fun i j h h' => (hdm i j h h').symm
    have hS := hG.symm self c'
    unfold Geometry.g at hS
    rw [hm] at hS
    have hsd : (∀ i j, i < A.n → j < A.n → d.mat i j = d.mat j i) ∨
        (∀ i j, i < A.n → j < A.n → inv.mat i j = inv.mat j i) := by
      rcases hx with rfl | rfl
      · left
        intro i j h h'
        rw [hdm i j h h', hdm j i h' h, hS i j h h']
      · right
        intro i j h h'
        rw [him i j h h', him j i h' h]
        exact hS i j h h'
    constructor
    · intro i j h h'
      rcases hsd with hs | hs
      · rw [← (hI i j h h').1, matMul]
        refine Finset.sum_congr rfl fun k hk => ?_
        rw [hs j k h' (by simpa using hk)]
      · rw [show (delta i j : K) = delta j i by simp [delta, eq_comm], ← (hI j i h' h).2, matMul]
        refine Finset.sum_congr rfl fun k hk => ?_
        rw [hs i k h (by simpa using hk), mul_comm]
    · intro i j h h'
      rcases hsd with hs | hs
      · rw [show (delta i j : K) = delta j i by simp [delta, eq_comm], ← (hI j i h' h).2, matMul]
        refine Finset.sum_congr rfl fun k hk => ?_
        rw [hs j k h' (by simpa using hk), mul_comm]
      · rw [← (hI i j h h').1, matMul]
        refine Finset.sum_congr rfl fun k hk => ?_
        rw [hs i k h (by simpa using hk)]
  have hmix : ∀ m : Arr K, m.WF → m.shape = [A.n, A.n] → (∀ i j, i < A.n → j < A.n → m.get [i, j] = delta i j) →
      Agree A.n 2 m (G.comp self c' [1, -1]) ∧ Agree A.n 2 m (G.comp self c' [-1, 1]) := by
    intro m h1 h2 h3
    have := hG.mixed self c'
    rw [hm] at this
    exact ⟨agree_two h1 h2 fun i j hi hj => by rw [h3 i j hi hj, (this i j hi hj).1],
      agree_two h1 h2 fun i j hi hj => by rw [h3 i j hi hj, (this i j hi hj).2]⟩
  refine Keeps.bind (Keeps.readComps self c' _) fun a => ?_
  refine Keeps.bind (Keeps.readComps self c' _) fun b => ?_
  refine Keeps.bind (Q := fun m w => ((ix = [-1, -1] ∨ ix = [1, 1]) ∧
    Agree A.n 2 d (G.comp self c' ix) ∧ Agree A.n 2 inv (G.comp self c' (negIndices ix)) ∧
    w.objs[self]? = some { o0 with comps := o0.comps.set c' [(ix, d), (negIndices ix, inv)] }) ∧
    m.WF ∧ m.shape = [A.n, A.n] ∧ ∀ i j, i < A.n → j < A.n → m.get [i, j] = delta i j)
    (Keeps.lift _ ?_) fun m => ?_
  · rintro m w hmm hP ⟨⟨hR, o1, d1, ho1, -, hd1, hx1⟩, o2, d2, ho2, -, hd2, hx2⟩
    obtain rfl := (hread w [] a hR.1 hR.2.2.2).1 o1 d1 ho1 hd1 hx1
    obtain rfl := (hread w [] b hR.1 hR.2.2.2).2 o2 d2 ho2 hd2 hx2
    obtain ⟨⟨c, hc1, hc2, hc3, hc4⟩, -⟩ := mixedMetric_spec hA.pos hR.2.2.1.2.1 hR.2.1.2.1
    rw [hc1] at hmm; cases hmm
    refine ⟨hR, hc2, hc3, fun i j hi hj => ?_⟩
    rw [hc4 i j hi hj, (hδ hR.1 hR.2.1 hR.2.2.1).1 i j hi hj]
  refine Keeps.bind (Q := fun _ w => (ix = [-1, -1] ∨ ix = [1, 1]) ∧
    Agree A.n 2 d (G.comp self c' ix) ∧ Agree A.n 2 inv (G.comp self c' (negIndices ix)) ∧
    w.objs[self]? = some { o0 with comps := o0.comps.set c' [(ix, d), (negIndices ix, inv),
      ([ix.getD 0 0, -ix.getD 1 0], m)] }) ?_ fun _ => ?_
  · intro w hP hR
    obtain ⟨h1, h2⟩ := writeComps_keeps (R := fun w => w.objs[self]? =
        some { o0 with comps := o0.comps.set c' [(ix, d), (negIndices ix, inv)] }) self c'
        [ix.getD 0 0, -ix.getD 1 0] m
      { o0 with comps := o0.comps.set c' [(ix, d), (negIndices ix, inv)] } hk' (fun w _ h => ⟨h, by
        rw [hr]
        rcases hR.1.1 with rfl | rfl
        · exact config_two (Or.inr rfl) (Or.inl rfl)
        · exact config_two (Or.inl rfl) (Or.inr rfl), by
        rw [hr]
        rcases hR.1.1 with rfl | rfl
        · exact (hmix m hR.2.1 hR.2.2.1 hR.2.2.2).2
        · exact (hmix m hR.2.1 hR.2.2.1 hR.2.2.2).1⟩) w hP hR.1.2.2.2
    refine ⟨h1, fun u hu => ⟨hR.1.1, hR.1.2.1, hR.1.2.2.1, ?_⟩⟩
    obtain ⟨d', hd', hw'⟩ := h2 u hu
    rw [hw']
    dsimp only at hd'
    rw [Dict.get?_set_self] at hd'
    cases hd'
    rw [set_set]
    rcases hR.1.1 with rfl | rfl <;> simp [Dict.set, negIndices]
  refine Keeps.bind (Keeps.readComps self c' _) fun a => ?_
  refine Keeps.bind (Keeps.readComps self c' _) fun b => ?_
  refine Keeps.bind (Q := fun m' w => ((ix = [-1, -1] ∨ ix = [1, 1]) ∧
    Agree A.n 2 d (G.comp self c' ix) ∧ Agree A.n 2 inv (G.comp self c' (negIndices ix)) ∧
    w.objs[self]? = some { o0 with comps := o0.comps.set c' [(ix, d), (negIndices ix, inv),
      ([ix.getD 0 0, -ix.getD 1 0], m)] }) ∧
    m'.WF ∧ m'.shape = [A.n, A.n] ∧ ∀ i j, i < A.n → j < A.n → m'.get [i, j] = delta i j)
    (Keeps.lift _ ?_) fun m' => ?_
  · rintro m' w hmm hP ⟨⟨hR, o1, d1, ho1, -, hd1, hx1⟩, o2, d2, ho2, -, hd2, hx2⟩
    obtain rfl := (hread w _ a hR.1 hR.2.2.2).1 o1 d1 ho1 hd1 hx1
    obtain rfl := (hread w _ b hR.1 hR.2.2.2).2 o2 d2 ho2 hd2 hx2
    obtain ⟨-, ⟨c, hc1, hc2, hc3, hc4⟩⟩ := mixedMetric_spec hA.pos hR.2.2.1.2.1 hR.2.1.2.1
    rw [hc1] at hmm; cases hmm
    refine ⟨hR, hc2, hc3, fun i j hi hj => ?_⟩
    rw [hc4 i j hi hj, (hδ hR.1 hR.2.1 hR.2.2.1).2 i j hi hj]
  intro w hP hR
  obtain ⟨h1, h2⟩ := writeComps_keeps (R := fun w => w.objs[self]? =
      some { o0 with comps := o0.comps.set c' [(ix, d), (negIndices ix, inv),
      ([ix.getD 0 0, -ix.getD 1 0], m)] }) self c'
      [-ix.getD 0 0, ix.getD 1 0] m'
    { o0 with comps := o0.comps.set c' [(ix, d), (negIndices ix, inv),
      ([ix.getD 0 0, -ix.getD 1 0], m)] } hk' (fun w _ h => ⟨h, by
      rw [hr]
      rcases hR.1.1 with rfl | rfl
      · exact config_two (Or.inl rfl) (Or.inr rfl)
      · exact config_two (Or.inr rfl) (Or.inl rfl), by
      rw [hr]
      rcases hR.1.1 with rfl | rfl
      · exact (hmix m' hR.2.1 hR.2.2.1 hR.2.2.2).1
      · exact (hmix m' hR.2.1 hR.2.2.1 hR.2.2.2).2⟩) w hP hR.1.2.2.2
  exact ⟨h1, fun _ _ => trivial⟩

theorem metricCheck_keeps {R : World K → Prop} (self c : Id') :
    Keeps (CohK E A G κ) R (metricCheck self c) fun b w => R w ∧ ∃ o, w.objs[self]? = some o ∧
      o.alive = true ∧ o.comps.has c = b := by
  unfold metricCheck
  refine Keeps.bind (Keeps.getObj self) fun o => ?_
  exact Keeps.pure _ fun w _ h => ⟨h.1, o, h.2.1, h.2.2, rfl⟩

/-- Raising and lowering from whatever is stored first. -/
theorem tensorRaiseLower_keeps (hA : A.OK) (hE : EngineOK E) (hG : G.Lawful E A) (self c : Id')
    (ix : List Int) (hk : κ self = some .tensor) (hc : κ c = some .coordinates)
    (hix : Config (G.rank self) ix) :
    Keeps (CohK E A G κ) (fun _ => True) (tensorRaiseLower E self c ix) fun _ _ => True := by
  unfold tensorRaiseLower
  have hk' : κ self = some .metric ∨ κ self = some .tensor := Or.inr hk
  refine Keeps.bind (Keeps.getObj self) fun o => ?_
  refine Keeps.bind (metricCheck_keeps o.metric c) fun b => ?_
  refine Keeps.bind (Q := fun _ _ => True) ?_ fun _ => ?_
  · refine Keeps.onlyIf (fun hb => ?_) fun _ _ _ _ => trivial
    intro w hP hR
    obtain ⟨⟨-, ho, -⟩, om, hom, -, hh⟩ := hR
    obtain ⟨om', hom', hkm⟩ := (hP.1.tensors self o ho (hP.mt hk' ho)).2.2.2.1
    rw [hom] at hom'; cases hom'
    have hb' : b = false := by simpa using hb
    rw [hb'] at hh
    exact metricTransform_keeps hA hE hG o.metric c [-1, -1] om (by rw [hP.kind hom, hkm]) hc
      ((Dict.has_eq_false _ _).1 hh) w hP hom
  refine Keeps.bind (Keeps.getObj self) fun o => ?_
  refine Keeps.bind (Keeps.lookup _ _) fun d => ?_
  match d with
  | [] => exact Keeps.raise _
  | (src, comps) :: d =>
    dsimp only
    refine Keeps.bind (Keeps.readComps o.metric c _) fun g => ?_
    refine Keeps.bind (Keeps.readComps o.metric c _) fun ginv => ?_
    refine Keeps.bind (Q := fun a w => w.objs[self]? = some o ∧ Config (G.rank self) ix ∧
      Agree A.n (G.rank self) a (G.comp self c ix)) (Keeps.lift _ ?_) fun a => ?_
    · rintro a w ha hP ⟨⟨⟨⟨-, ho, -⟩, hd⟩, o1, d1, ho1, -, hd1, hx1⟩, o2, d2, ho2, -, hd2, hx2⟩
      obtain ⟨t1, t2, t3, ⟨om, hom, hkm⟩, t5, t6⟩ := hP.1.tensors self o ho (hP.mt hk' ho)
      rw [hom] at ho1 ho2; cases ho1; cases ho2
      obtain ⟨hcs, hag⟩ := t6 c _ src comps hd (by rw [Dict.get?_cons, if_pos rfl])
      obtain ⟨mr, mm, -⟩ := hP.1.metrics o.metric _ hom hkm
      obtain ⟨-, -, -, -, -, m6⟩ := hP.1.tensors o.metric _ hom (Or.inl hkm)
      obtain ⟨-, hg⟩ := m6 c d1 _ g hd1 hx1
      obtain ⟨-, hgi⟩ := m6 c d2 _ ginv hd2 hx2
      rw [mr] at hg hgi
      obtain ⟨r, hr, hrw, hrs, hrg⟩ := raiseLower_spec E hE.simp_eq hA.pos g ginv comps src ix
        hg.2.1 hgi.2.1 hcs.2 hix.2 (by rw [hix.1, hcs.1]) (by rw [hag.2.1, hcs.1]) hag.1
      rw [hr] at ha; cases ha
      refine ⟨ho, hix, hrw, by rw [hrs, hag.2.1], ?_⟩
      intro J hJ hJn
      rw [hrg J (by rw [hag.2.1, valid_replicate]; exact ⟨hJ, hJn⟩),
        hG.index self c src ix J hcs hix hJ hJn,
        applyFactors_congr (T' := G.comp self c src) _ _ _ fun s hs hsn =>
          hag.2.2 s (hs.trans hJ) hsn]
      refine applyFactors_congr_factors _ _ _ hJn ?_
      have hfac : ∀ x y : Int, ∀ i j, i < A.n → j < A.n → indexFactor g.mat ginv.mat x y i j =
          indexFactor (G.g self c) (G.ginv self c) x y i j := by
        intro x y i j hi hj
        unfold indexFactor Geometry.g Geometry.ginv
        rw [← t1]
        split_ifs
        · exact hgi.2.2 _ rfl (by simp [hi, hj])
        · exact hg.2.2 _ rfl (by simp [hi, hj])
        · rfl
      clear hrg hr hcs hag hix hd
      induction src generalizing ix with
      | nil => simp
      | cons x src ih =>
        cases ix with
        | nil => simp
        | cons y ix => exact List.Forall₂.cons (hfac x y) (ih ix)
    exact (writeComps_keeps self c ix a o hk' fun w _ h => h).weaken (fun _ _ h => h)
      fun _ _ _ _ => trivial

theorem tensorCheck_keeps (hA : A.OK) (hE : EngineOK E) (hG : G.Lawful E A) (self c : Id')
    (ix : List Int) (hk : κ self = some .tensor) (hc : κ c = some .coordinates)
    (hix : Config (G.rank self) ix) :
    Keeps (CohK E A G κ) (fun _ => True) (tensorCheck E self c ix) fun _ _ => True := by
  unfold tensorCheck
  refine Keeps.bind (Keeps.getObj self) fun o => ?_
  split
  · exact Keeps.pure _ fun _ _ _ => trivial
  · refine Keeps.bind (Q := fun _ _ => True) ?_ fun _ => Keeps.pure _ fun _ _ _ => trivial
    refine Keeps.onlyIf (fun _ => ?_) fun _ _ _ _ => trivial
    exact (tensorRaiseLower_keeps hA hE hG self c ix hk hc hix).weaken (fun _ _ _ => trivial)
      fun _ _ _ h => h

theorem tensorTransform_keeps (hA : A.OK) (hE : EngineOK E) (hG : G.Lawful E A) (self c : Id')
    (ix : List Int) (hk : κ self = some .tensor) (hc : κ c = some .coordinates)
    (hix : Config (G.rank self) ix) :
    Keeps (CohK E A G κ) (fun _ => True) (tensorTransform E self c ix) fun _ _ => True := by
  have hk' : κ self = some .metric ∨ κ self = some .tensor := Or.inr hk
  unfold tensorTransform
  refine Keeps.bind (Keeps.getObj self) fun o => ?_
  intro w hP hR
  obtain ⟨-, ho, hal⟩ := hR
  obtain ⟨oc, hoc, hkc⟩ := (hP.1.tensors self o ho (hP.mt hk' ho)).2.2.2.2.1
  have hoc' : κ o.coords = some .coordinates := by rw [hP.kind hoc, hkc]
  have : Keeps (CohK E A G κ) (fun _ => True) (do
      PyM.onlyIf (!(← tensorCheck E self o.coords ix)) (tensorRaiseLower E self o.coords ix)
      baseTransform E self c ix) fun _ _ => True := by
    refine Keeps.bind (tensorCheck_keeps hA hE hG self o.coords ix hk hoc' hix) fun b => ?_
    refine Keeps.bind (Q := fun _ _ => True) ?_ fun _ => ?_
    · refine Keeps.onlyIf (fun _ => ?_) fun _ _ _ _ => trivial
      exact tensorRaiseLower_keeps hA hE hG self o.coords ix hk hoc' hix
    · intro w hP _
      obtain ⟨o', ho', -⟩ := hP.get hk
      obtain ⟨h1, -⟩ := baseTransform_keeps hA hE hG self c ix o' hk' hc w hP ho'
      exact ⟨h1, fun _ _ => trivial⟩
  exact this w hP trivial

theorem validateIndices_ok {ix src : List Int} (h : validateIndices ix src = .ok ()) :
    ix.length = src.length ∧ ∀ x ∈ ix, x = 1 ∨ x = -1 := by
  unfold validateIndices at h
  split_ifs at h with h1 h2
  refine ⟨(not_not.1 h2).symm, ?_⟩
  intro x hx
  simp only [List.any_eq_true, not_exists, not_and] at h1
  have := h1 x hx
  by_contra hc
  rw [not_or] at hc
  simp [hc.1, hc.2] at this

theorem isCoordinates_keeps {R : World K → Prop} (c : Id') :
    Keeps (CohK E A G κ) R (isCoordinates c) fun b w => R w ∧ (b = true → κ c = some .coordinates) := by
  unfold isCoordinates
  refine Keeps.bind (Q := fun w' w => R w ∧ w' = w) ?_ fun w' => ?_
  · intro w hP hR
    refine ⟨hP, ?_⟩
    rintro a ⟨⟩
    exact ⟨hR, rfl⟩
  · refine Keeps.pure _ ?_
    rintro w hP ⟨hR, rfl⟩
    refine ⟨hR, fun hb => ?_⟩
    cases ho : w'.objs[c]? with
    | none => rw [ho] at hb; simp at hb
    | some o =>
      rw [ho] at hb
      rw [hP.kind ho]
      simpa using hb

/-- `_check_representation` for metrics and tensors: false means that there are no components at all in
these coordinates. -/
theorem checkRepresentation_keeps (hA : A.OK) (hE : EngineOK E) (hG : G.Lawful E A) (self c : Id')
    (ix : List Int) (hk : κ self = some .metric ∨ κ self = some .tensor) (hc : κ c = some .coordinates)
    (hix : Config (G.rank self) ix) :
    Keeps (CohK E A G κ) (fun _ => True) (checkRepresentation E self c ix) fun b w =>
      κ self = some .metric → ∃ o, w.objs[self]? = some o ∧ o.comps.has c = b := by
  unfold checkRepresentation
  refine Keeps.bind (Keeps.getObj self) fun o => ?_
  rcases hk with hk | hk
  · refine Keeps.fact (φ := o.kind = .metric) ?_ fun hko => ?_
    · rintro w hP ⟨-, ho, -⟩
      have := hP.kind ho; rw [hk] at this; exact (Option.some.inj this).symm
    rw [hko]
    refine (metricCheck_keeps self c).weaken (fun _ _ h => h) ?_
    rintro b w _ ⟨-, o, ho, -, h⟩ _
    exact ⟨o, ho, h⟩
  · refine Keeps.fact (φ := o.kind = .tensor) ?_ fun hko => ?_
    · rintro w hP ⟨-, ho, -⟩
      have := hP.kind ho; rw [hk] at this; exact (Option.some.inj this).symm
    rw [hko]
    refine (tensorCheck_keeps hA hE hG self c ix hk hc hix).weaken (fun _ _ h => trivial) ?_
    intro b w _ _ h
    rw [hk] at h; simp at h

theorem transformCoordinates_keeps (hA : A.OK) (hE : EngineOK E) (hG : G.Lawful E A) (self c : Id')
    (ix : List Int) (hk : κ self = some .metric ∨ κ self = some .tensor) (hc : κ c = some .coordinates)
    (hix : Config (G.rank self) ix) :
    Keeps (CohK E A G κ) (fun w => κ self = some .metric → ∃ o, w.objs[self]? = some o ∧
      o.comps.has c = false) (transformCoordinates E self c ix) fun _ _ => True := by
  unfold transformCoordinates
  refine Keeps.bind (Keeps.getObj self) fun o => ?_
  rcases hk with hk | hk
  · intro w hP hR
    obtain ⟨hR, ho, -⟩ := id hR
    have hko : o.kind = .metric := by
      have := hP.kind ho; rw [hk] at this; exact (Option.some.inj this).symm
    rw [hko]
    obtain ⟨o', ho', hh⟩ := hR hk
    rw [ho] at ho'; cases ho'
    exact metricTransform_keeps hA hE hG self c ix o hk hc ((Dict.has_eq_false _ _).1 hh) w hP ho
  · intro w hP hR
    obtain ⟨-, ho, -⟩ := id hR
    have hko : o.kind = .tensor := by
      have := hP.kind ho; rw [hk] at this; exact (Option.some.inj this).symm
    rw [hko]
    exact tensorTransform_keeps hA hE hG self c ix hk hc hix w hP trivial

theorem Keeps.bind_assoc {α β γ : Type} {P R R' : World K → Prop} {m : PyM K α} {f : α → PyM K β}
    {k : β → PyM K γ} {Q : β → World K → Prop} {S : γ → World K → Prop} (h : Keeps P R (m >>= f) Q)
    (hR : ∀ w, P w → R' w → R w) (hk : ∀ b, Keeps P (Q b) (k b) S) :
    Keeps P R' (m >>= fun a => f a >>= k) S := by
  have := (h.weaken hR fun _ _ _ h => h).bind hk
  intro w hP hR
  have := this w hP hR
  simp only [PyM.bind_apply] at this ⊢
  revert this
  rcases m w with ⟨_ | _, _⟩ <;> exact id

theorem ensureRepresentation_keeps (hA : A.OK) (hE : EngineOK E) (hG : G.Lawful E A) (self c : Id')
    (ix : List Int) (hk : κ self = some .metric ∨ κ self = some .tensor) (hc : κ c = some .coordinates)
    (hix : Config (G.rank self) ix) :
    Keeps (CohK E A G κ) (fun _ => True) (do
      PyM.onlyIf (!(← checkRepresentation E self c ix)) (transformCoordinates E self c ix))
      fun _ _ => True := by
  refine Keeps.bind (checkRepresentation_keeps hA hE hG self c ix hk hc hix) fun b => ?_
  refine Keeps.onlyIf (fun hb => ?_) fun _ _ _ _ => trivial
  refine (transformCoordinates_keeps hA hE hG self c ix hk hc hix).weaken ?_ fun _ _ _ h => h
  intro w _ h hm
  have hb' : b = false := by simpa using hb
  rw [← hb']
  exact h hm

/-- A request for components keeps the state coherent, and what it returns are the components. -/
theorem getRepresentation_keeps (hA : A.OK) (hE : EngineOK E) (hG : G.Lawful E A) (self c : Id')
    (ix : List Int) (hk : κ self = some .metric ∨ κ self = some .tensor) :
    Keeps (CohK E A G κ) (fun _ => True) (getRepresentation E self c ix) fun a w =>
      Config (G.rank self) ix ∧ Agree A.n (G.rank self) a (G.comp self c ix) := by
  unfold getRepresentation
  refine Keeps.bind (isCoordinates_keeps c) fun b => ?_
  refine Keeps.ite (fun _ => Keeps.raise _) fun hb => ?_
  refine Keeps.fact (φ := κ c = some .coordinates) (fun w hP hR => hR.2 (by simpa using hb)) fun hc => ?_
  refine Keeps.bind (Keeps.getObj self) fun o => ?_
  refine Keeps.bind (Q := fun _ _ => Config (G.rank self) ix) (Keeps.lift _ ?_) fun _ => ?_
  · rintro _ w hv hP ⟨⟨-, -⟩, ho, -⟩
    obtain ⟨h1, h2⟩ := validateIndices_ok hv
    exact ⟨h1.trans (hP.1.tensors self o ho (hP.mt hk ho)).2.2.1.1, h2⟩
  refine Keeps.fact (φ := Config (G.rank self) ix) (fun _ _ h => h) fun hix => ?_
  refine (ensureRepresentation_keeps hA hE hG self c ix hk hc hix).bind_assoc (fun _ _ _ => trivial) fun _ => ?_
  refine (Keeps.readComps self c ix).weaken (fun _ _ h => h) ?_
  rintro a w hP ⟨-, o, d, ho, -, hd, ha⟩
  exact (hP.1.tensors self o ho (hP.mt hk ho)).2.2.2.2.2 c d ix a hd ha

theorem getComponents_keeps (hA : A.OK) (hE : EngineOK E) (hG : G.Lawful E A) (self : Id')
    (c : Option Id') (ix : Option (List Int)) (o0 : Obj K)
    (hk : κ self = some .metric ∨ κ self = some .tensor) :
    Keeps (CohK E A G κ) (fun w => w.objs[self]? = some o0) (getComponents E self c ix) fun a w =>
      Config (G.rank self) (ix.getD o0.indices) ∧
      Agree A.n (G.rank self) a (G.comp self (c.getD o0.coords) (ix.getD o0.indices)) := by
  unfold getComponents
  refine Keeps.bind (Keeps.getObj self) fun o => ?_
  intro w hP hR
  obtain ⟨h0, ho, -⟩ := hR
  rw [h0] at ho; cases ho
  exact getRepresentation_keeps hA hE hG self _ _ hk w hP trivial

theorem changeDefaultIndices_keeps (hA : A.OK) (hE : EngineOK E) (hG : G.Lawful E A) (self : Id')
    (ix : List Int) (hk : κ self = some .metric ∨ κ self = some .tensor)
    (hm : κ self = some .metric → ix = [-1, -1] ∨ ix = [1, 1]) :
    Keeps (CohK E A G κ) (fun _ => True) (changeDefaultIndices E self ix) fun _ _ => True := by
  unfold changeDefaultIndices
  refine Keeps.bind (Keeps.getObj self) fun o => ?_
  refine Keeps.bind (Q := fun _ _ => Config (G.rank self) ix ∧ κ o.coords = some .coordinates)
    (Keeps.lift _ ?_) fun _ => ?_
  · rintro _ w hv hP ⟨-, ho, -⟩
    obtain ⟨h1, h2⟩ := validateIndices_ok hv
    obtain ⟨-, -, h3, -, ⟨oc, h4, h5⟩, -⟩ := hP.1.tensors self o ho (hP.mt hk ho)
    exact ⟨⟨h1.trans h3.1, h2⟩, by rw [hP.kind h4, h5]⟩
  refine Keeps.fact (fun _ _ h => h) fun hR => ?_
  have hix := hR.1
  refine Keeps.bind (Q := fun _ _ => True)
    ((checkRepresentation_keeps hA hE hG self o.coords ix hk hR.2 hR.1).weaken
      (fun _ _ _ => trivial) fun _ _ _ _ => trivial) fun b => ?_
  refine Keeps.onlyIf (fun _ => ?_) fun _ _ _ _ => trivial
  refine Keeps.modifyObj _ _ ?_
  intro w hP _
  refine ⟨⟨?_, kinds_modify hP.2 self _ fun _ => rfl⟩, trivial⟩
  refine coherent_modify hP.1 self _ (fun o _ => ⟨rfl, rfl⟩) ?_ ?_ ?_ ?_
  · intro o ho hko
    exact (hP.1.tensors self o ho hko).2.2.2.2.1
  · intro o ho hko
    have := hP.mt hk ho
    rw [hko] at this; simp at this
  · intro o ho hko
    exact ⟨hix, (hP.1.tensors self o ho hko).2.2.2.2.2⟩
  · intro o ho hko
    exact hm (by rw [hP.kind ho, hko])

theorem changeDefaultCoords_keeps (hA : A.OK) (hE : EngineOK E) (hG : G.Lawful E A) (self c : Id')
    (hk : κ self = some .metric ∨ κ self = some .tensor) :
    Keeps (CohK E A G κ) (fun _ => True) (changeDefaultCoords E self c) fun _ _ => True := by
  unfold changeDefaultCoords
  refine Keeps.bind (isCoordinates_keeps c) fun b => ?_
  refine Keeps.ite (fun _ => Keeps.raise _) fun hb => ?_
  refine Keeps.fact (φ := κ c = some .coordinates) (fun w hP hR => hR.2 (by simpa using hb)) fun hc => ?_
  refine Keeps.bind (Keeps.getObj self) fun o => ?_
  refine Keeps.ite (fun _ => Keeps.pure _ fun _ _ _ => trivial) fun _ => ?_
  refine Keeps.bind (Keeps.getObj o.coords) fun oc => ?_
  refine Keeps.ite (fun _ => Keeps.bind (Keeps.getObj c) fun _ => Keeps.raise _) fun _ => ?_
  refine Keeps.fact (φ := Config (G.rank self) o.indices) (fun w hP hR =>
    (hP.1.tensors self o hR.1.2.1 (hP.mt hk hR.1.2.1)).2.2.1) fun hix => ?_
  refine (ensureRepresentation_keeps hA hE hG self c o.indices hk hc hix).bind_assoc
    (fun _ _ _ => trivial) fun _ => ?_
  · refine Keeps.modifyObj _ _ ?_
    intro w hP _
    refine ⟨⟨?_, kinds_modify hP.2 self _ fun _ => rfl⟩, trivial⟩
    refine coherent_modify hP.1 self _ (fun o _ => ⟨rfl, rfl⟩) ?_ ?_ ?_ ?_
    · intro o ho hko
      exact hP.get hc
    · intro o ho hko
      have := hP.mt hk ho
      rw [hko] at this; simp at this
    · intro o ho hko
      exact ⟨(hP.1.tensors self o ho hko).2.2.1, (hP.1.tensors self o ho hko).2.2.2.2.2⟩
    · intro o ho hko
      exact (hP.1.metrics self o ho hko).2.2

end PyOGRe
