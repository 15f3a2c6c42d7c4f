import Verif.Lemmas.Own

/-! Helper lemmas: in a state without half-made representations, requests return. -/

namespace PyOGRe
open Spec Finset
variable {K : Type} [CommRing K]

/-- Assigning attributes of one object. -/
def upd (w : World K) (i : Id') (f : Obj K → Obj K) : World K := { w with objs := w.objs.modify i f }

theorem upd_self {w : World K} {i : Id'} {f : Obj K → Obj K} {o : Obj K} (h : w.objs[i]? = some o) :
    (upd w i f).objs[i]? = some (f o) := getElem?_modify_self h

theorem upd_ne {w : World K} {i k : Id'} {f : Obj K → Obj K} (h : i ≠ k) :
    (upd w i f).objs[k]? = w.objs[k]? := by
  unfold upd
  rw [List.getElem?_modify]
  simp [h]

theorem upd_cases {w : World K} {i k : Id'} {f : Obj K → Obj K} {o : Obj K}
    (h : (upd w i f).objs[k]? = some o) :
    (i ≠ k ∧ w.objs[k]? = some o) ∨ (i = k ∧ ∃ o', w.objs[k]? = some o' ∧ o = f o') := by
  by_cases hik : i = k
  · right
    subst hik
    unfold upd at h
    rw [List.getElem?_modify] at h
    cases ho : w.objs[i]? with
    | none => rw [ho] at h; simp at h
    | some o' => rw [ho] at h; simp at h; exact ⟨rfl, o', rfl, h.symm⟩
  · left
    rw [upd_ne hik] at h
    exact ⟨hik, h⟩

/-- Nothing is deleted, every tensor has components in its own system and they are an array, every metric has the default
configuration (-1,-1) and all four representations wherever it has any. -/
structure Ready (w : World K) : Prop where
  alive : ∀ (i : Id') o, w.objs[i]? = some o → o.alive = true
  tensor : ∀ (t : Id') o, w.objs[t]? = some o → o.kind = .tensor →
    (∃ d, o.comps.get? o.coords = some d) ∧ ∀ c d, o.comps.get? c = some d → d ≠ []
  metric : ∀ (t : Id') o, w.objs[t]? = some o → o.kind = .metric → o.indices = [-1, -1] ∧
    (∃ d, o.comps.get? o.coords = some d) ∧
    ∀ c d, o.comps.get? c = some d → ∀ ix, Config 2 ix → ∃ a, d.get? ix = some a
  array : ∀ (t : Id') o, w.objs[t]? = some o → o.kind = .tensor → o.isArray o.coords = true

/-- Representations are added at the end. -/
theorem isArray_set {o : Obj K} {c0 : Id'} (h : o.isArray c0 = true) (c : Id') (d : Dict (List Int) (Arr K)) :
    ({ o with comps := o.comps.set c d } : Obj K).isArray c0 = true := by
  unfold Obj.isArray at h ⊢
  dsimp only
  cases hx : o.comps with
  | nil => rw [hx] at h; simpa [Dict.set] using Or.inl (by simpa using h)
  | cons p r =>
    rw [hx] at h
    unfold Dict.set
    split_ifs with hp
    · simpa [hp] using h
    · simpa using h

theorem ready_jac {w : World K} (h : Ready w) (c : Id') (J : Dict Id' (Jacobians K)) :
    Ready (upd w c fun o => { o with jac := J }) := by
  refine ⟨?_, ?_, ?_, ?_⟩
  · intro i o ho
    rcases upd_cases ho with ⟨-, h1⟩ | ⟨-, o', h1, rfl⟩
    · exact h.alive i o h1
    · exact h.alive i o' h1
  · intro i o ho hk
    rcases upd_cases ho with ⟨-, h1⟩ | ⟨-, o', h1, rfl⟩
    · exact h.tensor i o h1 hk
    · exact h.tensor i o' h1 hk
  · intro i o ho hk
    rcases upd_cases ho with ⟨-, h1⟩ | ⟨-, o', h1, rfl⟩
    · exact h.metric i o h1 hk
    · exact h.metric i o' h1 hk
  · intro i o ho hk
    rcases upd_cases ho with ⟨-, h1⟩ | ⟨-, o', h1, rfl⟩
    · exact h.array i o h1 hk
    · exact h.array i o' h1 hk

theorem ready_comps {w : World K} (h : Ready w) (i c : Id') (d : Dict (List Int) (Arr K))
    (ht : ∀ o, w.objs[i]? = some o → o.kind = .tensor → d ≠ [])
    (hm : ∀ o, w.objs[i]? = some o → o.kind = .metric → ∀ ix, Config 2 ix → ∃ a, d.get? ix = some a) :
    Ready (upd w i fun o => { o with comps := o.comps.set c d }) := by
  refine ⟨?_, ?_, ?_, ?_⟩
  · intro k o ho
    rcases upd_cases ho with ⟨-, h1⟩ | ⟨-, o', h1, rfl⟩
    · exact h.alive k o h1
    · exact h.alive k o' h1
  · intro k o ho hk
    rcases upd_cases ho with ⟨-, h1⟩ | ⟨rfl, o', h1, rfl⟩
    · exact h.tensor k o h1 hk
    · obtain ⟨⟨d0, h2⟩, h3⟩ := h.tensor i o' h1 hk
      constructor
      · show ∃ d', (o'.comps.set c d).get? o'.coords = some d'
        rw [Dict.get?_set]
        split_ifs
        · exact ⟨d, rfl⟩
        · exact ⟨d0, h2⟩
      · intro c1 d1 hd1
        have hd1' : (o'.comps.set c d).get? c1 = some d1 := hd1
        rw [Dict.get?_set] at hd1'
        split_ifs at hd1' with hc
        · cases hd1'; exact ht o' h1 hk
        · exact h3 c1 d1 hd1'
  · intro k o ho hk
    rcases upd_cases ho with ⟨-, h1⟩ | ⟨rfl, o', h1, rfl⟩
    · exact h.metric k o h1 hk
    · obtain ⟨h0, ⟨d0, h2⟩, h3⟩ := h.metric i o' h1 hk
      refine ⟨h0, ?_, ?_⟩
      · show ∃ d', (o'.comps.set c d).get? o'.coords = some d'
        rw [Dict.get?_set]
        split_ifs
        · exact ⟨d, rfl⟩
        · exact ⟨d0, h2⟩
      · intro c1 d1 hd1
        have hd1' : (o'.comps.set c d).get? c1 = some d1 := hd1
        rw [Dict.get?_set] at hd1'
        split_ifs at hd1' with hc
        · cases hd1'; exact hm o' h1 hk
        · exact h3 c1 d1 hd1'
  · intro k o ho hk
    rcases upd_cases ho with ⟨-, h1⟩ | ⟨rfl, o', h1, rfl⟩
    · exact h.array k o h1 hk
    · exact isArray_set (h.array i o' h1 hk) c d

/-- There are rules from `c` to `c'` with an invertible Jacobian. -/
def Reach (E : Engine K) (A : Atlas K) (c c' : Id') : Prop :=
  ∃ rules Jinv, A.rules c c' = some rules ∧
    Inverse A.n (chartJacobian E (A.syms c) (A.syms c') rules) Jinv

section
variable {E : Engine K} {A : Atlas K} {G : Geometry K} {κ : Nat → Option Kind}

theorem calculateJacobian_total (hE : EngineOK E) (hT : EngineTotal E) {old new : List Sym} {n : Nat}
    (hn : 0 < n) (ho : old.length = n) (hnew : new.length = n) {rules : List (Option (Sym × K))}
    (hg : GoodRules rules) {Ji : Nat → Nat → K} (hi : Inverse n (chartJacobian E old new rules) Ji) :
    ∃ j, calculateJacobian E old new rules = .ok j := by
  unfold calculateJacobian
  rw [orderedRules_eq old rules hg]
  simp only [List.length_map, ho]
  obtain ⟨z, hz, -⟩ := zeroTensor_uniform (K := K) n 2 (.inr hn)
  rw [show ((2 : Nat) : Int) = 2 from rfl] at hz
  rw [hz, py_ok_bind, if_neg (by omega)]
  set J : Arr K := Arr.map E.simp (Arr.ofFn [n, n] (jacobianEntry E new
        (old.map fun s => (ruleFor rules s).map fun v => (s, v)))) with hJ
  have hgd : ∀ i, i < n →
      (old.map fun s => (ruleFor rules s).map fun v => (s, v)).getD i none =
        (ruleFor rules (old.getD i "")).map fun v => (old.getD i "", v) := by
    intro i hi
    rw [List.getD_eq_getElem?_getD, List.getElem?_map, List.getD_eq_getElem?_getD,
      List.getElem?_eq_getElem (by omega)]
    rfl
  have hJe : ∀ i k, i < n → k < n → chartJacobian E old new rules i k = J.get [i, k] := by
    intro i k hi hk
    rw [hJ, Arr.get_map (by show Valid [n, n] _; rw [valid_cons, valid_cons, valid_nil]; exact ⟨hi, hk, rfl⟩),
      Arr.get_ofFn (by rw [valid_cons, valid_cons, valid_nil]; exact ⟨hi, hk, rfl⟩), hE.simp_eq]
    simp only [jacobianEntry, hgd i hi, chartJacobian]
    cases ruleFor rules (old.getD i "") with
    | none => simp [delta, eq_comm]
    | some v => rfl
  obtain ⟨b, hb⟩ := hT.inv_total n J Ji rfl (inverse_congr hi hJe fun _ _ _ _ => rfl)
  rw [hb]
  exact ⟨_, rfl⟩

theorem checkJacobians_eval (hA : A.OK) (hE : EngineOK E) (hT : EngineTotal E) {w : World K}
    (hP : CohK E A G κ w) (hr : Ready w) {c c' : Id'} (hc : κ c = some .coordinates)
    (hc' : κ c' = some .coordinates) (hreach : Reach E A c c') :
    ∃ J j, checkJacobians E c c' w = (.ok (), upd w c fun o => { o with jac := J }) ∧
      J.get? c' = some j ∧ JacobianOK E A c c' j := by
  obtain ⟨oc, h1, h2⟩ := hP.get hc
  obtain ⟨oc', h1', h2'⟩ := hP.get hc'
  obtain ⟨s1, s2, s3⟩ := hP.1.charts c oc h1 h2
  obtain ⟨s1', -, -⟩ := hP.1.charts c' oc' h1' h2'
  obtain ⟨rules, Ji, r1, r2⟩ := hreach
  unfold checkJacobians
  rw [PyM.bind_apply, getObj_ok h1 (hr.alive c oc h1)]
  dsimp only
  cases hh : oc.jac.has c' with
  | true =>
    obtain ⟨j, hj⟩ := (Dict.has_iff _ _).1 hh
    refine ⟨oc.jac, j, ?_, hj, s3 c' j hj⟩
    rw [if_pos rfl, PyM.pure_apply]
    congr 1
    unfold upd
    cases w with
    | mk objs inst =>
      congr 1
      refine List.ext_getElem? fun k => ?_
      rw [List.getElem?_modify]
      by_cases hk : c = k
      · subst hk
        have h1' : objs[c]? = some oc := h1
        rw [h1']
        simp
      · simp [hk]
  | false =>
    rw [if_neg (by decide)]
    have htr : oc.trans.get? c' = some rules := by rw [s2 c', r1]
    rw [if_pos ((Dict.has_iff _ _).2 ⟨rules, htr⟩)]
    unfold calcJacobian
    rw [PyM.bind_apply, getObj_ok h1 (hr.alive c oc h1)]
    dsimp only
    rw [PyM.bind_apply, getObj_ok h1' (hr.alive c' oc' h1')]
    dsimp only
    rw [PyM.bind_apply, lookup_ok htr, PyM.pure_apply]
    dsimp only
    rw [s1, s1', PyM.bind_apply, PyM.lift_apply]
    obtain ⟨j, hj⟩ := calculateJacobian_total hE hT hA.pos (hA.length c) (hA.length c')
      (hA.good c c' rules r1) r2
    rw [hj]
    dsimp only
    obtain ⟨q1, q2, q3, q4, q5, q6, q7, q8, q9⟩ := calculateJacobian_sound E hE _ _ A.n
      (hA.length c) rules (hA.good c c' rules r1) j hj
    refine ⟨oc.jac.set c' j, j, ?_, Dict.get?_set_self _ _ _, ⟨rules, r1, q2, q4, q7, q8, q6, q9⟩⟩
    unfold modifyObj upd
    congr 2
    refine List.ext_getElem? fun k => ?_
    rw [List.getElem?_modify, List.getElem?_modify]
    by_cases hk : c = k
    · subst hk
      rw [h1]
      simp
    · simp [hk]

/-- The transformation of stored components returns. -/
theorem baseTransform_eval (hA : A.OK) (hE : EngineOK E) (hT : EngineTotal E) {w : World K}
    (hP : CohK E A G κ w) (hr : Ready w) {i c' : Id'} {ix : List Int} {o : Obj K}
    {d : Dict (List Int) (Arr K)} {a : Arr K} (ho : w.objs[i]? = some o)
    (hk : κ i = some .metric ∨ κ i = some .tensor) (hd : o.comps.get? o.coords = some d)
    (ha : d.get? ix = some a) (hc' : κ c' = some .coordinates) (hreach : Reach E A o.coords c')
    (harr : o.isArray o.coords = true) :
    o.coords ≠ i ∧ ∃ J b, baseTransform E i c' ix w = (.ok (), upd (upd w o.coords fun o => { o with jac := J }) i
      fun o => { o with comps := o.comps.set c' (((o.comps.get? c').getD []).set ix b) }) := by
  obtain ⟨t1, t2, t3, t4, ⟨oc, h1, h2⟩, t6⟩ := hP.1.tensors i o ho (hP.mt hk ho)
  have hc : κ o.coords = some .coordinates := by rw [hP.kind h1, h2]
  have hne : o.coords ≠ i := by
    intro he
    rw [he, ho] at h1; cases h1
    rcases hP.mt hk ho with h | h <;> rw [h] at h2 <;> cases h2
  refine ⟨hne, ?_⟩
  obtain ⟨hcfg, hag⟩ := t6 _ _ _ _ hd ha
  obtain ⟨J, j, e1, e2, rules, r1, j1, j2, -⟩ := checkJacobians_eval hA hE hT hP hr hc hc' hreach
  obtain ⟨b, hb, -⟩ := transformComponents_spec E hE.simp_eq hA.pos j.J j.Jinv a (eqRules rules) ix j1 j2
    hcfg.2 (by rw [hag.2.1, hcfg.1])
  refine ⟨J, b, ?_⟩
  unfold baseTransform
  rw [PyM.bind_apply, getObj_ok ho (hr.alive i o ho)]
  dsimp only
  rw [PyM.bind_apply, e1]
  dsimp only
  set w1 := upd w o.coords fun o => { o with jac := J } with hw1
  have g1 : w1.objs[i]? = some o := by rw [hw1, upd_ne hne]; exact ho
  have g2 : w1.objs[o.coords]? = some { oc with jac := J } := upd_self h1
  have al := ready_jac hr o.coords J
  rw [PyM.bind_apply, readComps_ok g1 (hr.alive i o ho) hd ha]
  dsimp only
  rw [PyM.bind_apply, getObj_ok g2 (hr.alive _ oc h1)]
  dsimp only
  rw [PyM.bind_apply, lookup_ok e2, PyM.pure_apply]
  dsimp only
  have htr : oc.trans.get? c' = some rules := by rw [(hP.1.charts _ oc h1 h2).2.1 c', r1]
  rw [PyM.bind_apply, lookup_ok htr, PyM.pure_apply]
  dsimp only
  rw [PyM.bind_apply, PyM.lift_apply, needArray_true harr, hb]
  dsimp only
  rw [PyM.bind_apply]
  unfold ensureCoords
  rw [show ∀ f : Obj K → Obj K, modifyObj i f w1 = (.ok (), upd w1 i f) from fun _ => rfl]
  dsimp only
  have g3 : (upd w1 i fun o => if o.comps.has c' then o else { o with comps := o.comps.set c' [] }).objs[i]? =
      some (if o.comps.has c' then o else { o with comps := o.comps.set c' [] }) := upd_self g1
  have g4 : (if o.comps.has c' then o else { o with comps := o.comps.set c' [] }).alive = true := by
    split_ifs <;> exact hr.alive i o ho
  have g5 : (if o.comps.has c' then o else { o with comps := o.comps.set c' [] }).comps.get? c' =
      some ((o.comps.get? c').getD []) := by
    split_ifs with hh
    · obtain ⟨v, hv⟩ := (Dict.has_iff _ _).1 hh
      rw [hv]; rfl
    · have hno : o.comps.get? c' = none := (Dict.has_eq_false _ _).1 (by simpa using hh)
      rw [hno]
      exact Dict.get?_set_self _ _ _
  rw [writeComps_ok g3 g4 g5]
  unfold upd
  congr 2
  refine List.ext_getElem? fun k => ?_
  rw [List.getElem?_modify, List.getElem?_modify, List.getElem?_modify]
  by_cases hk : i = k
  · subst hk
    rw [g1]
    simp only [if_true, Option.map_eq_map, Option.map_some]
    split_ifs
    · rfl
    · simp [set_set]
  · simp [hk]

/-- The metric's transformation returns. -/
theorem metricTransform_eval (hA : A.OK) (hE : EngineOK E) (hT : EngineTotal E) (hG : G.Lawful E A)
    {w : World K} (hP : CohK E A G κ w) (hr : Ready w) {m c' : Id'} {o : Obj K}
    (ho : w.objs[m]? = some o) (hk : κ m = some .metric) (hc' : κ c' = some .coordinates)
    (hnew : o.comps.get? c' = none) (hreach : Reach E A o.coords c') :
    o.coords ≠ m ∧ ∃ J d, metricTransform E m c' [-1, -1] w = (.ok (),
        upd (upd w o.coords fun o => { o with jac := J }) m fun o => { o with comps := o.comps.set c' d }) ∧
      ∀ ix, Config 2 ix → ∃ a, d.get? ix = some a := by
  have hko : o.kind = .metric := by
    have := hP.kind ho; rw [hk] at this; exact (Option.some.inj this).symm
  obtain ⟨hri, ⟨d0, hd0⟩, hfull⟩ := hr.metric m o ho hko
  obtain ⟨hrank, hmm, -⟩ := hP.1.metrics m o ho hko
  obtain ⟨a0, ha0⟩ := hfull _ d0 hd0 [-1, -1] (config_two (Or.inr rfl) (Or.inr rfl))
  obtain ⟨hne, J, b, hb⟩ := baseTransform_eval hA hE hT hP hr ho (Or.inl hk) hd0 ha0 hc' hreach
    (isArray_of_ne (by rw [hri]; simp) _)
  refine ⟨hne, J, ?_⟩
  obtain ⟨hP1, hk1⟩ := baseTransform_keeps hA hE hG m c' [-1, -1] o (Or.inl hk) hc' w hP ho
  obtain ⟨b', -, hag, hob⟩ := hk1 () (by rw [hb])
  rw [hb] at hob
  set w1 := upd w o.coords fun o => { o with jac := J } with hw1
  have g1 : w1.objs[m]? = some o := by rw [hw1, upd_ne hne]; exact ho
  set w2 := upd w1 m fun o => { o with comps := o.comps.set c' (((o.comps.get? c').getD []).set [-1, -1] b) }
    with hw2
  have g2 : w2.objs[m]? = some { o with comps := o.comps.set c' [([-1, -1], b)] } := by
    rw [hw2, upd_self g1, hnew]; rfl
  have hbb : b' = b := by
    dsimp only at hob
    rw [g2, hnew] at hob
    have := congrArg (fun x : Option (Obj K) => (x.map fun o => (o.comps.get? c'))) hob
    simp only [Option.map_some, Dict.get?_set_self, Option.getD_none, Dict.set, Option.some.injEq,
      List.cons.injEq, Prod.mk.injEq] at this
    exact this.1.2.symm
  subst hbb
  rw [hrank] at hag
  obtain ⟨hag1, hag2, hag3⟩ := hag
  have hal := hr.alive m o ho
  -- the inverse exists
  have hGi := hG.inverse m c'
  unfold Geometry.g Geometry.ginv at hGi
  rw [hmm] at hGi
  obtain ⟨inv, hinv⟩ := hT.inv_total A.n b' _ hag2 (inverse_congr hGi
    (fun i j hi hj => (hag3 [i, j] rfl (by simp [hi, hj])).symm) fun _ _ _ _ => rfl)
  obtain ⟨i1, i2, -⟩ := hE.inv_ok A.n b' inv hag2 hinv
  obtain ⟨⟨m1, hm1, m2, m3, -⟩, m1', hm1', m2', m3', -⟩ := mixedMetric_spec hA.pos i2 hag2
  refine ⟨[([-1, -1], b'), ([1, 1], inv), ([-1, 1], m1), ([1, -1], m1')], ?_, ?_⟩
  · unfold metricTransform
    rw [PyM.bind_apply, hb]
    dsimp only
    rw [PyM.bind_apply, getObj_ok g2 hal]
    dsimp only
    have hget : ∀ d, (o.comps.set c' d).get? c' = some d := fun d => Dict.get?_set_self _ _ _
    rw [hri, PyM.bind_apply, readComps_ok g2 hal (hget _) (a := b') (by simp [Dict.get?_cons])]
    dsimp only
    rw [PyM.bind_apply, PyM.lift_apply, hinv]
    dsimp only
    have hneg : negIndices [-1, -1] = [1, 1] := rfl
    rw [PyM.bind_apply, hneg, writeComps_ok g2 hal (hget _)]
    dsimp only
    rw [show ∀ f, ({ w2 with objs := w2.objs.modify m f } : World K) = upd w2 m f from fun _ => rfl]
    set w3 := upd w2 m fun o => { o with comps := o.comps.set c' (Dict.set [([-1, -1], b')] [1, 1] inv) }
      with hw3
    have g3 : w3.objs[m]? = some { o with comps := o.comps.set c' [([-1, -1], b'), ([1, 1], inv)] } := by
      rw [hw3, upd_self g2]; simp [set_set, Dict.set]
    have r1 : ∀ d : Dict (List Int) (Arr K), Dict.get? (([-1, -1], b') :: ([1, 1], inv) :: d) [1, 1] =
      some inv := fun d => by simp [Dict.get?_cons]
    have r2 : ∀ d : Dict (List Int) (Arr K), Dict.get? (([-1, -1], b') :: ([1, 1], inv) :: d) [-1, -1] =
      some b' := fun d => by simp [Dict.get?_cons]
    rw [PyM.bind_apply, readComps_ok g3 hal (hget _) (r1 _)]
    dsimp only
    rw [PyM.bind_apply, readComps_ok g3 hal (hget _) (r2 _)]
    dsimp only
    rw [PyM.bind_apply, PyM.lift_apply, hm1]
    dsimp only
    rw [PyM.bind_apply, writeComps_ok g3 hal (hget _)]
    dsimp only
    rw [show ∀ f, ({ w3 with objs := w3.objs.modify m f } : World K) = upd w3 m f from fun _ => rfl]
    set w4 := upd w3 m fun o => { o with comps := o.comps.set c' (Dict.set [([-1, -1], b'), ([1, 1], inv)]
      [List.getD [-1, -1] 0 0, -List.getD [-1, -1] 1 0] m1) } with hw4
    have g4 : w4.objs[m]? = some { o with comps := (o.comps.set c'
        [([-1, -1], b'), ([1, 1], inv), ([-1, 1], m1)]) } := by
      rw [hw4, upd_self g3]; simp [set_set, Dict.set]
    rw [PyM.bind_apply, readComps_ok g4 hal (hget _) (r1 _)]
    dsimp only
    rw [PyM.bind_apply, readComps_ok g4 hal (hget _) (r2 _)]
    dsimp only
    rw [PyM.bind_apply, PyM.lift_apply, hm1']
    dsimp only
    rw [writeComps_ok g4 hal (hget _)]
    congr 1
    have hobjs : ∀ k : Nat, (upd w1 m fun o => { o with comps := (o.comps.set c'
        [([-1, -1], b'), ([1, 1], inv), ([-1, 1], m1), ([1, -1], m1')]) }).objs[k]? =
      (upd w4 m fun o => { o with comps := o.comps.set c' (Dict.set [([-1, -1], b'), ([1, 1], inv), ([-1, 1], m1)]
        [-List.getD [-1, -1] 0 0, List.getD [-1, -1] 1 0] m1') }).objs[k]? := by
      intro k
      by_cases hmk : m = k
      · subst hmk
        rw [upd_self g1, upd_self g4]; simp [set_set, Dict.set]
      · rw [upd_ne hmk, upd_ne hmk, hw4, upd_ne hmk, hw3, upd_ne hmk, hw2, upd_ne hmk]
    have := List.ext_getElem? hobjs
    show (⟨_, _⟩ : World K) = ⟨_, _⟩
    congr 1
    exact this.symm
  · rintro ix ⟨hl, hx⟩
    match ix, hl with
    | [x, y], _ =>
      rcases hx x (by simp) with rfl | rfl <;> rcases hx y (by simp) with rfl | rfl <;>
        simp [Dict.get?_cons]

/-- Everything is still there. -/
def Later (w w' : World K) : Prop :=
  ∀ (k : Id') o, w.objs[k]? = some o → ∃ o', w'.objs[k]? = some o' ∧ o'.kind = o.kind ∧
    o'.coords = o.coords ∧ o'.metric = o.metric ∧
    (o'.indices = o.indices ∧ ∀ c, o.isArray c = true → o'.isArray c = true) ∧
    ∀ c d, o.comps.get? c = some d → ∃ d', o'.comps.get? c = some d' ∧
      ∀ ix a, d.get? ix = some a → ∃ a', d'.get? ix = some a'

theorem Later.refl (w : World K) : Later w w :=
  fun _ o ho => ⟨o, ho, rfl, rfl, rfl, ⟨rfl, fun _ h => h⟩, fun _ d hd => ⟨d, hd, fun _ a ha => ⟨a, ha⟩⟩⟩

theorem Later.trans {w w' w'' : World K} (h : Later w w') (h' : Later w' w'') : Later w w'' := by
  intro k o ho
  obtain ⟨o1, a1, a2, a3, a4, a5, a6⟩ := h k o ho
  obtain ⟨o2, b1, b2, b3, b4, b5, b6⟩ := h' k o1 a1
  refine ⟨o2, b1, b2.trans a2, b3.trans a3, b4.trans a4, ⟨b5.1.trans a5.1, fun c h => b5.2 c (a5.2 c h)⟩, fun c d hd => ?_⟩
  obtain ⟨d1, e1, e2⟩ := a6 c d hd
  obtain ⟨d2, f1, f2⟩ := b6 c d1 e1
  refine ⟨d2, f1, fun ix a ha => ?_⟩
  obtain ⟨a', ha'⟩ := e2 ix a ha
  exact f2 ix a' ha'

theorem later_jac (w : World K) (c : Id') (J : Dict Id' (Jacobians K)) :
    Later w (upd w c fun o => { o with jac := J }) := by
  intro k o ho
  by_cases hk : c = k
  · subst hk
    exact ⟨_, upd_self ho, rfl, rfl, rfl, ⟨rfl, fun _ h => h⟩, fun _ d hd => ⟨d, hd, fun _ a ha => ⟨a, ha⟩⟩⟩
  · exact ⟨o, by rw [upd_ne hk]; exact ho, rfl, rfl, rfl, ⟨rfl, fun _ h => h⟩, fun _ d hd => ⟨d, hd, fun _ a ha => ⟨a, ha⟩⟩⟩

theorem later_comps {w : World K} {i : Id'} {o : Obj K} (ho : w.objs[i]? = some o) (c : Id')
    (d : Dict (List Int) (Arr K))
    (hd : ∀ d0, o.comps.get? c = some d0 → ∀ ix a, d0.get? ix = some a → ∃ a', d.get? ix = some a') :
    Later w (upd w i fun o => { o with comps := o.comps.set c d }) := by
  intro k o' ho'
  by_cases hk : i = k
  · subst hk
    rw [ho] at ho'; cases ho'
    refine ⟨_, upd_self ho, rfl, rfl, rfl, ⟨rfl, fun _ h => isArray_set h c d⟩, fun c1 d1 hd1 => ?_⟩
    show ∃ d', (o.comps.set c d).get? c1 = some d' ∧ _
    rw [Dict.get?_set]
    split_ifs with hc
    · subst hc
      exact ⟨d, rfl, hd d1 hd1⟩
    · exact ⟨d1, hd1, fun _ a ha => ⟨a, ha⟩⟩
  · exact ⟨o', by rw [upd_ne hk]; exact ho', rfl, rfl, rfl, ⟨rfl, fun _ h => h⟩, fun _ d hd => ⟨d, hd, fun _ a ha => ⟨a, ha⟩⟩⟩

theorem dict_set_ne_nil {α β : Type} [DecidableEq α] (d : Dict α β) (k : α) (v : β) : d.set k v ≠ [] := by
  cases d with
  | nil => simp [Dict.set]
  | cons p d => unfold Dict.set; split_ifs <;> simp

/-- A metric is available in a system: it is there, or can be brought there. -/
def MetricReach (E : Engine K) (A : Atlas K) (w : World K) (m c : Id') : Prop :=
  ∃ o, w.objs[m]? = some o ∧ o.kind = .metric ∧ (o.comps.has c = true ∨ Reach E A o.coords c)

theorem MetricReach.later {w w' : World K} {m c : Id'} (h : MetricReach E A w m c) (hl : Later w w') :
    MetricReach E A w' m c := by
  obtain ⟨o, h1, h2, h3⟩ := h
  obtain ⟨o', a1, a2, a3, -, -, a4⟩ := hl m o h1
  refine ⟨o', a1, a2.trans h2, ?_⟩
  rcases h3 with h3 | h3
  · obtain ⟨d, hd⟩ := (Dict.has_iff _ _).1 h3
    obtain ⟨d', hd', -⟩ := a4 c d hd
    exact Or.inl ((Dict.has_iff _ _).2 ⟨d', hd'⟩)
  · exact Or.inr (by rw [a3]; exact h3)

/-- Getting the metric into a system. -/
theorem ensureMetric_eval (hA : A.OK) (hE : EngineOK E) (hT : EngineTotal E) (hG : G.Lawful E A)
    {w : World K} (hP : CohK E A G κ w) (hr : Ready w) {m c : Id'} (hc : κ c = some .coordinates)
    (hm : MetricReach E A w m c) :
    ∃ b, metricCheck m c w = (.ok b, w) ∧
      ∃ w', PyM.onlyIf (!b) (metricTransform E m c [-1, -1]) w = (.ok (), w') ∧ CohK E A G κ w' ∧ Ready w' ∧
        Later w w' ∧ (∀ (k : Id') o, w.objs[k]? = some o → o.kind = .tensor → w'.objs[k]? = some o) ∧
        ∃ o d, w'.objs[m]? = some o ∧ o.kind = .metric ∧ o.comps.get? c = some d := by
  obtain ⟨o, h1, h2, h3⟩ := hm
  have hkm : κ m = some .metric := by rw [hP.kind h1, h2]
  refine ⟨o.comps.has c, ?_, ?_⟩
  · unfold metricCheck
    rw [PyM.bind_apply, getObj_ok h1 (hr.alive m o h1)]
    rfl
  · cases hh : o.comps.has c with
    | true =>
      obtain ⟨d, hd⟩ := (Dict.has_iff _ _).1 hh
      exact ⟨w, rfl, hP, hr, Later.refl w, fun _ _ h _ => h, o, d, h1, h2, hd⟩
    | false =>
      have hno := (Dict.has_eq_false _ _).1 hh
      obtain ⟨hne, J, d, e1, e2⟩ := metricTransform_eval hA hE hT hG hP hr h1 hkm hc hno
        (by rcases h3 with h3 | h3; · rw [hh] at h3; cases h3
            · exact h3)
      have hP' := (metricTransform_keeps hA hE hG m c [-1, -1] o hkm hc hno w hP h1).1
      have g1 : (upd w o.coords fun o => { o with jac := J }).objs[m]? = some o := by rw [upd_ne hne]; exact h1
      refine ⟨_, e1, by rw [e1] at hP'; exact hP', ?_, ?_, ?_, _, d, upd_self g1, h2, Dict.get?_set_self _ _ _⟩
      · refine ready_comps (ready_jac hr _ _) m c d ?_ fun _ _ _ => e2
        intro o' ho' hk'
        rw [g1] at ho'; cases ho'
        rw [h2] at hk'; cases hk'
      · refine Later.trans (later_jac w _ _) (later_comps g1 c d ?_)
        intro d0 hd0
        rw [hno] at hd0; cases hd0
      · intro k ok hok hkt
        have hmk : m ≠ k := by
          rintro rfl
          rw [h1] at hok; cases hok
          rw [h2] at hkt; cases hkt
        have hck : o.coords ≠ k := by
          rintro rfl
          obtain ⟨oc, c1, c2⟩ := (hP.1.tensors m o h1 (Or.inl h2)).2.2.2.2.1
          rw [c1] at hok; cases hok
          rw [c2] at hkt; cases hkt
        rw [upd_ne hmk, upd_ne hck]
        exact hok

/-- Raising and lowering returns. -/
theorem tensorRaiseLower_eval (hA : A.OK) (hE : EngineOK E) (hT : EngineTotal E) (hG : G.Lawful E A)
    {w : World K} (hP : CohK E A G κ w) (hr : Ready w) {t c : Id'} {ix : List Int} {o : Obj K}
    {d : Dict (List Int) (Arr K)} (ho : w.objs[t]? = some o) (hk : κ t = some .tensor)
    (hc : κ c = some .coordinates) (hd : o.comps.get? c = some d) (hix : Config (G.rank t) ix)
    (hm : MetricReach E A w o.metric c) :
    ∃ w', tensorRaiseLower E t c ix w = (.ok (), w') ∧ CohK E A G κ w' ∧ Ready w' ∧ Later w w' ∧
      ∃ o' d' a', w'.objs[t]? = some o' ∧ o'.comps.get? c = some d' ∧ d'.get? ix = some a' := by
  have hko : o.kind = .tensor := by
    have := hP.kind ho; rw [hk] at this; exact (Option.some.inj this).symm
  obtain ⟨b, hb, w1, e1, hP1, hr1, hl1, hkeep, om, dm, m1, m2, m3⟩ :=
    ensureMetric_eval hA hE hT hG hP hr hc hm
  have ho1 := hkeep t o ho hko
  obtain ⟨gm, hgm⟩ := (hr1.metric _ om m1 m2).2.2 c dm m3 [-1, -1] (config_two (Or.inr rfl) (Or.inr rfl))
  obtain ⟨gi, hgi⟩ := (hr1.metric _ om m1 m2).2.2 c dm m3 [1, 1] (config_two (Or.inl rfl) (Or.inl rfl))
  obtain ⟨r1, r2, -⟩ := hP1.1.metrics _ om m1 m2
  obtain ⟨-, ag⟩ := (hP1.1.tensors _ om m1 (Or.inl m2)).2.2.2.2.2 c dm _ _ m3 hgm
  obtain ⟨-, agi⟩ := (hP1.1.tensors _ om m1 (Or.inl m2)).2.2.2.2.2 c dm _ _ m3 hgi
  rw [r1] at ag agi
  have hne := (hr1.tensor t o ho1 hko).2 c d hd
  match d, hne, hd with
  | (src, comps) :: rest, _, hd =>
    obtain ⟨cs, ags⟩ := (hP1.1.tensors t o ho1 (Or.inr hko)).2.2.2.2.2 c _ src comps hd (by simp [Dict.get?_cons])
    obtain ⟨x, hx, -⟩ := raiseLower_spec E hE.simp_eq hA.pos gm gi comps src ix ag.2.1 agi.2.1
      cs.2 hix.2 (hix.1.trans cs.1.symm) (by rw [ags.2.1, cs.1]) ags.1
    have hrun : tensorRaiseLower E t c ix w = (.ok (), upd w1 t fun o =>
        { o with comps := o.comps.set c (Dict.set ((src, comps) :: rest) ix x) }) := by
      unfold tensorRaiseLower
      rw [PyM.bind_apply, getObj_ok ho (hr.alive t o ho)]
      dsimp only
      rw [PyM.bind_apply, hb]
      dsimp only
      rw [PyM.bind_apply, e1]
      dsimp only
      rw [PyM.bind_apply, getObj_ok ho1 (hr1.alive t o ho1)]
      dsimp only
      rw [PyM.bind_apply, lookup_ok hd, PyM.pure_apply]
      dsimp only
      rw [PyM.bind_apply, readComps_ok m1 (hr1.alive _ om m1) m3 hgm]
      dsimp only
      rw [PyM.bind_apply, readComps_ok m1 (hr1.alive _ om m1) m3 hgi]
      dsimp only
      rw [PyM.bind_apply, PyM.lift_apply, hx]
      dsimp only
      rw [writeComps_ok ho1 (hr1.alive t o ho1) hd]
      rfl
    have hP' := (tensorRaiseLower_keeps hA hE hG t c ix hk hc hix w hP trivial).1
    rw [hrun] at hP'
    refine ⟨_, hrun, hP', ?_, ?_, _, _, x, upd_self ho1, Dict.get?_set_self _ _ _, Dict.get?_set_self _ _ _⟩
    · refine ready_comps hr1 t c _ (fun _ _ _ => dict_set_ne_nil _ _ _) ?_
      intro o' ho' hk'
      rw [ho1] at ho'; cases ho'
      rw [hko] at hk'; cases hk'
    · refine Later.trans hl1 (later_comps ho1 c _ ?_)
      intro d0 hd0 ix1 a1 ha1
      rw [hd] at hd0; cases hd0
      rw [Dict.get?_set]
      split_ifs
      · exact ⟨x, rfl⟩
      · exact ⟨a1, ha1⟩


/-- What every helper that brings a tensor into a system does. -/
def Gets (E : Engine K) (A : Atlas K) (G : Geometry K) (κ : Nat → Option Kind) (w w' : World K) (t c : Id')
    (ix : List Int) : Prop :=
  CohK E A G κ w' ∧ Ready w' ∧ Later w w' ∧
    ∃ o' d' a', w'.objs[t]? = some o' ∧ o'.comps.get? c = some d' ∧ d'.get? ix = some a'

theorem tensorCheck_eval (hA : A.OK) (hE : EngineOK E) (hT : EngineTotal E) (hG : G.Lawful E A)
    {w : World K} (hP : CohK E A G κ w) (hr : Ready w) {t c : Id'} {ix : List Int} {o : Obj K}
    (ho : w.objs[t]? = some o) (hk : κ t = some .tensor)
    (hc : κ c = some .coordinates) (hix : Config (G.rank t) ix) (hm : MetricReach E A w o.metric c) :
    (o.comps.get? c = none ∧ tensorCheck E t c ix w = (.ok false, w)) ∨
      ∃ w', tensorCheck E t c ix w = (.ok true, w') ∧ Gets E A G κ w w' t c ix := by
  cases hd : o.comps.get? c with
  | none =>
    left
    refine ⟨rfl, ?_⟩
    unfold tensorCheck
    rw [PyM.bind_apply, getObj_ok ho (hr.alive t o ho)]
    dsimp only
    rw [hd]
    rfl
  | some d =>
    right
    cases hh : d.has ix with
    | true =>
      obtain ⟨a, ha⟩ := (Dict.has_iff _ _).1 hh
      refine ⟨w, ?_, hP, hr, Later.refl w, o, d, a, ho, hd, ha⟩
      unfold tensorCheck
      rw [PyM.bind_apply, getObj_ok ho (hr.alive t o ho)]
      dsimp only
      rw [hd]
      dsimp only
      rw [hh]
      rfl
    | false =>
      obtain ⟨w', e1, e2⟩ := tensorRaiseLower_eval hA hE hT hG hP hr ho hk hc hd hix hm
      refine ⟨w', ?_, e2⟩
      unfold tensorCheck
      rw [PyM.bind_apply, getObj_ok ho (hr.alive t o ho)]
      dsimp only
      rw [hd]
      dsimp only
      rw [hh, PyM.bind_apply]
      unfold PyM.onlyIf
      rw [if_pos (show (!false) = true from rfl), e1]
      rfl

theorem tensorTransform_eval (hA : A.OK) (hE : EngineOK E) (hT : EngineTotal E) (hG : G.Lawful E A)
    {w : World K} (hP : CohK E A G κ w) (hr : Ready w) {t c : Id'} {ix : List Int} {o : Obj K}
    (ho : w.objs[t]? = some o) (hk : κ t = some .tensor)
    (hc : κ c = some .coordinates) (hix : Config (G.rank t) ix)
    (hm : MetricReach E A w o.metric o.coords) (hreach : Reach E A o.coords c)
    (harr : o.isArray o.coords = true) :
    ∃ w', tensorTransform E t c ix w = (.ok (), w') ∧ Gets E A G κ w w' t c ix := by
  have hko : o.kind = .tensor := by
    have := hP.kind ho; rw [hk] at this; exact (Option.some.inj this).symm
  obtain ⟨-, -, -, -, ⟨oc, c1, c2⟩, -⟩ := hP.1.tensors t o ho (Or.inr hko)
  have hcc : κ o.coords = some .coordinates := by rw [hP.kind c1, c2]
  obtain ⟨d0, hd0⟩ := (hr.tensor t o ho hko).1
  rcases tensorCheck_eval hA hE hT hG hP hr ho hk hcc hix hm with ⟨hno, -⟩ | ⟨w1, e1, hP1, hr1, hl1, o1, d1, a1, h1, h2, h3⟩
  · rw [hd0] at hno; cases hno
  · obtain ⟨o1', g1, g2, g3, -, g5, -⟩ := hl1 t o ho
    rw [h1] at g1; cases g1
    replace harr := g5.2 _ harr
    rw [← g3] at h2 hreach harr
    obtain ⟨hne, J, b, hb⟩ := baseTransform_eval hA hE hT hP1 hr1 h1 (Or.inr hk) h2 h3 hc hreach harr
    have hrun : tensorTransform E t c ix w = baseTransform E t c ix w1 := by
      unfold tensorTransform
      rw [PyM.bind_apply, getObj_ok ho (hr.alive t o ho)]
      dsimp only
      rw [PyM.bind_apply, e1]
      rfl
    have hP2 := (baseTransform_keeps hA hE hG t c ix o1 (Or.inr hk) hc w1 hP1 h1).1
    have g1 : (upd w1 o1.coords fun o => { o with jac := J }).objs[t]? = some o1 := by
      rw [upd_ne hne]; exact h1
    have hupd : (upd (upd w1 o1.coords fun o => { o with jac := J }) t fun o =>
        { o with comps := o.comps.set c (((o.comps.get? c).getD []).set ix b) }) =
        upd (upd w1 o1.coords fun o => { o with jac := J }) t fun o =>
        { o with comps := o.comps.set c (((o1.comps.get? c).getD []).set ix b) } := by
      show (⟨_, _⟩ : World K) = ⟨_, _⟩
      congr 1
      refine List.ext_getElem? fun k => ?_
      rw [List.getElem?_modify, List.getElem?_modify]
      by_cases hk : t = k
      · subst hk
        rw [g1]; rfl
      · simp [hk]
    rw [hupd] at hb
    rw [hb] at hP2
    refine ⟨_, hrun.trans hb, hP2, ?_, ?_, _, _, b, upd_self g1, Dict.get?_set_self _ _ _, Dict.get?_set_self _ _ _⟩
    · refine ready_comps (ready_jac hr1 _ _) t c _ (fun _ _ _ => dict_set_ne_nil _ _ _) ?_
      intro o' ho' hk'
      rw [g1] at ho'; cases ho'
      rw [g2, hko] at hk'; cases hk'
    · refine hl1.trans (Later.trans (later_jac w1 _ _) (later_comps g1 c _ ?_))
      intro d0 hd0 ix1 a1 ha1
      rw [hd0, Option.getD_some, Dict.get?_set]
      split_ifs
      · exact ⟨b, rfl⟩
      · exact ⟨a1, ha1⟩

theorem validateIndices_pass {ix src : List Int} {r : Nat} (h : Config r ix) (h' : src.length = r) :
    validateIndices ix src = .ok () := by
  unfold validateIndices
  rw [if_neg, if_neg (by rw [h', h.1]; simp)]
  · rfl
  · simp only [List.any_eq_true, not_exists, not_and]
    intro x hx
    rcases h.2 x hx with rfl | rfl <;> decide

/-- A tensor's components in a system and configuration are returned. -/
theorem getRepresentation_tensor_eval (hA : A.OK) (hE : EngineOK E) (hT : EngineTotal E) (hG : G.Lawful E A)
    {w : World K} (hP : CohK E A G κ w) (hr : Ready w) {t c : Id'} {ix : List Int} {o : Obj K}
    (ho : w.objs[t]? = some o) (hk : κ t = some .tensor)
    (hc : κ c = some .coordinates) (hix : Config (G.rank t) ix)
    (hm : MetricReach E A w o.metric o.coords) (hm' : MetricReach E A w o.metric c)
    (hreach : o.coords ≠ c → Reach E A o.coords c)
    (harr : o.comps.has c = false → o.isArray o.coords = true) :
    ∃ w' a, getRepresentation E t c ix w = (.ok a, w') ∧ CohK E A G κ w' ∧ Ready w' ∧ Later w w' := by
  have hko : o.kind = .tensor := by
    have := hP.kind ho; rw [hk] at this; exact (Option.some.inj this).symm
  obtain ⟨oc, c1, c2⟩ := hP.get hc
  obtain ⟨-, -, hcfg, -⟩ := hP.1.tensors t o ho (Or.inr hko)
  have hne : o.kind ≠ .metric := by rw [hko]; decide
  have step : ∃ w', (do
      PyM.onlyIf (!(← checkRepresentation E t c ix)) (transformCoordinates E t c ix)
      readComps t c ix : PyM K (Arr K)) w = readComps t c ix w' ∧ Gets E A G κ w w' t c ix := by
    rcases tensorCheck_eval hA hE hT hG hP hr ho hk hc hix hm' with ⟨hno, e1⟩ | ⟨w1, e1, e2⟩
    · have hcne : o.coords ≠ c := by
        rintro rfl
        obtain ⟨d0, hd0⟩ := (hr.tensor t o ho hko).1
        rw [hd0] at hno; cases hno
      obtain ⟨w2, e3, e4⟩ := tensorTransform_eval hA hE hT hG hP hr ho hk hc hix hm (hreach hcne)
        (harr ((Dict.has_eq_false _ _).2 hno))
      refine ⟨w2, ?_, e4⟩
      rw [PyM.bind_apply, checkRepresentation_tensor t c ix ho (hr.alive t o ho) hne, e1]
      dsimp only
      rw [PyM.bind_apply]
      unfold PyM.onlyIf
      rw [if_pos (show (!false) = true from rfl)]
      unfold transformCoordinates
      rw [PyM.bind_apply, getObj_ok ho (hr.alive t o ho)]
      dsimp only
      rw [hko]
      dsimp only
      rw [e3]
    · refine ⟨w1, ?_, e2⟩
      rw [PyM.bind_apply, checkRepresentation_tensor t c ix ho (hr.alive t o ho) hne, e1]
      rfl
  obtain ⟨w', e1, hP', hr', hl', o', d', a', g1, g2, g3⟩ := step
  refine ⟨w', a', ?_, hP', hr', hl'⟩
  unfold getRepresentation
  rw [PyM.bind_apply, isCoordinates_apply, c1]
  dsimp only
  rw [if_neg (by simp [c2]), PyM.bind_apply, getObj_ok ho (hr.alive t o ho)]
  dsimp only
  rw [PyM.bind_apply, PyM.lift_apply, validateIndices_pass hix hcfg.1]
  dsimp only
  rw [e1, readComps_ok g1 (hr'.alive t o' g1) g2 g3]

/-- A metric's components are returned where it has been before, and in its default configuration in
every system that can be reached. -/
theorem getRepresentation_metric_eval (hA : A.OK) (hE : EngineOK E) (hT : EngineTotal E) (hG : G.Lawful E A)
    {w : World K} (hP : CohK E A G κ w) (hr : Ready w) {m c : Id'} {ix : List Int} {o : Obj K}
    (ho : w.objs[m]? = some o) (hk : κ m = some .metric)
    (hc : κ c = some .coordinates) (hix : Config 2 ix)
    (hm : o.comps.has c = true ∨ (ix = [-1, -1] ∧ Reach E A o.coords c)) :
    ∃ w' a, getRepresentation E m c ix w = (.ok a, w') ∧ CohK E A G κ w' ∧ Ready w' ∧ Later w w' := by
  have hko : o.kind = .metric := by
    have := hP.kind ho; rw [hk] at this; exact (Option.some.inj this).symm
  obtain ⟨oc, c1, c2⟩ := hP.get hc
  obtain ⟨-, -, hcfg, -⟩ := hP.1.tensors m o ho (Or.inl hko)
  rw [(hP.1.metrics m o ho hko).1] at hcfg
  have hmr : MetricReach E A w m c := ⟨o, ho, hko, hm.imp_right fun h => h.2⟩
  obtain ⟨b, hb, w1, e1, hP1, hr1, hl1, hkeep, om, dm, m1, m2, m3⟩ :=
    ensureMetric_eval hA hE hT hG hP hr hc hmr
  obtain ⟨a, ha⟩ := (hr1.metric _ om m1 m2).2.2 c dm m3 ix hix
  refine ⟨w1, a, ?_, hP1, hr1, hl1⟩
  have hb' : b = o.comps.has c := by
    unfold metricCheck at hb
    rw [PyM.bind_apply, getObj_ok ho (hr.alive m o ho)] at hb
    cases hb; rfl
  unfold getRepresentation
  rw [PyM.bind_apply, isCoordinates_apply, c1]
  dsimp only
  rw [if_neg (by simp [c2]), PyM.bind_apply, getObj_ok ho (hr.alive m o ho)]
  dsimp only
  rw [PyM.bind_apply, PyM.lift_apply, validateIndices_pass hix hcfg.1]
  dsimp only
  have hchk : checkRepresentation E m c ix w = (.ok b, w) := by
    unfold checkRepresentation
    rw [PyM.bind_apply, getObj_ok ho (hr.alive m o ho)]
    dsimp only
    rw [hko]
    exact hb
  rw [PyM.bind_apply, hchk]
  dsimp only
  rw [PyM.bind_apply]
  have htr : PyM.onlyIf (!b) (transformCoordinates E m c ix) w = (.ok (), w1) := by
    rw [← e1]
    rcases hm with hm | ⟨rfl, -⟩
    · rw [hb', hm]; rfl
    · unfold PyM.onlyIf
      split_ifs
      · unfold transformCoordinates
        rw [PyM.bind_apply, getObj_ok ho (hr.alive m o ho)]
        dsimp only
        rw [hko]
      · rfl
  rw [htr]
  dsimp only
  rw [readComps_ok m1 (hr1.alive _ om m1) m3 ha]

end
end PyOGRe
