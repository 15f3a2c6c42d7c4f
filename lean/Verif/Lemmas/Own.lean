import Verif.Lemmas.Session

/-! Helper lemmas: requests in a tensor's own coordinate system do not depend on the history. -/

namespace PyOGRe
open Spec
variable {K : Type} [CommRing K]

/-- Tensor `t` of metric `m` was declared in `c` with configuration `src` and components `a`, and `g` and
`gi` are the metric and its inverse in `c`; what else is stored for `t` in `c` was computed from these. -/
structure Own (E : Engine K) (t m c : Id') (ix0 src : List Int) (a g gi : Arr K) (w : World K) : Prop where
  chart : ∃ oc, w.objs[c]? = some oc ∧ oc.kind = .coordinates
  tensor : ∃ o d, w.objs[t]? = some o ∧ o.alive = true ∧ o.kind ≠ .metric ∧ o.metric = m ∧ o.coords = c ∧
    o.indices = ix0 ∧ o.comps.get? c = some ((src, a) :: d) ∧
    ∀ ix b, Dict.get? ((src, a) :: d) ix = some b →
      (ix = src ∧ b = a) ∨ (ix ≠ src ∧ raiseLower E g gi src ix a = .ok b)
  metric : ∃ om dm, w.objs[m]? = some om ∧ om.alive = true ∧ om.kind = .metric ∧
    om.comps.get? c = some dm ∧ dm.get? [-1, -1] = some g ∧ dm.get? [1, 1] = some gi

/-- What a request in the own coordinate system returns. -/
def ownValue (E : Engine K) (ix0 src : List Int) (a g gi : Arr K) (ix : List Int) : Py (Arr K) := do
  validateIndices ix ix0
  if ix = src then .ok a else raiseLower E g gi src ix a

section
variable {E : Engine K} {t m c : Id'} {ix0 src : List Int} {a g gi : Arr K}

/-- Writing elsewhere. -/
def Elsewhere (t m c i c' : Id') : Prop := (i = t → c' ≠ c) ∧ (i = m → c' ≠ c)

theorem own_modify {w : World K} (h : Own E t m c ix0 src a g gi w) (i : Id') (f : Obj K → Obj K)
    (hf : ∀ o, (f o).kind = o.kind ∧ (f o).alive = o.alive ∧ (f o).metric = o.metric ∧
      (f o).coords = o.coords ∧ (f o).indices = o.indices)
    (hc : ∀ o, w.objs[i]? = some o → (i = t ∨ i = m) → (f o).comps.get? c = o.comps.get? c) :
    Own E t m c ix0 src a g gi { w with objs := w.objs.modify i f } := by
  have key : ∀ (k : Nat) o, w.objs[k]? = some o → ∃ o', (w.objs.modify i f)[k]? = some o' ∧ o'.kind = o.kind ∧
      o'.alive = o.alive ∧ o'.metric = o.metric ∧ o'.coords = o.coords ∧ o'.indices = o.indices ∧
      ((k = t ∨ k = m) → o'.comps.get? c = o.comps.get? c) := by
    intro k o ho
    rw [List.getElem?_modify, ho]
    by_cases hik : i = k
    · subst hik
      obtain ⟨h1, h2, h3, h4, h5⟩ := hf o
      exact ⟨f o, by simp, h1, h2, h3, h4, h5, hc o ho⟩
    · exact ⟨o, by simp [hik], rfl, rfl, rfl, rfl, rfl, fun _ => rfl⟩
  refine ⟨?_, ?_, ?_⟩
  · obtain ⟨oc, h1, h2⟩ := h.chart
    obtain ⟨o', e1, e2, -⟩ := key c oc h1
    exact ⟨o', e1, e2.trans h2⟩
  · obtain ⟨o, d, h1, h2, h3, h4, h5, h6, h7, h8⟩ := h.tensor
    obtain ⟨o', e1, e2, e3, e4, e5, e6, e7⟩ := key t o h1
    exact ⟨o', d, e1, e3.trans h2, by rw [e2]; exact h3, e4.trans h4, e5.trans h5, e6.trans h6,
      (e7 (Or.inl rfl)).trans h7, h8⟩
  · obtain ⟨o, d, h1, h2, h3, h4, h5, h6⟩ := h.metric
    obtain ⟨o', e1, e2, e3, e4, e5, e6, e7⟩ := key m o h1
    exact ⟨o', d, e1, e3.trans h2, e2.trans h3, (e7 (Or.inr rfl)).trans h4, h5, h6⟩

theorem Own.elsewhere {w : World K} (h : Own E t m c ix0 src a g gi w) {i c' : Id'} {o : Obj K}
    (ho : w.objs[i]? = some o) (hn : o.comps.get? c' = none) : Elsewhere t m c i c' := by
  constructor
  · rintro rfl rfl
    obtain ⟨o', d, h1, h2, h3, h4, h5, h6, h7, h8⟩ := h.tensor
    rw [ho] at h1; cases h1
    rw [hn] at h7; cases h7
  · rintro rfl rfl
    obtain ⟨o', d, h1, h2, h3, h4, h5, h6⟩ := h.metric
    rw [ho] at h1; cases h1
    rw [hn] at h4; cases h4

theorem writeComps_own (i c' : Id') (ix : List Int) (b : Arr K) (he : Elsewhere t m c i c') :
    Keeps (Own E t m c ix0 src a g gi) (fun _ => True) (writeComps i c' ix b) fun _ _ => True := by
  unfold writeComps
  refine Keeps.bind (Keeps.getObj i) fun o => ?_
  refine Keeps.bind (Keeps.lookup _ _) fun d => ?_
  refine Keeps.modifyObj _ _ ?_
  rintro w hP ⟨⟨-, ho, -⟩, -⟩
  refine ⟨own_modify hP i _ (fun _ => ⟨rfl, rfl, rfl, rfl, rfl⟩) ?_, trivial⟩
  intro o' _ hi
  have hne : c' ≠ c := by
    rcases hi with hi | hi
    · exact he.1 hi
    · exact he.2 hi
  show (o'.comps.set c' _).get? c = _
  rw [Dict.get?_set, if_neg hne]

theorem ensureCoords_own (i c' : Id') (R : World K → Prop)
    (hR : ∀ w, R w → Elsewhere t m c i c' ∨ True) :
    Keeps (Own E t m c ix0 src a g gi) R (ensureCoords i c') fun _ _ => True := by
  unfold ensureCoords
  refine Keeps.modifyObj _ _ ?_
  intro w hP _
  refine ⟨own_modify hP i _ (fun o => ?_) ?_, trivial⟩
  · split_ifs <;> exact ⟨rfl, rfl, rfl, rfl, rfl⟩
  · intro o ho hi
    split_ifs with hh
    · rfl
    · have hn : o.comps.get? c' = none := by
        rw [← Dict.has_eq_false]; simpa using hh
      have he := hP.elsewhere ho hn
      have hne : c' ≠ c := by
        rcases hi with hi | hi
        · exact he.1 hi
        · exact he.2 hi
      show (o.comps.set c' _).get? c = _
      rw [Dict.get?_set, if_neg hne]

theorem checkJacobians_own (i c' : Id') :
    Keeps (Own E t m c ix0 src a g gi) (fun _ => True) (checkJacobians E i c') fun _ _ => True := by
  unfold checkJacobians calcJacobian
  refine Keeps.bind (Keeps.getObj i) fun o => ?_
  refine Keeps.ite (fun _ => Keeps.pure _ fun _ _ _ => trivial) fun _ => ?_
  refine Keeps.ite (fun _ => ?_) fun _ => Keeps.bind (Keeps.getObj c') fun _ => Keeps.raise _
  refine Keeps.bind (Keeps.getObj i) fun o => ?_
  refine Keeps.bind (Keeps.getObj c') fun oc => ?_
  refine Keeps.bind (Keeps.lookup _ _) fun rules => ?_
  refine Keeps.bind (Keeps.lift (Q := fun _ _ => True) _ fun _ _ _ _ _ => trivial) fun j => ?_
  refine Keeps.modifyObj _ _ ?_
  intro w hP _
  exact ⟨own_modify hP i _ (fun _ => ⟨rfl, rfl, rfl, rfl, rfl⟩) fun _ _ _ => rfl, trivial⟩

theorem baseTransform_own (i c' : Id') (ix : List Int) (he : Elsewhere t m c i c') :
    Keeps (Own E t m c ix0 src a g gi) (fun _ => True) (baseTransform E i c' ix) fun _ _ => True := by
  unfold baseTransform
  refine Keeps.bind (Keeps.getObj i) fun o => ?_
  refine Keeps.bind (Keeps.weaken (checkJacobians_own _ _) (fun _ _ _ => trivial) fun _ _ _ h => h) fun _ => ?_
  refine Keeps.bind (Keeps.readComps _ _ _) fun b => ?_
  refine Keeps.bind (Keeps.getObj _) fun oc => ?_
  refine Keeps.bind (Keeps.lookup _ _) fun j => ?_
  refine Keeps.bind (Keeps.lookup _ _) fun rules => ?_
  refine Keeps.bind (Keeps.lift (Q := fun _ _ => True) _ fun _ _ _ _ _ => trivial) fun b' => ?_
  refine Keeps.bind (ensureCoords_own i c' _ fun _ _ => Or.inr trivial) fun _ => ?_
  exact writeComps_own i c' ix b' he

theorem metricTransform_own (i c' : Id') (ix : List Int) (he : Elsewhere t m c i c') :
    Keeps (Own E t m c ix0 src a g gi) (fun _ => True) (metricTransform E i c' ix) fun _ _ => True := by
  have W : ∀ (R : World K → Prop) ix b, Keeps (Own E t m c ix0 src a g gi) R (writeComps i c' ix b)
      fun _ _ => True := fun R ix b =>
    Keeps.weaken (writeComps_own i c' ix b he) (fun _ _ _ => trivial) fun _ _ _ h => h
  unfold metricTransform
  refine Keeps.bind (baseTransform_own i c' ix he) fun _ => ?_
  refine Keeps.bind (Keeps.getObj i) fun o => ?_
  refine Keeps.bind (Keeps.readComps _ _ _) fun b => ?_
  refine Keeps.bind (Keeps.lift (Q := fun _ _ => True) _ fun _ _ _ _ _ => trivial) fun b' => ?_
  refine Keeps.bind (W _ _ _) fun _ => ?_
  refine Keeps.bind (Keeps.readComps _ _ _) fun _ => ?_
  refine Keeps.bind (Keeps.readComps _ _ _) fun _ => ?_
  refine Keeps.bind (Keeps.lift (Q := fun _ _ => True) _ fun _ _ _ _ _ => trivial) fun _ => ?_
  refine Keeps.bind (W _ _ _) fun _ => ?_
  refine Keeps.bind (Keeps.readComps _ _ _) fun _ => ?_
  refine Keeps.bind (Keeps.readComps _ _ _) fun _ => ?_
  refine Keeps.bind (Keeps.lift (Q := fun _ _ => True) _ fun _ _ _ _ _ => trivial) fun _ => ?_
  exact W _ _ _

theorem metricCheck_own (i c' : Id') (R : World K → Prop) :
    Keeps (Own E t m c ix0 src a g gi) R (metricCheck i c') fun b w =>
      R w ∧ (b = false → Elsewhere t m c i c') := by
  unfold metricCheck
  refine Keeps.bind (Keeps.getObj i) fun o => ?_
  refine Keeps.pure _ ?_
  rintro w hP ⟨hR, ho, -⟩
  refine ⟨hR, fun hb => ?_⟩
  exact hP.elsewhere ho ((Dict.has_eq_false _ _).1 hb)

theorem tensorRaiseLower_elsewhere (i c' : Id') (ix : List Int) (he : Elsewhere t m c i c') :
    Keeps (Own E t m c ix0 src a g gi) (fun _ => True) (tensorRaiseLower E i c' ix) fun _ _ => True := by
  unfold tensorRaiseLower
  refine Keeps.bind (Keeps.getObj i) fun o => ?_
  refine Keeps.bind (metricCheck_own _ _ _) fun b => ?_
  refine Keeps.bind (Q := fun _ _ => True) ?_ fun _ => ?_
  · refine Keeps.onlyIf (Q := fun _ => True) (fun hb => ?_) fun _ _ _ _ => trivial
    refine Keeps.fact (φ := Elsewhere t m c o.metric c') (fun w _ hR => hR.2 (by simpa using hb)) fun hm => ?_
    exact Keeps.weaken (metricTransform_own _ _ _ hm) (fun _ _ _ => trivial) fun _ _ _ h => h
  refine Keeps.bind (Keeps.getObj i) fun o => ?_
  refine Keeps.bind (Keeps.lookup _ _) fun d => ?_
  match d with
  | [] => exact Keeps.raise _
  | (s, b) :: d =>
    refine Keeps.bind (Keeps.readComps _ _ _) fun _ => ?_
    refine Keeps.bind (Keeps.readComps _ _ _) fun _ => ?_
    refine Keeps.bind (Keeps.lift (Q := fun _ _ => True) _ fun _ _ _ _ _ => trivial) fun _ => ?_
    exact writeComps_own i c' ix _ he

/-- Raising and lowering in the own coordinate system, exactly. -/
theorem tensorRaiseLower_own {w : World K} (h : Own E t m c ix0 src a g gi w) (ix : List Int) :
    (∃ e, raiseLower E g gi src ix a = .error e ∧ tensorRaiseLower E t c ix w = (.error e, w)) ∨
    ∃ b d, raiseLower E g gi src ix a = .ok b ∧
      (∃ o, w.objs[t]? = some o ∧ o.comps.get? c = some d) ∧
      tensorRaiseLower E t c ix w = (.ok (), { w with objs := w.objs.modify t fun o =>
        { o with comps := o.comps.set c (d.set ix b) } }) := by
  obtain ⟨o, d, h1, h2, h3, h4, h5, h6, h7, h8⟩ := h.tensor
  obtain ⟨om, dm, m1, m2, m3, m4, m5, m6⟩ := h.metric
  have hchk : metricCheck m c w = (.ok true, w) := by
    unfold metricCheck
    rw [PyM.bind_apply, getObj_ok m1 m2]
    simp [(Dict.has_iff _ _).2 ⟨dm, m4⟩]
  have e1 : tensorRaiseLower E t c ix w = (PyM.lift (raiseLower E g gi src ix a) >>= fun b =>
      writeComps t c ix b) w := by
    unfold tensorRaiseLower
    rw [PyM.bind_apply, getObj_ok h1 h2]
    dsimp only
    rw [PyM.bind_apply, h4, hchk]
    dsimp only
    rw [PyM.bind_apply]
    simp only [Bool.not_true, PyM.onlyIf, Bool.false_eq_true, if_false]
    rw [show (PyM.pure () : PyM K Unit) w = (.ok (), w) from rfl]
    dsimp only
    rw [PyM.bind_apply, getObj_ok h1 h2]
    dsimp only
    rw [PyM.bind_apply, lookup_ok h7, PyM.pure_apply]
    dsimp only
    rw [PyM.bind_apply, h4, readComps_ok m1 m2 m4 m5]
    dsimp only
    rw [PyM.bind_apply, readComps_ok m1 m2 m4 m6]
  rw [e1, PyM.bind_apply, PyM.lift_apply]
  cases hr : raiseLower E g gi src ix a with
  | error e => left; exact ⟨e, rfl, rfl⟩
  | ok b =>
    right
    refine ⟨b, _, rfl, ⟨o, h1, h7⟩, ?_⟩
    dsimp only
    rw [writeComps_ok h1 h2 h7]

theorem own_set {w : World K} (h : Own E t m c ix0 src a g gi w) {ix : List Int} (hix : ix ≠ src)
    {b : Arr K} (hb : raiseLower E g gi src ix a = .ok b) {o : Obj K} {d : Dict (List Int) (Arr K)}
    (ho : w.objs[t]? = some o) (hd : o.comps.get? c = some d) :
    Own E t m c ix0 src a g gi { w with objs := w.objs.modify t fun o =>
        { o with comps := o.comps.set c (d.set ix b) } } := by
  obtain ⟨o', d', h1, h2, h3, h4, h5, h6, h7, h8⟩ := h.tensor
  obtain ⟨om, dm, m1, m2, m3, m4, m5, m6⟩ := h.metric
  obtain ⟨oc, c1, c2⟩ := h.chart
  rw [ho] at h1; cases h1
  rw [hd] at h7; cases h7
  have htm : t ≠ m := by
    rintro rfl
    rw [ho] at m1; cases m1
    exact h3 m3
  refine ⟨?_, ?_, ?_⟩
  · by_cases htc : t = c
    · refine ⟨{ oc with comps := oc.comps.set c (Dict.set ((src, a) :: d') ix b) }, ?_, c2⟩
      rw [List.getElem?_modify, c1]; simp [htc]
    · refine ⟨oc, ?_, c2⟩
      rw [List.getElem?_modify, c1]; simp [htc]
  · refine ⟨{ o with comps := o.comps.set c (Dict.set ((src, a) :: d') ix b) }, Dict.set d' ix b, ?_, h2, h3, h4,
      h5, h6, ?_, ?_⟩
    · rw [List.getElem?_modify, ho]; simp
    · rw [Dict.get?_set_self, Dict.set_cons_head (src, a) d' ix b (Ne.symm hix)]
    · intro jx x hx
      rw [← Dict.set_cons_head (src, a) d' ix b (Ne.symm hix), Dict.get?_set] at hx
      split_ifs at hx with hj
      · cases hx; subst hj
        exact Or.inr ⟨hix, hb⟩
      · exact h8 jx x hx
  · refine ⟨om, dm, ?_, m2, m3, m4, m5, m6⟩
    rw [List.getElem?_modify, m1]; simp [htm]

theorem checkRepresentation_tensor {w : World K} {o : Obj K} (i c' : Id') (ix : List Int)
    (ho : w.objs[i]? = some o) (ha : o.alive = true) (hk : o.kind ≠ .metric) :
    checkRepresentation E i c' ix w = tensorCheck E i c' ix w := by
  unfold checkRepresentation
  rw [PyM.bind_apply, getObj_ok ho ha]
  dsimp only
  cases hkk : o.kind <;> first | rfl | exact absurd hkk hk

/-- A request in the own coordinate system, exactly. -/
theorem getRepresentation_own {w : World K} (h : Own E t m c ix0 src a g gi w) (ix : List Int) :
    Own E t m c ix0 src a g gi (getRepresentation E t c ix w).2 ∧
      (getRepresentation E t c ix w).1 = ownValue E ix0 src a g gi ix := by
  obtain ⟨o, d, h1, h2, h3, h4, h5, h6, h7, h8⟩ := h.tensor
  obtain ⟨oc, c1, c2⟩ := h.chart
  unfold getRepresentation ownValue
  rw [PyM.bind_apply, isCoordinates_apply, c1]
  simp only [Option.any_some, c2, beq_self_eq_true, Bool.not_true, Bool.false_eq_true, if_false]
  rw [PyM.bind_apply, getObj_ok h1 h2]
  dsimp only
  rw [h6, PyM.bind_apply, PyM.lift_apply]
  cases hv : validateIndices ix ix0 with
  | error e => exact ⟨h, rfl⟩
  | ok u =>
    dsimp only
    rw [py_ok_bind, PyM.bind_apply, checkRepresentation_tensor t c ix h1 h2 h3]
    have htc : tensorCheck E t c ix w = (PyM.onlyIf (!(Dict.has ((src, a) :: d) ix))
        (tensorRaiseLower E t c ix) >>= fun _ => pure true) w := by
      unfold tensorCheck
      rw [PyM.bind_apply, getObj_ok h1 h2]
      dsimp only
      rw [h7]
    rw [htc]
    by_cases hix : ix = src
    · have hhas : Dict.has ((src, a) :: d) ix = true := by
        rw [Dict.has_iff]; exact ⟨a, by rw [Dict.get?_cons, if_pos hix.symm]⟩
      rw [hhas, if_pos hix]
      simp only [Bool.not_true, PyM.onlyIf, Bool.false_eq_true, if_false, PyM.bind_apply]
      rw [show (PyM.pure () : PyM K Unit) w = (.ok (), w) from rfl]
      dsimp only
      rw [PyM.pure_apply]
      dsimp only
      rw [if_neg (by decide), show (PyM.pure () : PyM K Unit) w = (.ok (), w) from rfl]
      dsimp only
      rw [readComps_ok h1 h2 h7 (a := a) (by rw [Dict.get?_cons, if_pos hix.symm])]
      exact ⟨h, rfl⟩
    · rw [if_neg hix]
      cases hhas : Dict.has ((src, a) :: d) ix with
      | true =>
        obtain ⟨b, hb⟩ := (Dict.has_iff _ _).1 hhas
        simp only [Bool.not_true, PyM.onlyIf, Bool.false_eq_true, if_false, PyM.bind_apply]
        rw [show (PyM.pure () : PyM K Unit) w = (.ok (), w) from rfl]
        dsimp only
        rw [PyM.pure_apply]
        dsimp only
        rw [if_neg (by decide), show (PyM.pure () : PyM K Unit) w = (.ok (), w) from rfl]
        dsimp only
        rw [readComps_ok h1 h2 h7 hb]
        rcases h8 ix b hb with ⟨h9, -⟩ | ⟨-, h9⟩
        · exact absurd h9 hix
        · exact ⟨h, h9.symm⟩
      | false =>
        simp only [Bool.not_false, PyM.onlyIf, if_true, PyM.bind_apply]
        rcases tensorRaiseLower_own h ix with ⟨e, e1, e2⟩ | ⟨b, d', e1, ⟨o', e2, e3⟩, e4⟩
        · rw [e2, e1]
          exact ⟨h, rfl⟩
        · rw [e4, e1]
          dsimp only
          rw [PyM.pure_apply]
          dsimp only
          rw [if_neg (by decide)]
          rw [show ∀ w' : World K, (PyM.pure () : PyM K Unit) w' = (.ok (), w') from fun _ => rfl]
          dsimp only
          have hown := own_set h hix e1 e2 e3
          have hmod : (w.objs.modify t fun o => { o with comps := o.comps.set c (d'.set ix b) })[t]? =
              some { o' with comps := o'.comps.set c (d'.set ix b) } := by
            rw [List.getElem?_modify, e2]; simp
          rw [h1] at e2; cases e2
          rw [readComps_ok (o := { o with comps := o.comps.set c (d'.set ix b) }) hmod h2
            (Dict.get?_set_self _ _ _) (Dict.get?_set_self _ _ _)]
          exact ⟨hown, rfl⟩

theorem tensorRaiseLower_keepsOwn (i c' : Id') (ix : List Int) (hm : i ≠ m) :
    Keeps (Own E t m c ix0 src a g gi)
      (fun w => ∃ o d, w.objs[i]? = some o ∧ o.comps.get? c' = some d ∧ d.get? ix = none)
      (tensorRaiseLower E i c' ix) fun _ _ => True := by
  by_cases htc : i = t ∧ c' = c
  · obtain ⟨rfl, rfl⟩ := htc
    intro w hP hR
    obtain ⟨o, d, r1, r2, r3⟩ := hR
    obtain ⟨o', d', h1, h2, h3, h4, h5, h6, h7, h8⟩ := hP.tensor
    rw [r1] at h1; cases h1
    rw [r2] at h7; cases h7
    have hix : ix ≠ src := by
      rintro rfl
      rw [Dict.get?_cons, if_pos rfl] at r3; cases r3
    rcases tensorRaiseLower_own hP ix with ⟨e, e1, e2⟩ | ⟨b, d', e1, ⟨o', e2, e3⟩, e4⟩
    · rw [e2]
      exact ⟨hP, fun _ _ => trivial⟩
    · rw [e4]
      exact ⟨own_set hP hix e1 e2 e3, fun _ _ => trivial⟩
  · refine Keeps.weaken (tensorRaiseLower_elsewhere i c' ix ⟨?_, fun h => absurd h hm⟩)
      (fun _ _ _ => trivial) fun _ _ _ h => h
    intro h1 h2
    exact htc ⟨h1, h2⟩

theorem tensorCheck_own (i c' : Id') (ix : List Int) (hm : i ≠ m) (R : World K → Prop) :
    Keeps (Own E t m c ix0 src a g gi) R (tensorCheck E i c' ix)
      fun b _ => b = false → Elsewhere t m c i c' := by
  unfold tensorCheck
  refine Keeps.bind (Keeps.getObj i) fun o => ?_
  cases hd : o.comps.get? c' with
  | none =>
    refine Keeps.pure _ ?_
    rintro w hP ⟨-, ho, -⟩ _
    exact hP.elsewhere ho hd
  | some d =>
    refine Keeps.bind (Q := fun _ _ => True) ?_ fun _ => Keeps.pure _ fun _ _ _ h => by cases h
    refine Keeps.onlyIf (Q := fun _ => True) (fun hb => ?_) fun _ _ _ _ => trivial
    refine Keeps.weaken (tensorRaiseLower_keepsOwn i c' ix hm) ?_ fun _ _ _ h => h
    rintro w _ ⟨-, ho, -⟩
    exact ⟨o, d, ho, hd, (Dict.has_eq_false _ _).1 (by simpa using hb)⟩

theorem tensorTransform_own (i c' : Id') (ix : List Int) (hm : i ≠ m) (he : Elsewhere t m c i c') :
    Keeps (Own E t m c ix0 src a g gi) (fun _ => True) (tensorTransform E i c' ix) fun _ _ => True := by
  unfold tensorTransform
  refine Keeps.bind (Keeps.getObj i) fun o => ?_
  refine Keeps.bind (tensorCheck_own i o.coords ix hm _) fun b => ?_
  refine Keeps.bind (Q := fun _ _ => True) ?_ fun _ => baseTransform_own i c' ix he
  refine Keeps.onlyIf (Q := fun _ => True) (fun hb => ?_) fun _ _ _ _ => trivial
  refine Keeps.fact (φ := Elsewhere t m c i o.coords) (fun w _ hR => hR (by simpa using hb)) fun he' => ?_
  exact Keeps.weaken (tensorRaiseLower_elsewhere i _ ix he') (fun _ _ _ => trivial) fun _ _ _ h => h

theorem christoffelTransform_own (i c' : Id') (ix : List Int) (he : Elsewhere t m c i c') :
    Keeps (Own E t m c ix0 src a g gi) (fun _ => True) (christoffelTransform E i c' ix) fun _ _ => True := by
  unfold christoffelTransform
  refine Keeps.bind (Keeps.getObj i) fun o => ?_
  refine Keeps.bind (Keeps.weaken (checkJacobians_own _ _) (fun _ _ _ => trivial) fun _ _ _ h => h) fun _ => ?_
  refine Keeps.bind (Keeps.getObj _) fun oc => ?_
  refine Keeps.bind (Keeps.readComps _ _ _) fun b => ?_
  refine Keeps.bind (Keeps.lookup _ _) fun j => ?_
  refine Keeps.bind (Keeps.lookup _ _) fun rules => ?_
  refine Keeps.bind (Keeps.lift (Q := fun _ _ => True) _ fun _ _ _ _ _ => trivial) fun b' => ?_
  refine Keeps.bind (ensureCoords_own i c' _ fun _ _ => Or.inr trivial) fun _ => ?_
  exact writeComps_own i c' ix b' he

theorem Keeps.anyR {α : Type} {P R : World K → Prop} {mm : PyM K α}
    (h : Keeps P (fun _ => True) mm fun _ _ => True) : Keeps P R mm fun _ _ => True :=
  Keeps.weaken h (fun _ _ _ => trivial) fun _ _ _ h => h

theorem Own.not_metric {w : World K} (h : Own E t m c ix0 src a g gi w) {i : Id'} {o : Obj K}
    (ho : w.objs[i]? = some o) (hk : o.kind ≠ .metric) : i ≠ m := by
  rintro rfl
  obtain ⟨om, dm, m1, m2, m3, m4, m5, m6⟩ := h.metric
  rw [ho] at m1; cases m1
  exact hk m3

theorem checkRepresentation_own (i c' : Id') (ix : List Int) (R : World K → Prop) :
    Keeps (Own E t m c ix0 src a g gi) R (checkRepresentation E i c' ix)
      fun b _ => b = false → Elsewhere t m c i c' := by
  unfold checkRepresentation
  refine Keeps.bind (Keeps.getObj i) fun o => ?_
  by_cases hk : o.kind = .metric
  · rw [hk]
    exact Keeps.weaken (metricCheck_own i c' _) (fun _ _ h => h) fun _ _ _ h => h.2
  · refine Keeps.fact (φ := i ≠ m) (fun w hP hR => hP.not_metric hR.2.1 hk) fun hm => ?_
    cases hkk : o.kind <;> first | exact absurd hkk hk | exact tensorCheck_own i c' ix hm _

theorem transformCoordinates_own (i c' : Id') (ix : List Int) (he : Elsewhere t m c i c') :
    Keeps (Own E t m c ix0 src a g gi) (fun _ => True) (transformCoordinates E i c' ix)
      fun _ _ => True := by
  unfold transformCoordinates
  refine Keeps.bind (Keeps.getObj i) fun o => ?_
  by_cases hk : o.kind = .metric
  · rw [hk]
    exact Keeps.anyR (metricTransform_own i c' ix he)
  · refine Keeps.fact (φ := i ≠ m) (fun w hP hR => hP.not_metric hR.2.1 hk) fun hm => ?_
    cases hkk : o.kind <;> first
      | exact absurd hkk hk
      | exact Keeps.anyR (christoffelTransform_own i c' ix he)
      | exact Keeps.anyR (tensorTransform_own i c' ix hm he)

/-- Any request of any object in any coordinate system. -/
theorem getComponents_own (i : Id') (c' : Option Id') (ix : Option (List Int)) :
    Keeps (Own E t m c ix0 src a g gi) (fun _ => True) (getComponents E i c' ix) fun _ _ => True := by
  unfold getComponents
  refine Keeps.bind (Keeps.getObj i) fun o0 => ?_
  generalize c'.getD o0.coords = c'
  generalize ix.getD o0.indices = ix
  unfold getRepresentation
  refine Keeps.bind (Q := fun _ _ => True) ?_ fun b => ?_
  · intro w hP _
    exact ⟨hP, fun _ _ => trivial⟩
  refine Keeps.ite (fun _ => Keeps.raise _) fun _ => ?_
  refine Keeps.bind (Keeps.getObj i) fun o => ?_
  refine Keeps.bind (Keeps.lift (Q := fun _ _ => True) _ fun _ _ _ _ _ => trivial) fun _ => ?_
  refine Keeps.bind (checkRepresentation_own i c' ix _) fun b => ?_
  refine Keeps.bind (Q := fun _ _ => True) ?_ fun _ => Keeps.weaken (Keeps.readComps _ _ _)
    (fun _ _ h => h) fun _ _ _ _ => trivial
  refine Keeps.onlyIf (Q := fun _ => True) (fun hb => ?_) fun _ _ _ _ => trivial
  refine Keeps.fact (φ := Elsewhere t m c i c') (fun w _ hR => hR (by simpa using hb)) fun he => ?_
  exact Keeps.anyR (transformCoordinates_own i c' ix he)

end
end PyOGRe
