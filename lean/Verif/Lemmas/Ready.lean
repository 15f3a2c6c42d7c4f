import Verif.Lemmas.Progress

/-! Helper lemmas: sessions that stay clear of the known defects never get stuck. -/

namespace PyOGRe
open Spec Finset
variable {K : Type} [CommRing K]

section
variable {E : Engine K} {A : Atlas K} {G : Geometry K} {κ : Nat → Option Kind}

theorem connected_metric {w : World K} (hr : Ready w) (hc : Connected E A w) (hP : CohK E A G κ w)
    {m c : Id'} (hm : κ m = some .metric) (hcc : κ c = some .coordinates) : MetricReach E A w m c := by
  obtain ⟨o, h1, h2⟩ := hP.get hm
  obtain ⟨oc, c1, c2⟩ := hP.get hcc
  obtain ⟨o', g1, g2⟩ := (hP.1.tensors m o h1 (Or.inl h2)).2.2.2.2.1
  refine ⟨o, h1, h2, ?_⟩
  by_cases he : o.coords = c
  · left
    obtain ⟨d, hd⟩ := (hr.metric m o h1 h2).2.1
    rw [he] at hd
    exact (Dict.has_iff _ _).2 ⟨d, hd⟩
  · right
    exact hc _ _ _ _ g1 c1 g2 c2 he

/-- In a connected session every representation of a tensor is returned. -/
theorem getRepresentation_tensor_total (hA : A.OK) (hE : EngineOK E) (hT : EngineTotal E) (hG : G.Lawful E A)
    {w : World K} (hP : CohK E A G κ w) (hr : Ready w) (hcn : Connected E A w) {t c : Id'} {ix : List Int}
    (hk : κ t = some .tensor) (hc : κ c = some .coordinates) (hix : Config (G.rank t) ix) :
    ∃ w' a, getRepresentation E t c ix w = (.ok a, w') ∧ CohK E A G κ w' ∧ Ready w' ∧ Later w w' := by
  obtain ⟨o, h1, h2⟩ := hP.get hk
  obtain ⟨oc, c1, c2⟩ := hP.get hc
  obtain ⟨-, -, -, ⟨om, m1, m2⟩, ⟨o', g1, g2⟩, -⟩ := hP.1.tensors t o h1 (Or.inr h2)
  have hkm : κ o.metric = some .metric := by rw [hP.kind m1, m2]
  have hkc : κ o.coords = some .coordinates := by rw [hP.kind g1, g2]
  exact getRepresentation_tensor_eval hA hE hT hG hP hr h1 hk hc hix
    (connected_metric hr hcn hP hkm hkc) (connected_metric hr hcn hP hkm hc)
    (fun hne => hcn _ _ _ _ g1 c1 g2 c2 hne) fun _ => hr.array t o h1 h2

theorem validateIndices_cases (ix src : List Int) :
    validateIndices ix src = .ok () ∨ ∃ e, validateIndices ix src = .error e := by
  cases h : validateIndices ix src with
  | ok u => exact Or.inl rfl
  | error e => exact Or.inr ⟨e, rfl⟩

/-- Component requests keep a session usable, whether they are refused or answered. -/
theorem getRepresentation_ready (hA : A.OK) (hE : EngineOK E) (hT : EngineTotal E) (hG : G.Lawful E A)
    {w : World K} (hP : CohK E A G κ w) (hr : Ready w) (hcn : Connected E A w) {t c : Id'} {ix : List Int}
    (hk : κ t = some .metric ∨ κ t = some .tensor) (hm : κ t = some .metric →
      ix = [-1, -1] ∨ ∀ o, w.objs[t]? = some o → o.comps.has c = true) :
    Ready (getRepresentation E t c ix w).2 ∧ Later w (getRepresentation E t c ix w).2 := by
  by_cases hc : κ c = some .coordinates
  swap
  · have hw : getRepresentation E t c ix w = (.error .typeError, w) := by
      unfold getRepresentation
      rw [PyM.bind_apply, isCoordinates_apply]
      dsimp only
      rw [if_pos]
      · rfl
      · cases ho : w.objs[c]? with
        | none => rfl
        | some oc =>
          have := hP.kind ho
          rw [this] at hc
          simp only [Option.any_some, Bool.not_eq_true', beq_eq_false_iff_ne]
          intro h
          rw [h] at hc
          exact hc rfl
    rw [hw]; exact ⟨hr, Later.refl w⟩
  obtain ⟨oc, c1, c2⟩ := hP.get hc
  by_cases hix : Config (G.rank t) ix
  swap
  · obtain ⟨o, h1⟩ : ∃ o, w.objs[t]? = some o := by
      rcases hk with h | h <;> obtain ⟨o, h1, -⟩ := hP.get h <;> exact ⟨o, h1⟩
    have hw : (getRepresentation E t c ix w).2 = w := by
      unfold getRepresentation
      rw [PyM.bind_apply, isCoordinates_apply, c1]
      dsimp only
      rw [if_neg (by simp [c2]), PyM.bind_apply, getObj_ok h1 (hr.alive t o h1)]
      dsimp only
      rw [PyM.bind_apply, PyM.lift_apply]
      cases hv : validateIndices ix o.indices with
      | error e => rfl
      | ok u =>
        obtain ⟨q1, q2⟩ := validateIndices_ok hv
        exact absurd ⟨q1.trans (hP.1.tensors t o h1 (hP.mt hk h1)).2.2.1.1, q2⟩ hix
    rw [hw]; exact ⟨hr, Later.refl w⟩
  rcases hk with hk | hk
  · obtain ⟨o, h1, h2⟩ := hP.get hk
    obtain ⟨o', e1, e2, e3⟩ := connected_metric hr hcn hP hk hc
    rw [h1] at e1; cases e1
    rw [(hP.1.metrics t o h1 h2).1] at hix
    obtain ⟨w', a, r1, r2, r3, r4⟩ := getRepresentation_metric_eval hA hE hT hG hP hr h1 hk hc hix
      (by
        rcases hm hk with hm | hm
        · exact e3.imp_right fun h => ⟨hm, h⟩
        · exact Or.inl (hm o h1))
    rw [r1]; exact ⟨r3, r4⟩
  · obtain ⟨w', a, r1, r2, r3, r4⟩ := getRepresentation_tensor_total hA hE hT hG hP hr hcn hk hc hix
    rw [r1]; exact ⟨r3, r4⟩

theorem ready_indices {w : World K} (h : Ready w) (t : Id') (ix : List Int)
    (ht : ∀ o, w.objs[t]? = some o → o.kind ≠ .metric)
    (hl : ∀ o, w.objs[t]? = some o → o.indices.length = ix.length) :
    Ready (upd w t fun o => { o with indices := ix }) := by
  refine ⟨?_, ?_, ?_, ?_⟩
  · intro k o ho
    rcases upd_cases ho with ⟨-, h1⟩ | ⟨-, o', h1, rfl⟩
    · exact h.alive k o h1
    · exact h.alive k o' h1
  · intro k o ho hk
    rcases upd_cases ho with ⟨-, h1⟩ | ⟨-, o', h1, rfl⟩
    · exact h.tensor k o h1 hk
    · exact h.tensor k o' h1 hk
  · intro k o ho hk
    rcases upd_cases ho with ⟨-, h1⟩ | ⟨rfl, o', h1, rfl⟩
    · exact h.metric k o h1 hk
    · exact absurd hk (ht o' h1)
  · intro k o ho hk
    rcases upd_cases ho with ⟨-, h1⟩ | ⟨rfl, o', h1, rfl⟩
    · exact h.array k o h1 hk
    · have := h.array t o' h1 hk
      have hl := hl o' h1
      unfold Obj.isArray at this ⊢
      cases h2 : o'.indices <;> cases ix <;> rw [h2] at this hl <;> simp_all

theorem ready_coords {w : World K} (h : Ready w) (t c : Id')
    (ht : ∀ o, w.objs[t]? = some o → ∃ d, o.comps.get? c = some d)
    (hi : ∀ o, w.objs[t]? = some o → o.indices ≠ []) :
    Ready (upd w t fun o => { o with coords := c }) := by
  refine ⟨?_, ?_, ?_, ?_⟩
  · intro k o ho
    rcases upd_cases ho with ⟨-, h1⟩ | ⟨-, o', h1, rfl⟩
    · exact h.alive k o h1
    · exact h.alive k o' h1
  · intro k o ho hk
    rcases upd_cases ho with ⟨-, h1⟩ | ⟨rfl, o', h1, rfl⟩
    · exact h.tensor k o h1 hk
    · exact ⟨ht o' h1, (h.tensor t o' h1 hk).2⟩
  · intro k o ho hk
    rcases upd_cases ho with ⟨-, h1⟩ | ⟨rfl, o', h1, rfl⟩
    · exact h.metric k o h1 hk
    · exact ⟨(h.metric t o' h1 hk).1, ht o' h1, (h.metric t o' h1 hk).2.2⟩
  · intro k o ho hk
    rcases upd_cases ho with ⟨-, h1⟩ | ⟨rfl, o', h1, rfl⟩
    · exact h.array k o h1 hk
    · exact isArray_of_ne (hi o' h1) _

theorem changeDefaultIndices_ready (hA : A.OK) (hE : EngineOK E) (hT : EngineTotal E) (hG : G.Lawful E A)
    {w : World K} (hP : CohK E A G κ w) (hr : Ready w) (hcn : Connected E A w) {t : Id'} {ix : List Int}
    (hk : κ t = some .tensor) : Ready (changeDefaultIndices E t ix w).2 := by
  obtain ⟨o, h1, h2⟩ := hP.get hk
  obtain ⟨-, -, hcfg, ⟨om, m1, m2⟩, ⟨o', g1, g2⟩, -⟩ := hP.1.tensors t o h1 (Or.inr h2)
  have hkm : κ o.metric = some .metric := by rw [hP.kind m1, m2]
  have hkc : κ o.coords = some .coordinates := by rw [hP.kind g1, g2]
  unfold changeDefaultIndices
  rw [PyM.bind_apply, getObj_ok h1 (hr.alive t o h1)]
  dsimp only
  rw [PyM.bind_apply, PyM.lift_apply]
  cases hv : validateIndices ix o.indices with
  | error e => exact hr
  | ok u =>
    dsimp only
    obtain ⟨q1, q2⟩ := validateIndices_ok hv
    rw [PyM.bind_apply, checkRepresentation_tensor t _ ix h1 (hr.alive t o h1) (by rw [h2]; decide)]
    rcases tensorCheck_eval hA hE hT hG hP hr h1 hk hkc ⟨q1.trans hcfg.1, q2⟩
      (connected_metric hr hcn hP hkm hkc) with ⟨-, e1⟩ | ⟨w1, e1, hP1, hr1, hl1, -⟩
    · rw [e1]; exact hr
    · rw [e1]
      refine ready_indices hr1 t ix ?_ ?_
      · intro o1 ho1 hk1
        have := hP1.kind ho1
        rw [hk, hk1] at this; cases this
      · intro o1 ho1
        obtain ⟨o2, k1, -, -, -, k2, -⟩ := hl1 t o h1
        rw [ho1] at k1; cases k1
        rw [k2.1, q1]

theorem changeDefaultCoords_ready (hA : A.OK) (hE : EngineOK E) (hT : EngineTotal E) (hG : G.Lawful E A)
    {w : World K} (hP : CohK E A G κ w) (hr : Ready w) (hcn : Connected E A w) {t c : Id'}
    (hk : κ t = some .metric ∨ κ t = some .tensor)
    (hne : ∀ o, w.objs[t]? = some o → o.indices ≠ []) : Ready (changeDefaultCoords E t c w).2 := by
  obtain ⟨o, h1, h2⟩ : ∃ o, w.objs[t]? = some o ∧ (o.kind = .metric ∨ o.kind = .tensor) := by
    rcases hk with h | h <;> obtain ⟨o, h1, h2⟩ := hP.get h
    · exact ⟨o, h1, Or.inl h2⟩
    · exact ⟨o, h1, Or.inr h2⟩
  obtain ⟨-, -, hcfg, ⟨om, m1, m2⟩, ⟨o', g1, g2⟩, -⟩ := hP.1.tensors t o h1 h2
  have hkc : κ o.coords = some .coordinates := by rw [hP.kind g1, g2]
  unfold changeDefaultCoords
  rw [PyM.bind_apply, isCoordinates_apply]
  dsimp only
  by_cases hc : (w.objs[c]?).any (fun o => o.kind == .coordinates) = true
  swap
  · rw [if_pos (by simpa using hc)]; exact hr
  obtain ⟨oc, c1, c2⟩ : ∃ oc, w.objs[c]? = some oc ∧ oc.kind = .coordinates := by
    cases ho : w.objs[c]? with
    | none => rw [ho] at hc; simp at hc
    | some oc => rw [ho] at hc; exact ⟨oc, rfl, by simpa using hc⟩
  have hcc : κ c = some .coordinates := by rw [hP.kind c1, c2]
  rw [if_neg (by simpa using hc), PyM.bind_apply, getObj_ok h1 (hr.alive t o h1)]
  dsimp only
  by_cases he : c = o.coords
  · rw [if_pos he]; exact hr
  rw [if_neg he, PyM.bind_apply, getObj_ok g1 (hr.alive _ _ g1)]
  dsimp only
  obtain ⟨rules, Ji, r1, r2⟩ := hcn _ _ _ _ g1 c1 g2 c2 (Ne.symm he)
  have hreach : Reach E A o.coords c := ⟨rules, Ji, r1, r2⟩
  have htr : o'.trans.get? c = some rules := by rw [(hP.1.charts _ o' g1 g2).2.1 c, r1]
  rw [if_neg (by rw [(Dict.has_iff _ _).2 ⟨rules, htr⟩]; decide)]
  rcases h2 with h2 | h2
  · have hk' : κ t = some .metric := by rw [hP.kind h1, h2]
    obtain ⟨b, hb, w1, e1, hP1, hr1, hl1, hkeep, o1, d1, n1, n2, n3⟩ :=
      ensureMetric_eval hA hE hT hG hP hr hcc (connected_metric hr hcn hP hk' hcc)
    have hchk : checkRepresentation E t c o.indices w = (.ok b, w) := by
      unfold checkRepresentation
      rw [PyM.bind_apply, getObj_ok h1 (hr.alive t o h1)]
      dsimp only
      rw [h2]; exact hb
    rw [PyM.bind_apply, hchk]
    dsimp only
    have htr' : PyM.onlyIf (!b) (transformCoordinates E t c o.indices) w = (.ok (), w1) := by
      rw [← e1, (hr.metric t o h1 h2).1]
      unfold PyM.onlyIf
      split_ifs
      · unfold transformCoordinates
        rw [PyM.bind_apply, getObj_ok h1 (hr.alive t o h1)]
        dsimp only
        rw [h2]
      · rfl
    rw [PyM.bind_apply, htr']
    refine ready_coords hr1 t c ?_ ?_
    · intro o2 ho2
      rw [n1] at ho2; cases ho2
      exact ⟨d1, n3⟩
    · intro o2 ho2
      rw [n1] at ho2; cases ho2
      rw [(hr1.metric _ _ n1 n2).1]
      simp
  · have hk' : κ t = some .tensor := by rw [hP.kind h1, h2]
    have hkm : κ o.metric = some .metric := by rw [hP.kind m1, m2]
    rw [PyM.bind_apply, checkRepresentation_tensor t c _ h1 (hr.alive t o h1) (by rw [h2]; decide)]
    have step : ∃ w', (do
        PyM.onlyIf (!(← tensorCheck E t c o.indices)) (transformCoordinates E t c o.indices)
        modifyObj t fun o => { o with coords := c } : PyM K Unit) w = modifyObj t (fun o => { o with coords := c }) w' ∧
          Gets E A G κ w w' t c o.indices := by
      rcases tensorCheck_eval hA hE hT hG hP hr h1 hk' hcc hcfg (connected_metric hr hcn hP hkm hcc) with
        ⟨hno, e1⟩ | ⟨w1, e1, e2⟩
      · obtain ⟨w2, e3, e4⟩ := tensorTransform_eval hA hE hT hG hP hr h1 hk' hcc hcfg
          (connected_metric hr hcn hP hkm hkc) hreach (hr.array t o h1 h2)
        refine ⟨w2, ?_, e4⟩
        rw [PyM.bind_apply, e1]
        dsimp only
        rw [PyM.bind_apply]
        unfold PyM.onlyIf
        rw [if_pos (show (!false) = true from rfl)]
        unfold transformCoordinates
        rw [PyM.bind_apply, getObj_ok h1 (hr.alive t o h1)]
        dsimp only
        rw [h2]
        dsimp only
        rw [e3]
      · refine ⟨w1, ?_, e2⟩
        rw [PyM.bind_apply, e1]
        rfl
    obtain ⟨w', e1, hP', hr', hl', o2, d2, a2, k1, k2, k3⟩ := step
    rw [PyM.bind_apply] at e1
    rw [e1]
    refine ready_coords hr' t c ?_ ?_
    · intro o3 ho3
      rw [k1] at ho3; cases ho3
      exact ⟨d2, k2⟩
    · intro o3 ho3
      obtain ⟨o4, l1, -, -, -, l2, -⟩ := hl' t o h1
      rw [ho3] at l1; cases l1
      rw [l2.1]
      exact hne o h1

end
end PyOGRe

namespace PyOGRe
open Spec Finset
variable {K : Type} [CommRing K] [DecidableEq K]
variable {E : Engine K} {A : Atlas K} {h : Id'} {F : Frames K} {H : Home K}

theorem getElem?_snoc {α : Type} {l : List α} {x y : α} {k : Nat} (hk : (l ++ [x])[k]? = some y) :
    l[k]? = some y ∨ (k = l.length ∧ x = y) := by
  rcases Nat.lt_trichotomy k l.length with h1 | h1 | h1
  · rw [List.getElem?_append_left h1] at hk; exact Or.inl hk
  · subst h1
    rw [getElem?_append_length] at hk
    exact Or.inr ⟨rfl, Option.some.inj hk⟩
  · rw [List.getElem?_eq_none (by simp; omega)] at hk; cases hk

theorem ready_append {w : World K} (hr : Ready w) {o : Obj K} {inst : List Id'} (ha : o.alive = true)
    (ht : o.kind = .tensor → (∃ d, o.comps.get? o.coords = some d) ∧ ∀ c d, o.comps.get? c = some d → d ≠ [])
    (hm : o.kind = .metric → o.indices = [-1, -1] ∧ (∃ d, o.comps.get? o.coords = some d) ∧
      ∀ c d, o.comps.get? c = some d → ∀ ix, Config 2 ix → ∃ a, d.get? ix = some a)
    (hn : o.kind = .tensor → o.isArray o.coords = true) :
    Ready { objs := w.objs ++ [o], instances := inst } := by
  refine ⟨?_, ?_, ?_, ?_⟩
  · intro i o' ho
    rcases getElem?_snoc ho with h1 | ⟨-, rfl⟩
    · exact hr.alive i o' h1
    · exact ha
  · intro i o' ho hk
    rcases getElem?_snoc ho with h1 | ⟨-, rfl⟩
    · exact hr.tensor i o' h1 hk
    · exact ht hk
  · intro i o' ho hk
    rcases getElem?_snoc ho with h1 | ⟨-, rfl⟩
    · exact hr.metric i o' h1 hk
    · exact hm hk
  · intro i o' ho hk
    rcases getElem?_snoc ho with h1 | ⟨-, rfl⟩
    · exact hr.array i o' h1 hk
    · exact hn hk

/-- Only metrics and tensors are created, and classes do not change. -/
def SameCharts (w w' : World K) : Prop :=
  ∀ (c : Id') o', w'.objs[c]? = some o' → o'.kind = .coordinates →
    ∃ o, w.objs[c]? = some o ∧ o.kind = .coordinates

theorem SameCharts.connected {w w' : World K} (hs : SameCharts w w') (hc : Connected E A w) :
    Connected E A w' := by
  intro c c' o o' h1 h2 h3 h4
  obtain ⟨p, p1, p2⟩ := hs c o h1 h3
  obtain ⟨q, q1, q2⟩ := hs c' o' h2 h4
  exact hc c c' p q p1 q1 p2 q2

theorem sameCharts_kinds {w w' : World K} (hk : ∀ i : Nat, w'.objs[i]?.map (·.kind) = w.objs[i]?.map (·.kind)) :
    SameCharts w w' := by
  intro c o' h1 h2
  have := hk c
  rw [h1] at this
  obtain ⟨o, a, b⟩ := Option.map_eq_some_iff.1 this.symm
  exact ⟨o, a, b.trans h2⟩

theorem sameCharts_append (w : World K) (o : Obj K) (inst : List Id') (hk : o.kind ≠ .coordinates) :
    SameCharts w { objs := w.objs ++ [o], instances := inst } := by
  intro c o' h1 h2
  rcases getElem?_snoc h1 with h1 | ⟨-, rfl⟩
  · exact ⟨o', h1, h2⟩
  · exact absurd h2 hk

theorem sameCharts_refl (w : World K) : SameCharts w w := fun _ o h1 h2 => ⟨o, h1, h2⟩

/-- One call that stays clear of the known defects. -/
theorem ready_run {w : World K} (hA : A.OK) (hE : EngineOK E) (hT : EngineTotal E)
    (hC : Consistent E A h F) (hI : Inv E A h F H w) (hr : Ready w) (hcn : Connected E A w) (op : Op K)
    (hop : op.Allowed A.n F w) (hpl : op.Plain w) :
    Ready (op.run E h w).2 ∧ SameCharts w (op.run E h w).2 := by
  have hL := geometry_lawful hC hI.ok
  have hP : CohK E A (H.geometry A.n F) (fun i : Nat => w.objs[i]?.map (·.kind)) w := ⟨hI.coherent, fun _ => rfl⟩
  cases op with
  | metric name a ix symbol =>
    have hpl : ix = .tuple [-1, -1] := hpl
    subst hpl
    have key : Ready (newMetric E name (.val a) h (.tuple [-1, -1]) symbol w).2 ∧
        SameCharts w (newMetric E name (.val a) h (.tuple [-1, -1]) symbol w).2 := by
      rcases newMetric_cases E name a h (.tuple [-1, -1]) symbol w with
        ⟨e, he⟩ | ⟨oc, h1, h2, h3, h4, h5, h6, h7⟩
      · rw [he]; exact ⟨hr, sameCharts_refl w⟩
      · rcases h7 with ⟨e, he, -⟩ | ⟨b, hb1, hb2⟩
        · obtain ⟨N, hN⟩ := hT.det_ok _ a h3 h4
          obtain ⟨b, hb⟩ := hT.inv_total _ a N h3 hN
          rcases he with he | he
          · cases he
          · rw [hb] at he; cases he
        · rw [hb2]
          refine ⟨ready_append hr rfl (fun hk => by cases hk) (fun _ => ⟨rfl, ?_, ?_⟩)
            (fun hk => by cases hk), sameCharts_append w _ _ (fun hk => by cases hk)⟩
          · exact ⟨_, by simp [freshObj, Dict.get?_cons]; rfl⟩
          · intro c d hd ix hix
            simp only [freshObj, Dict.get?_cons, Dict.get?_nil] at hd
            split_ifs at hd
            cases hd
            obtain ⟨hl, hx⟩ := hix
            match ix, hl with
            | [x, y], _ =>
              rcases hx x (by simp) with rfl | rfl <;> rcases hx y (by simp) with rfl | rfl <;>
                simp [Dict.get?_cons, IndicesArg.getD, negIndices]
    simp only [Op.run]
    revert key
    rcases newMetric E name (.val a) h (.tuple [-1, -1]) symbol w with ⟨e | i, w'⟩ <;> exact fun h => h
  | tensor name a m c0 ix symbol =>
    have key : Ready (newTensor .tensor name (.val a) m c0 ix symbol w).2 ∧
        SameCharts w (newTensor .tensor name (.val a) m c0 ix symbol w).2 := by
      rcases newTensor_cases .tensor name a m c0 ix symbol w with
        ⟨e, he⟩ | ⟨oc, om, h1, h2, h3, h4, h5, h6, h7⟩
      · rw [he]; exact ⟨hr, sameCharts_refl w⟩
      · rw [h7]
        refine ⟨ready_append hr rfl (fun _ => ⟨⟨_, by simp [freshObj, Dict.get?_cons]; rfl⟩, ?_⟩)
          (fun hk => by cases hk) (fun _ => by simp [Obj.isArray, freshObj]),
          sameCharts_append w _ _ (fun hk => by cases hk)⟩
        intro c d hd
        simp only [freshObj, Dict.get?_cons, Dict.get?_nil] at hd
        split_ifs at hd
        cases hd
        simp
    simp only [Op.run]
    revert key
    rcases newTensor .tensor name (.val a) m c0 ix symbol w with ⟨e | i, w'⟩ <;> exact fun h => h
  | get t c ix =>
    have key : Ready (getComponents E t c ix w).2 ∧ SameCharts w (getComponents E t c ix w).2 := by
      cases ho : w.objs[t]? with
      | none =>
        have hg : getComponents E t c ix w = (.error .attributeError, w) := by
          unfold getComponents
          rw [PyM.bind_apply]
          rcases getObj_cases t w with ⟨o, h1, -⟩ | h1
          · rw [ho] at h1; cases h1
          · rw [h1]
        rw [hg]; exact ⟨hr, sameCharts_refl w⟩
      | some o =>
        have hk' : (fun i : Nat => w.objs[i]?.map (·.kind)) t = some .metric ∨
            (fun i : Nat => w.objs[i]?.map (·.kind)) t = some .tensor := by
          show w.objs[t]?.map (·.kind) = _ ∨ w.objs[t]?.map (·.kind) = _
          rw [ho]
          rcases hop o ho with h1 | h1
          · left; simp [h1]
          · right; simp [h1]
        have hgc : getComponents E t c ix w = getRepresentation E t (c.getD o.coords) (ix.getD o.indices) w := by
          unfold getComponents
          rw [PyM.bind_apply, getObj_ok ho (hr.alive t o ho)]
        have hkk := (getRepresentation_keeps hA hE hL t (c.getD o.coords) (ix.getD o.indices) hk' w hP trivial).1.2
        rw [hgc]
        refine ⟨(getRepresentation_ready hA hE hT hL hP hr hcn hk' ?_).1, sameCharts_kinds hkk⟩
        intro hm
        have hm' : o.kind = .metric := by
          have hm : w.objs[t]?.map (·.kind) = some Kind.metric := hm
          rw [ho] at hm; exact Option.some.inj hm
        rcases hpl o ho hm' with rfl | rfl | hpl
        · exact Or.inl (hr.metric t o ho hm').1
        · exact Or.inl rfl
        · refine Or.inr fun o' ho' => ?_
          rw [ho] at ho'; cases ho'
          exact hpl
    simp only [Op.run]
    revert key
    rcases getComponents E t c ix w with ⟨e | b, w'⟩ <;> exact fun h => h
  | setIndices t ix =>
    simp only [Op.run]
    cases ho : w.objs[t]? with
    | none =>
      have hg : changeDefaultIndices E t ix w = (.error .attributeError, w) := by
        unfold changeDefaultIndices
        rw [PyM.bind_apply]
        rcases getObj_cases t w with ⟨o, h1, -⟩ | h1
        · rw [ho] at h1; cases h1
        · rw [h1]
      rw [hg]; exact ⟨hr, sameCharts_refl w⟩
    | some o =>
      have hk' : (fun i : Nat => w.objs[i]?.map (·.kind)) t = some .tensor := by
        show w.objs[t]?.map (·.kind) = _
        rw [ho, Option.map_some, hpl o ho]
      have hkk := (changeDefaultIndices_keeps hA hE hL t ix (Or.inr hk')
        (fun h => by have := hk'.symm.trans h; cases this) w hP trivial).1.2
      exact ⟨changeDefaultIndices_ready hA hE hT hL hP hr hcn hk', sameCharts_kinds hkk⟩
  | setCoords t c =>
    simp only [Op.run]
    cases ho : w.objs[t]? with
    | none =>
      have hg : (changeDefaultCoords E t c w).2 = w := by
        unfold changeDefaultCoords
        rw [PyM.bind_apply, isCoordinates_apply]
        dsimp only
        split_ifs
        · rfl
        · rw [PyM.bind_apply]
          rcases getObj_cases t w with ⟨o, h1, -⟩ | h1
          · rw [ho] at h1; cases h1
          · rw [h1]
      rw [hg]; exact ⟨hr, sameCharts_refl w⟩
    | some o =>
      have hk' : (fun i : Nat => w.objs[i]?.map (·.kind)) t = some .metric ∨
          (fun i : Nat => w.objs[i]?.map (·.kind)) t = some .tensor := by
        show w.objs[t]?.map (·.kind) = _ ∨ w.objs[t]?.map (·.kind) = _
        rw [ho]
        rcases hop o ho with h1 | h1
        · left; simp [h1]
        · right; simp [h1]
      have hkk := (changeDefaultCoords_keeps hA hE hL t c hk' w hP trivial).1.2
      exact ⟨changeDefaultCoords_ready hA hE hT hL hP hr hcn hk' hpl, sameCharts_kinds hkk⟩

theorem ready_session (hA : A.OK) (hE : EngineOK E) (hT : EngineTotal E)
    (hC : Consistent E A h F) (ops : List (Op K)) : ∀ {H : Home K} {w : World K}, Inv E A h F H w → Ready w →
    Connected E A w → AllAllowed E h A.n F ops w → AllPlain E h ops w →
    Ready (Spec.session E h ops w).2 ∧ Connected E A (Spec.session E h ops w).2 := by
  induction ops with
  | nil => intro H w _ hr hcn _ _; exact ⟨hr, hcn⟩
  | cons op ops ih =>
    intro H w hI hr hcn ha hp
    obtain ⟨H', h1, -⟩ := hI.run hA hE hT hC op ha.1
    obtain ⟨h2, h3⟩ := ready_run hA hE hT hC hI hr hcn op ha.1 hp.1
    exact ih h1 h2 (h3.connected hcn) ha.2 hp.2

end PyOGRe
