import Verif.Lemmas.Curvature

/-! Helper lemmas: tensors that are computed once and then found by their names. -/

namespace PyOGRe
open Spec Finset
variable {K : Type} [CommRing K] [DecidableEq K] [Algebra ℚ K] {E : Engine K} {G : Ground K} {V : View K} {w : World K}

theorem append_cancel {a b c : String} (h : a ++ b = a ++ c) : b = c := by
  have := congrArg String.toList h
  rw [String.toList_append, String.toList_append] at this
  exact String.toList_injective (List.append_cancel_left this)

theorem suffix_inj {base : String} {q q' : Quantity} (h : base ++ q.suffix = base ++ q'.suffix) : q = q' := by
  have := append_cancel h
  revert this
  cases q <;> cases q' <;> first | (intro _; rfl) | (intro h; exact absurd h (by decide))

theorem quantity_temp (base : String) (q : Quantity) : base ++ q.suffix ≠ "TEMP" := by
  cases q <;> exact suffix_ne (by decide) base

theorem quantity_result (base : String) (q : Quantity) : base ++ q.suffix ≠ "Result" := by
  intro hs
  have := congrArg (fun s => s.toList.length) hs
  simp only [String.toList_append, List.length_append] at this
  have h4 : "Result".toList.length = 6 := by decide
  have : 7 ≤ q.suffix.toList.length := by cases q <;> decide
  omega

omit [DecidableEq K] in
theorem inView_keeps {V' : View K} (hS : Scene G V w) (hk : V.Keeps V') {t : Id'} {ix : List Int} {f : List Nat → K}
    {D : TField K} (h : InView G V t ix f D) {o : Obj K} (ho : w.objs[t]? = some o) (hn : o.name ≠ "TEMP") :
    InView G V' t ix f D :=
  ⟨hk _ _ h.view (by rw [← scene_object_name hS h.view ho]; exact hn), h.coords, h.cfg, h.val⟩

omit [DecidableEq K] in
theorem derived_leaves {base : String} {w' : World K} {new : Id' → Prop} (hL : Leaves new w w') {i : Id'}
    (h : Derived base w i) : Derived base w' i := by
  obtain ⟨o, h1, q, h2⟩ := h
  obtain ⟨o', e1, -, e2, -⟩ := hL.1 i o h1
  exact ⟨o', e1, q, h2.1, e2.trans h2.2⟩

omit [DecidableEq K] in
theorem leaves_derived {base : String} {w1 w2 : World K} (h1 : Leaves (Derived base w1) w w1)
    (h2 : Leaves (Derived base w2) w1 w2) : Leaves (Derived base w2) w w2 :=
  leaves_mono (leaves_trans h1 h2) fun _ _ _ h => h.elim (derived_leaves h2) id

omit [DecidableEq K] in
/-- The names stay right when one more computed tensor is registered. -/
theorem namesOK_leaves {V' : View K} {w' : World K} {base : String} (hS : Scene G V w) (hc : NamesOK E G V w base)
    (hk : V.Keeps V') {new : Id' → Prop} (hL : Leaves new w w')
    (hr : ∀ i ∈ w'.instances, w.objs.length ≤ i → new i → ∀ o, w'.objs[i]? = some o → ∀ q : Quantity,
      o.name = base ++ q.suffix → o.kind = q.kind ∧ ∃ D, InView G V' i q.ix (q.comps E G) D) :
    NamesOK E G V' w' base := by
  intro q i hi o' ho' hn
  rcases lt_or_ge i w.objs.length with hl | hl
  · obtain ⟨o, ho⟩ : ∃ o, w.objs[i]? = some o := ⟨_, List.getElem?_eq_getElem hl⟩
    obtain ⟨o1, e1, e2, e3, -, -, -, -, -, -, e4⟩ := hL.1 i o ho
    rw [ho'] at e1; cases e1
    have hnt : o.name ≠ "TEMP" := by rw [← e3, hn]; exact quantity_temp _ _
    obtain ⟨h1, D, h2⟩ := hc q i ((e4 hnt).2.1 hi) o ho (e3.symm.trans hn)
    exact ⟨e2.trans h1, D, inView_keeps hS hk h2 ho hnt⟩
  · rcases hL.2 i hi hl with h | ⟨o, h1, h2⟩
    · exact hr i hi hl h o' ho' q hn
    · rw [ho'] at h1; cases h1
      rw [hn] at h2
      exact absurd h2 (quantity_temp _ _)

/-- A computation that stores the tensor `q`. -/
theorem provides_computes {q : Quantity} (hq : q ≠ .weyl) {m : PyM K Id'} {Dm : TField K} (hS : Scene G V w)
    (hc : NamesOK E G V w Dm.name) (h : Computes G V w Dm m q.kind q.suffix q.ix (q.comps E G)) :
    Provides E G V w Dm.name m q := by
  refine Does.mono h ?_
  rintro r w' ⟨V', D', h1, h2, h3, h4, ⟨o, h5, h5'⟩, h6, h7, h8, h9, h10⟩
  have hon : o.name = Dm.name ++ q.suffix := (scene_object_name h1 h6 h5).trans h8
  refine ⟨V', D', h1, h2, leaves_mono h3 fun i _ _ hi => ?_, namesOK_leaves hS hc h2 h3 ?_, h4.2.1, ⟨o, h5, h5', hon⟩,
    ⟨h6, h7, h9, h10⟩⟩
  · rw [hi]; exact ⟨o, h5, q, hq, hon⟩
  · intro i _ _ hi o' ho' q' hn
    rw [hi] at ho' ⊢
    rw [ho'] at h5; cases h5
    obtain rfl := suffix_inj (hon.symm.trans hn)
    exact ⟨h5', D', ⟨h6, h7, h9, h10⟩⟩

/-- The search for the name, and otherwise the computation. -/
theorem provides_unless {q : Quantity} {m : PyM K Id'} {base : String} (hS : Scene G V w) (hc : NamesOK E G V w base)
    (h : Provides E G V w base m q) : Provides E G V w base (unlessNamed (base ++ q.suffix) m) q := by
  unfold unlessNamed
  refine Does.step (a := w.instances.find? fun i => (w.objs[i]?).any (hasName (base ++ q.suffix))) rfl ?_
  rcases hf : w.instances.find? fun i => (w.objs[i]?).any (hasName (base ++ q.suffix)) with _ | t
  · exact h
  · have h1 := List.mem_of_find?_eq_some hf
    have h2 := List.find?_some hf
    obtain ⟨o, h3, -⟩ := hS.registry.inUse t h1
    rw [h3] at h2
    have h4 : o.name = base ++ q.suffix := by simpa [hasName] using h2
    obtain ⟨h5, D, h6⟩ := hc q t h1 o h3 h4
    exact Does.pure ⟨V, D, hS, keeps_refl V, leaves_refl _ hS.registry, hc, h1, ⟨o, h3, h5, h4⟩, h6⟩

omit [DecidableEq K] [Algebra ℚ K] in
/-- The start of these functions. -/
theorem does_named {α : Type} (hS : Scene G V w) {Dm : TField K} (hm : V G.m = some Dm) {k : String → PyM K α}
    {Q : α → World K → Prop} (h : Does (k Dm.name) w Q) :
    Does (do
      requireMetric G.m
      let om ← getObj G.m
      k om.name) w Q := by
  obtain ⟨om, m1, m2⟩ := hS.shows _ _ hm
  obtain ⟨D, o, h1, h2, h3, -⟩ := hS.metric
  rw [m1] at h2; cases h2
  refine Does.step (a := ()) ?_ ?_
  · have : isMetric G.m w = (.ok true, w) := by
      unfold isMetric
      simp [PyM.bind_apply, PyM.world, m1, h3]
    unfold requireMetric
    rw [PyM.bind_apply, this]
    rfl
  · refine Does.step (getObj_ok m1 m2.alive) ?_
    rw [m2.name]
    exact h

omit [Algebra ℚ K] in
theorem inView_kind_ne (hS : Scene G V w) {t : Id'} {o : Obj K} (ho : w.objs[t]? = some o) (hk : o.kind ≠ .metric) :
    t ≠ G.m := by
  rintro rfl
  obtain ⟨D, o', h1, h2, h3, -⟩ := hS.metric
  rw [ho] at h2; cases h2
  exact hk h3

/-- One more computation after a tensor was provided. -/
theorem provides_bind {base : String} {m : PyM K Id'} {k : Id' → PyM K Id'} {q q' : Quantity}
    (hm : Provides E G V w base m q)
    (hk : ∀ r w1 V1 D, Scene G V1 w1 → V.Keeps V1 → NamesOK E G V1 w1 base → r ≠ G.m →
      r ∈ w1.instances → (∃ o, w1.objs[r]? = some o ∧ o.kind = q.kind ∧ o.name = base ++ q.suffix) →
      InView G V1 r q.ix (q.comps E G) D → Provides E G V1 w1 base (k r) q') :
    Provides E G V w base (m >>= k) q' := by
  refine Does.bind hm ?_
  rintro r w1 ⟨V1, D, h1, h2, h3, h4, h5, ⟨o, h6, h6', h6''⟩, h7⟩
  have hne : r ≠ G.m := inView_kind_ne h1 h6 (by rw [h6']; cases q <;> decide)
  refine Does.mono (hk r w1 V1 D h1 h2 h4 hne h5 ⟨o, h6, h6', h6''⟩ h7) ?_
  rintro r2 w2 ⟨V2, D2, e1, e2, e3, e4, e5, e6, e7⟩
  exact ⟨V2, D2, e1, keeps_trans h2 e2, leaves_derived h3 e3, e4, e5, e6, e7⟩

omit [DecidableEq K] in
theorem lowerMetric_keeps {V' : View K} {Dm : TField K} (hm : LowerMetric G V Dm) (hk : V.Keeps V') :
    LowerMetric G V' Dm := ⟨hk _ _ hm.view hm.name, hm.name, hm.coords, hm.ix⟩

variable {Dm : TField K}

theorem provides_christoffel (hE : ∀ x, E.simp x = x) (hS : Scene G V w) (hm : LowerMetric G V Dm)
    (hc : NamesOK E G V w Dm.name) : Provides E G V w Dm.name (calcChristoffel E G.m) .christoffel :=
  does_named hS hm.view (k := fun s => unlessNamed (s ++ " Christoffel") (computeChristoffel E G.m))
    (provides_unless (q := .christoffel) hS hc (provides_computes (by decide) hS hc (computes_christoffel hE hS hm)))

theorem provides_riemann (hE : ∀ x, E.simp x = x) (hS : Scene G V w) (hm : LowerMetric G V Dm)
    (hc : NamesOK E G V w Dm.name) : Provides E G V w Dm.name (calcRiemann E G.m) .riemann :=
  does_named hS hm.view (k := fun s => unlessNamed (s ++ " Riemann") _)
    (provides_unless (q := .riemann) hS hc (provides_bind (provides_christoffel hE hS hm hc)
      fun r w1 V1 D h1 h2 h3 h4 _ _ h5 => provides_computes (q := .riemann) (by decide) h1 h3
        (computes_riemann hE h1 (lowerMetric_keeps hm h2) h5 h4)))

theorem provides_ricci (hE : ∀ x, E.simp x = x) (hS : Scene G V w) (hm : LowerMetric G V Dm)
    (hc : NamesOK E G V w Dm.name) : Provides E G V w Dm.name (calcRicci E G.m) .ricci :=
  does_named hS hm.view (k := fun s => unlessNamed (s ++ " Ricci Tensor") _)
    (provides_unless (q := .ricci) hS hc (provides_bind (provides_riemann hE hS hm hc)
      fun r w1 V1 D h1 h2 h3 h4 _ _ h5 => provides_computes (q := .ricci) (by decide) h1 h3
        (computes_ricci hE h1 (lowerMetric_keeps hm h2) h5 h4)))

theorem provides_scalar (hE : ∀ x, E.simp x = x) (hS : Scene G V w) (hm : LowerMetric G V Dm)
    (hc : NamesOK E G V w Dm.name) : Provides E G V w Dm.name (calcScalar E G.m) .scalar :=
  does_named hS hm.view (k := fun s => unlessNamed (s ++ " Ricci Scalar") _)
    (provides_unless (q := .scalar) hS hc (provides_bind (provides_ricci hE hS hm hc)
      fun r w1 V1 D h1 h2 h3 h4 _ _ h5 => provides_computes (q := .scalar) (by decide) h1 h3
        (computes_scalar hE h1 (lowerMetric_keeps hm h2) h5 h4)))

theorem provides_einstein (hE : ∀ x, E.simp x = x) (hS : Scene G V w) (hm : LowerMetric G V Dm)
    (hc : NamesOK E G V w Dm.name) : Provides E G V w Dm.name (calcEinstein E G.m) .einstein :=
  does_named hS hm.view (k := fun s => unlessNamed (s ++ " Einstein") _)
    (provides_unless (q := .einstein) hS hc (provides_bind (provides_ricci hE hS hm hc)
      fun r w1 V1 D h1 h2 h3 h4 _ h4' h5 => provides_bind (provides_scalar hE h1 (lowerMetric_keeps hm h2) h3)
        fun s w2 V2 D2 k1 k2 k3 k4 _ _ k5 => by
          obtain ⟨o, o1, o2, o3⟩ := h4'
          exact provides_computes (q := .einstein) (by decide) k1 k3 (computes_einstein hE k1
            (lowerMetric_keeps (lowerMetric_keeps hm h2) k2)
            (inView_keeps h1 k2 h5 o1 (by rw [o3]; exact quantity_temp _ _)) h4 k5)))

/-- What happens to coordinate systems that are not called `TEMP`. -/
def ChartsStay (w w' : World K) : Prop :=
  ∀ (i : Id') o, w.objs[i]? = some o → o.kind = .coordinates → o.name ≠ "TEMP" → ∃ o', w'.objs[i]? = some o' ∧
    o'.kind = o.kind ∧ o'.name = o.name ∧ o'.alive = o.alive ∧ o'.syms = o.syms ∧ o'.trans = o.trans

omit [CommRing K] [DecidableEq K] [Algebra ℚ K] in
theorem leaves_chartsStay {new : Id' → Prop} (h : Leaves new w w') : ChartsStay w w' := by
  intro i o ho _ hn
  obtain ⟨o', e1, e2, e3, -, -, -, -, e4, e5, e6⟩ := h.1 i o ho
  exact ⟨o', e1, e2, e3, (e6 hn).1, e4, e5⟩

omit [CommRing K] [DecidableEq K] [Algebra ℚ K] in
theorem chartsStay_trans {w'' : World K} (h : ChartsStay w w') (h' : ChartsStay w' w'') : ChartsStay w w'' := by
  intro i o ho hk hn
  obtain ⟨o', e1, e2, e3, e4, e5, e6⟩ := h i o ho hk hn
  obtain ⟨o'', f1, f2, f3, f4, f5, f6⟩ := h' i o' e1 (e2.trans hk) (by rw [e3]; exact hn)
  exact ⟨o'', f1, f2.trans e2, f3.trans e3, f4.trans e4, f5.trans e5, f6.trans e6⟩

/-- What `CalcWeylTensor` does when the other tensors are there. -/
theorem provides_computeWeyl (hE : ∀ x, E.simp x = x) (hS : Scene G V w) (hm : LowerMetric G V Dm)
    (hN : NamesOK E G V w Dm.name) (hn : 2 < G.n) {a c s : Id'} {Da Dc Ds : TField K}
    (ha : InView G V a [1, -1, -1, -1] (riemannComps E G) Da)
    (hc : InView G V c [-1, -1] (ricciComps E G) Dc) (hcm : c ≠ G.m) (hcr : c ∈ w.instances)
    (hck : ∃ o, w.objs[c]? = some o ∧ o.kind = .tensor ∧ o.name = Dm.name ++ " Ricci Tensor")
    (hs : InView G V s [] (fun _ => scalarCurvature E G) Ds) :
    Does (computeWeyl E G.m G.n a c s) w fun r w' => ∃ V' D, Scene G V' w' ∧ NamesOK E G V' w' Dm.name ∧
      (∀ t D, V t = some D → D.name ≠ "TEMP" → t ≠ c → V' t = some D) ∧ r ∈ w'.instances ∧
      (∃ o, w'.objs[r]? = some o ∧ o.kind = .tensor ∧ o.name = Dm.name ++ " Weyl Tensor") ∧
      InView G V' r [-1, -1, -1, -1] (weylComps E G) D ∧ ChartsStay w w' ∧
      (∃ o, w'.objs[c]? = some o ∧ o.alive = false) ∧ c ∉ w'.instances ∧
      ∃ t ∈ w'.instances, w.objs.length ≤ t ∧ ∃ o, w'.objs[t]? = some o ∧ o.name = "Result" := by
  obtain ⟨oc, hoc, hock, hocn⟩ := hck
  have hcn : Dc.name = Dm.name ++ " Ricci Tensor" := (scene_object_name hS hc.view hoc).symm.trans hocn
  refine Does.mono (computes_weyl hE hS hm hn ha hc hcm (by rw [hcn]; exact quantity_temp _ .ricci) hcr
    ⟨oc, hoc, hock⟩ hs) ?_
  rintro r w' ⟨V4, w4, t, Dt, D', rfl, h1, h2, h3, h4, h5, h6, h7, ⟨o, h8, h9⟩, h10, h11, h12, h13, h14, h15, h16⟩
  have hcl : c < w.objs.length := view_lt hS hc.view
  have hrc : r ≠ c := fun h => absurd h5.1 (not_le.2 (h ▸ hcl))
  have htc : t ≠ c := fun h => absurd h6.1 (not_le.2 (h ▸ hcl))
  have hon : o.name = Dm.name ++ " Weyl Tensor" := (scene_object_name h1 h12 h8).trans h14
  have hN4 : NamesOK E G V4 w4 Dm.name := by
    refine namesOK_leaves hS hN h3 h4 ?_
    intro i _ _ hi o' ho' q' hq
    rcases hi with rfl | rfl
    · rw [scene_object_name h1 h10 ho', h11] at hq
      exact absurd hq.symm (quantity_result _ _)
    · rw [ho'] at h8; cases h8
      obtain rfl := suffix_inj (q := .weyl) (hon.symm.trans hq)
      exact ⟨h9, D', ⟨h12, h13, h15, h16⟩⟩
  have hdrop : ∀ i D, i ≠ c → V4 i = some D → View.drop V4 c i = some D := fun i D hi hD => by
    unfold View.drop; rw [if_neg hi]; exact hD
  have hmem : ∀ i, i ∈ (afterDelete c w4).instances ↔ i ≠ c ∧ i ∈ w4.instances := fun i =>
    List.Nodup.mem_erase_iff h1.registry.nodup
  obtain ⟨ot, hot⟩ := h6.2.2
  refine ⟨View.drop V4 c, D', h2, ?_, fun i D hD hDn hi => hdrop i D hi (h3 i D hD hDn), (hmem r).2 ⟨hrc, h5.2.1⟩,
    ⟨o, (afterDelete_ne hrc).trans h8, h9, hon⟩, ⟨hdrop r D' hrc h12, h13, h15, h16⟩, ?_, ?_, fun h => ((hmem c).1 h).1 rfl,
    t, (hmem t).2 ⟨htc, h6.2.1⟩, h6.1, ot, (afterDelete_ne htc).trans hot.1,
    (scene_object_name h1 h10 hot.1).trans h11⟩
  · intro q i hi o' ho' hq
    obtain ⟨k1, k2⟩ := (hmem i).1 hi
    rw [afterDelete_ne k1] at ho'
    obtain ⟨e1, D, e2⟩ := hN4 q i k2 o' ho' hq
    exact ⟨e1, D, hdrop i D k1 e2.view, e2.coords, e2.cfg, e2.val⟩
  · refine chartsStay_trans (leaves_chartsStay h4) fun i oi hoi hik _ => ?_
    have hic : i ≠ c := by
      rintro rfl
      obtain ⟨o', q1, q2, -⟩ := h4.1 i oc hoc
      rw [q1] at hoi; cases hoi
      rw [q2, hock] at hik
      cases hik
    exact ⟨oi, (afterDelete_ne hic).trans hoi, rfl, rfl, rfl, rfl, rfl⟩
  · obtain ⟨oc', q1, -⟩ := h4.1 c oc hoc
    refine ⟨{ oc' with alive := false }, ?_, rfl⟩
    show (w4.objs.modify c _)[c]? = _
    rw [List.getElem?_modify]
    simp [q1]

/-- The start of `CalcWeylTensor`. -/
theorem calcWeyl_start (hS : Scene G V w) (hm : LowerMetric G V Dm) :
    calcWeyl E G.m w = unlessNamed (Dm.name ++ " Weyl Tensor") (do
      let riemann ← calcRiemann E G.m
      let ricci ← calcRicci E G.m
      let scalar ← calcScalar E G.m
      computeWeyl E G.m G.n riemann ricci scalar) w := by
  obtain ⟨om, m1, m2⟩ := hS.shows _ _ hm.view
  obtain ⟨oc, c1, -, c2, c3⟩ := hS.chart
  obtain ⟨D, o, h1, h2, h3, -⟩ := hS.metric
  rw [m1] at h2; cases h2
  have hq : requireMetric G.m w = (.ok (), w) := by
    have : isMetric G.m w = (.ok true, w) := by
      unfold isMetric
      simp [PyM.bind_apply, PyM.world, m1, h3]
    unfold requireMetric
    rw [PyM.bind_apply, this]
    rfl
  unfold calcWeyl
  rw [PyM.bind_apply, hq]
  dsimp only
  rw [PyM.bind_apply, getObj_ok m1 m2.alive]
  dsimp only
  rw [m2.name, m2.coords, hm.coords]
  unfold unlessNamed
  rw [PyM.bind_apply, PyM.bind_apply]
  unfold findByName
  dsimp only
  rcases w.instances.find? fun i => (w.objs[i]?).any (hasName (Dm.name ++ " Weyl Tensor")) with _ | t
  · dsimp only
    rw [PyM.bind_apply, getObj_ok c1 c2]
    dsimp only
    rw [c3, hS.dim]
  · rfl

/-- `CalcWeylTensor`. -/
theorem provides_weyl (hE : ∀ x, E.simp x = x) (hS : Scene G V w) (hm : LowerMetric G V Dm)
    (hc : NamesOK E G V w Dm.name) (hn : 2 < G.n) :
    Does (calcWeyl E G.m) w fun r w' => ∃ V' D, Scene G V' w' ∧ NamesOK E G V' w' Dm.name ∧
      (∀ t D, V t = some D → D.name ≠ "TEMP" → D.name ≠ Dm.name ++ " Ricci Tensor" → V' t = some D) ∧
      r ∈ w'.instances ∧
      (∃ o, w'.objs[r]? = some o ∧ o.kind = .tensor ∧ o.name = Dm.name ++ " Weyl Tensor") ∧
      InView G V' r [-1, -1, -1, -1] (weylComps E G) D ∧ ChartsStay w w' := by
  unfold Does
  rw [calcWeyl_start hS hm]
  show Does _ w _
  unfold unlessNamed
  refine Does.step (a := w.instances.find? fun i => (w.objs[i]?).any (hasName (Dm.name ++ " Weyl Tensor"))) rfl ?_
  rcases hf : w.instances.find? fun i => (w.objs[i]?).any (hasName (Dm.name ++ " Weyl Tensor")) with _ | t
  · refine Does.bind (provides_riemann hE hS hm hc) ?_
    rintro a w1 ⟨V1, Da, a1, a2, a3, a4, a5, ⟨oa, a6, -, a6'⟩, a7⟩
    refine Does.bind (provides_ricci hE a1 (lowerMetric_keeps hm a2) a4) ?_
    rintro c w2 ⟨V2, Dc, b1, b2, b3, b4, b5, ⟨oc, b6, b6', b6''⟩, b7⟩
    have hm2 := lowerMetric_keeps (lowerMetric_keeps hm a2) b2
    refine Does.bind (provides_scalar hE b1 hm2 b4) ?_
    rintro s w3 ⟨V3, Ds, c1, c2, c3, c4, c5, -, c7⟩
    have hat : oa.name ≠ "TEMP" := by rw [a6']; exact quantity_temp _ .riemann
    have hct : oc.name ≠ "TEMP" := by rw [b6'']; exact quantity_temp _ .ricci
    obtain ⟨oc', q1, q2, q3, -, -, -, -, -, -, q10⟩ := c3.1 c oc b6
    have hcm : c ≠ G.m := inView_kind_ne b1 b6 (by rw [b6']; decide)
    have hcn : Dc.name = Dm.name ++ " Ricci Tensor" := (scene_object_name b1 b7.view b6).symm.trans b6''
    refine Does.mono (provides_computeWeyl hE c1 (lowerMetric_keeps hm2 c2) c4 hn
      (inView_keeps a1 (keeps_trans b2 c2) a7 a6 hat) (inView_keeps b1 c2 b7 b6 hct) hcm ((q10 hct).2.2 b5)
      ⟨oc', q1, q2.trans b6', q3.trans b6''⟩ c7) ?_
    rintro r w' ⟨V', D, h1, h2, h3, h4, h5, h6, h7, -⟩
    refine ⟨V', D, h1, h2, fun t Dt hDt hDn hDr => ?_, h4, h5, h6, chartsStay_trans (leaves_chartsStay a3)
      (chartsStay_trans (leaves_chartsStay b3) (chartsStay_trans (leaves_chartsStay c3) h7))⟩
    have hk3 := keeps_trans a2 (keeps_trans b2 c2) t Dt hDt hDn
    refine h3 t Dt hk3 hDn fun htc => hDr ?_
    have := inView_keeps b1 c2 b7 b6 hct
    rw [htc, this.view] at hk3
    rw [← Option.some.inj hk3, hcn]
  · have h1 := List.mem_of_find?_eq_some hf
    have h2 := List.find?_some hf
    obtain ⟨o, h3, -⟩ := hS.registry.inUse t h1
    rw [h3] at h2
    have h4 : o.name = Dm.name ++ " Weyl Tensor" := by simpa [hasName] using h2
    obtain ⟨h5, D, h6⟩ := hc .weyl t h1 o h3 h4
    exact Does.pure ⟨V, D, hS, hc, fun t D hD _ _ => hD, h1, ⟨o, h3, h5, h4⟩, h6,
      fun i o ho _ _ => ⟨o, ho, rfl, rfl, rfl, rfl, rfl⟩⟩

/-- A result that is found by its name. -/
theorem unlessNamed_found {name : String} {m : PyM K Id'} {t : Id'} (h : findByName name w = (.ok (some t), w)) :
    unlessNamed name m w = (.ok t, w) := by
  unfold unlessNamed
  rw [PyM.bind_apply, h]
  rfl

omit [DecidableEq K] [Algebra ℚ K] in
/-- The start of the other functions. -/
theorem named_start {α : Type} (hS : Scene G V w) (hm : V G.m = some Dm) (k : String → PyM K α) :
    (do
      requireMetric G.m
      let om ← getObj G.m
      k om.name : PyM K α) w = k Dm.name w := by
  obtain ⟨om, m1, m2⟩ := hS.shows _ _ hm
  obtain ⟨D, o, h1, h2, h3, -⟩ := hS.metric
  rw [m1] at h2; cases h2
  have hq : requireMetric G.m w = (.ok (), w) := by
    have : isMetric G.m w = (.ok true, w) := by
      unfold isMetric
      simp [PyM.bind_apply, PyM.world, m1, h3]
    unfold requireMetric
    rw [PyM.bind_apply, this]
    rfl
  rw [PyM.bind_apply, hq]
  dsimp only
  rw [PyM.bind_apply, getObj_ok m1 m2.alive]
  dsimp only
  rw [m2.name]

/-- The tensor that is found by its name. -/
theorem found_inView (hS : Scene G V w) {base : String} (hc : NamesOK E G V w base) {q : Quantity} {t : Id'}
    (h : findByName (base ++ q.suffix) w = (.ok (some t), w)) :
    t ∈ w.instances ∧ ∃ o, w.objs[t]? = some o ∧ o.kind = q.kind ∧ o.name = base ++ q.suffix ∧
      ∃ D, InView G V t q.ix (q.comps E G) D := by
  have hf : w.instances.find? (fun i => (w.objs[i]?).any (hasName (base ++ q.suffix))) = some t := by
    have := congrArg Prod.fst h
    simpa [findByName] using this
  have h1 := List.mem_of_find?_eq_some hf
  have h2 := List.find?_some hf
  obtain ⟨o, h3, -⟩ := hS.registry.inUse t h1
  rw [h3] at h2
  have h4 : o.name = base ++ q.suffix := by simpa [hasName] using h2
  obtain ⟨h5, h6⟩ := hc q t h1 o h3 h4
  exact ⟨h1, o, h3, h5, h4, h6⟩

/-- `CalcWeylTensor` deletes the Ricci tensor. -/
theorem weyl_deletes (hE : ∀ x, E.simp x = x) (hS : Scene G V w) (hm : LowerMetric G V Dm)
    (hc : NamesOK E G V w Dm.name) (hn : 2 < G.n) {a c s : Id'}
    (hw : findByName (Dm.name ++ " Weyl Tensor") w = (.ok none, w))
    (ha : findByName (Dm.name ++ " Riemann") w = (.ok (some a), w))
    (hr : findByName (Dm.name ++ " Ricci Tensor") w = (.ok (some c), w))
    (hs : findByName (Dm.name ++ " Ricci Scalar") w = (.ok (some s), w)) :
    calcRicci E G.m w = (.ok c, w) ∧ Does (calcWeyl E G.m) w fun _ w' =>
      (∃ o, w'.objs[c]? = some o ∧ o.alive = false) ∧ c ∉ w'.instances ∧
      ∃ t ∈ w'.instances, w.objs.length ≤ t ∧ ∃ o, w'.objs[t]? = some o ∧ o.name = "Result" := by
  have e1 : calcRiemann E G.m w = (.ok a, w) :=
    (named_start hS hm.view (k := fun s => unlessNamed (s ++ " Riemann") _)).trans (unlessNamed_found ha)
  have e2 : calcRicci E G.m w = (.ok c, w) :=
    (named_start hS hm.view (k := fun s => unlessNamed (s ++ " Ricci Tensor") _)).trans (unlessNamed_found hr)
  have e3 : calcScalar E G.m w = (.ok s, w) :=
    (named_start hS hm.view (k := fun s => unlessNamed (s ++ " Ricci Scalar") _)).trans (unlessNamed_found hs)
  refine ⟨e2, ?_⟩
  obtain ⟨-, -, -, -, -, Da, ha'⟩ := found_inView (q := .riemann) hS hc ha
  obtain ⟨r1, oc, r2, r3, r4, Dc, r5⟩ := found_inView (q := .ricci) hS hc hr
  obtain ⟨-, -, -, -, -, Ds, hs'⟩ := found_inView (q := .scalar) hS hc hs
  unfold Does
  rw [calcWeyl_start hS hm]
  show Does _ w _
  unfold unlessNamed
  refine Does.step hw ?_
  refine Does.step e1 (Does.step e2 (Does.step e3 ?_))
  refine Does.mono (provides_computeWeyl hE hS hm hc hn ha' r5 (inView_kind_ne hS r2 (by rw [r3]; decide)) r1
    ⟨oc, r2, r3, r4⟩ hs') ?_
  rintro r w' ⟨V', D, h1, h2, h3, h4, h5, h6, -, h7⟩
  exact h7

/-- In two dimensions `1/(n-2)` cannot be computed. -/
theorem weyl_fails (hE : ∀ x, E.simp x = x) (hS : Scene G V w) (hm : LowerMetric G V Dm)
    (hc : NamesOK E G V w Dm.name) (hn : G.n = 2) (hw : findByName (Dm.name ++ " Weyl Tensor") w = (.ok none, w)) :
    Fails (calcWeyl E G.m) w .zeroDivisionError := by
  unfold Fails
  rw [calcWeyl_start hS hm]
  show Fails _ w _
  unfold unlessNamed
  refine Fails.step hw ?_
  refine Fails.bind (provides_riemann hE hS hm hc) ?_
  rintro a w1 ⟨V1, Da, a1, a2, a3, a4, a5, ⟨oa, a6, -, a6'⟩, a7⟩
  refine Fails.bind (provides_ricci hE a1 (lowerMetric_keeps hm a2) a4) ?_
  rintro c w2 ⟨V2, Dc, b1, b2, b3, b4, b5, -, b7⟩
  have hm2 := lowerMetric_keeps (lowerMetric_keeps hm a2) b2
  refine Fails.bind (provides_scalar hE b1 hm2 b4) ?_
  rintro s w3 ⟨V3, Ds, c1, c2, c3, c4, c5, -, c7⟩
  have hat : oa.name ≠ "TEMP" := by rw [a6']; exact quantity_temp _ .riemann
  have hav := inView_keeps a1 (keeps_trans b2 c2) a7 a6 hat
  have hm3 := lowerMetric_keeps hm2 c2
  have ham : a ≠ G.m := inView_ne hav (inView_metric c1 hm3) (by decide)
  set F : Id' → TField K := fun t => if t = G.m then Dm else Da with hF
  have F2 : F a = Da := if_neg ham
  rw [← F2] at hav
  have ev := formula_evaluates hE c1 (field_ok (F := F) hm3 (if_pos rfl) hav
    (labels := ["i", "k", "l", "m"]) (by decide) rfl)
  unfold computeWeyl
  refine Fails.bind (m := calcInit E a ["i", "k", "l", "m"]) ev fun x w4 _ => ⟨w4, ?_⟩
  rw [hn]
  rfl

omit [CommRing K] [DecidableEq K] [Algebra ℚ K] in
theorem findByName_some {name : String} {i : Id'} (hi : i ∈ w.instances) {o : Obj K} (ho : w.objs[i]? = some o)
    (hn : o.name = name) : ∃ t, findByName name w = (.ok (some t), w) := by
  have h : (w.instances.find? fun i => (w.objs[i]?).any (hasName name)).isSome := by
    rw [List.find?_isSome]
    exact ⟨i, hi, by rw [ho]; simp [hasName, hn]⟩
  obtain ⟨t, ht⟩ := Option.isSome_iff_exists.1 h
  exact ⟨t, by unfold findByName; rw [ht]⟩

omit [CommRing K] [DecidableEq K] [Algebra ℚ K] in
theorem findByName_none {name : String} (h : ∀ i ∈ w.instances, ∀ o, w.objs[i]? = some o → o.name ≠ name) :
    findByName name w = (.ok none, w) := by
  have : (w.instances.find? fun i => (w.objs[i]?).any (hasName name)) = none := by
    rw [List.find?_eq_none]
    intro i hi
    rcases ho : w.objs[i]? with _ | o
    · simp
    · simpa [hasName] using h i hi o ho
  unfold findByName
  rw [this]

omit [CommRing K] [DecidableEq K] [Algebra ℚ K] in
theorem leaves_named {new : Id' → Prop} {w' : World K} (hL : Leaves new w w') {name : String} (hn : name ≠ "TEMP")
    (h : ∃ i ∈ w.instances, ∃ o, w.objs[i]? = some o ∧ o.name = name) :
    ∃ i ∈ w'.instances, ∃ o, w'.objs[i]? = some o ∧ o.name = name := by
  obtain ⟨i, h1, o, h2, h3⟩ := h
  obtain ⟨o', e1, -, e3, -, -, -, -, -, -, e4⟩ := hL.1 i o h2
  exact ⟨i, (e4 (by rw [h3]; exact hn)).2.2 h1, o', e1, e3.trans h3⟩

omit [DecidableEq K] in
theorem leaves_noWeyl {base : String} {w' : World K} (hw : ∀ i ∈ w.instances, i < w.objs.length)
    (hL : Leaves (Derived base w') w w')
    (h : ∀ i ∈ w.instances, ∀ o, w.objs[i]? = some o → o.name ≠ base ++ " Weyl Tensor") :
    ∀ i ∈ w'.instances, ∀ o, w'.objs[i]? = some o → o.name ≠ base ++ " Weyl Tensor" := by
  intro i hi o ho hn
  by_cases hlt : i < w.objs.length
  · obtain ⟨o', e1, -, e3, -, -, -, -, -, -, e4⟩ := hL.1 i _ (List.getElem?_eq_getElem hlt)
    rw [ho] at e1; cases e1
    have hnt : w.objs[i].name ≠ "TEMP" := by rw [← e3, hn]; exact quantity_temp base .weyl
    exact h i ((e4 hnt).2.1 hi) _ (List.getElem?_eq_getElem hlt) (e3.symm.trans hn)
  · rcases hL.2 i hi (Nat.le_of_not_lt hlt) with ⟨o', e1, q, e2, e3⟩ | ⟨o', e1, e2⟩
    · rw [ho] at e1; cases e1
      exact e2 (suffix_inj (e3.symm.trans hn))
    · rw [ho] at e1; cases e1
      exact quantity_temp base .weyl (hn.symm.trans e2)

omit [CommRing K] [DecidableEq K] [Algebra ℚ K] in
theorem hL_length {new : Id' → Prop} {w' : World K} (hL : Leaves new w w') : w.objs.length ≤ w'.objs.length := by
  by_contra h
  obtain ⟨o', e1, -⟩ := hL.1 w'.objs.length _ (List.getElem?_eq_getElem (Nat.lt_of_not_le h))
  exact absurd (List.getElem?_eq_some_iff.1 e1).1 (lt_irrefl _)

/-- The Ricci tensor that a user holds is deleted by `CalcWeylTensor`. -/
theorem weyl_destroys (hE : ∀ x, E.simp x = x) (hS : Scene G V w) (hm : LowerMetric G V Dm)
    (hc : NamesOK E G V w Dm.name) (hn : 2 < G.n)
    (hw : ∀ i ∈ w.instances, ∀ o, w.objs[i]? = some o → o.name ≠ Dm.name ++ " Weyl Tensor") :
    Does (do
      let _ ← calcRiemann E G.m
      let _ ← calcRicci E G.m
      let _ ← calcScalar E G.m
      let c ← calcRicci E G.m
      let _ ← calcWeyl E G.m
      return c) w fun c w' => (∃ o, w'.objs[c]? = some o ∧ o.alive = false) ∧ c ∉ w'.instances ∧
      ∃ t ∈ w'.instances, w.objs.length ≤ t ∧ ∃ o, w'.objs[t]? = some o ∧ o.name = "Result" := by
  have hlt : ∀ {V' : View K} {w' : World K}, Scene G V' w' → ∀ i ∈ w'.instances, i < w'.objs.length :=
    fun h i hi => by
      obtain ⟨o, h1, -⟩ := h.registry.inUse i hi
      exact (List.getElem?_eq_some_iff.1 h1).1
  refine Does.bind (provides_riemann hE hS hm hc) ?_
  rintro a w1 ⟨V1, Da, a1, a2, a3, a4, a5, ⟨oa, a6, -, a6'⟩, a7⟩
  have n1 := leaves_noWeyl (hlt hS) a3 hw
  have hm1 := lowerMetric_keeps hm a2
  refine Does.bind (provides_ricci hE a1 hm1 a4) ?_
  rintro b w2 ⟨V2, Db, b1, b2, b3, b4, b5, ⟨ob, b6, -, b6'⟩, b7⟩
  have n2 := leaves_noWeyl (hlt a1) b3 n1
  have hm2 := lowerMetric_keeps hm1 b2
  refine Does.bind (provides_scalar hE b1 hm2 b4) ?_
  rintro s w3 ⟨V3, Ds, c1, c2, c3, c4, c5, ⟨oc, c6, -, c6'⟩, c7⟩
  have n3 := leaves_noWeyl (hlt b1) c3 n2
  have hm3 := lowerMetric_keeps hm2 c2
  obtain ⟨ia, ha, oa', ha', ha''⟩ := leaves_named c3 (quantity_temp _ .riemann)
    (leaves_named b3 (quantity_temp _ .riemann) ⟨a, a5, oa, a6, a6'⟩)
  obtain ⟨ib, hb, ob', hb', hb''⟩ := leaves_named c3 (quantity_temp _ .ricci) ⟨b, b5, ob, b6, b6'⟩
  obtain ⟨ta, hta⟩ := findByName_some ha ha' ha''
  obtain ⟨tb, htb⟩ := findByName_some hb hb' hb''
  obtain ⟨ts, hts⟩ := findByName_some c5 c6 c6'
  obtain ⟨h1, h2⟩ := weyl_deletes hE c1 hm3 c4 hn (findByName_none n3) hta htb hts
  have hl : w.objs.length ≤ w3.objs.length := by
    have := hL_length a3
    have := hL_length b3
    have := hL_length c3
    omega
  refine Does.step h1 ?_
  refine Does.bind h2 ?_
  rintro r w4 ⟨d1, d2, t, d3, d4, d5⟩
  exact Does.pure ⟨d1, d2, t, d3, hl.trans d4, d5⟩

end PyOGRe
