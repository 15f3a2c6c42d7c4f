import Verif.Lemmas.UpperMetric
import Verif.Spec.Curved

/-!
# Christoffel symbols and curvature: C35-C39, C52, C53

The session is in some state `w` in which the metric `G.m` is what it should be (`Scene`), and registered
objects that have the name of a tensor computed from it are that tensor (`NamesOK`).  Both hold after the
metric has been declared, and again after each of the computations (`C52_named_partial`).
-/

namespace PyOGRe
open Spec Finset
variable {K : Type} [CommRing K] [DecidableEq K] [Algebra ℚ K] {E : Engine K} {G : Ground K} {V : View K}
  {w : World K} {Dm : TField K}

/-- A tensor that is in view is what `get_components` shows. -/
theorem C35_components (hE : EngineOK E) (hS : Scene G V w) {t : Id'} {D : TField K} (ht : V t = some D)
    (hc : D.coords = G.c) :
    Does (getComponents E t none none) w fun a _ => Agree G.n D.ix.length a D.val :=
  Does.mono (scene_getDefault hE.simp_eq hS ht hc) fun _ _ h => h.2.2

theorem returns_of_provides {q : Quantity} {m : PyM K Id'} {base : String} {P : TField K → Prop}
    (h : Provides E G V w base m q)
    (hP : ∀ D, (∀ J, J.length = q.ix.length → (∀ x ∈ J, x < G.n) → D.val J = q.comps E G J) → D.ix = q.ix → P D) :
    Returns G w m q.ix P := by
  refine Does.mono h ?_
  rintro r w' ⟨V', D, h1, -, -, -, h2, -, h3⟩
  exact ⟨V', D, h1, h2, h3.view, h3.coords, h3.cfg, hP D h3.val h3.cfg⟩

/-! ## C35: Christoffel symbols -/

/-- **C35** (for metrics with the default configuration (-1,-1)). -/
theorem C35_christoffel_partial (hE : EngineOK E) (hS : Scene G V w) (hm : LowerMetric G V Dm)
    (hN : NamesOK E G V w Dm.name) :
    Returns G w (calcChristoffel E G.m) [1, -1, -1] fun D =>
      (∀ l m n, l < G.n → m < G.n → n < G.n → D.val [l, m, n] = rat (1 / 2) * ∑ s ∈ range G.n,
        G.gi l s * (G.d E m (G.g n s) + G.d E n (G.g s m) - G.d E s (G.g m n))) ∧
      ∀ l m n, l < G.n → m < G.n → n < G.n → D.val [l, m, n] = D.val [l, n, m] := by
  refine returns_of_provides (provides_christoffel hE.simp_eq hS hm hN) fun D hD _ => ?_
  have hv : ∀ l m n, l < G.n → m < G.n → n < G.n → D.val [l, m, n] = christoffel E G l m n :=
    fun l m n hl hm' hn => hD _ rfl (by simp [hl, hm', hn])
  refine ⟨hv, fun l m n hl hm' hn => ?_⟩
  rw [hv l m n hl hm' hn, hv l n m hl hn hm']
  unfold christoffel
  refine congrArg _ (Finset.sum_congr rfl fun s hs => ?_)
  have hs' := Finset.mem_range.1 hs
  rw [hS.symm n s hn hs', hS.symm s m hs' hm', hS.symm m n hm' hn]
  ring

/-- **C35** is false for metrics with the default configuration (1,1): the sign of every component is wrong. -/
theorem C35_upper_sign (hE : EngineOK E) (hC : Calculus E) (hS : Scene G V w) (hm : UpperMetric G V Dm)
    (hN : ∀ i ∈ w.instances, ∀ o, w.objs[i]? = some o → o.name ≠ Dm.name ++ " Christoffel") :
    Returns G w (calcChristoffel E G.m) [1, -1, -1] fun D =>
      ∀ l m n, l < G.n → m < G.n → n < G.n → D.val [l, m, n] = -christoffel E G l m n := by
  refine does_named hS hm.view (k := fun s => unlessNamed (s ++ " Christoffel") (computeChristoffel E G.m)) ?_
  unfold unlessNamed
  refine Does.step (findByName_none hN) (Does.mono (does_upperChristoffel hE.simp_eq hC hS hm) ?_)
  rintro r w' ⟨V', D, h1, -, -, h2, -, h3, h4, -, h5, h6⟩
  exact ⟨V', D, h1, h2.2.1, h3, h4, h5, h6⟩

theorem C35_false : ∃ (E : Engine Poly) (G : Ground Poly) (V : View Poly) (w : World Poly) (Dm : TField Poly),
    EngineOK E ∧ Calculus E ∧ Scene G V w ∧ UpperMetric G V Dm ∧
    Returns G w (calcChristoffel E G.m) [1, -1, -1] fun D => D.val [2, 0, 1] ≠ christoffel E G 2 0 1 := by
  obtain ⟨G, V, w, h1, h2, h3, h4, h5⟩ := curved_upper
  refine ⟨polyEngine, G, V, w, _, polyEngine_ok, polyEngine_calculus, h1, h3, ?_⟩
  refine Does.mono (C35_upper_sign polyEngine_ok polyEngine_calculus h1 h3 fun i hi o ho hn => ?_) ?_
  · rcases h4 i hi o ho with h | h <;> rw [h] at hn <;> exact absurd hn (by decide)
  · rintro r w' ⟨V', D, e1, e2, e3, e4, e5, e6⟩
    refine ⟨V', D, e1, e2, e3, e4, e5, ?_⟩
    show D.val [2, 0, 1] ≠ _
    rw [e6 2 0 1 (by omega) (by omega) (by omega), h5]
    intro h
    have : (rat (1 / 2) + rat (1 / 2) : Poly) = 0 := by
      linear_combination -h
    rw [show (rat (1 / 2) : Poly) = algebraMap ℚ Poly (1 / 2) from rfl, ← map_add] at this
    norm_num at this

/-- The hypotheses of C35 to C39 hold after a curved metric has been declared; its Christoffel symbols do not
vanish. -/
example : ∃ (G : Ground Poly) (V : View Poly) (w : World Poly) (Dm : TField Poly), EngineOK polyEngine ∧
    Calculus polyEngine ∧ Scene G V w ∧ LowerMetric G V Dm ∧ NamesOK polyEngine G V w Dm.name ∧ 2 < G.n ∧
    christoffel polyEngine G 2 0 1 = -rat (1 / 2) := by
  obtain ⟨G, V, w, h1, h2, -, h3, h4, h5⟩ := curved
  exact ⟨G, V, w, _, polyEngine_ok, polyEngine_calculus, h1, h3, curved_names h4, by omega, h5⟩

/-! ## C36: the Riemann tensor -/

/-- **C36** (for metrics with the default configuration (-1,-1)). -/
theorem C36_riemann_partial (hE : EngineOK E) (hC : Calculus E) (hS : Scene G V w) (hm : LowerMetric G V Dm)
    (hN : NamesOK E G V w Dm.name) :
    Returns G w (calcRiemann E G.m) [1, -1, -1, -1] fun D =>
      (∀ r s m n, r < G.n → s < G.n → m < G.n → n < G.n → D.val [r, s, m, n] =
        G.d E m (christoffel E G r n s) - G.d E n (christoffel E G r m s) +
          ∑ l ∈ range G.n, christoffel E G r m l * christoffel E G l n s -
          ∑ l ∈ range G.n, christoffel E G r n l * christoffel E G l m s) ∧
      (∀ r s m n, r < G.n → s < G.n → m < G.n → n < G.n → D.val [r, s, m, n] = -D.val [r, s, n, m]) ∧
      (∀ r s m n, r < G.n → s < G.n → m < G.n → n < G.n →
        D.val [r, s, m, n] + D.val [r, m, n, s] + D.val [r, n, s, m] = 0) ∧
      (∀ r s m n, r < G.n → s < G.n → m < G.n → n < G.n →
        D.comp G [-1, -1, -1, -1] [r, s, m, n] = -D.comp G [-1, -1, -1, -1] [s, r, m, n]) ∧
      ∀ r s m n, r < G.n → s < G.n → m < G.n → n < G.n →
        D.comp G [-1, -1, -1, -1] [r, s, m, n] = D.comp G [-1, -1, -1, -1] [m, n, r, s] := by
  refine returns_of_provides (provides_riemann hE.simp_eq hS hm hN) fun D hD hix => ?_
  have hv : ∀ r s m n, r < G.n → s < G.n → m < G.n → n < G.n → D.val [r, s, m, n] = riemann E G r s m n :=
    fun r s m n hr hs hm' hn => hD _ rfl (by simp [hr, hs, hm', hn])
  have hlow : ∀ r s m n, r < G.n → s < G.n → m < G.n → n < G.n →
      D.comp G [-1, -1, -1, -1] [r, s, m, n] = riemannLow E G r s m n := by
    intro r s m n hr hs hm' hn
    rw [comp_first hix (by rfl) (by simp [hs, hm', hn])]
    exact Finset.sum_congr rfl fun k hk => by rw [hv k s m n (Finset.mem_range.1 hk) hs hm' hn]; rfl
  refine ⟨hv, ?_, ?_, ?_, ?_⟩ <;> intro r s m n hr hs hm' hn
  · rw [hv r s m n hr hs hm' hn, hv r s n m hr hs hn hm']
    exact riemann_antisymm hC hS.inverse hS.symm hr hs hm' hn
  · rw [hv r s m n hr hs hm' hn, hv r m n s hr hm' hn hs, hv r n s m hr hn hs hm']
    exact riemann_cyclic hC hS.inverse hS.symm hr hs hm' hn
  · rw [hlow r s m n hr hs hm' hn, hlow s r m n hs hr hm' hn]
    exact riemannLow_first hC hS.inverse hS.symm hr hs hm' hn
  · rw [hlow r s m n hr hs hm' hn, hlow m n r s hm' hn hr hs]
    exact riemannLow_pairs hC hS.inverse hS.symm hr hs hm' hn

/-! ## C37: the Ricci tensor and the Ricci scalar -/

/-- **C37** (for metrics with the default configuration (-1,-1)). -/
theorem C37_ricci_partial (hE : EngineOK E) (hC : Calculus E) (hS : Scene G V w) (hm : LowerMetric G V Dm)
    (hN : NamesOK E G V w Dm.name) :
    Returns G w (calcRicci E G.m) [-1, -1] fun D =>
      (∀ m n, m < G.n → n < G.n → D.val [m, n] = ∑ l ∈ range G.n, riemann E G l m l n) ∧
      ∀ m n, m < G.n → n < G.n → D.val [m, n] = D.val [n, m] := by
  refine returns_of_provides (provides_ricci hE.simp_eq hS hm hN) fun D hD _ => ?_
  have hv : ∀ m n, m < G.n → n < G.n → D.val [m, n] = ricci E G m n :=
    fun m n hm' hn => hD _ rfl (by simp [hm', hn])
  refine ⟨hv, fun m n hm' hn => ?_⟩
  rw [hv m n hm' hn, hv n m hn hm']
  exact ricci_symm hC hS.inverse hS.symm hm' hn

theorem C37_scalar_partial (hE : EngineOK E) (hS : Scene G V w) (hm : LowerMetric G V Dm)
    (hN : NamesOK E G V w Dm.name) :
    Returns G w (calcScalar E G.m) [] fun D =>
      D.val [] = ∑ m ∈ range G.n, ∑ n ∈ range G.n, G.gi m n * ricci E G m n :=
  returns_of_provides (provides_scalar hE.simp_eq hS hm hN) fun _ hD _ => hD [] rfl (by simp)

/-! ## C38: the Einstein tensor -/

/-- **C38** (for metrics with the default configuration (-1,-1)). -/
theorem C38_einstein_partial (hE : EngineOK E) (hC : Calculus E) (hS : Scene G V w) (hm : LowerMetric G V Dm)
    (hN : NamesOK E G V w Dm.name) :
    Returns G w (calcEinstein E G.m) [-1, -1] fun D =>
      (∀ m n, m < G.n → n < G.n →
        D.val [m, n] = ricci E G m n - rat (1 / 2) * scalarCurvature E G * G.g m n) ∧
      (∀ m n, m < G.n → n < G.n → D.val [m, n] = D.val [n, m]) ∧
      (∑ m ∈ range G.n, ∑ n ∈ range G.n, G.gi m n * D.val [m, n] =
        rat (1 - (G.n : ℚ) / 2) * scalarCurvature E G) ∧
      ∀ n, n < G.n → divergence2 E G (fun a b => D.val [a, b]) n = 0 := by
  refine returns_of_provides (provides_einstein hE.simp_eq hS hm hN) fun D hD _ => ?_
  have hv : ∀ m n, m < G.n → n < G.n → D.val [m, n] = einstein E G m n :=
    fun m n hm' hn => hD _ rfl (by simp [hm', hn])
  refine ⟨hv, fun m n hm' hn => ?_, ?_, fun n hn => ?_⟩
  · rw [hv m n hm' hn, hv n m hn hm']
    exact einstein_symm hC hS.inverse hS.symm hm' hn
  · rw [← einstein_trace hC hS.inverse hS.symm]
    exact Finset.sum_congr rfl fun m hm' => Finset.sum_congr rfl fun n hn => by
      rw [hv m n (Finset.mem_range.1 hm') (Finset.mem_range.1 hn)]
  · rw [← einstein_divergence hC hS.inverse hS.symm hn]
    unfold divergence2
    refine Finset.sum_congr rfl fun k hk => Finset.sum_congr rfl fun m hm' => ?_
    have hm'' := Finset.mem_range.1 hm'
    dsimp only
    have e1 : ∑ l ∈ range G.n, christoffel E G l k m * D.val [l, n] =
        ∑ l ∈ range G.n, christoffel E G l k m * einstein E G l n :=
      Finset.sum_congr rfl fun l hl => by rw [hv l n (Finset.mem_range.1 hl) hn]
    have e2 : ∑ l ∈ range G.n, christoffel E G l k n * D.val [m, l] =
        ∑ l ∈ range G.n, christoffel E G l k n * einstein E G m l :=
      Finset.sum_congr rfl fun l hl => by rw [hv m l hm'' (Finset.mem_range.1 hl)]
    rw [hv m n hm'' hn, e1, e2]

/-! ## C39: the Weyl tensor -/

/-- **C39** (for metrics with the default configuration (-1,-1)), in dimension at least 3. -/
theorem C39_weyl_partial (hE : EngineOK E) (hC : Calculus E) (hS : Scene G V w) (hm : LowerMetric G V Dm)
    (hN : NamesOK E G V w Dm.name) (hn : 2 < G.n) :
    Returns G w (calcWeyl E G.m) [-1, -1, -1, -1] fun D =>
      (∀ a b c d, a < G.n → b < G.n → c < G.n → d < G.n → D.val [a, b, c, d] = weyl E G a b c d) ∧
      (∀ a b c d, a < G.n → b < G.n → c < G.n → d < G.n → D.val [a, b, c, d] = -D.val [b, a, c, d]) ∧
      (∀ a b c d, a < G.n → b < G.n → c < G.n → d < G.n → D.val [a, b, c, d] = -D.val [a, b, d, c]) ∧
      (∀ a b c d, a < G.n → b < G.n → c < G.n → d < G.n → D.val [a, b, c, d] = D.val [c, d, a, b]) ∧
      (∀ a b c d, a < G.n → b < G.n → c < G.n → d < G.n →
        D.val [a, b, c, d] + D.val [a, c, d, b] + D.val [a, d, b, c] = 0) ∧
      ∀ b d, b < G.n → d < G.n → ∑ a ∈ range G.n, ∑ c ∈ range G.n, G.gi a c * D.val [a, b, c, d] = 0 := by
  refine Does.mono (provides_weyl hE.simp_eq hS hm hN hn) ?_
  rintro r w' ⟨V', D, h1, -, -, h2, -, h3, -⟩
  refine ⟨V', D, h1, h2, h3.view, h3.coords, h3.cfg, ?_⟩
  have hv : ∀ a b c d, a < G.n → b < G.n → c < G.n → d < G.n → D.val [a, b, c, d] = weyl E G a b c d :=
    fun a b c d ha hb hc hd => h3.val _ rfl (by simp [ha, hb, hc, hd])
  refine ⟨hv, ?_, ?_, ?_, ?_, ?_⟩
  · intro a b c d ha hb hc hd
    rw [hv a b c d ha hb hc hd, hv b a c d hb ha hc hd]
    exact weyl_first hC hS.inverse hS.symm ha hb hc hd
  · intro a b c d ha hb hc hd
    rw [hv a b c d ha hb hc hd, hv a b d c ha hb hd hc]
    exact weyl_last hC hS.inverse hS.symm ha hb hc hd
  · intro a b c d ha hb hc hd
    rw [hv a b c d ha hb hc hd, hv c d a b hc hd ha hb]
    exact weyl_pairs hC hS.inverse hS.symm ha hb hc hd
  · intro a b c d ha hb hc hd
    rw [hv a b c d ha hb hc hd, hv a c d b ha hc hd hb, hv a d b c ha hd hb hc]
    exact weyl_cyclic hC hS.inverse hS.symm ha hb hc hd
  · intro b d hb hd
    rw [← weyl_trace hC hS.inverse hS.symm hb hd hn]
    exact Finset.sum_congr rfl fun a ha => Finset.sum_congr rfl fun c hc => by
      rw [hv a b c d (Finset.mem_range.1 ha) hb (Finset.mem_range.1 hc) hd]

/-- **C39** In dimension 2 there is no Weyl tensor. -/
theorem C39_two_dimensions (hE : EngineOK E) (hS : Scene G V w) (hm : LowerMetric G V Dm)
    (hN : NamesOK E G V w Dm.name) (hn : G.n = 2)
    (hw : ∀ i ∈ w.instances, ∀ o, w.objs[i]? = some o → o.name ≠ Dm.name ++ " Weyl Tensor") :
    Fails (calcWeyl E G.m) w .zeroDivisionError :=
  weyl_fails hE.simp_eq hS hm hN hn (findByName_none hw)

/-- The flat metric of the plane. -/
example : ∃ (G : Ground Poly) (V : View Poly) (w : World Poly) (Dm : TField Poly), EngineOK polyEngine ∧
    Scene G V w ∧ LowerMetric G V Dm ∧ NamesOK polyEngine G V w Dm.name ∧ G.n = 2 ∧
    ∀ i ∈ w.instances, ∀ o, w.objs[i]? = some o → o.name ≠ Dm.name ++ " Weyl Tensor" := by
  obtain ⟨b, -, hS⟩ := scene_start polyEngine_ok uvWorld_registry (show flat.WF from rfl) (by decide) rfl rfl
    (by simp [uvWorld]) flatWorld_eq
  obtain ⟨o, h1, -⟩ := flatWorld_objs
  have hnames : ∀ i ∈ flatWorld.instances, ∀ o, flatWorld.objs[i]? = some o →
      o.name = "Cartesian" ∨ o.name = "Parabolic" ∨ o.name = "Flat" := by
    intro i hi oi hoi
    match i, hoi with
    | 0, hoi => rw [h1] at hoi; cases hoi; exact Or.inl rfl
    | 1, hoi => rw [h1] at hoi; cases hoi; exact Or.inr (Or.inl rfl)
    | 2, hoi => exact Or.inr (Or.inr (scene_object_name hS (if_pos rfl) hoi))
    | i + 3, hoi => rw [h1] at hoi; simp [uvWorld] at hoi
  refine ⟨_, _, flatWorld, ⟨"Flat", 0, [-1, -1], flat.get⟩, polyEngine_ok, hS,
    ⟨if_pos rfl, by decide, rfl, rfl⟩, ?_, rfl, ?_⟩
  · intro q i hi o ho hn
    rcases hnames i hi o ho with h | h | h <;> rw [h] at hn <;> cases q <;> exact absurd hn (by decide)
  · intro i hi o ho hn
    rcases hnames i hi o ho with h | h | h <;> rw [h] at hn <;> exact absurd hn (by decide)

/-! ## C52: the results are found by name -/

/-- **C52** If registered objects with the names of computed tensors are what their names say, then the
computations return the tensor of the given metric, and so do later computations. -/
theorem C52_named_partial (hE : EngineOK E) (hS : Scene G V w) (hm : LowerMetric G V Dm)
    (hN : NamesOK E G V w Dm.name) :
    Provides E G V w Dm.name (calcChristoffel E G.m) .christoffel ∧
    Provides E G V w Dm.name (calcRiemann E G.m) .riemann ∧
    Provides E G V w Dm.name (calcRicci E G.m) .ricci ∧
    Provides E G V w Dm.name (calcScalar E G.m) .scalar ∧
    Provides E G V w Dm.name (calcEinstein E G.m) .einstein :=
  ⟨provides_christoffel hE.simp_eq hS hm hN, provides_riemann hE.simp_eq hS hm hN, provides_ricci hE.simp_eq hS hm hN,
    provides_scalar hE.simp_eq hS hm hN, provides_einstein hE.simp_eq hS hm hN⟩

/-- Whatever object is first found with this name is returned, for every metric of this name. -/
theorem C52_found_by_name {m t : Id'} {om : Obj K} (h1 : w.objs[m]? = some om) (h2 : om.kind = .metric)
    (h3 : om.alive = true) (h4 : findByName (om.name ++ " Christoffel") w = (.ok (some t), w)) :
    calcChristoffel E m w = (.ok t, w) := by
  have hq : requireMetric m w = (.ok (), w) := by
    have : isMetric m w = (.ok true, w) := by
      unfold isMetric
      simp [PyM.bind_apply, PyM.world, h1, h2]
    unfold requireMetric
    rw [PyM.bind_apply, this]
    rfl
  show (do
    requireMetric m
    let om ← getObj m
    unlessNamed (om.name ++ " Christoffel") (computeChristoffel E m) : PyM K Id') w = _
  rw [PyM.bind_apply, hq]
  dsimp only
  rw [PyM.bind_apply, getObj_ok h1 h3]
  exact unlessNamed_found h4

theorem find?_congr_mem {α : Type} {l : List α} {p q : α → Bool} (h : ∀ x ∈ l, p x = q x) : l.find? p = l.find? q := by
  induction l with
  | nil => rfl
  | cons a l ih =>
    rw [List.find?_cons, List.find?_cons, h a (by simp), ih fun x hx => h x (by simp [hx])]

omit [CommRing K] [DecidableEq K] [Algebra ℚ K] in
theorem frame_findByName {w' : World K} (h : Frame w w') {name : String} {r : Option Id'}
    (hr : findByName name w = (.ok r, w)) : findByName name w' = (.ok r, w') := by
  have hf : w.instances.find? (fun i => (w.objs[i]?).any (hasName name)) = r := by
    have := congrArg Prod.fst hr
    simpa [findByName] using this
  show (Except.ok (w'.instances.find? fun i => (w'.objs[i]?).any (hasName name)), w') = _
  rw [h.2, ← hf]
  refine congrArg (fun x => (Except.ok x, w')) (find?_congr_mem fun i _ => ?_)
  have h1 : (w'.objs.map Obj.core)[i]? = (w.objs.map Obj.core)[i]? := by rw [h.1]
  rw [List.getElem?_map, List.getElem?_map] at h1
  rcases h2 : w'.objs[i]? with _ | o' <;> rcases h3 : w.objs[i]? with _ | o <;> rw [h2, h3] at h1
  · cases h1
  · cases h1
  · have h4 : o'.core = o.core := Option.some.inj h1
    have h5 : o'.name = o.name := congrArg (fun c => c.2.1) h4
    simp [hasName, h5]

/-- **C52** is false: a second metric with the same name, here the Euclidean one, gets the Christoffel symbols of
the first one. -/
theorem C52_false : ∃ (E : Engine Poly) (w : World Poly) (a : Arr Poly), EngineOK E ∧
    (∀ i j, i < 3 → j < 3 → entry a i j = delta i j) ∧
    Does (do
      let c ← calcChristoffel E 1
      let comps ← getComponents E c none none
      let m ← newMetric E (.val "Nil") (.val a) 0 (.tuple [-1, -1]) (.val "eta")
      let c' ← calcChristoffel E m
      return (c, c', comps)) w fun (c, c', comps) _ => c' = c ∧ comps.get [2, 0, 1] = -rat (1 / 2) := by
  obtain ⟨G, V, w, h1, h2, hm, h3, h4, h5⟩ := curved
  refine ⟨polyEngine, w, eye 3, polyEngine_ok, fun i j hi hj => entry_eye hi hj, ?_⟩
  have hNm : ∀ i ∈ w.instances, ∀ o, w.objs[i]? = some o → o.name ≠ "Nil Christoffel" := by
    intro i hi o ho hn
    rcases h4 i hi o ho with h | h <;> rw [h] at hn <;> exact absurd hn (by decide)
  have hc : Does (calcChristoffel polyEngine G.m) w fun r w1 => ∃ V1 D, Scene G V1 w1 ∧ V1 r = some D ∧
      D.coords = G.c ∧ D.ix = [1, -1, -1] ∧ D.val [2, 0, 1] = -rat (1 / 2) ∧
      findByName "Nil Christoffel" w1 = (.ok (some r), w1) := by
    refine does_named h1 h3.view (k := fun s => unlessNamed (s ++ " Christoffel") (computeChristoffel polyEngine G.m)) ?_
    unfold unlessNamed
    refine Does.step (findByName_none hNm) (Does.mono (does_computeChristoffel polyEngine_ok.simp_eq h1 h3) ?_)
    rintro r w1 ⟨V1, D, e1, e2, e3, e4, -, e5, e6, e7, e8, e9⟩
    refine ⟨V1, D, e1, e5, e6, e8, by rw [e9 2 0 1 (by omega) (by omega) (by omega), h5], ?_⟩
    obtain ⟨o, o1, -⟩ := e1.shows _ _ e5
    obtain ⟨t, ht⟩ := findByName_some e4.2.1 o1 ((scene_object_name e1 e5 o1).trans e7)
    have hf : w1.instances.find? (fun i => (w1.objs[i]?).any (hasName "Nil Christoffel")) = some t := by
      have := congrArg Prod.fst ht
      simpa [findByName] using this
    have t1 := List.mem_of_find?_eq_some hf
    have t2 := List.find?_some hf
    obtain ⟨ot, t3, -⟩ := e1.registry.inUse t t1
    rw [t3] at t2
    have t4 : ot.name = "Nil Christoffel" := by simpa [hasName] using t2
    by_cases hlt : t < w.objs.length
    · obtain ⟨o', k1, -, k3, -, -, -, -, -, -, k4⟩ := e3.1 t _ (List.getElem?_eq_getElem hlt)
      rw [t3] at k1; cases k1
      have hnt : w.objs[t].name ≠ "TEMP" := by rw [← k3, t4]; decide
      exact absurd (k3.symm.trans t4) (hNm t ((k4 hnt).2.1 t1) _ (List.getElem?_eq_getElem hlt))
    · rcases e3.2 t t1 (Nat.le_of_not_lt hlt) with rfl | ⟨o', k1, k2⟩
      · exact ht
      · rw [t3] at k1; cases k1
        rw [t4] at k2
        exact absurd k2 (by decide)
  rw [hm] at hc
  refine Does.bind hc ?_
  rintro r w1 ⟨V1, D, e1, e2, e3, e4, e5, e6⟩
  refine Does.bind (scene_getDefault polyEngine_ok.simp_eq e1 e2 e3) ?_
  rintro comps w2 ⟨k1, k2, k3⟩
  have hval : comps.get [2, 0, 1] = -rat (1 / 2) := by
    rw [k3.2.2 [2, 0, 1] (by rw [e4]; rfl) (by simp; omega), e5]
  have hfind : findByName "Nil Christoffel" w2 = (.ok (some r), w2) := frame_findByName k2 e6
  obtain ⟨oc, c1, c2, c3, c4⟩ := k1.chart
  have hlen : oc.syms.length = 3 := by rw [c4, k1.dim, h2]
  have hc0 : G.c = 0 := h3.coords.symm
  rw [hc0] at c1
  obtain ⟨m, w3, n1, n2, o, n3, n4, n5, n6, -⟩ := (C20_metric_constructor polyEngine polyEngine_total _ _ _ _ _ _).1
    (show MetricArgsOK polyEngine w2 (.val "Nil") (.val (eye 3)) 0 (.tuple [-1, -1]) (.val "eta") from
      ⟨⟨_, rfl⟩, ⟨_, rfl⟩, Or.inl rfl, oc, eye 3, c1, c2, c3, rfl, by rw [hlen]; rfl, by
        rw [hlen]
        intro i j hi hj
        rw [entry_eye hi hj, entry_eye hj hi]
        simp [delta, eq_comm], polyEngine_det rfl (inverse_congr (inverse_delta 3)
          (fun i j hi hj => (entry_eye hi hj).symm) fun i j hi hj => rfl)⟩)
  have hname : o.name = "Nil" := by
    rcases newMetric_cases polyEngine (.val "Nil") (eye 3) 0 (.tuple [-1, -1]) (.val "eta") w2 with
      ⟨e, h⟩ | ⟨oc, -, -, -, -, -, -, ⟨e, -, h⟩ | ⟨b, -, h⟩⟩
    · rw [n1] at h; cases h
    · rw [n1] at h; cases h
    · rw [n1] at h
      obtain ⟨-, hw⟩ := Prod.mk.inj h
      rw [hw] at n3
      have := List.append_cancel_left n3
      cases this
      rfl
  have hlast : findByName (o.name ++ " Christoffel") w3 = (.ok (some r), w3) := by
    rw [hname]
    have hf : w2.instances.find? (fun i => (w2.objs[i]?).any (hasName "Nil Christoffel")) = some r := by
      have := congrArg Prod.fst hfind
      simpa [findByName] using this
    show (Except.ok (w3.instances.find? fun i => (w3.objs[i]?).any (hasName "Nil Christoffel")), w3) = _
    have hx : w2.instances.find? (fun i => (w3.objs[i]?).any (hasName "Nil Christoffel")) = some r := by
      rw [← hf]
      refine find?_congr_mem fun i hi => ?_
      obtain ⟨oi, hoi, -⟩ := k1.registry.inUse i hi
      rw [n3, getElem?_append_old hoi, hoi]
    rw [n2, List.find?_append, hx]
    rfl
  refine Does.bind (Q := fun m' w' => m' = m ∧ w' = w3) ⟨m, w3, n1, rfl, rfl⟩ ?_
  rintro m' w3' ⟨rfl, rfl⟩
  exact Does.step (C52_found_by_name n4 n5 n6 hlast) (Does.pure ⟨rfl, hval⟩)

/-! ## C53: the Weyl tensor and the Ricci tensor -/

/-- **C53** is false: in dimension at least 3 the computation of the Weyl tensor deletes the Ricci tensor that
the user has, and leaves an intermediate tensor registered. -/
theorem C53_ricci_deleted (hE : EngineOK E) (hS : Scene G V w) (hm : LowerMetric G V Dm)
    (hN : NamesOK E G V w Dm.name) (hn : 2 < G.n)
    (hw : ∀ i ∈ w.instances, ∀ o, w.objs[i]? = some o → o.name ≠ Dm.name ++ " Weyl Tensor") :
    Does (do
      let _ ← calcRiemann E G.m
      let _ ← calcRicci E G.m
      let _ ← calcScalar E G.m
      let c ← calcRicci E G.m
      let _ ← calcWeyl E G.m
      return c) w fun c w' => (∃ o, w'.objs[c]? = some o ∧ o.alive = false) ∧ c ∉ w'.instances ∧
      ∃ t ∈ w'.instances, w.objs.length ≤ t ∧ ∃ o, w'.objs[t]? = some o ∧ o.name = "Result" :=
  weyl_destroys hE.simp_eq hS hm hN hn hw

/-- **C53** All tensors in view other than the Ricci tensor survive. -/
theorem C53_others_partial (hE : EngineOK E) (hS : Scene G V w) (hm : LowerMetric G V Dm)
    (hN : NamesOK E G V w Dm.name) (hn : 2 < G.n) :
    Does (calcWeyl E G.m) w fun _ w' => ∃ V', Scene G V' w' ∧ NamesOK E G V' w' Dm.name ∧
      ∀ t D, V t = some D → D.name ≠ "TEMP" → D.name ≠ Dm.name ++ " Ricci Tensor" → V' t = some D :=
  Does.mono (provides_weyl hE.simp_eq hS hm hN hn) fun _ _ ⟨V', _, h1, h2, h3, _⟩ => ⟨V', h1, h2, h3⟩

theorem C53_false : ∃ (E : Engine Poly) (G : Ground Poly) (w : World Poly), EngineOK E ∧
    Does (do
      let _ ← calcRiemann E G.m
      let _ ← calcRicci E G.m
      let _ ← calcScalar E G.m
      let c ← calcRicci E G.m
      let _ ← calcWeyl E G.m
      return c) w fun c w' => (∃ o, w'.objs[c]? = some o ∧ o.alive = false) ∧ c ∉ w'.instances ∧
      ∃ t ∈ w'.instances, w.objs.length ≤ t ∧ ∃ o, w'.objs[t]? = some o ∧ o.name = "Result" := by
  obtain ⟨G, V, w, h1, h2, -, h3, h4, -⟩ := curved
  refine ⟨polyEngine, G, w, polyEngine_ok, C53_ricci_deleted polyEngine_ok h1 h3 (curved_names h4) (by omega) ?_⟩
  intro i hi o ho hn
  rcases h4 i hi o ho with h | h <;> rw [h] at hn <;> exact absurd hn (by decide)

end PyOGRe
