import Verif.Props.Curl
import Verif.Props.Norm

/-!
# Norms and covariant derivatives: C119
-/

namespace PyOGRe
open Spec Finset
variable {K : Type} [CommRing K] [DecidableEq K] [Algebra ℚ K] {E : Engine K} {G : Ground K} {V : View K}
  {w : World K} {Dm D : TField K} {Γ : Nat → Nat → Nat → K}

omit [DecidableEq K] [Algebra ℚ K] in
theorem sumOver_labels {n : Nat} {L : List Sym} (hn : L.Nodup) (f : List Nat → K) (ρ : Sym → Nat) :
    sumOver n L (fun ρ' => f (L.map ρ')) ρ = ((tuples n L.length).map f).sum := by
  rw [← sumOver_tuples]
  refine congrArg List.sum (List.map_congr_left fun J hJ => ?_)
  obtain ⟨j1, -⟩ := mem_tuples.1 hJ
  congr 1
  apply List.ext_getElem (by rw [List.length_map, j1])
  intro i h1 h2
  rw [List.getElem_map, assign_apply ρ L hn J j1, if_pos (List.getElem_mem _), hn.idxOf_getElem]
  simp [h2]

theorem turned_turned (ss : List Sym) (pos : Sym → Int) : turned ss (turned ss pos) = pos := by
  funext s
  unfold turned
  split_ifs <;> simp

omit [DecidableEq K] in
/-- `∂_k (T^J T_J) = 2 (∇_k T)^J T_J`. -/
theorem norm_rate (hC : Calculus E) (hi : Inverse G.n G.g G.gi) (hs : ∀ i j, i < G.n → j < G.n → G.g i j = G.g j i)
    (hD : Config D.ix.length D.ix) {k : Nat} (hk : k < G.n) :
    G.d E k (normSquared G D) = 2 * ((tuples G.n D.ix.length).map fun J =>
      covariant E G D.ix D.val k J * D.comp G (D.ix.map fun p => -p) J).sum := by
  obtain ⟨a, ha⟩ : ∃ a, a ∉ normLabels D.ix.length := by
    obtain ⟨a, ha⟩ := (normLabels D.ix.length).toFinset.exists_notMem
    exact ⟨a, by simpa using ha⟩
  set L := normLabels D.ix.length with hL
  have hn : L.Nodup := normLabels_nodup _
  have hl : L.length = D.ix.length := normLabels_length _
  let pos := posOf (a :: L) (-1 :: D.ix)
  have hc : Config (-1 :: D.ix).length (-1 :: D.ix) := ⟨rfl, fun x hx => by
    rcases List.mem_cons.1 hx with rfl | h
    · exact Or.inr rfl
    · exact hD.2 x h⟩
  have hpos : Positions pos := positions_posOf _ hc
  have hm : (a :: L).map pos = -1 :: D.ix := map_posOf (List.nodup_cons.2 ⟨ha, hn⟩) (by simp [hl])
  have hpa : pos a = -1 := (List.cons.inj hm).1
  have hpL : L.map pos = D.ix := (List.cons.inj hm).2
  have hpt := positions_turned hpos L
  have hpta : turned L pos a = -1 := by unfold turned; rw [if_neg ha, hpa]
  have hpt' : L.map (turned L pos) = D.ix.map fun p => -p := by
    rw [← hpL, List.map_map]
    exact List.map_congr_left fun s hs => by simp [turned, hs]
  let ρ : Sym → Nat := fun _ => k
  have hρ : Values G.n ρ := fun _ => hk
  have oD := onlyOn_at (G := G) D L
  have main := covariantAt_contracted (E := E) (G := G) (a := a) (l := []) (ss := L) hC oD oD ha ha hn (fun s => by simp)
    (fun s => by simp) hpos hρ
  have e0 : contracted G L (D.at G L) (D.at G L) pos ρ = normSquared G D := by
    unfold contracted normSquared
    rw [← hl, ← sumOver_labels hn (fun J => D.val J * D.comp G (D.ix.map fun p => -p) J) ρ]
    refine sumOver_congr hρ fun ρ' hρ' _ => ?_
    unfold TField.at
    rw [hpt', hpL, comp_self (values_map hρ' L) (by simp [hl])]
  have e1 : contracted G L (covariantAt E G a L (D.at G L)) (D.at G L) pos ρ = ((tuples G.n D.ix.length).map fun J =>
      covariant E G D.ix D.val k J * D.comp G (D.ix.map fun p => -p) J).sum := by
    unfold contracted
    rw [← hl, ← sumOver_labels hn (fun J => covariant E G D.ix D.val k J * D.comp G (D.ix.map fun p => -p) J) ρ]
    refine sumOver_congr hρ fun ρ' hρ' hρa => ?_
    rw [← nabla_at hC hi hs hD ha hn hl hpos hpa hρ']
    unfold TField.at
    rw [hpt', hm]
    have hnx : (nabla E G D).ix = -1 :: D.ix := rfl
    rw [← hnx, comp_self (values_map hρ' (a :: L)) (by rw [hnx]; simp [hl]), List.map_cons, hρa a ha]
    rfl
  have e2 : contracted G L (D.at G L) (covariantAt E G a L (D.at G L)) pos ρ =
      contracted G L (covariantAt E G a L (D.at G L)) (D.at G L) pos ρ := by
    have f1 : contracted G L (D.at G L) (covariantAt E G a L (D.at G L)) pos ρ =
        contracted G L (D.at G L) ((nabla E G D).at G (a :: L)) pos ρ :=
      sumOver_congr hρ fun ρ' hρ' _ => by rw [nabla_at hC hi hs hD ha hn hl hpt hpta hρ']
    have f2 := contracted_congr (ss := L) hi hs (fun s h => h) (fun s h => List.mem_cons_of_mem _ h)
      (lawful_at hi hD hn hl) (nabla_lawful (E := E) hi hD ha hn hl) oD (onlyOn_at _ _) hpos hpt
      (fun s _ h => by unfold turned; rw [if_neg h]) hρ
    rw [f1, f2]
    refine sumOver_congr hρ fun ρ' hρ' _ => ?_
    rw [turned_turned, nabla_at hC hi hs hD ha hn hl hpos hpa hρ', mul_comm]
  rw [e2, e1] at main
  rw [two_mul, ← main]
  unfold covariantAt
  rw [e0]
  simp [ρ]

theorem norm_suffix (s s' : String) (q : Quantity) : s ++ " Norm Squared" ≠ s' ++ q.suffix := by
  intro h
  have := congrArg (fun s : String => s.toList.getLast?) h
  simp only [String.toList_append, List.getLast?_append] at this
  revert this
  cases q <;> simp [Quantity.suffix]

/-- The norm of a tensor and its covariant derivative, for any connection that is computed. -/
theorem does_normRate (hE : EngineOK E) (hS : Scene G V w) (hm : AnyMetric G V Dm) (hΓ : GivesConnection E G Γ Dm)
    (hN : NamesFor E G Γ V w Dm.name) {letters : List Sym} {d y : CalcObj} {t : Id'} {a : Sym}
    (hd : derivative .covariantD [a] = .ok d) (hy : Denotes G V y t D) (hyn : D.name ≠ "TEMP")
    (hU : ∀ i ∈ w.instances, ∀ o, w.objs[i]? = some o → o.name ≠ D.name ++ " Norm Squared")
    (hln : letters.Nodup) {u v : Sym} (hu : u ∈ letters) (hv : v ∈ letters) (huv : u ≠ v)
    (hu' : u ∉ y.labels ++ [a]) (hv' : v ∉ y.labels ++ [a]) (ha : a ∉ y.labels) :
    Does (do
      let r ← calcNormSquared E t
      let v ← getComponents E r none none
      let z ← calcMatmul E letters d y
      return (v, z)) w fun (v, z) w' => ∃ V' t' D', Scene G V' w' ∧ Denotes G V' z t' D' ∧ z.labels = a :: y.labels ∧
        D'.ix = -1 :: D.ix ∧ v.get [] = normSquared G D ∧
        ∀ k J, k < G.n → J.length = D.ix.length → (∀ x ∈ J, x < G.n) → D'.val (k :: J) = covariantOf E G Γ D.ix D.val k J := by
  refine Does.bind (does_normSquared hE.simp_eq hS hy.field hyn hy.coords hU) ?_
  rintro r w1 ⟨V1, D1, h1, h2, h3, h4, h5, h6, h7, h8, h9⟩
  have hN1 : NamesFor E G Γ V1 w1 Dm.name := by
    refine namesFor_leaves hS hN h2 h3 ?_
    rintro i - - rfl o ho q hq
    rw [scene_object_name h1 h5 ho, h7] at hq
    exact absurd hq (norm_suffix _ _ q)
  refine Does.bind (scene_getDefault hE.simp_eq h1 h5 h6) ?_
  rintro x w2 ⟨k1, k2, k3⟩
  have hN2 : NamesFor E G Γ V1 w2 Dm.name := namesFor_leaves h1 hN1 (keeps_refl _)
    (leaves_onlyTemps (new := fun _ => False) h1.registry (onlyTemps_frame k2)) fun _ _ _ h => h.elim
  have hy1 : Denotes G V1 y t D := ⟨⟨hy.role, hy.tensor, h2 _ _ hy.field hyn, hy.nodup, hy.length⟩, hy.coords⟩
  refine Does.bind (anyGradient hE k1 hΓ ⟨h2 _ _ hm.view hm.name, hm.name, hm.coords⟩ hN2 hd hy1 hyn hln hu hv huv hu' hv' ha) ?_
  rintro z w3 ⟨V3, t3, D3, l1, -, -, -, l5, l6, l7, l8⟩
  refine Does.pure ⟨V3, t3, D3, l1, l5, l6, l7, ?_, fun i I hi hI hI' => ?_⟩
  · rw [k3.2.2 [] (by rw [h8]; rfl) (by simp), h9]
  have hnd : (a :: y.labels).Nodup := List.nodup_cons.2 ⟨ha, hy.nodup⟩
  have hlen : (a :: y.labels).length = (i :: I).length := by simp [hy.length, hI]
  have hval : ∀ x ∈ i :: I, x < G.n := by
    intro x hx
    rcases List.mem_cons.1 hx with rfl | hx
    · exact hi
    · exact hI' x hx
  let ρ : Sym → Nat := fun s => (i :: I).getD ((a :: y.labels).idxOf s) 0
  have hρ : (a :: y.labels).map ρ = i :: I := by
    refine List.ext_getElem (by simpa using hlen) fun k k1 k2 => ?_
    rw [List.getElem_map]
    show (i :: I).getD _ 0 = _
    rw [hnd.idxOf_getElem, List.getD_eq_getElem?_getD, List.getElem?_eq_getElem k2]
    rfl
  have hρ' : Values G.n ρ := by
    intro s
    show (i :: I).getD _ 0 < G.n
    rw [List.getD_eq_getElem?_getD]
    rcases h : (i :: I)[(a :: y.labels).idxOf s]? with _ | x
    · exact hS.pos
    · exact hval x (List.mem_of_getElem? h)
  have hc : Config (-1 :: D.ix).length (-1 :: D.ix) := ⟨rfl, fun x hx => by
    rcases List.mem_cons.1 hx with rfl | h
    · exact Or.inr rfl
    · exact (scene_config hS hy.field).2 x h⟩
  have hpos : (a :: y.labels).map (posOf (a :: y.labels) (-1 :: D.ix)) = -1 :: D.ix := map_posOf hnd (by simp [hy.length])
  have := l8 (posOf (a :: y.labels) (-1 :: D.ix)) ρ (positions_posOf _ hc) hρ'
  unfold TField.at at this
  rw [l6, hpos, hρ] at this
  have hn : (nablaOf E G Γ D).ix = -1 :: D.ix := rfl
  have hl : (i :: I).length = (-1 :: D.ix).length := by simp [hI]
  rw [← l7, comp_self hval (by rw [l7]; exact hl), l7, ← hn, comp_self hval (by rw [hn]; exact hl)] at this
  exact this

/-- **C119** (for metrics with the default configuration (-1,-1)) The derivative of the norm of a tensor is twice the contraction of its
covariant derivative with the tensor itself, for every rank and default configuration of the tensor. -/
theorem C119_norm_partial (hE : EngineOK E) (hC : Calculus E) (hS : Scene G V w) (hm : LowerMetric G V Dm)
    (hN : NamesOK E G V w Dm.name) {letters : List Sym} {d y : CalcObj} {t : Id'} {a : Sym}
    (hd : derivative .covariantD [a] = .ok d) (hy : Denotes G V y t D) (hyn : D.name ≠ "TEMP")
    (hU : ∀ i ∈ w.instances, ∀ o, w.objs[i]? = some o → o.name ≠ D.name ++ " Norm Squared")
    (hln : letters.Nodup) {u v : Sym} (hu : u ∈ letters) (hv : v ∈ letters) (huv : u ≠ v)
    (hu' : u ∉ y.labels ++ [a]) (hv' : v ∉ y.labels ++ [a]) (ha : a ∉ y.labels) :
    Does (do
      let r ← calcNormSquared E t
      let v ← getComponents E r none none
      let z ← calcMatmul E letters d y
      return (v, z)) w fun (v, z) w' => ∃ V' t' D', Scene G V' w' ∧ Denotes G V' z t' D' ∧ z.labels = a :: y.labels ∧
        D'.ix = -1 :: D.ix ∧ ∀ k, k < G.n → E.diff (G.syms.getD k "") (v.get []) =
          2 * ((tuples G.n D.ix.length).map fun J => D'.val (k :: J) * D.comp G (D.ix.map fun p => -p) J).sum := by
  refine Does.mono (does_normRate hE hS ⟨hm.view, hm.name, hm.coords⟩ (gives_christoffel hE.simp_eq hm.ix)
    (namesFor_christoffel hN) hd hy hyn hU hln hu hv huv hu' hv' ha) ?_
  rintro ⟨x, z⟩ w' ⟨V', t', D', h1, h2, h3, h4, h5, h6⟩
  refine ⟨V', t', D', h1, h2, h3, h4, fun k hk => ?_⟩
  rw [h5]
  refine (norm_rate hC hS.inverse hS.symm (scene_config hS hy.field) hk).trans ?_
  refine congrArg (fun l => 2 * List.sum l) (List.map_congr_left fun J hJ => ?_)
  obtain ⟨j1, j2⟩ := mem_tuples.1 hJ
  rw [h6 k J hk j1 j2]
  rfl

/-- **C119** (for metrics with the default configuration (-1,-1)) So the norm of a tensor whose covariant derivative vanishes is
constant. -/
theorem C119_constant_partial (hE : EngineOK E) (hC : Calculus E) (hS : Scene G V w) (hm : LowerMetric G V Dm)
    (hN : NamesOK E G V w Dm.name) {letters : List Sym} {d y : CalcObj} {t : Id'} {a : Sym}
    (hd : derivative .covariantD [a] = .ok d) (hy : Denotes G V y t D) (hyn : D.name ≠ "TEMP")
    (hU : ∀ i ∈ w.instances, ∀ o, w.objs[i]? = some o → o.name ≠ D.name ++ " Norm Squared")
    (hln : letters.Nodup) {u v : Sym} (hu : u ∈ letters) (hv : v ∈ letters) (huv : u ≠ v)
    (hu' : u ∉ y.labels ++ [a]) (hv' : v ∉ y.labels ++ [a]) (ha : a ∉ y.labels) :
    Does (do
      let r ← calcNormSquared E t
      let v ← getComponents E r none none
      let z ← calcMatmul E letters d y
      return (v, z)) w fun (v, z) w' => ∃ V' t' D', Scene G V' w' ∧ Denotes G V' z t' D' ∧ z.labels = a :: y.labels ∧
        D'.ix = -1 :: D.ix ∧ ((∀ J, J.length = D.ix.length + 1 → (∀ x ∈ J, x < G.n) → D'.val J = 0) →
          ∀ k, k < G.n → E.diff (G.syms.getD k "") (v.get []) = 0) := by
  refine Does.mono (C119_norm_partial hE hC hS hm hN hd hy hyn hU hln hu hv huv hu' hv' ha) ?_
  rintro ⟨x, z⟩ w' ⟨V', t', D', h1, h2, h3, h4, h5⟩
  refine ⟨V', t', D', h1, h2, h3, h4, fun h0 k hk => ?_⟩
  rw [h5 k hk, List.sum_eq_zero, mul_zero]
  intro x hx
  obtain ⟨J, hJ, rfl⟩ := List.mem_map.1 hx
  obtain ⟨j1, j2⟩ := mem_tuples.1 hJ
  rw [h0 (k :: J) (by simp [j1]) (by simpa using ⟨hk, j2⟩), zero_mul]

omit [DecidableEq K] in
/-- The connection with the wrong sign, for components that are constant. -/
theorem covariantOf_opposite {ix : List Int} {f : List Nat → K} {k : Nat} {J : List Nat}
    (h : E.diff (G.syms.getD k "") (f J) = 0) :
    covariantOf E G (minusGamma E G) ix f k J = -covariant E G ix f k J := by
  unfold covariantOf covariant minusGamma Ground.d
  rw [h, zero_add, zero_add, ← sum_neg_distrib]
  refine sum_congr rfl fun j _ => ?_
  split_ifs
  · rw [← sum_neg_distrib]
    exact sum_congr rfl fun l _ => by ring
  · rw [← sum_neg_distrib, ← sum_neg_distrib, ← sum_neg_distrib]
    exact sum_congr rfl fun l _ => by ring

/-! ## Examples -/

/-- C119: a vector in the metric `nil`. -/
example : ∃ (E : Engine Poly) (G : Ground Poly) (V : View Poly) (w : World Poly) (Dm A : TField Poly) (t : Id') (d : CalcObj),
    EngineOK E ∧ Calculus E ∧ Scene G V w ∧ LowerMetric G V Dm ∧ NamesOK E G V w Dm.name ∧
    derivative .covariantD ["a"] = .ok d ∧ Denotes G V ⟨.tensor, some t, ["b"]⟩ t A ∧ A.name ≠ "TEMP" ∧ A.ix = [-1] ∧
    (∀ i ∈ w.instances, ∀ o, w.objs[i]? = some o → o.name ≠ A.name ++ " Norm Squared") ∧ christoffel E G 2 0 1 ≠ 0 ∧
    E.diff (G.syms.getD 1 "") (A.val [0]) = 1 := by
  obtain ⟨G, V, w, h1, h2, -, h3, h4, h5, h6, h7⟩ := curved_full
  obtain ⟨o, w1, -, hS1, hi1, ho1, hn1, -, -, hx1⟩ := scene_new h1 (kind := .tensor) (Or.inl rfl) "A" "A" (a := potential)
    (ix := [-1]) (f := potential.get) ⟨rfl, by rw [h2]; rfl, fun _ _ _ => rfl⟩ ⟨rfl, by simp⟩
  have N1 := names_new hi1 ho1 h1.registry (P := fun s => s ∈ ["Cartesian", "Nil", "A"])
    (fun i hi o ho => by rcases h4 i hi o ho with h | h <;> simp [h]) (by simp [hn1])
  refine ⟨polyEngine, G, _, w1, _, ⟨"A", G.c, [-1], potential.get⟩, w.objs.length,
    _, polyEngine_ok, polyEngine_calculus, hS1, ⟨hx1 _ _ h3.view, h3.name, h3.coords, h3.ix⟩, ?_, rfl,
    ⟨⟨rfl, rfl, if_pos rfl, by simp, rfl⟩, rfl⟩, (by decide : "A" ≠ "TEMP"), rfl, ?_, by rw [h5]; exact curved_half, ?_⟩
  · intro q i hi' oi hoi hname
    exfalso
    have := N1 i hi' oi hoi
    rw [hname] at this
    revert this
    cases q <;> exact (by decide)
  · intro i hi' oi hoi hname
    have := N1 i hi' oi hoi
    rw [hname] at this
    exact absurd this (by decide : "A" ++ " Norm Squared" ∉ ["Cartesian", "Nil", "A"])
  · rw [h6]
    show MvPolynomial.pderiv "y" (MvPolynomial.X "y" : Poly) = 1
    exact MvPolynomial.pderiv_X_self _

/-- The second component of the vector is 1, the first one is zero. -/
noncomputable def secondUnit : Arr (PowerSeries ℚ) := ⟨[2], [0, 1]⟩

/-- **C119** is false: with the components `diag(1, 1+x)` of the metric for upper indices, the derivative of the norm of the vector
`(0, 1)` and the contraction have opposite signs. -/
theorem C119_false : ∃ (E : Engine (PowerSeries ℚ)) (G : Ground (PowerSeries ℚ)) (V : View (PowerSeries ℚ))
    (w : World (PowerSeries ℚ)) (Dm D : TField (PowerSeries ℚ)) (t : Id') (d : CalcObj), EngineOK E ∧ Calculus E ∧ Scene G V w ∧
    AnyMetric G V Dm ∧ NoNames w Dm.name ∧ derivative .covariantD ["a"] = .ok d ∧
    Denotes G V ⟨.tensor, some t, ["b"]⟩ t D ∧ D.name ≠ "TEMP" ∧ D.ix = [1] ∧
    (∀ i ∈ w.instances, ∀ o, w.objs[i]? = some o → o.name ≠ D.name ++ " Norm Squared") ∧
    Does (do
      let r ← calcNormSquared E t
      let v ← getComponents E r none none
      let z ← calcMatmul E ["u", "v"] d ⟨.tensor, some t, ["b"]⟩
      return (v, z)) w fun (v, z) w' => ∃ V' t' D', Scene G V' w' ∧ Denotes G V' z t' D' ∧ z.labels = ["a", "b"] ∧
        D'.ix = [-1, 1] ∧ E.diff (G.syms.getD 0 "") (v.get []) ≠ 0 ∧ E.diff (G.syms.getD 0 "") (v.get []) =
          -(2 * ((tuples G.n 1).map fun J => D'.val (0 :: J) * D.comp G [-1] J).sum) := by
  obtain ⟨G, V, w, h1, h2, h3, h4, h5, -, h7, h8⟩ := plainDeclared_names seriesDiff (syms := ["x", "y"]) (a := stretched)
    (b := unstretched) rfl rfl stretched_symm stretched_inverse (Or.inr rfl) (by simp)
  have hn : G.n = 2 := h2
  obtain ⟨o, w', -, hS', hi, ho, ho', -, -, hx⟩ := scene_new h1 (kind := .tensor) (Or.inl rfl) "V" "v" (a := secondUnit) (ix := [1])
    (f := secondUnit.get) ⟨rfl, by rw [hn]; rfl, fun _ _ _ => rfl⟩ ⟨rfl, by simp⟩
  have N := names_new hi ho h1.registry (P := fun s => s ∈ ["Chart", "Given", "V"])
    (fun i hi o ho => by rcases h8 i hi o ho with h | h <;> simp [h]) (by simp [ho'])
  have hNo : NoNames w' "Given" := by
    intro q i hi' oi hoi hname
    have := N i hi' oi hoi
    rw [hname] at this
    revert this
    cases q <;> exact (by decide)
  have hU : ∀ i ∈ w'.instances, ∀ o, w'.objs[i]? = some o → o.name ≠ "V" ++ " Norm Squared" := by
    intro i hi' oi hoi hname
    have := N i hi' oi hoi
    rw [hname] at this
    exact absurd this (by decide)
  have hm : AnyMetric G (View.add V w.objs.length ⟨"V", G.c, [1], secondUnit.get⟩) ⟨"Given", 0, [1, 1], stretched.get⟩ :=
    ⟨hx _ _ h4.view, h4.name, h4.coords⟩
  have hy : Denotes G (View.add V w.objs.length ⟨"V", G.c, [1], secondUnit.get⟩) ⟨.tensor, some w.objs.length, ["b"]⟩ w.objs.length
      ⟨"V", G.c, [1], secondUnit.get⟩ := ⟨⟨rfl, rfl, if_pos rfl, by simp, rfl⟩, rfl⟩
  refine ⟨plainEngine seriesDiff, G, _, w', _, _, w.objs.length, _, plainEngine_ok _, seriesDiff_calculus, hS', hm, hNo, rfl, hy,
    (by decide : "V" ≠ "TEMP"), rfl, hU, ?_⟩
  refine Does.mono (does_normRate (plainEngine_ok _) hS' hm (gives_opposite (plainEngine_ok _).simp_eq seriesDiff_calculus rfl)
    (noNames_for hNo) rfl hy (by decide : "V" ≠ "TEMP") hU (by simp) (u := "u") (v := "v") (by simp) (by simp) (by decide)
    (by simp) (by simp) (by simp)) ?_
  rintro ⟨x, z⟩ w'' ⟨V', t', D', k1, k2, k3, k4, k5, k6⟩
  have p0 : 0 < G.n := h1.pos
  have e11 : G.g 1 1 = oneOver := by
    have e := (h1.inverse 1 1 (by omega) (by omega)).1
    have f0 : G.gi 0 1 = 0 := h7 rfl 0 1
    have f1 : G.gi 1 1 = onePlus := h7 rfl 1 1
    simp only [matMul, hn, sum_range_succ, sum_range_zero, f0, f1, delta, if_true] at e
    linear_combination oneOver * e - G.g 1 1 * onePlus_inv
  have eN : normSquared G ⟨"V", G.c, [1], secondUnit.get⟩ = oneOver := by
    unfold normSquared TField.comp
    have v0 : secondUnit.get [0] = 0 := rfl
    have v1 : secondUnit.get [1] = 1 := rfl
    have t1 : tuples 2 1 = [[0], [1]] := by decide
    simp only [List.length_cons, List.length_nil, Nat.zero_add, List.map_cons, List.map_nil, List.zipWith_cons_cons,
      List.zipWith_nil_left, hn, t1, applyFactors_cons, applyFactors_nil, sum_range_succ, sum_range_zero, v0, v1, List.sum_cons,
      List.sum_nil]
    simp [indexFactor, e11]
  refine ⟨V', t', D', k1, k2, k3, k4, ?_, ?_⟩
  · rw [k5, eN, h3]
    exact oneOver_diff
  · rw [k5]
    refine (norm_rate seriesDiff_calculus h1.inverse h1.symm (scene_config hS' hy.field) p0).trans ?_
    have hneg : ∀ (l : List (List Nat)) (f : List Nat → PowerSeries ℚ), -(l.map f).sum = (l.map fun J => -f J).sum := by
      intro l f
      induction l with
      | nil => simp
      | cons J l ih => simp only [List.map_cons, List.sum_cons, ← ih]; ring
    rw [← mul_neg, hneg]
    refine congrArg (fun l => 2 * List.sum l) (List.map_congr_left fun J hJ => ?_)
    obtain ⟨j1, j2⟩ := mem_tuples.1 hJ
    rw [k6 0 J p0 j1 j2, covariantOf_opposite, neg_mul, neg_neg]
    · rfl
    · obtain ⟨j, rfl⟩ := List.length_eq_one_iff.1 j1
      have hj : j < 2 := by rw [← hn]; exact j2 j (by simp)
      rw [h3]
      show seriesDiff "x" (secondUnit.get [j]) = 0
      have z0 : seriesDiff "x" 0 = 0 := by unfold seriesDiff; rw [if_pos rfl, map_zero]
      have z1 : seriesDiff "x" 1 = 0 := by
        unfold seriesDiff
        rw [if_pos rfl, show (1 : PowerSeries ℚ) = PowerSeries.C 1 from rfl, PowerSeries.derivative_C]
      interval_cases j
      · exact z0
      · exact z1

end PyOGRe
