import Verif.Props.Volume

/-!
# Antisymmetrised covariant derivatives: C116
-/

namespace PyOGRe
open Spec Finset
variable {K : Type} [CommRing K] [DecidableEq K] [Algebra ℚ K] {E : Engine K} {G : Ground K} {V : View K}
  {w : World K} {Dm D : TField K} {Γ : Nat → Nat → Nat → K}

/-- The components of the covariant derivative of a tensor with lower indices. -/
theorem derives_lower (hE : EngineOK E) (hS : Scene G V w) (hΓ : GivesConnection E G Γ Dm) (hm : AnyMetric G V Dm)
    (hN : NamesFor E G Γ V w Dm.name) {letters : List Sym} {d y : CalcObj} {t : Id'} {a : Sym}
    (hd : derivative .covariantD [a] = .ok d) (hy : Denotes G V y t D) (hyn : D.name ≠ "TEMP") (hix : ∀ x ∈ D.ix, x = -1)
    (hln : letters.Nodup) {u v : Sym} (hu : u ∈ letters) (hv : v ∈ letters) (huv : u ≠ v)
    (hu' : u ∉ y.labels ++ [a]) (hv' : v ∉ y.labels ++ [a]) (ha : a ∉ y.labels) :
    DerivesFor E G Γ V w Dm.name (calcMatmul E letters d y) fun l D' => l = a :: y.labels ∧ D'.ix = -1 :: D.ix ∧
      ∀ i I, i < G.n → I.length = D.ix.length → (∀ x ∈ I, x < G.n) → D'.val (i :: I) = covariantOf E G Γ D.ix D.val i I := by
  refine Does.mono (anyGradient hE hS hΓ hm hN hd hy hyn hln hu hv huv hu' hv' ha) ?_
  rintro z w' ⟨V', t', D', h1, h2, h3, h4, h5, h6, h7, h8⟩
  refine ⟨V', t', D', h1, h2, h3, h4, h5, h6, h7, fun i I hi hI hI' => ?_⟩
  have hnd : (a :: y.labels).Nodup := List.nodup_cons.2 ⟨ha, hy.nodup⟩
  have hlen : (a :: y.labels).length = (i :: I).length := by simp [hy.length, hI]
  have hval : ∀ x ∈ i :: I, x < G.n := by
    intro x hx
    rcases List.mem_cons.1 hx with rfl | hx
    · exact hi
    · exact hI' x hx
  let ρ : Sym → Nat := fun s => (i :: I).getD ((a :: y.labels).idxOf s) 0
  have hρ : (a :: y.labels).map ρ = i :: I := by
    refine List.ext_getElem (by simpa using hlen) fun k k1 k2 => ?_
    rw [List.getElem_map]
    show (i :: I).getD _ 0 = _
    rw [hnd.idxOf_getElem, List.getD_eq_getElem?_getD, List.getElem?_eq_getElem k2]
    rfl
  have hρ' : Values G.n ρ := by
    intro s
    show (i :: I).getD _ 0 < G.n
    rw [List.getD_eq_getElem?_getD]
    rcases h : (i :: I)[(a :: y.labels).idxOf s]? with _ | x
    · exact hS.pos
    · exact hval x (List.mem_of_getElem? h)
  have hpos : (a :: y.labels).map (fun _ => (-1 : Int)) = -1 :: D.ix := by
    rw [List.map_const', List.length_cons, List.replicate_succ, hy.length, ← List.eq_replicate_of_mem hix]
  have := h8 (fun _ => -1) ρ (fun _ => Or.inr rfl) hρ'
  unfold TField.at at this
  rw [h6, hpos, hρ] at this
  have hn : (nablaOf E G Γ D).ix = -1 :: D.ix := rfl
  have hl : (i :: I).length = (-1 :: D.ix).length := by simp [hI]
  rw [← h7, comp_self hval (by rw [h7]; exact hl), h7, ← hn, comp_self hval (by rw [hn]; exact hl)] at this
  exact this

/-- A connection is symmetric in the lower indices. -/
def Spec.TorsionFree (G : Ground K) (Γ : Nat → Nat → Nat → K) : Prop :=
  ∀ l i j, l < G.n → i < G.n → j < G.n → Γ l i j = Γ l j i

omit [DecidableEq K] in
theorem curl_of (hT : TorsionFree G Γ) (hix : D.ix = [-1]) {i j : Nat} (hi : i < G.n) (hj : j < G.n) :
    covariantOf E G Γ D.ix D.val i [j] - covariantOf E G Γ D.ix D.val j [i] =
      G.d E i (D.val [j]) - G.d E j (D.val [i]) := by
  unfold covariantOf
  rw [hix]
  simp only [List.length_cons, List.length_nil, Nat.zero_add, sum_range_one, List.getD_cons_zero, List.set_cons_zero]
  rw [if_neg (by decide), if_neg (by decide), sum_congr rfl fun l hl => by rw [hT l i j (mem_range.1 hl) hi hj]]
  ring

omit [DecidableEq K] in
theorem cycle_of (hT : TorsionFree G Γ) (hix : D.ix = [-1, -1])
    (hA : ∀ i j, i < G.n → j < G.n → D.val [i, j] = -D.val [j, i]) {i j k : Nat} (hi : i < G.n) (hj : j < G.n) (hk : k < G.n) :
    covariantOf E G Γ D.ix D.val i [j, k] + covariantOf E G Γ D.ix D.val j [k, i] + covariantOf E G Γ D.ix D.val k [i, j] =
      G.d E i (D.val [j, k]) + G.d E j (D.val [k, i]) + G.d E k (D.val [i, j]) := by
  have e : ∀ p q r, covariantOf E G Γ D.ix D.val p [q, r] = G.d E p (D.val [q, r]) -
      ∑ l ∈ range G.n, Γ l p q * D.val [l, r] - ∑ l ∈ range G.n, Γ l p r * D.val [q, l] := by
    intro p q r
    unfold covariantOf
    rw [hix]
    simp [sum_range_succ, sub_eq_add_neg, add_assoc]
  have s : ∀ p q r, p < G.n → q < G.n → r < G.n →
      ∑ l ∈ range G.n, Γ l p q * D.val [r, l] = -∑ l ∈ range G.n, Γ l q p * D.val [l, r] := by
    intro p q r hp hq hr
    rw [← sum_neg_distrib]
    exact sum_congr rfl fun l hl => by rw [hT l p q (mem_range.1 hl) hp hq, hA r l hr (mem_range.1 hl)]; ring
  rw [e, e, e, s i k j hi hk hj, s j i k hj hi hk, s k j i hk hj hi]
  ring

omit [DecidableEq K] in
theorem torsionFree_christoffel (hC : Calculus E) (hS : Scene G V w) : TorsionFree G (christoffel E G) :=
  fun _ _ _ h1 h2 h3 => christoffel_symm hC hS.inverse hS.symm h1 h2 h3

omit [DecidableEq K] in
theorem torsionFree_opposite (hC : Calculus E) (hS : Scene G V w) : TorsionFree G (minusGamma E G) :=
  fun _ _ _ h1 h2 h3 => congrArg Neg.neg (christoffel_symm hC hS.inverse hS.symm h1 h2 h3)

theorem connection_of (hE : EngineOK E) (hC : Calculus E) (hS : Scene G V w)
    (hN : (Dm.ix = [-1, -1] ∧ NamesOK E G V w Dm.name) ∨ (Dm.ix = [1, 1] ∧ NoNames w Dm.name)) :
    ∃ Γ, GivesConnection E G Γ Dm ∧ NamesFor E G Γ V w Dm.name ∧ TorsionFree G Γ := by
  rcases hN with ⟨k1, k2⟩ | ⟨k1, k2⟩
  · exact ⟨_, gives_christoffel hE.simp_eq k1, namesFor_christoffel k2, torsionFree_christoffel hC hS⟩
  · exact ⟨_, gives_opposite hE.simp_eq hC k1, noNames_for k2, torsionFree_opposite hC hS⟩

/-- **C116** In the curl of a vector with default indices (-1,), covariant derivatives can be replaced by partial ones. -/
theorem C116_curl (hE : EngineOK E) (hC : Calculus E) (hS : Scene G V w) (hm : AnyMetric G V Dm)
    (hN : (Dm.ix = [-1, -1] ∧ NamesOK E G V w Dm.name) ∨ (Dm.ix = [1, 1] ∧ NoNames w Dm.name))
    {letters : List Sym} {d y : CalcObj} {t : Id'} {a b : Sym} (hd : derivative .covariantD [a] = .ok d)
    (hy : Denotes G V y t D) (hyl : y.labels = [b]) (hyn : D.name ≠ "TEMP") (hix : D.ix = [-1])
    (hln : letters.Nodup) {u v : Sym} (hu : u ∈ letters) (hv : v ∈ letters) (huv : u ≠ v) (hu' : u ∉ [b, a]) (hv' : v ∉ [b, a])
    (hab : a ≠ b) :
    Does (calcMatmul E letters d y) w fun z w' => ∃ V' t' D', Scene G V' w' ∧ Denotes G V' z t' D' ∧ z.labels = [a, b] ∧
      D'.ix = [-1, -1] ∧ ∀ i j, i < G.n → j < G.n → D'.val [i, j] - D'.val [j, i] =
        E.diff (G.syms.getD i "") (D.val [j]) - E.diff (G.syms.getD j "") (D.val [i]) := by
  obtain ⟨Γ, hΓ, hN', hT⟩ := connection_of hE hC hS hN
  refine Does.mono (derives_lower hE hS hΓ hm hN' hd hy hyn (by rw [hix]; simp) hln hu hv huv (by rw [hyl]; exact hu')
    (by rw [hyl]; exact hv') (by rw [hyl]; simpa using hab)) ?_
  rintro z w' ⟨V', t', D', h1, -, -, -, h5, h6, h7, h8⟩
  refine ⟨V', t', D', h1, h5, by rw [h6, hyl], by rw [h7, hix], fun i j hi hj => ?_⟩
  rw [h8 i [j] hi (by rw [hix]; rfl) (by simpa using hj), h8 j [i] hj (by rw [hix]; rfl) (by simpa using hi)]
  exact curl_of hT hix hi hj

/-- **C116** In the cyclic sum of the derivatives of an antisymmetric tensor with default indices (-1,-1), covariant derivatives can be
replaced by partial ones. -/
theorem C116_cyclic (hE : EngineOK E) (hC : Calculus E) (hS : Scene G V w) (hm : AnyMetric G V Dm)
    (hN : (Dm.ix = [-1, -1] ∧ NamesOK E G V w Dm.name) ∨ (Dm.ix = [1, 1] ∧ NoNames w Dm.name))
    {letters : List Sym} {d y : CalcObj} {t : Id'} {a b c : Sym} (hd : derivative .covariantD [a] = .ok d)
    (hy : Denotes G V y t D) (hyl : y.labels = [b, c]) (hyn : D.name ≠ "TEMP") (hix : D.ix = [-1, -1])
    (hA : ∀ i j, i < G.n → j < G.n → D.val [i, j] = -D.val [j, i])
    (hln : letters.Nodup) {u v : Sym} (hu : u ∈ letters) (hv : v ∈ letters) (huv : u ≠ v) (hu' : u ∉ [b, c, a])
    (hv' : v ∉ [b, c, a]) (ha : a ∉ [b, c]) :
    Does (calcMatmul E letters d y) w fun z w' => ∃ V' t' D', Scene G V' w' ∧ Denotes G V' z t' D' ∧ z.labels = [a, b, c] ∧
      D'.ix = [-1, -1, -1] ∧ ∀ i j k, i < G.n → j < G.n → k < G.n → D'.val [i, j, k] + D'.val [j, k, i] + D'.val [k, i, j] =
        E.diff (G.syms.getD i "") (D.val [j, k]) + E.diff (G.syms.getD j "") (D.val [k, i]) +
          E.diff (G.syms.getD k "") (D.val [i, j]) := by
  obtain ⟨Γ, hΓ, hN', hT⟩ := connection_of hE hC hS hN
  refine Does.mono (derives_lower hE hS hΓ hm hN' hd hy hyn (by rw [hix]; simp) hln hu hv huv (by rw [hyl]; exact hu')
    (by rw [hyl]; exact hv') (by rw [hyl]; exact ha)) ?_
  rintro z w' ⟨V', t', D', h1, -, -, -, h5, h6, h7, h8⟩
  refine ⟨V', t', D', h1, h5, by rw [h6, hyl], by rw [h7, hix], fun i j k hi hj hk => ?_⟩
  rw [h8 i [j, k] hi (by rw [hix]; rfl) (by simp [hj, hk]), h8 j [k, i] hj (by rw [hix]; rfl) (by simp [hi, hk]),
    h8 k [i, j] hk (by rw [hix]; rfl) (by simp [hi, hj])]
  exact cycle_of hT hix hA hi hj hk

omit [DecidableEq K] in
/-- Antisymmetric and symmetric matrices. -/
theorem sum_antisymm' {n : Nat} {f s : Nat → Nat → K} (h : ∀ i j, i < n → j < n → f i j + f j i = 0)
    (hs : ∀ i j, i < n → j < n → s i j = s j i) : ∑ i ∈ range n, ∑ j ∈ range n, s i j * f i j = 0 := by
  have h2 : (2 : K) * ∑ i ∈ range n, ∑ j ∈ range n, s i j * f i j = 0 := by
    rw [two_mul]
    conv_lhs => rhs; rw [sum_comm]
    simp only [← sum_add_distrib]
    refine sum_eq_zero fun i hi => sum_eq_zero fun j hj => ?_
    rw [hs j i (mem_range.1 hj) (mem_range.1 hi)]
    linear_combination (s i j) * h i j (mem_range.1 hi) (mem_range.1 hj)
  have h3 : (rat (1 / 2) * 2 : K) = 1 := by
    unfold rat
    rw [← map_ofNat (algebraMap ℚ K) 2, ← map_mul]
    norm_num
  have := congrArg (rat (1 / 2) * ·) h2
  rwa [← mul_assoc, h3, one_mul, mul_zero] at this

/-- **C114** (for metrics with the default configuration (-1,-1)) The covariant divergence of an antisymmetric tensor with upper indices,
and the volume element `v`: `2 v ∇_a F^{ab} = 2 v ∂_a F^{ab} + F^{ab} ∂_a v`. -/
theorem C114_antisymmetric_partial (hE : EngineOK E) (hC : Calculus E) (hD : Determinants E) (hS : Scene G V w)
    (hm : LowerMetric G V Dm) (hN : NamesOK E G V w Dm.name) {letters : List Sym} {d y : CalcObj} {t : Id'} {a b : Sym}
    (hd : derivative .covariantD [a] = .ok d) (hy : Denotes G V y t D) (hyn : D.name ≠ "TEMP") (hix : D.ix = [1, 1])
    (hya : y.labels = [a, b]) (hA : ∀ i j, i < G.n → j < G.n → D.val [i, j] = -D.val [j, i])
    (hln : letters.Nodup) {u v : Sym} (hu : u ∈ letters) (hv : v ∈ letters) (huv : u ≠ v)
    (hu' : u ∉ [a, b]) (hv' : v ∉ [a, b]) :
    Does (do
      let v ← volumeElement E G.m none
      let z ← calcMatmul E letters d y
      return (v, z)) w fun (v, z) w' => ∃ V' t' D', Scene G V' w' ∧ Denotes G V' z t' D' ∧ z.labels = [b] ∧ D'.ix = [1] ∧
        ∀ j, j < G.n → 2 * v * D'.val [j] = 2 * v * ∑ k ∈ range G.n, E.diff (G.syms.getD k "") (D.val [k, j]) +
          ∑ k ∈ range G.n, D.val [k, j] * E.diff (G.syms.getD k "") v := by
  have hab : a ≠ b := by have := hy.nodup; rw [hya] at this; simpa using this
  refine Does.step (scene_volume hE hD hS ⟨hm.view, hm.name, hm.coords⟩) ?_
  refine Does.bind (C31_divergence_partial hE hS hm hN hd hy hyn hln hu hv huv (by rw [hya]; simp_all) (by rw [hya]; simp_all)
    (by simp [hya])) ?_
  rintro z w' ⟨V', t', D', h1, -, -, -, h5, h6, h7, h8⟩
  have hz : z.labels = [b] := by rw [h6, hya]; simp [hab.symm]
  have hD' : D'.ix = [1] := by
    rw [h7, hz, hya, hix]
    simp [posOf, hab, List.idxOf_cons]
  refine Does.pure ⟨V', t', D', h1, h5, hz, hD', fun j hj => ?_⟩
  have h8 := h8 (fun _ => 1) (fun _ => j) (fun _ => Or.inl rfl) fun _ => hj
  have e0 : D'.at G z.labels (fun _ => 1) (fun _ => j) = D'.val [j] := by
    unfold TField.at
    rw [hz]
    show D'.comp G [1] [j] = D'.val [j]
    rw [← hD', comp_self (by simp [hj]) (by rw [hD']; rfl)]
  rw [e0, hya] at h8
  have e1 : ∀ k ∈ range G.n, (nabla E G D).comp G
      (-1 :: [a, b].map (Function.update (fun _ => (1 : Int)) a 1)) (k :: [a, b].map (Function.update (fun _ => j) a k)) =
      G.d E k (D.val [k, j]) + ∑ l ∈ range G.n, christoffel E G k k l * D.val [l, j] +
        ∑ l ∈ range G.n, christoffel E G j k l * D.val [k, l] := by
    intro k hk
    have hk : k < G.n := by simpa using hk
    have hnx : (nabla E G D).ix = [-1, 1, 1] := by unfold nabla; rw [hix]
    simp only [List.map_cons, List.map_nil, Function.update_self, Function.update_of_ne hab.symm]
    rw [← hnx, comp_self (by simp [hk, hj]) (by rw [hnx]; rfl)]
    unfold nabla covariant
    rw [hix]
    simp [sum_range_succ, add_assoc]
  have e2 : ∑ k ∈ range G.n, ∑ l ∈ range G.n, christoffel E G j k l * D.val [k, l] = 0 := by
    have h := sum_antisymm' (n := G.n) (f := fun k l => D.val [k, l]) (s := fun k l => christoffel E G j k l)
      (fun k l hk hl => by rw [hA k l hk hl]; ring) fun k l hk hl => christoffel_symm hC hS.inverse hS.symm hj hk hl
    exact h
  rw [h8, sum_congr rfl e1, sum_add_distrib, e2, add_zero, sum_add_distrib, sum_comm, mul_add]
  refine congrArg₂ _ rfl ?_
  rw [mul_sum]
  refine sum_congr rfl fun k hk => ?_
  have := christoffel_trace hC hS.inverse hS.symm k (by simpa using hk)
  rw [← sum_mul]
  unfold Ground.d at this
  linear_combination (D.val [k, j]) * this

/-! ## Examples -/

omit [CommRing K] [DecidableEq K] [Algebra ℚ K] in
/-- The names after one more object has been registered. -/
theorem names_new {w' : World K} {o : Obj K} (hi : w'.instances = w.instances ++ [w.objs.length]) (ho : w'.objs = w.objs ++ [o])
    (hR : RegistryOK w) {P : String → Prop} (h : ∀ i ∈ w.instances, ∀ o, w.objs[i]? = some o → P o.name) (hP : P o.name) :
    ∀ i ∈ w'.instances, ∀ o, w'.objs[i]? = some o → P o.name := by
  intro i hi' oi hoi
  rw [hi, List.mem_append] at hi'
  rcases hi' with hi' | hi'
  · obtain ⟨oi', e1, -⟩ := hR.inUse i hi'
    have e2 := getElem?_append_old (x := o) e1
    rw [← ho, hoi] at e2
    cases e2
    exact h i hi' _ e1
  · have : i = w.objs.length := by simpa using hi'
    rw [this, ho, getElem?_append_length] at hoi
    cases hoi
    exact hP

/-- Components of a vector and of an antisymmetric tensor. -/
noncomputable def potential : Arr Poly := ⟨[3], [MvPolynomial.X "y", MvPolynomial.X "z" * MvPolynomial.X "x", 1]⟩
noncomputable def field : Arr Poly :=
  ⟨[3, 3], [0, MvPolynomial.X "z", 0, -MvPolynomial.X "z", 0, MvPolynomial.X "x", 0, -MvPolynomial.X "x", 0]⟩

theorem field_antisymm {i j : Nat} (hi : i < 3) (hj : j < 3) : field.get [i, j] = -field.get [j, i] := by
  interval_cases i <;> interval_cases j <;> simp [field, Arr.get, ravel]

/-- C116: a vector and an antisymmetric tensor in the metric `nil`. -/
example : ∃ (E : Engine Poly) (G : Ground Poly) (V : View Poly) (w : World Poly) (Dm A F : TField Poly) (t u : Id') (d : CalcObj),
    EngineOK E ∧ Calculus E ∧ Scene G V w ∧ AnyMetric G V Dm ∧ Dm.ix = [-1, -1] ∧ NamesOK E G V w Dm.name ∧
    derivative .covariantD ["a"] = .ok d ∧
    Denotes G V ⟨.tensor, some t, ["b"]⟩ t A ∧ A.name ≠ "TEMP" ∧ A.ix = [-1] ∧
    Denotes G V ⟨.tensor, some u, ["b", "c"]⟩ u F ∧ F.name ≠ "TEMP" ∧ F.ix = [-1, -1] ∧
    (∀ i j, i < G.n → j < G.n → F.val [i, j] = -F.val [j, i]) ∧ christoffel E G 2 0 1 ≠ 0 ∧
    E.diff (G.syms.getD 2 "") (F.val [0, 1]) = 1 ∧ E.diff (G.syms.getD 1 "") (A.val [0]) = 1 := by
  obtain ⟨G, V, w, h1, h2, -, h3, h4, h5, h6, h7⟩ := curved_full
  obtain ⟨o, w1, -, hS1, hi1, ho1, hn1, -, -, hx1⟩ := scene_new h1 (kind := .tensor) (Or.inl rfl) "A" "A" (a := potential)
    (ix := [-1]) (f := potential.get) ⟨rfl, by rw [h2]; rfl, fun _ _ _ => rfl⟩ ⟨rfl, by simp⟩
  obtain ⟨o', w2, -, hS2, hi2, ho2, hn2, -, -, hx2⟩ := scene_new hS1 (kind := .tensor) (Or.inl rfl) "F" "F" (a := field)
    (ix := [-1, -1]) (f := field.get) ⟨rfl, by rw [h2]; rfl, fun _ _ _ => rfl⟩ ⟨rfl, by simp⟩
  have N1 := names_new hi1 ho1 h1.registry (P := fun s => s ∈ ["Cartesian", "Nil", "A", "F"])
    (fun i hi o ho => by rcases h4 i hi o ho with h | h <;> simp [h]) (by simp [hn1])
  have N2 := names_new hi2 ho2 hS1.registry N1 (by simp [hn2])
  refine ⟨polyEngine, G, _, w2, _, ⟨"A", G.c, [-1], potential.get⟩, ⟨"F", G.c, [-1, -1], field.get⟩, w.objs.length, w1.objs.length,
    _, polyEngine_ok, polyEngine_calculus, hS2, ⟨hx2 _ _ (hx1 _ _ h3.view), h3.name, h3.coords⟩, rfl, ?_, rfl,
    ⟨⟨rfl, rfl, hx2 _ _ (if_pos rfl), by simp, rfl⟩, rfl⟩, (by decide : "A" ≠ "TEMP"), rfl,
    ⟨⟨rfl, rfl, if_pos rfl, by simp, rfl⟩, rfl⟩, (by decide : "F" ≠ "TEMP"), rfl,
    fun i j hi hj => field_antisymm (h2 ▸ hi) (h2 ▸ hj), by rw [h5]; exact curved_half, ?_, ?_⟩
  · intro q i hi' oi hoi hname
    exfalso
    have := N2 i hi' oi hoi
    rw [hname] at this
    revert this
    cases q <;> exact (by decide)
  · rw [h6]
    show MvPolynomial.pderiv "z" (MvPolynomial.X "z" : Poly) = 1
    exact MvPolynomial.pderiv_X_self _
  · rw [h6]
    show MvPolynomial.pderiv "y" (MvPolynomial.X "y" : Poly) = 1
    exact MvPolynomial.pderiv_X_self _

/-- Components of an antisymmetric tensor in two dimensions. -/
noncomputable def fieldUp : Arr (PowerSeries ℚ) := ⟨[2, 2], [0, onePlus, -onePlus, 0]⟩

/-- C114: an antisymmetric tensor in a metric whose determinant is not constant. -/
example : ∃ (E : Engine (PowerSeries ℚ)) (G : Ground (PowerSeries ℚ)) (V : View (PowerSeries ℚ)) (w : World (PowerSeries ℚ))
    (Dm D : TField (PowerSeries ℚ)) (t : Id') (d : CalcObj), EngineOK E ∧ Calculus E ∧ Determinants E ∧ Scene G V w ∧
    LowerMetric G V Dm ∧ NamesOK E G V w Dm.name ∧ derivative .covariantD ["a"] = .ok d ∧
    Denotes G V ⟨.tensor, some t, ["a", "b"]⟩ t D ∧ D.name ≠ "TEMP" ∧ D.ix = [1, 1] ∧ D.val [0, 1] = onePlus ∧
    (∀ i j, i < G.n → j < G.n → D.val [i, j] = -D.val [j, i]) ∧
    (toMat G.n G.g).det = onePlus ∧ E.diff (G.syms.getD 0 "") onePlus = 1 := by
  obtain ⟨G, V, w, h1, h2, h3, h4, h5, h6, -⟩ := plainDeclared seriesDiff (syms := ["x", "y"]) (a := stretched)
    (b := unstretched) rfl rfl stretched_symm stretched_inverse (Or.inl rfl) (by simp)
  have hn : G.n = 2 := h2
  obtain ⟨o, w', -, hS', hi, ho, ho', -, -, hx⟩ := scene_new h1 (kind := .tensor) (Or.inl rfl) "F" "F" (a := fieldUp) (ix := [1, 1])
    (f := fieldUp.get) ⟨rfl, by rw [hn]; rfl, fun _ _ _ => rfl⟩ ⟨rfl, by simp⟩
  have N := names_new hi ho h1.registry (P := fun s => ∀ q : Quantity, s ≠ "Given" ++ q.suffix)
    (fun i hi o ho q => h5 q i hi o ho) (by rw [ho']; intro q; cases q <;> decide)
  refine ⟨plainEngine seriesDiff, G, _, w', _, ⟨"F", G.c, [1, 1], fieldUp.get⟩, w.objs.length, _, plainEngine_ok _,
    seriesDiff_calculus, plainEngine_determinants _, hS', ⟨hx _ _ h4.view, h4.name, h4.coords, rfl⟩,
    fun q i hi' oi hoi hname => absurd hname (N i hi' oi hoi q), rfl,
    ⟨⟨rfl, rfl, if_pos rfl, by simp, rfl⟩, rfl⟩, (by decide : "F" ≠ "TEMP"), rfl, rfl, ?_, ?_, ?_⟩
  · intro i j hi hj
    rw [hn] at hi hj
    interval_cases i <;> interval_cases j <;> simp [fieldUp, Arr.get, ravel]
  · have : G.g = entry stretched := funext fun i => funext fun j => h6 rfl i j
    rw [hn, this]
    exact stretched_det
  · rw [h3]
    exact onePlus_diff

end PyOGRe
