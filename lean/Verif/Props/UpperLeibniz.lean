import Verif.Lemmas.AnyLeibniz
import Verif.Props.Upper

/-!
# The Leibniz rule for metrics whose default indices are upper: C34

For these metrics the covariant derivative is computed with the opposite of the Christoffel symbols (C31).  This derivative
does not commute with raising and lowering of indices, so the rules for sums and products hold only if each operand is
used in its default configuration.
-/

namespace PyOGRe
open Spec Finset
variable {K : Type} [CommRing K] [DecidableEq K] [Algebra ℚ K] {E : Engine K} {G : Ground K} {V : View K} {w : World K}
  {Dm : TField K}

/-- The covariant derivative of the tensor that `Calc` makes of a formula. -/
theorem upper_of_calc (hE : EngineOK E) (hC : Calculus E) (hS : Scene G V w) (hm : UpperMetric G V Dm)
    (hN : NamesFor E G (minusGamma E G) V w Dm.name) {F : Id' → TField K} {f : Formula K} (hf : f.OK G V F)
    {name symbol : String} (hname : name ≠ "TEMP") (hnew : ∀ q : Quantity, name ≠ Dm.name ++ q.suffix) {order : List Sym}
    (hne : order ≠ []) (hi : order.Perm f.labels) {letters : List Sym} {a : Sym} (hln : letters.Nodup) {u v : Sym}
    (hu : u ∈ letters) (hv : v ∈ letters) (huv : u ≠ v) (hu' : u ∉ order ++ [a]) (hv' : v ∉ order ++ [a]) (ha : a ∉ order) :
    Does (do
      let x ← f.eval E letters
      let r ← calcResult E x name symbol order
      let y ← calcInit E r order
      let d ← PyM.lift (derivative .covariantD [a])
      calcMatmul E letters d y) w fun z w' => ∃ V' t D D1, Scene G V' w' ∧ V.Keeps V' ∧ Denotes G V' z t D ∧
        z.labels = a :: order ∧ D.ix = -1 :: D1.ix ∧ D1.ix = order.map (posOf f.labels (f.mean E G F).ix) ∧
        order.Nodup ∧ (∀ pos ρ, Positions pos → Values G.n ρ → D1.at G order pos ρ = (f.mean E G F).value pos ρ) ∧
        ∀ pos ρ, Positions pos → Values G.n ρ →
          D.at G z.labels pos ρ = (nablaOf E G (minusGamma E G) D1).at G (a :: order) pos ρ := by
  have h1 := C69_calc hE hS letters hf (symbol := symbol) hname hne hi
  rw [← pyM_bind_assoc]
  refine Does.bind h1 ?_
  rintro r w1 ⟨V1, D1, hS1, hK1, hL1, hr1, hv1, hc1, hn1, hix1, hat1⟩
  have hlen : order.length = D1.ix.length := by rw [hix1]; simp
  have hnd : order.Nodup := by
    obtain ⟨z, w', -, V', t, D, -, -, -, hz, hl, -⟩ := C69_formula hE hS letters hf
    rw [hi.nodup_iff, ← hl]
    exact hz.nodup
  refine Does.bind (evaluates_init hE.simp_eq hS1 hv1 hc1 hnd hlen) ?_
  rintro y w2 ⟨V2, t2, D2, hS2, hV2, hT2, hy2, hl2, rfl⟩
  refine Does.lift (a := ⟨.covariantD, none, [a]⟩) rfl ?_
  have hN1 : NamesFor E G (minusGamma E G) V1 w1 Dm.name := by
    refine namesFor_leaves hS hN hK1 hL1 ?_
    rintro i - - rfl o ho q hq
    rw [scene_object_name hS1 hv1 ho, hn1] at hq
    exact absurd hq (hnew q)
  have hK2 : V1.Keeps V2 := fun s D h _ => hV2 s D h
  have hN2 : NamesFor E G (minusGamma E G) V2 w2 Dm.name := namesFor_leaves hS1 hN1 hK2
    (leaves_onlyTemps (new := fun _ => False) hS1.registry hT2) fun _ _ _ h => h.elim
  have hm2 : UpperMetric G V2 Dm := ⟨hK2 _ _ (hK1 _ _ hm.view hm.name) hm.name, hm.name, hm.coords, hm.ix⟩
  refine Does.mono (C31_upper_gradient hE hC hS2 hm2 hN2 rfl hy2 (by rw [hn1]; exact hname) hln hu hv huv
    (by rw [hl2]; exact hu') (by rw [hl2]; exact hv') (by rw [hl2]; exact ha)) ?_
  rintro z w3 ⟨V3, t3, D3, hS3, hK3, -, -, hz3, hl3, hix3, hat3⟩
  rw [hl2] at hl3 hat3
  exact ⟨V3, t3, D3, D2, hS3, keeps_trans hK1 (keeps_trans hK2 hK3), hz3, hl3, hix3, hix1, hnd, hat1, hat3⟩

/-- **C34** for metrics with default configuration (1,1): the covariant derivative of a sum is the sum of the covariant
derivatives, at the positions `pos` if both operands have them in their default configurations. -/
theorem C34_upper_sum (hE : EngineOK E) (hC : Calculus E) (hS : Scene G V w) (hm : UpperMetric G V Dm)
    (hN : NamesFor E G (minusGamma E G) V w Dm.name) {A B : Id'} {lA lB : List Sym} {DA DB : TField K}
    (hA : Denotes G V ⟨.tensor, some A, lA⟩ A DA) (hB : Denotes G V ⟨.tensor, some B, lB⟩ B DB) (hAB : lB.Perm lA)
    {pos : Sym → Int} (hpos : Positions pos) (hpA : lA.map pos = DA.ix) (hpB : lB.map pos = DB.ix)
    {name symbol : String} (hname : name ≠ "TEMP") (hnew : ∀ q : Quantity, name ≠ Dm.name ++ q.suffix)
    {order : List Sym} (hne : order ≠ []) (hi : order.Perm lA) {letters : List Sym} {a : Sym} (hpa : pos a = -1)
    (hln : letters.Nodup) {u v : Sym} (hu : u ∈ letters) (hv : v ∈ letters) (huv : u ≠ v) (hu' : u ∉ order ++ [a])
    (hv' : v ∉ order ++ [a]) (ha : a ∉ order) :
    Does (do
      let x ← (Formula.add (.tensor A lA) (.tensor B lB)).eval E letters
      let r ← calcResult E x name symbol order
      let y ← calcInit E r order
      let d ← PyM.lift (derivative .covariantD [a])
      calcMatmul E letters d y) w fun z w' => ∃ V' t D, Scene G V' w' ∧ V.Keeps V' ∧ Denotes G V' z t D ∧
        z.labels = a :: order ∧ D.ix = (a :: order).map pos ∧ ∀ ρ, Values G.n ρ → D.at G z.labels pos ρ =
          (nablaOf E G (minusGamma E G) DA).at G (a :: lA) pos ρ +
          (nablaOf E G (minusGamma E G) DB).at G (a :: lB) pos ρ := by
  obtain ⟨F, hFA, hFB⟩ : ∃ F : Id' → TField K, F A = DA ∧ F B = DB :=
    ⟨fun t => (V t).getD DA, congrArg (·.getD DA) hA.field, congrArg (·.getD DA) hB.field⟩
  have haA : a ∉ lA := fun h => ha (hi.mem_iff.2 h)
  have haB : a ∉ lB := fun h => haA (hAB.mem_iff.1 h)
  have hf : (Formula.add (.tensor A lA) (.tensor B lB)).OK G V F := by
    refine ⟨⟨by rw [hFA]; exact hA.field, by rw [hFA]; exact hA.coords, by rw [hFA]; exact hA.length,
      fun s => le_trans (List.nodup_iff_count_le_one.1 hA.nodup s) (by decide), Or.inl hA.nodup⟩,
      ⟨by rw [hFB]; exact hB.field, by rw [hFB]; exact hB.coords, by rw [hFB]; exact hB.length,
      fun s => le_trans (List.nodup_iff_count_le_one.1 hB.nodup s) (by decide), Or.inl hB.nodup⟩, ?_⟩
    show (single lB).Perm (single lA)
    rw [single_nodup hA.nodup, single_nodup hB.nodup]
    exact hAB
  have hlab : (Formula.add (.tensor A lA) (.tensor B lB) : Formula K).labels = lA := by
    show single lA = _
    rw [single_nodup hA.nodup]
  have hmix : (Formula.mean E G F (.add (.tensor A lA) (.tensor B lB))).ix = DA.ix := by
    show (Formula.mean E G F (.tensor A lA)).ix = _
    rw [tensor_ix hA.nodup (by rw [hFA]; exact hA.length), hFA]
  refine Does.mono (upper_of_calc hE hC hS hm hN hf hname hnew hne (by rw [hlab]; exact hi) hln hu hv huv hu' hv' ha) ?_
  rintro z w' ⟨V', t, D, D1, h1, h2, h3, h4, h5, h6, h7, h8, h9⟩
  have hix : D1.ix = order.map pos := by
    rw [h6, hlab, hmix, ← hpA]
    exact List.map_congr_left fun s hs => posOf_map pos (hi.mem_iff.1 hs)
  refine ⟨V', t, D, h1, h2, h3, h4, by rw [h5, hix, List.map_cons, hpa], fun ρ hρ => ?_⟩
  rw [h9 pos ρ hpos hρ, nablaOf_at ha h7 (by rw [hix]; simp) hpa hix.symm hρ,
    nablaOf_at haA hA.nodup hA.length hpa hpA hρ, nablaOf_at haB hB.nodup hB.length hpa hpB hρ,
    covariantAtOf_perm hi, covariantAtOf_perm hAB, ← covariantAtOf_add hC]
  refine covariantAtOf_congr (fun ρ' hρ' => ?_) hρ
  rw [h8 pos ρ' hpos hρ']
  show (Formula.mean E G F (.tensor A lA)).value pos ρ' + (Formula.mean E G F (.tensor B lB)).value pos ρ' = _
  rw [tensor_value A hA.nodup, tensor_value B hB.nodup, hFA, hFB]

/-- **C34** for metrics with default configuration (1,1): the Leibniz rule, at the positions `pos` if both operands have
them in their default configurations, the labels that they share in opposite ones. -/
theorem C34_upper_product (hE : EngineOK E) (hC : Calculus E) (hS : Scene G V w) (hm : UpperMetric G V Dm)
    (hN : NamesFor E G (minusGamma E G) V w Dm.name) {A B : Id'} {lA lB : List Sym} {DA DB : TField K}
    (hA : Denotes G V ⟨.tensor, some A, lA⟩ A DA) (hB : Denotes G V ⟨.tensor, some B, lB⟩ B DB)
    {pos : Sym → Int} (hpos : Positions pos) (hpA : lA.map pos = DA.ix)
    (hpB : lB.map (turned (sharedOf lA lB) pos) = DB.ix)
    {name symbol : String} (hname : name ≠ "TEMP") (hnew : ∀ q : Quantity, name ≠ Dm.name ++ q.suffix)
    {order : List Sym} (hne : order ≠ []) (hi : order.Perm (unshared lA lB)) {letters : List Sym} {a : Sym}
    (hpa : pos a = -1) (hln : letters.Nodup) {u v : Sym} (hu : u ∈ letters) (hv : v ∈ letters) (huv : u ≠ v)
    (hu' : u ∉ order ++ [a]) (hv' : v ∉ order ++ [a]) (haA : a ∉ lA) (haB : a ∉ lB) :
    Does (do
      let x ← (Formula.mul (.tensor A lA) (.tensor B lB)).eval E letters
      let r ← calcResult E x name symbol order
      let y ← calcInit E r order
      let d ← PyM.lift (derivative .covariantD [a])
      calcMatmul E letters d y) w fun z w' => ∃ V' t D, Scene G V' w' ∧ V.Keeps V' ∧ Denotes G V' z t D ∧
        z.labels = a :: order ∧ D.ix = (a :: order).map pos ∧ ∀ ρ, Values G.n ρ → D.at G z.labels pos ρ =
          contracted G (sharedOf lA lB) ((nablaOf E G (minusGamma E G) DA).at G (a :: lA)) (DB.at G lB) pos ρ +
          contracted G (sharedOf lA lB) (DA.at G lA) ((nablaOf E G (minusGamma E G) DB).at G (a :: lB)) pos ρ := by
  obtain ⟨F, hFA, hFB⟩ : ∃ F : Id' → TField K, F A = DA ∧ F B = DB :=
    ⟨fun t => (V t).getD DA, congrArg (·.getD DA) hA.field, congrArg (·.getD DA) hB.field⟩
  have ha : a ∉ order := fun h => by
    rcases mem_unshared.1 (hi.mem_iff.1 h) with h' | h'
    · exact haA h'.1
    · exact haB h'.1
  have hf : (Formula.mul (.tensor A lA) (.tensor B lB)).OK G V F :=
    ⟨⟨by rw [hFA]; exact hA.field, by rw [hFA]; exact hA.coords, by rw [hFA]; exact hA.length,
      fun s => le_trans (List.nodup_iff_count_le_one.1 hA.nodup s) (by decide), Or.inl hA.nodup⟩,
      ⟨by rw [hFB]; exact hB.field, by rw [hFB]; exact hB.coords, by rw [hFB]; exact hB.length,
      fun s => le_trans (List.nodup_iff_count_le_one.1 hB.nodup s) (by decide), Or.inl hB.nodup⟩⟩
  have hlab : (Formula.mul (.tensor A lA) (.tensor B lB) : Formula K).labels = unshared lA lB := by
    show unshared (single lA) (single lB) = _
    rw [single_nodup hA.nodup, single_nodup hB.nodup]
  have hss : ∀ s, s ∈ sharedOf lA lB ↔ s ∈ lA ∧ s ∈ lB := fun s => mem_sharedOf
  have hsn : (sharedOf lA lB).Nodup := nodup_sharedOf hA.nodup lB
  have haS : a ∉ sharedOf lA lB := fun h => haA ((hss a).1 h).1
  have hmix : (Formula.mean E G F (.mul (.tensor A lA) (.tensor B lB))).ix = (unshared lA lB).map pos := by
    have e1 : (Formula.mean E G F (.tensor A lA)).ix = DA.ix := by
      rw [tensor_ix hA.nodup (by rw [hFA]; exact hA.length), hFA]
    have e2 : (Formula.mean E G F (.tensor B lB)).ix = DB.ix := by
      rw [tensor_ix hB.nodup (by rw [hFB]; exact hB.length), hFB]
    show ((single lA).filter fun s => decide (s ∉ single lB)).map (posOf (single lA) (Formula.mean E G F (.tensor A lA)).ix) ++
      ((single lB).filter fun s => decide (s ∉ single lA)).map (posOf (single lB) (Formula.mean E G F (.tensor B lB)).ix) = _
    rw [e1, e2, single_nodup hA.nodup, single_nodup hB.nodup, unshared, List.map_append, ← hpA, ← hpB]
    congr 1
    · exact List.map_congr_left fun s hs => posOf_map pos (List.mem_filter.1 hs).1
    · refine List.map_congr_left fun s hs => ?_
      obtain ⟨hs1, hs2⟩ := List.mem_filter.1 hs
      rw [posOf_map _ hs1]
      unfold turned
      rw [if_neg fun h => (of_decide_eq_true hs2) ((hss s).1 h).1]
  refine Does.mono (upper_of_calc hE hC hS hm hN hf hname hnew hne (by rw [hlab]; exact hi) hln hu hv huv hu' hv' ha) ?_
  rintro z w' ⟨V', t, D, D1, h1, h2, h3, h4, h5, h6, h7, h8, h9⟩
  have hix : D1.ix = order.map pos := by
    rw [h6, hlab, hmix]
    exact List.map_congr_left fun s hs => posOf_map pos (hi.mem_iff.1 hs)
  refine ⟨V', t, D, h1, h2, h3, h4, by rw [h5, hix, List.map_cons, hpa], fun ρ hρ => ?_⟩
  have hval : ∀ ρ', (Formula.mean E G F (.mul (.tensor A lA) (.tensor B lB))).value pos ρ' =
      contracted G (sharedOf lA lB) (DA.at G lA) (DB.at G lB) pos ρ' := by
    intro ρ'
    show contracted G (sharedOf (single lA) (single lB)) _ _ pos ρ' = _
    rw [single_nodup hA.nodup, single_nodup hB.nodup]
    unfold contracted
    congr 1
    funext ρ''
    rw [tensor_value A hA.nodup, tensor_value B hB.nodup, hFA, hFB]
  rw [h9 pos ρ hpos hρ, nablaOf_at ha h7 (by rw [hix]; simp) hpa hix.symm hρ, covariantAtOf_perm hi,
    covariantAtOf_congr (T' := contracted G (sharedOf lA lB) (DA.at G lA) (DB.at G lB))
      (fun ρ' hρ' => (h8 pos ρ' hpos hρ').trans (hval ρ')) hρ,
    covariantAtOf_contracted hC (onlyOn_at DA lA) (onlyOn_at DB lB) haA haB hsn hss (fun s => mem_unshared) hpos hρ]
  have hpta : turned (sharedOf lA lB) pos a = -1 := by unfold turned; rw [if_neg haS, hpa]
  congr 1
  · refine sumOver_congr hρ fun ρ' hρ' _ => ?_
    rw [nablaOf_at haA hA.nodup hA.length hpa hpA hρ']
  · refine sumOver_congr hρ fun ρ' hρ' _ => ?_
    rw [nablaOf_at haB hB.nodup hB.length hpta hpB hρ']

/-- The hypotheses hold for the sum and the outer product of the metric with itself. -/
example : ∃ (G : Ground Poly) (V : View Poly) (w : World Poly) (Dm : TField Poly) (pos : Sym → Int), EngineOK polyEngine ∧
    Calculus polyEngine ∧ Scene G V w ∧ UpperMetric G V Dm ∧ NamesFor polyEngine G (minusGamma polyEngine G) V w Dm.name ∧
    Denotes G V ⟨.tensor, some G.m, ["b", "c"]⟩ G.m Dm ∧ Denotes G V ⟨.tensor, some G.m, ["c", "b"]⟩ G.m Dm ∧
    Denotes G V ⟨.tensor, some G.m, ["d", "e"]⟩ G.m Dm ∧ Positions pos ∧ pos "a" = -1 ∧ ["b", "c"].map pos = Dm.ix ∧
    ["c", "b"].map pos = Dm.ix ∧ ["d", "e"].map (turned (sharedOf ["b", "c"] ["d", "e"]) pos) = Dm.ix ∧
    ["b", "c", "d", "e"].Perm (unshared ["b", "c"] ["d", "e"]) ∧ (∀ q : Quantity, "P" ≠ Dm.name ++ q.suffix) := by
  obtain ⟨G, V, w, h1, h2, h3, h4⟩ := curved_table
  refine ⟨G, V, w, _, fun s => if s = "a" then -1 else 1, polyEngine_ok, polyEngine_calculus, h1, h3, noNames_for h4,
    ⟨⟨rfl, rfl, h3.view, by simp, rfl⟩, h3.coords⟩, ⟨⟨rfl, rfl, h3.view, by simp, rfl⟩, h3.coords⟩,
    ⟨⟨rfl, rfl, h3.view, by simp, rfl⟩, h3.coords⟩, ?_, rfl, by decide, by decide, by decide, by decide,
    fun q => by cases q <;> decide⟩
  intro s
  dsimp only
  split_ifs <;> simp

/-- The derivative of the metric, contracted with the metric in the two ways of the Leibniz rule. -/
theorem upper_contracted (hS : Scene G V w) (hm : UpperMetric G V Dm) {D : TField K} (hD : D.ix = [-1, 1, 1])
    {k i j : Nat} (hk : k < G.n) (hi : i < G.n) (hj : j < G.n) {pos : Sym → Int} (hpos : Positions pos)
    (hp : ["a", "b", "c", "d"].map pos = [-1, 1, 1, 1]) {ρ : Sym → Nat} (hρ : Values G.n ρ)
    (hρ' : ["a", "b", "d"].map ρ = [k, i, j]) :
    contracted G ["c"] (D.at G ["a", "b", "c"]) (Dm.at G ["c", "d"]) pos ρ +
      contracted G ["c"] (Dm.at G ["b", "c"]) (D.at G ["a", "c", "d"]) pos ρ = D.val [k, i, j] + D.val [k, i, j] := by
  simp only [List.map_cons, List.map_nil, List.cons.injEq, and_true] at hp hρ'
  obtain ⟨pa, pb, pc, pd⟩ := hp
  obtain ⟨ra, rb, rd⟩ := hρ'
  obtain ⟨-, hcm, hc⟩ := scene_metric_comp hS hm.view
  have hcD : Config D.ix.length D.ix := ⟨rfl, by rw [hD]; simp⟩
  have hself : ∀ l x, l < G.n → x < G.n → D.comp G [-1, 1, 1] [k, l, x] = D.val [k, l, x] := fun l x hl hx => by
    rw [← hD, comp_self (by simp [hk, hl, hx]) (by rw [hD]; rfl)]
  congr 1
  · unfold contracted
    simp only [sumOver, TField.at, List.map_cons, List.map_nil, turned, List.mem_singleton, Function.update_apply, pa, pb,
      pc, pd, ra, rb, rd, if_true, String.reduceEq, if_false]
    rw [sum_eq_single_of_mem j (by simpa using hj)]
    · rw [hself i j hi hj, (hc j j hj hj).2.2.2]
      simp [delta]
    · intro x hx hne
      rw [(hc x j (by simpa using hx) hj).2.2.2]
      simp [delta, hne]
  · have hu : contracted G ["c"] (Dm.at G ["b", "c"]) (D.at G ["a", "c", "d"]) pos ρ =
        contracted G ["c"] (Dm.at G ["b", "c"]) (D.at G ["a", "c", "d"]) (Function.update pos "c" (-1)) ρ :=
      (contracted_update hS.inverse hS.symm (lA := ["b", "c"]) (lB := ["a", "c", "d"]) (by simp) (by simp)
        (lawful_at hS.inverse (scene_config hS hm.view) (by simp) (by rw [hm.ix]; rfl))
        (lawful_at hS.inverse hcD (by simp) (by rw [hD]; rfl)) (by simp) hpos (Or.inr rfl) hρ).symm
    rw [hu]
    unfold contracted
    simp only [sumOver, TField.at, List.map_cons, List.map_nil, turned, List.mem_singleton, Function.update_apply, pa, pb,
      pc, pd, ra, rb, rd, if_true, String.reduceEq, if_false, neg_neg]
    rw [sum_eq_single_of_mem i (by simpa using hi)]
    · rw [hself i j hi hj, (hc i i hi hi).2.2.1]
      simp [delta]
    · intro x hx hne
      rw [(hc i x hi (by simpa using hx)).2.2.1]
      simp [delta, hne.symm]

theorem upper_square (hS : Scene G V w) (hm : UpperMetric G V Dm) {pos : Sym → Int} (hpos : Positions pos)
    (hp : ["b", "c", "d"].map pos = [1, 1, 1]) {ρ : Sym → Nat} (hρ : Values G.n ρ) :
    contracted G ["c"] (Dm.at G ["b", "c"]) (Dm.at G ["c", "d"]) pos ρ = Dm.at G ["b", "d"] pos ρ := by
  simp only [List.map_cons, List.map_nil, List.cons.injEq, and_true] at hp
  obtain ⟨pb, pc, pd⟩ := hp
  obtain ⟨-, hcm, hc⟩ := scene_metric_comp hS hm.view
  unfold contracted
  simp only [sumOver, TField.at, List.map_cons, List.map_nil, turned, List.mem_singleton, Function.update_apply, pb,
    pc, pd, if_true, String.reduceEq, if_false]
  rw [sum_eq_single_of_mem (ρ "d") (by simpa using hρ "d")]
  · rw [(hc _ _ (hρ "d") (hρ "d")).2.2.2]
    simp [delta]
  · intro x hx hne
    rw [(hc x _ (by simpa using hx) (hρ "d")).2.2.2]
    simp [delta, hne]

/-- **C34** is false of the metric with upper components `nil`: with `P = Calc(g(b,c) @ g(c,d), indices=(b,d))`, which is the
metric again, `∇_2 P^01` is 2, but `(∇_2 g^0c) g_c^1 + g^0c (∇_2 g_c^1)` with the derivative `∇ g` that the library
computes is 4. -/
theorem C34_false : ∃ (E : Engine Poly) (G : Ground Poly) (V : View Poly) (w : World Poly) (Dm : TField Poly)
    (letters : List Sym) (d : CalcObj) (pos : Sym → Int) (ρ : Sym → Nat), EngineOK E ∧ Calculus E ∧ Scene G V w ∧
    AnyMetric G V Dm ∧ derivative .covariantD ["a"] = .ok d ∧ Positions pos ∧ Values G.n ρ ∧
    ["a", "b", "c", "d"].map pos = [-1, 1, 1, 1] ∧ ["a", "b", "d"].map ρ = [2, 0, 1] ∧
    Does (do
      let x ← (Formula.mul (.tensor G.m ["b", "c"]) (.tensor G.m ["c", "d"])).eval E letters
      let r ← calcResult E x "P" "P" ["b", "d"]
      let y ← calcInit E r ["b", "d"]
      calcMatmul E letters d y) w (fun z w' => ∃ V' t D, Scene G V' w' ∧ Denotes G V' z t D ∧
        z.labels = ["a", "b", "d"] ∧ D.ix = [-1, 1, 1] ∧ D.at G z.labels pos ρ = 2) ∧
    Does (calcMatmul E letters d ⟨.tensor, some G.m, ["b", "c"]⟩) w fun z w' => ∃ V' t D, Scene G V' w' ∧
      Denotes G V' z t D ∧ z.labels = ["a", "b", "c"] ∧ D.ix = [-1, 1, 1] ∧
      contracted G ["c"] (D.at G ["a", "b", "c"]) (Dm.at G ["c", "d"]) pos ρ +
        contracted G ["c"] (Dm.at G ["b", "c"]) (D.at G ["a", "c", "d"]) pos ρ = 4 := by
  obtain ⟨G, V, w, hS, hG, hm, hN⟩ := curved_table
  have hn := hG.n
  have hpos : Positions fun s => if s = "a" then -1 else 1 := by
    intro s
    dsimp only
    split_ifs <;> simp
  have hρ : Values G.n fun s => if s = "a" then 2 else if s = "b" then 0 else 1 := by
    intro s
    dsimp only
    split_ifs <;> omega
  have hgi : G.d polyEngine 2 (G.gi 0 1) = 1 := by
    rw [(nil_d hG _).2.2, hG.gi, show entry nil 0 1 = MvPolynomial.X "z" from rfl]
    simp
  refine ⟨polyEngine, G, V, w, _, ["a", "b", "c", "d", "e", "f"], ⟨.covariantD, none, ["a"]⟩, _, _, polyEngine_ok,
    polyEngine_calculus, hS, ⟨hm.view, hm.name, hm.coords⟩, rfl, hpos, hρ, by decide, by decide, ?_, ?_⟩
  · have hf : (Formula.mul (.tensor G.m ["b", "c"]) (.tensor G.m ["c", "d"]) : Formula Poly).OK G V fun _ => ⟨"Nil", 0, [1, 1], nil.get⟩ :=
      ⟨⟨hm.view, hm.coords, rfl, fun s => le_trans (List.nodup_iff_count_le_one.1 (by decide) s) (by decide), Or.inl (by decide)⟩,
        ⟨hm.view, hm.coords, rfl, fun s => le_trans (List.nodup_iff_count_le_one.1 (by decide) s) (by decide), Or.inl (by decide)⟩⟩
    refine Does.mono (upper_of_calc polyEngine_ok polyEngine_calculus hS hm (noNames_for hN) hf (name := "P") (symbol := "P")
      (order := ["b", "d"]) (a := "a") (by decide) (fun q => by cases q <;> decide) (by decide)
      (show ["b", "d"].Perm (unshared (single ["b", "c"]) (single ["c", "d"])) by decide) (by decide)
      (u := "e") (v := "f") (by decide) (by decide) (by decide) (by decide) (by decide) (by decide)) ?_
    rintro z w' ⟨V', t, D, D1, e1, -, e2, e3, e4, e5, -, e6, e7⟩
    have hix : D1.ix = [1, 1] := e5
    refine ⟨V', t, D, e1, e2, e3, by rw [e4, hix], ?_⟩
    rw [e7 _ _ hpos hρ, nablaOf_at (by decide) (by decide) (by rw [hix]; rfl) rfl (by rw [hix]; rfl) hρ,
      covariantAtOf_congr (T' := TField.at G ⟨"Nil", 0, [1, 1], nil.get⟩ ["b", "d"]) ?_ hρ,
      ← nablaOf_at (by decide) (by decide) rfl rfl rfl hρ]
    · have := upper_value polyEngine_calculus hS hm (k := 2) (i := 0) (j := 1) (by omega) (by omega) (by omega)
      rw [hgi, mul_one] at this
      rw [← this]
      exact comp_self (G := G) (D := nablaOf polyEngine G (minusGamma polyEngine G) ⟨"Nil", 0, [1, 1], nil.get⟩)
        (J := [2, 0, 1]) (by simp [hn]) rfl
    · intro ρ' hρ'
      rw [e6 _ _ hpos hρ']
      refine Eq.trans ?_ (upper_square hS hm hpos (by decide) hρ')
      show contracted G ["c"] _ _ _ ρ' = _
      unfold contracted
      congr 1
  · refine Does.mono (C33_upper polyEngine_ok polyEngine_calculus hS hm (noNames_for hN) rfl (by decide) (u := "d")
      (v := "e") (by decide) (by decide) (by decide) (by decide) (by decide) (by decide) (by decide) (by decide)) ?_
    rintro z w' ⟨V', t, D, e1, -, -, -, e2, e3, e4, e5⟩
    refine ⟨V', t, D, e1, e2, e3, e4, ?_⟩
    rw [upper_contracted hS hm e4 (k := 2) (i := 0) (j := 1) (by omega) (by omega) (by omega) hpos (by decide) hρ (by decide),
      e5 2 0 1 (by omega) (by omega) (by omega), hgi]
    norm_num

end PyOGRe
