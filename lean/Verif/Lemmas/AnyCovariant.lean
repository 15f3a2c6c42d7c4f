import Verif.Lemmas.Covariant
import Verif.Lemmas.Connection

/-! Helper lemmas: the covariant derivative with connection coefficients that need not be the Christoffel symbols of the
metric. -/

namespace PyOGRe
open Spec Finset
variable {K : Type} [CommRing K] [DecidableEq K] [Algebra ℚ K] {E : Engine K} {G : Ground K} {V : View K} {w : World K}
variable {Γ : Nat → Nat → Nat → K}

theorem does_anyCovariantSum (hE : ∀ x, E.simp x = x) (hS : Scene G V w) {c t : Id'} {C D : TField K}
    (hc : InView G V c [1, -1, -1] (Quantity.compsOf E G Γ .christoffel) C) {y : CalcObj} (hy : Denotes G V y t D) {p d : Sym}
    (hp : p ∉ y.labels) (hd : d ∉ y.labels) (hpd : p ≠ d) {α : Type} {k : CalcObj → PyM K α} {Q : α → World K → Prop}
    (hk : ∀ x w' V' u X, Scene G V' w' → V.Extends V' → OnlyTemps w w' → Denotes G V' x u X → X.ix = -1 :: D.ix →
      (∀ i I, i < G.n → I.length = D.ix.length → (∀ x ∈ I, x < G.n) →
        X.val (i :: I) = covariantOf E G Γ D.ix D.val i I) → Does (k x) w' Q) :
    Does (do
      let x ← matmulPartial E [p] y (freeLabels [p] y.labels)
      let upper ← covariantTerms E c t (covariantLabels p d y.labels D.ix 1)
      let upper ← sumCalc E upper
      let x ← calcAdd E x upper
      let lower ← covariantTerms E c t (covariantLabels p d y.labels D.ix (-1))
      let lower ← sumCalc E lower
      let x ← calcSub E x lower
      k x) w Q := by
  have hcfg := scene_config hS hy.field
  have hpl : (p :: y.labels).Nodup := List.nodup_cons.2 ⟨hp, hy.nodup⟩
  rw [freeLabels_new hp]
  refine Does.bind (evaluates_gradient hE hS hy hp (List.Perm.refl _)) ?_
  rintro x w1 ⟨V1, u, A, hS1, hV1, hT1, hx, hx1, hx2, hx3⟩
  have hterm : ∀ sign : Int, sign = 1 ∨ sign = -1 → ∀ ls ∈ covariantLabels p d y.labels D.ix sign, ∀ V' w',
      Scene G V' w' → V1.Extends V' → Evaluates G V' w' (covariantTerm E c t ls) fun l' D' =>
      l'.Perm (p :: y.labels) ∧ ∀ pos ρ, DefaultOn p y.labels D.ix pos → Values G.n ρ → D'.at G l' pos ρ =
        ∑ k ∈ range G.n, Quantity.compsOf E G Γ .christoffel (ls.1.map (Function.update ρ d k)) *
          D.val (ls.2.map (Function.update ρ d k)) := by
    intro sign hsign ls hls V' w' hS' hV'
    obtain ⟨j, hj, h1, rfl⟩ := mem_covariantLabels hy.length hls
    have hV := extends_trans hV1 hV'
    refine evaluates_term hE hS' (C := C) ⟨hV _ _ hc.view, hc.coords, hc.cfg, hc.val⟩ (hV _ _ hy.field) hy.coords hy.nodup
      hy.length hj hp hd hpd ?_
    rcases hsign with rfl | rfl
    · exact Or.inl ⟨by simp, h1⟩
    · exact Or.inr ⟨by simp, h1⟩
  refine does_addSum (T0 := fun ρ => E.diff (G.syms.getD (ρ p) "") (D.val (y.labels.map ρ))) (ix := D.ix)
    hE (hterm 1 (Or.inl rfl)) hS1 (extends_refl V1) hx hx1 (fun pos ρ hpos hρ => ?_) (op := calcAdd E) (ε := 1) (fun x => by
      unfold calcAdd; dsimp only; rw [if_pos rfl]) (fun hS hx hy hp => by
      refine evaluates_mono (evaluates_add hE hS hx hy.toNames hp) ?_
      rintro l D ⟨h1, h2, h3⟩
      exact ⟨h1, h2, fun pos ρ hp hρ => by rw [h3 pos ρ hp hρ, one_mul]⟩) ?_
  · unfold TField.at
    rw [hx1, List.map_cons, hpos.first, hpos.rest, ← hx2, comp_self (values_map hρ _) (by simp [hx2, hy.length])]
    exact hx3 _ _ (hρ p) (by simp [hy.length]) (values_map hρ _)
  · intro x2 w2 V2 u2 X2 hS2 hV2 hT2 hl2 hx2' hix2 hv2
    refine does_addSum (V0 := V1) (V := V2) (ix := D.ix) hE (hterm (-1) (Or.inr rfl)) hS2 hV2 hx2' hl2 hv2
      (op := calcSub E) (ε := -1) (fun x => by unfold calcSub; dsimp only; rw [if_pos rfl]) (fun hS hx hy hp => by
      refine evaluates_mono (evaluates_sub hE hS hx hy hp) ?_
      rintro l D ⟨h1, h2, h3⟩
      exact ⟨h1, h2, fun pos ρ hp hρ => by rw [h3 pos ρ hp hρ]; ring⟩) ?_
    intro x3 w3 V3 u3 X3 hS3 hV3 hT3 hl3 hx3' hix3 hv3
    refine hk x3 w3 V3 u3 X3 hS3 (extends_trans hV1 (extends_trans hV2 hV3))
      (onlyTemps_trans hT1 (onlyTemps_trans hT2 hT3)) hx3' (hix3.trans (hix2.trans hx2)) fun i I hi hI hIn => ?_
    have hJ : (i :: I).length = (p :: y.labels).length := by simp [hI, hy.length]
    have hJn : ∀ x ∈ i :: I, x < G.n := by simpa [hi] using hIn
    have hρ := values_assign (ρ := fun _ => 0) (n := G.n) (fun _ => hS.pos) (p :: y.labels) (i :: I) hJn
    have hmap := map_assign (fun _ => 0) hpl hJ
    set ρ := assign (fun _ => 0) (p :: y.labels) (i :: I) with hρdef
    rw [List.map_cons] at hmap
    have hρp : ρ p = i := (List.cons.inj hmap).1
    have hρl : y.labels.map ρ = I := (List.cons.inj hmap).2
    have hcfg' : Config (-1 :: D.ix).length (-1 :: D.ix) := ⟨rfl, by
      intro x hx
      rcases List.mem_cons.1 hx with rfl | hx
      · exact Or.inr rfl
      · exact hcfg.2 x hx⟩
    have hpos0 := map_posOf hpl (ix := -1 :: D.ix) (by simp [hy.length])
    rw [List.map_cons] at hpos0
    have hdef : DefaultOn p y.labels D.ix (posOf (p :: y.labels) (-1 :: D.ix)) :=
      ⟨positions_posOf _ hcfg', (List.cons.inj hpos0).1, (List.cons.inj hpos0).2⟩
    have hX : X3.ix = -1 :: D.ix := hix3.trans (hix2.trans hx2)
    have hv := hv3 _ ρ hdef hρ
    unfold TField.at at hv
    rw [hl3, List.map_cons, hdef.first, hdef.rest, ← hX, comp_self (values_map hρ _) (by simp [hX, hy.length]),
      List.map_cons, hρp, hρl] at hv
    rw [hv, sum_covariantLabels hy.length, sum_covariantLabels hy.length]
    unfold covariantOf
    rw [one_mul, neg_one_mul, add_assoc, ← sub_eq_add_neg, ← sum_sub_distrib]
    refine congrArg₂ _ rfl (sum_congr rfl fun j hj => ?_)
    have hj' : j < y.labels.length := by rw [hy.length]; exact mem_range.1 hj
    have hIj : I.getD j 0 = ρ (y.labels.getD j "") := by
      rw [← hρl, List.getD_eq_getElem?_getD, List.getElem?_map, List.getD_eq_getElem?_getD, List.getElem?_eq_getElem hj']
      rfl
    have hlj : y.labels.getD j "" ≠ d := by
      rw [List.getD_eq_getElem?_getD, List.getElem?_eq_getElem hj']
      exact fun hc => hd (hc ▸ List.getElem_mem hj')
    have hcj : D.ix.getD j 1 = 1 ∨ D.ix.getD j 1 = -1 := by
      rw [List.getD_eq_getElem?_getD, List.getElem?_eq_getElem (hy.length ▸ hj')]
      exact hcfg.2 _ (List.getElem_mem _)
    rcases hcj with h | h
    · rw [h]
      simp only [if_true, show ¬ ((1 : Int) = -1) by decide, if_false, sub_zero]
      refine sum_congr rfl fun k _ => ?_
      rw [set_values hd, hρl]
      simp only [List.map_cons, List.map_nil, Function.update_of_ne hlj, Function.update_of_ne hpd, Function.update_self,
        hρp, ← hIj]
      rfl
    · rw [h]
      simp only [if_true, show ¬ ((-1 : Int) = 1) by decide, if_false, zero_sub]
      refine congrArg _ (sum_congr rfl fun k _ => ?_)
      rw [set_values hd, hρl]
      simp only [List.map_cons, List.map_nil, Function.update_of_ne hlj, Function.update_of_ne hpd, Function.update_self,
        hρp, ← hIj]
      rfl

theorem derives_anyCovariant (hE : ∀ x, E.simp x = x) (hS : Scene G V w) {Dm : TField K} (hΓ : GivesConnection E G Γ Dm) (hm : AnyMetric G V Dm)
    (hN : NamesFor E G Γ V w Dm.name) {y : CalcObj} {t : Id'} {D : TField K} (hy : Denotes G V y t D)
    (hyn : D.name ≠ "TEMP") {letters d R result : List Sym} {ps : List Sym → Py Sym} {p dm : Sym}
    (h0 : tupleGet (dummySymbols letters (y.labels ++ d)) 0 = .ok dm)
    (hps : ps (dummySymbols letters (y.labels ++ d)) = .ok p) (hp : p ∉ y.labels) (hdm : dm ∉ y.labels) (hpd : p ≠ dm)
    (hRl : R.length = y.labels.length + 1) (hR2 : ∀ s, R.count s ≤ 2) (hres : result = single R)
    (hcfg : (if (sharedLabels d y.labels).isEmpty then -1 :: keptIndices D.ix y.labels result
      else keptIndices D.ix y.labels result) = singleIndices R (-1 :: D.ix)) :
    DerivesFor E G Γ V w Dm.name (matmulCovariant E letters d y ps R result) fun l D' => l = single R ∧
      D'.ix = singleIndices R (-1 :: D.ix) ∧ ∀ pos ρ cfg, Positions pos → Values G.n ρ → Opposed R pos cfg →
        D'.at G l pos ρ = sumOver G.n (repeated R) (fun ρ' => (nablaOf E G Γ D).comp G cfg (R.map ρ')) ρ := by
  obtain ⟨oy, ey1, -, ey3⟩ := tensorOf_ok hS hy.toNames
  unfold matmulCovariant
  refine Does.step ey1 ?_
  dsimp only
  rw [ey3.metric]
  refine Does.bind (anyProvides_christoffel hΓ hS hm hN) ?_
  rintro c w1 ⟨V1, C, hS1, hK1, hL1, hN1, hc1, ⟨oc, hc2, -, hc3⟩, hC⟩
  have hy1 : Denotes G V1 y t D := ⟨⟨hy.role, hy.tensor, hK1 _ _ hy.field hyn, hy.nodup, hy.length⟩, hy.coords⟩
  have hm1 := hK1 _ _ hm.view hm.name
  refine Does.lift h0 (Does.lift hps ?_)
  obtain ⟨oy1, ey1, -, ey3⟩ := tensorOf_ok hS1 hy1.toNames
  refine Does.step ey1 ?_
  dsimp only
  rw [ey3.indices]
  refine does_anyCovariantSum hE hS1 hC hy1 hp hdm hpd ?_
  intro x w2 V2 u X hS2 hV2 hT2 hx hXix hX
  obtain ⟨ox, ex1, -, ex3⟩ := tensorOf_ok hS2 hx.toNames
  refine Does.step ex1 ?_
  dsimp only
  refine Does.bind (evaluates_trace hE hS2 (hV2 _ _ hm1) hm.coords hx.field hx.coords
    (by rw [hRl, hXix]; simp [hy.length]) hR2) ?_
  rintro z w3 ⟨V3, u3, Z, hS3, hV3, hT3, hz, hz1, hz2, hz3⟩
  refine Does.bind (yields_calc hE hS3 hz (name := "Result") (symbol := "") (by decide) (indices := result)
    (Or.inr (by rw [hz1, hres]))) ?_
  rintro r w4 ⟨V4, R4, hS4, hK4, hL4, hr4, hrV, hrc, hrn, hrq⟩
  obtain ⟨hrix, hrat⟩ := hrq result (by rw [hz1, hres]; split_ifs with h <;> simp [h])
  refine Does.bind (scene_getDefault hE hS4 hrV hrc) ?_
  rintro a w5 ⟨hS5, hF5, ha⟩
  have hy5 : Denotes G V4 y t D := ⟨⟨hy.role, hy.tensor, hK4 _ _ (hV3 _ _ (hV2 _ _ hy1.field)) hyn, hy.nodup,
    hy.length⟩, hy.coords⟩
  obtain ⟨oy5, ey1, -, ey3⟩ := tensorOf_ok hS5 hy5.toNames
  refine Does.step ey1 ?_
  dsimp only
  rw [ey3.indices, ey3.metric, ey3.coords, hy.coords, hcfg, simp_map ha.1 hE]
  have hzc := scene_config hS3 hz.field
  have hrix' : R4.ix = singleIndices R (-1 :: D.ix) := by
    rw [hrix, hz1, hres, ← hz1, map_posOf hz.nodup hz.length, hz2, hXix]
  have hcR := scene_config hS4 hrV
  rw [hrix'] at hcR ha
  -- the deletion of the intermediate tensor
  have hr5 := new_leaves hr4 (fun o ho => by rw [scene_object_name hS4 hrV ho, hrn]; decide)
    (leaves_onlyTemps (new := fun _ => False) hS4.registry (onlyTemps_frame hF5))
  obtain ⟨n1, n2, orr, n3, n4⟩ := hr5
  obtain ⟨d1, d2⟩ := scene_delete hS5 n2 n3 (by rcases n4 with h | h <;> rw [h] <;> decide)
    (by rcases n4 with h | h <;> rw [h] <;> decide)
  refine Does.bind (Q := fun _ w' => w' = afterDelete r w5) ⟨_, _, d1, rfl⟩ ?_
  rintro _ w6 rfl
  refine Does.mono (evaluates_temp hE d2 ha.1 ha.2.1 hcR "T" (labels := result) (by rw [hres, ← hz1]; exact hz.nodup)
    (by rw [hres, ← hz1, hz.length, hz2, hXix])) ?_
  rintro z' w7 ⟨V7, u7, D7, hS7, hV7, hT7, hd7, h71, h72⟩
  have hL15 : Leaves (· = r) w1 w5 := by
    refine leaves_mono (leaves_trans (leaves_onlyTemps (new := fun _ => False) hS1.registry (onlyTemps_trans hT2 hT3))
      (leaves_trans hL4 (leaves_onlyTemps (new := fun _ => False) hS4.registry (onlyTemps_frame hF5)))) ?_
    rintro i - - (h | h | h)
    exacts [h.elim, h, h.elim]
  have hlen13 : w1.objs.length ≤ w3.objs.length :=
    leaves_length (leaves_onlyTemps (new := fun _ => False) hS1.registry (onlyTemps_trans hT2 hT3))
  have hL17 : Leaves (fun _ => False) w1 w7 := by
    refine leaves_mono (leaves_trans (leaves_deleteNew hS5.registry hL15 (le_trans hlen13 n1))
      (leaves_onlyTemps (new := fun _ => False) d2.registry hT7)) ?_
    rintro i - - (⟨h, h'⟩ | h)
    exacts [h' h, h]
  have hK17 : V1.Keeps V7 := by
    intro s Ds hs hsn
    refine hV7 _ _ ?_
    unfold View.drop
    have hst : s ≠ r := fun hc => by
      have := view_lt hS1 hs
      rw [hc] at this
      exact absurd this (not_lt.2 (le_trans hlen13 n1))
    rw [if_neg hst]
    exact hK4 _ _ (hV3 _ _ (hV2 _ _ hs)) hsn
  refine ⟨V7, u7, D7, hS7, keeps_trans hK1 hK17, ?_, ?_, hd7, by rw [h71, hres], by rw [h72], fun pos ρ cfg hpos hρ hop => ?_⟩
  · refine leaves_derived hL1 (leaves_mono hL17 fun _ _ _ h => h.elim)
  · exact namesFor_leaves hS1 hN1 hK17 hL17 fun _ _ _ h => h.elim
  · rw [h71]
    have e1 : D7.at G result pos ρ = R4.at G result pos ρ := by
      refine at_congr (by rw [h72, hrix']) (by rw [← h71, hd7.length]) (fun J hJ hJn => ?_) pos ρ
      rw [h72] at hJ ⊢
      exact ha.2.2 J hJ hJn
    rw [e1, hrat pos ρ hpos hρ, hz3 pos ρ cfg hpos hρ hop]
    refine congrArg (fun f => sumOver G.n (repeated R) f ρ) (funext fun ρ' => ?_)
    unfold TField.comp
    rw [hXix]
    refine applyFactors_congr _ _ _ fun J hJ hJn => ?_
    rw [List.length_map, hRl] at hJ
    cases J with
    | nil => simp at hJ
    | cons i I => exact hX i I (hJn i (by simp)) (by simpa [hy.length] using hJ) fun x hx => hJn x (by simp [hx])

theorem derives_anyGradient (hE : ∀ x, E.simp x = x) (hS : Scene G V w) {Dm : TField K} (hΓ : GivesConnection E G Γ Dm) (hm : AnyMetric G V Dm)
    (hN : NamesFor E G Γ V w Dm.name) {y : CalcObj} {t : Id'} {D : TField K} (hy : Denotes G V y t D)
    (hyn : D.name ≠ "TEMP") {letters R : List Sym} {a : Sym} {ps : List Sym → Py Sym} {p dm : Sym}
    (h0 : tupleGet (dummySymbols letters (y.labels ++ [a])) 0 = .ok dm)
    (hps : ps (dummySymbols letters (y.labels ++ [a])) = .ok p) (hp : p ∉ y.labels) (hdm : dm ∉ y.labels) (hpd : p ≠ dm)
    (ha : a ∉ y.labels) (hR : R.Perm (a :: y.labels)) :
    DerivesFor E G Γ V w Dm.name (matmulCovariant E letters [a] y ps R R) fun l D' => l = R ∧ D'.ix = -1 :: D.ix ∧
      ∀ pos ρ, Positions pos → Values G.n ρ → D'.at G l pos ρ = (nablaOf E G Γ D).at G R pos ρ := by
  have hnd : R.Nodup := hR.nodup_iff.2 (List.nodup_cons.2 ⟨ha, hy.nodup⟩)
  have hlen : R.length = y.labels.length + 1 := by rw [hR.length_eq]; rfl
  have hix : singleIndices R (-1 :: D.ix) = -1 :: D.ix :=
    singleIndices_nodup hnd (by rw [hlen, hy.length]; rfl)
  refine Does.mono (derives_anyCovariant hE hS hΓ hm hN hy hyn h0 hps hp hdm hpd hlen
    (fun s => le_trans (List.nodup_iff_count_le_one.1 hnd s) (by decide)) (single_nodup hnd).symm ?_) ?_
  · have : sharedLabels [a] y.labels = [] := by unfold sharedLabels; simp [ha]
    rw [this, hix, kept_all hy.nodup hy.length fun s hs => hR.mem_iff.2 (by simp [hs])]
    rfl
  · rintro z w' ⟨V', t', D', h1, h2, h3, h4, h5, h6, h7, h8⟩
    refine ⟨V', t', D', h1, h2, h3, h4, h5, h6.trans (single_nodup hnd), h7.trans hix, fun pos ρ hpos hρ => ?_⟩
    have hop : Opposed R pos (R.map pos) := by
      have hc : ∀ s, positionsIn R (R.map pos) s = List.replicate (R.count s) (pos s) := fun s => positionsIn_map R pos s
      refine ⟨by simp, fun s hs => by rw [hc, hs]; rfl, fun s hs => ?_⟩
      have := List.nodup_iff_count_le_one.1 hnd s
      omega
    rw [h8 pos ρ _ hpos hρ hop, repeated_nodup hnd]
    rfl

theorem derives_anyDivergence (hE : ∀ x, E.simp x = x) (hS : Scene G V w) {Dm : TField K} (hΓ : GivesConnection E G Γ Dm) (hm : AnyMetric G V Dm)
    (hN : NamesFor E G Γ V w Dm.name) {y : CalcObj} {t : Id'} {D : TField K} (hy : Denotes G V y t D)
    (hyn : D.name ≠ "TEMP") {letters : List Sym} {a : Sym} {ps : List Sym → Py Sym} {p dm : Sym}
    (h0 : tupleGet (dummySymbols letters (y.labels ++ [a])) 0 = .ok dm)
    (hps : ps (dummySymbols letters (y.labels ++ [a])) = .ok p) (hp : p ∉ y.labels) (hdm : dm ∉ y.labels) (hpd : p ≠ dm)
    (ha : a ∈ y.labels) :
    DerivesFor E G Γ V w Dm.name (matmulCovariant E letters [a] y ps (a :: y.labels) (freeLabels [a] y.labels)) fun l D' =>
      l = (y.labels.filter fun s => decide (s ≠ a)) ∧ D'.ix = l.map (posOf y.labels D.ix) ∧
      ∀ pos ρ, Positions pos → Values G.n ρ → D'.at G l pos ρ = ∑ k ∈ range G.n, (nablaOf E G Γ D).comp G
        (-1 :: y.labels.map (Function.update pos a 1)) (k :: y.labels.map (Function.update ρ a k)) := by
  obtain ⟨s1, s2, s3⟩ := single_old hy.nodup ha
  have hf := freeLabels_old ha
  have hk := singleIndices_old hy.nodup ha hy.length (-1)
  refine Does.mono (derives_anyCovariant hE hS hΓ hm hN hy hyn h0 hps hp hdm hpd rfl s3 (hf.trans s1.symm) ?_) ?_
  · have : sharedLabels [a] y.labels = [a] := by unfold sharedLabels; simp [ha]
    rw [this, hf, ← hk]
    rfl
  · rintro z w' ⟨V', t', D', h1, h2, h3, h4, h5, h6, h7, h8⟩
    refine ⟨V', t', D', h1, h2, h3, h4, h5, h6.trans s1, ?_, fun pos ρ hpos hρ => ?_⟩
    · rw [h7, ← hk, keptIndices_eq hy.nodup hy.length, h6.trans s1]
      congr 1
      exact List.filter_congr fun s hs => by simp [hs]
    · rw [h8 pos ρ _ hpos hρ (opposed_old hy.nodup ha pos), s2]
      show (∑ k ∈ range G.n, _) = _
      refine sum_congr rfl fun k _ => ?_
      simp only [sumOver, List.map_cons, Function.update_self]

end PyOGRe
