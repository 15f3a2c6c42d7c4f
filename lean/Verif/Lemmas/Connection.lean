import Verif.Lemmas.UpperMetric
import Verif.Spec.Connection

/-! Helper lemmas: the curvature tensors that are computed from connection coefficients that need not be the Christoffel
symbols of the metric. -/

namespace PyOGRe
open Spec Finset
variable {K : Type} [CommRing K] [DecidableEq K] [Algebra ℚ K] {E : Engine K} {G : Ground K} {V : View K} {w : World K}
variable {Γ : Nat → Nat → Nat → K}

omit [DecidableEq K] in
theorem anyMetric_value (hS : Scene G V w) {Dm : TField K} (hm : AnyMetric G V Dm) {F : Id' → TField K} (hF : F G.m = Dm)
    {x y : Sym} (h : [x, y].Nodup) {pos : Sym → Int} (hx : pos x = -1) (hy : pos y = -1) {ρ : Sym → Nat}
    (hρ : Values G.n ρ) : ((Formula.tensor G.m [x, y]).mean E G F).value pos ρ = G.g (ρ x) (ρ y) := by
  rw [tensor_value _ h]
  unfold TField.at
  rw [hF]
  simp only [List.map_cons, List.map_nil, hx, hy]
  exact ((scene_metric_comp hS hm.view).2.2 _ _ (hρ x) (hρ y)).1

omit [DecidableEq K] in
theorem anyMetric_ne (hS : Scene G V w) {Dm : TField K} (hm : AnyMetric G V Dm) {t : Id'} {ix : List Int} {f : List Nat → K}
    {D : TField K} (h : InView G V t ix f D) (hl : ix.length ≠ 2) : t ≠ G.m := by
  rintro rfl
  have h1 := h.view
  rw [hm.view] at h1; cases h1
  exact hl (by rw [← h.cfg]; exact (scene_metric_comp hS hm.view).1)

omit [DecidableEq K] in
theorem anyMetric_ok {Dm : TField K} (hS : Scene G V w) (hm : AnyMetric G V Dm) {F : Id' → TField K} (hF : F G.m = Dm)
    {x y : Sym} (h : [x, y].Nodup) : (Formula.tensor G.m [x, y] : Formula K).OK G V F := by
  have h2 := (scene_metric_comp hS hm.view).1
  exact ⟨by rw [hF]; exact hm.view, by rw [hF]; exact hm.coords, by rw [hF, h2]; rfl,
    fun s => le_trans (List.nodup_iff_count_le_one.1 h s) (by decide), Or.inl h⟩

omit [DecidableEq K] [Algebra ℚ K] in
theorem anyField_ok {F : Id' → TField K} {t : Id'} {ix : List Int} {f : List Nat → K} 
    (h : InView G V t ix f (F t)) {labels : List Sym} (hn : labels.Nodup)
    (hl : labels.length = ix.length) : (Formula.tensor t labels : Formula K).OK G V F :=
  ⟨h.view, h.coords, by rw [h.cfg]; exact hl, fun s => le_trans (List.nodup_iff_count_le_one.1 hn s) (by decide),
    Or.inl hn⟩

omit [Algebra ℚ K] in
theorem anyField_diff (hE : ∀ x, E.simp x = x) (hS : Scene G V w)
    {F : Id' → TField K} {t : Id'} {ix : List Int} {f : List Nat → K} (h : InView G V t ix f (F t))
    {labels : List Sym} (hn : labels.Nodup) {a : Sym} (ha : a ∉ labels) {pos : Sym → Int} (hp : Positions pos)
    (hpa : pos a = -1) {ρ : Sym → Nat} (hρ : Values G.n ρ) (hpos : labels.map pos = ix) :
    ((Formula.diff a (Formula.tensor t labels)).mean E G F).value pos ρ = G.d E (ρ a) (f (labels.map ρ)) := by
  have hl : (Formula.tensor t labels : Formula K).labels = labels := single_nodup hn
  have hll : labels.length = ix.length := by rw [← hpos]; simp
  rw [diff_default hE hS (anyField_ok h hn hll) (by rw [hl]; exact ha) hp hpa hρ
    (by rw [hl, tensor_ix hn (by rw [h.cfg]; exact hll), h.cfg]; exact hpos), field_value h hn hρ hpos]

theorem anyComputes_riemann (hE : ∀ x, E.simp x = x) (hS : Scene G V w) {Dm : TField K} (hm : AnyMetric G V Dm)
    {c : Id'} {Dc : TField K} (hc : InView G V c [1, -1, -1] (Quantity.compsOf E G Γ .christoffel) Dc) (hcm : c ≠ G.m) :
    Computes G V w Dm (computeRiemann E G.m c) .tensor " Riemann" [1, -1, -1, -1] (Quantity.compsOf E G Γ .riemann) := by
  set F : Id' → TField K := fun t => if t = G.m then Dm else Dc with hF
  have F1 : F G.m = Dm := if_pos rfl
  have F2 : F c = Dc := if_neg hcm
  rw [← F2] at hc
  have ok : ∀ a b d, [a, b, d].Nodup → (Formula.tensor c [a, b, d] : Formula K).OK G V F := fun a b d h =>
    anyField_ok hc h rfl
  have hf : (riemannFormula c : Formula K).OK G V F := by
    refine ⟨⟨⟨⟨ok _ _ _ (by decide), ?_⟩, ⟨ok _ _ _ (by decide), ?_⟩, ?_⟩, ⟨ok _ _ _ (by decide), ok _ _ _ (by decide)⟩, ?_⟩,
      ⟨ok _ _ _ (by decide), ok _ _ _ (by decide)⟩, ?_⟩
    · exact fun h => absurd h (show ¬ "mu" ∈ ["rho", "nu", "sigma"] by decide)
    · exact fun h => absurd h (show ¬ "nu" ∈ ["rho", "mu", "sigma"] by decide)
    · show List.Perm ["nu", "rho", "mu", "sigma"] ["mu", "rho", "nu", "sigma"]
      decide
    · show List.Perm ["rho", "mu", "nu", "sigma"] ["mu", "rho", "nu", "sigma"]
      decide
    · show List.Perm ["rho", "nu", "mu", "sigma"] ["mu", "rho", "nu", "sigma"]
      decide
  have main := stores_formula hE hS (fun _ _ h => h) (onlyTemps_refl w) hS hf (order := ["rho", "sigma", "mu", "nu"])
    (Or.inr (show List.Perm _ ["mu", "rho", "nu", "sigma"] by decide)) (requested := ["rho", "sigma", "mu", "nu"])
    rfl hm.view hm.name hm.coords (ixo := some [1, -1, -1, -1]) (ix := [1, -1, -1, -1]) ⟨rfl, by simp⟩ (Or.inl rfl)
    (kind := .tensor) (Or.inl rfl) " Riemann" "R" (suffix_ne (by decide))
  simp only [riemannFormula, Formula.run, Formula.runWith, pyM_bind_assoc] at main
  unfold Computes computeRiemann
  simp only [partialOf, productOf, storeResult, pyM_bind_assoc]
  refine Does.mono main ?_
  rintro r w' ⟨V', D', h1, h2, h3, h4, h5, h6, h7, h8, h9, h10⟩
  refine ⟨V', D', h1, h2, h3, h4, h5, h6, h7, h8, h9, fun J hJ hJn => ?_⟩
  obtain ⟨ρ, hρ, hρv⟩ := exists_env hS.pos (labels := ["rho", "sigma", "mu", "nu"]) (by decide) (J := J) hJ hJn
  set pos : Sym → Int := fun s => if s = "rho" then 1 else -1 with hpos
  have hp : Positions pos := fun s => by rw [hpos]; dsimp only; split_ifs <;> simp
  rw [← hρv, h10 pos ρ hp hρ (by decide)]
  show ((Formula.diff "mu" (Formula.tensor c ["rho", "nu", "sigma"])).mean E G F).value pos ρ -
    ((Formula.diff "nu" (Formula.tensor c ["rho", "mu", "sigma"])).mean E G F).value pos ρ +
    sumOver G.n ["lambda"] (fun ρ' => ((Formula.tensor c ["rho", "mu", "lambda"]).mean E G F).value pos ρ' *
      ((Formula.tensor c ["lambda", "nu", "sigma"]).mean E G F).value (turned ["lambda"] pos) ρ') ρ -
    sumOver G.n ["lambda"] (fun ρ' => ((Formula.tensor c ["rho", "nu", "lambda"]).mean E G F).value pos ρ' *
      ((Formula.tensor c ["lambda", "mu", "sigma"]).mean E G F).value (turned ["lambda"] pos) ρ') ρ = _
  rw [anyField_diff hE hS hc (by decide) (by decide) hp (by decide) hρ (by decide),
    anyField_diff hE hS hc (by decide) (by decide) hp (by decide) hρ (by decide)]
  simp only [sumOver]
  show _ = riemannOf E G Γ _ _ _ _
  unfold riemannOf
  congr 1
  · congr 1
    refine Finset.sum_congr rfl fun l hl => ?_
    have hρ' : Values G.n (Function.update ρ "lambda" l) := values_update hρ _ (Finset.mem_range.1 hl)
    rw [field_value hc (by decide) hρ' (by decide), field_value hc (by decide) hρ' (by decide)]
    simp [Quantity.compsOf]
  · refine Finset.sum_congr rfl fun l hl => ?_
    have hρ' : Values G.n (Function.update ρ "lambda" l) := values_update hρ _ (Finset.mem_range.1 hl)
    rw [field_value hc (by decide) hρ' (by decide), field_value hc (by decide) hρ' (by decide)]
    simp [Quantity.compsOf]

theorem anyComputes_ricci (hE : ∀ x, E.simp x = x) (hS : Scene G V w) {Dm : TField K} (hm : AnyMetric G V Dm)
    {c : Id'} {Dc : TField K} (hc : InView G V c [1, -1, -1, -1] (Quantity.compsOf E G Γ .riemann) Dc) (hcm : c ≠ G.m) :
    Computes G V w Dm (computeRicci E G.m c) .tensor " Ricci Tensor" [-1, -1] (Quantity.compsOf E G Γ .ricci) := by
  set F : Id' → TField K := fun t => if t = G.m then Dm else Dc with hF
  have F1 : F G.m = Dm := if_pos rfl
  have F2 : F c = Dc := if_neg hcm
  rw [← F2] at hc
  have hf : (Formula.tensor c ["lambda", "mu", "lambda", "nu"] : Formula K).OK G V F := by
    refine ⟨hc.view, hc.coords, by rw [hc.cfg]; rfl, fun s => ?_, Or.inr ⟨by rw [F1]; exact hm.view, by rw [F1]; exact hm.coords⟩⟩
    by_cases h : s = "lambda"
    · rw [h]; decide
    · have : List.count s ["lambda", "mu", "lambda", "nu"] = List.count s ["mu", "nu"] := by
        rw [List.count_cons_of_ne (Ne.symm h), List.count_cons, List.count_cons_of_ne (Ne.symm h), ← List.count_cons]
      rw [this]; exact count_two
  have main := stores_formula hE hS (fun _ _ h => h) (onlyTemps_refl w) hS hf (order := [])
    (Or.inl rfl) (requested := ["mu", "nu"])
    rfl hm.view hm.name hm.coords (ixo := some [-1, -1]) (ix := [-1, -1]) ⟨rfl, by simp⟩ (Or.inl rfl)
    (kind := .tensor) (Or.inl rfl) " Ricci Tensor" "R" (suffix_ne (by decide))
  simp only [Formula.run, Formula.runWith, pyM_bind_assoc] at main
  unfold Computes computeRicci
  simp only [storeResult, pyM_bind_assoc]
  refine Does.mono main ?_
  rintro r w' ⟨V', D', h1, h2, h3, h4, h5, h6, h7, h8, h9, h10⟩
  refine ⟨V', D', h1, h2, h3, h4, h5, h6, h7, h8, h9, fun J hJ hJn => ?_⟩
  obtain ⟨ρ, hρ, hρv⟩ := exists_env hS.pos (labels := ["mu", "nu"]) (by decide) (J := J) hJ hJn
  rw [← hρv, h10 (fun _ => -1) ρ (fun _ => Or.inr rfl) hρ (by decide)]
  show sumOver G.n ["lambda"] (fun ρ' => (F c).comp G [1, -1, -1, -1]
    (["lambda", "mu", "lambda", "nu"].map ρ')) ρ = _
  simp only [sumOver]
  show _ = ricciOf E G Γ _ _
  unfold ricciOf
  refine Finset.sum_congr rfl fun l hl => ?_
  have hρ' : Values G.n (Function.update ρ "lambda" l) := values_update hρ _ (Finset.mem_range.1 hl)
  rw [← hc.cfg, comp_self (values_map hρ' _) (by rw [hc.cfg]; rfl), hc.val _ rfl (values_map hρ' _)]
  simp [Quantity.compsOf]

theorem anyComputes_scalar (hE : ∀ x, E.simp x = x) (hS : Scene G V w) {Dm : TField K} (hm : AnyMetric G V Dm)
    {c : Id'} {Dc : TField K} (hc : InView G V c [-1, -1] (Quantity.compsOf E G Γ .ricci) Dc) (hcm : c ≠ G.m) :
    Computes G V w Dm (computeScalar E G.m c) .tensor " Ricci Scalar" [] (Quantity.compsOf E G Γ .scalar) := by
  set F : Id' → TField K := fun t => if t = G.m then Dm else Dc with hF
  have F1 : F G.m = Dm := if_pos rfl
  have F2 : F c = Dc := if_neg hcm
  rw [← F2] at hc
  have hf : (Formula.tensor c ["lambda", "lambda"] : Formula K).OK G V F :=
    ⟨hc.view, hc.coords, by rw [hc.cfg]; rfl, fun s => count_two, Or.inr ⟨by rw [F1]; exact hm.view, by rw [F1]; exact hm.coords⟩⟩
  have main := stores_formula hE hS (fun _ _ h => h) (onlyTemps_refl w) hS hf (order := [])
    (Or.inl rfl) (requested := [])
    rfl hm.view hm.name hm.coords (ixo := none) (ix := []) ⟨rfl, by simp⟩ (Or.inr ⟨rfl, rfl⟩)
    (kind := .tensor) (Or.inl rfl) " Ricci Scalar" "R" (suffix_ne (by decide))
  simp only [Formula.run, Formula.runWith, pyM_bind_assoc] at main
  unfold Computes computeScalar
  simp only [storeResult, pyM_bind_assoc]
  refine Does.mono main ?_
  rintro r w' ⟨V', D', h1, h2, h3, h4, h5, h6, h7, h8, h9, h10⟩
  refine ⟨V', D', h1, h2, h3, h4, h5, h6, h7, h8, h9, fun J hJ hJn => ?_⟩
  obtain ⟨ρ, hρ, hρv⟩ := exists_env hS.pos (labels := []) (by decide) (J := J) hJ hJn
  rw [← hρv, h10 (fun _ => -1) ρ (fun _ => Or.inr rfl) hρ (by decide)]
  show sumOver G.n ["lambda"] (fun ρ' => (F c).comp G [1, -1] (["lambda", "lambda"].map ρ')) ρ = _
  simp only [sumOver]
  show _ = scalarOf E G Γ
  unfold scalarOf
  rw [Finset.sum_comm]
  refine Finset.sum_congr rfl fun l hl => ?_
  have hl' := Finset.mem_range.1 hl
  simp only [List.map_cons, List.map_nil, Function.update_self]
  rw [comp_first hc.cfg rfl (by simp [hl'])]
  refine Finset.sum_congr rfl fun s hs => ?_
  have hs' := Finset.mem_range.1 hs
  rw [hc.val _ rfl (by simp [hl', hs']), inverse_symm hS.inverse hS.symm s l hs' hl']
  simp [Quantity.compsOf, indexFactor]

theorem anyComputes_einstein (hE : ∀ x, E.simp x = x) (hS : Scene G V w) {Dm : TField K} (hm : AnyMetric G V Dm)
    {c s : Id'} {Dc Ds : TField K} (hc : InView G V c [-1, -1] (Quantity.compsOf E G Γ .ricci) Dc) (hcm : c ≠ G.m)
    (hs : InView G V s [] (Quantity.compsOf E G Γ .scalar) Ds) :
    Computes G V w Dm (computeEinstein E G.m c s) .tensor " Einstein" [-1, -1] (Quantity.compsOf E G Γ .einstein) := by
  have hsm : s ≠ G.m := fun h => by
    have h1 := hs.view
    rw [h, hm.view] at h1
    have h2 := hs.cfg
    have h3 := (scene_metric_comp hS hm.view).1
    rw [← Option.some.inj h1] at h2
    rw [h2] at h3
    cases h3
  have hsc : s ≠ c := fun h => by
    have h1 := hs.view
    rw [h, hc.view] at h1
    have h2 := hs.cfg
    rw [← Option.some.inj h1, hc.cfg] at h2
    cases h2
  set F : Id' → TField K := fun t => if t = G.m then Dm else if t = c then Dc else Ds with hF
  have F1 : F G.m = Dm := if_pos rfl
  have F2 : F c = Dc := by rw [hF]; dsimp only; rw [if_neg hcm, if_pos rfl]
  have F3 : F s = Ds := by rw [hF]; dsimp only; rw [if_neg hsm, if_neg hsc]
  rw [← F2] at hc
  rw [← F3] at hs
  have hf : (Formula.sub (.tensor c ["mu", "nu"]) (.mul (.scale (ratExpr (1 / 2)) (.tensor s []))
      (.tensor G.m ["mu", "nu"])) : Formula K).OK G V F :=
    ⟨anyField_ok hc (by decide) rfl, ⟨anyField_ok hs (by decide) rfl, anyMetric_ok hS hm F1 (by decide)⟩,
      show List.Perm ["mu", "nu"] ["mu", "nu"] from List.Perm.refl _⟩
  have main := stores_formula hE hS (fun _ _ h => h) (onlyTemps_refl w) hS hf (order := [])
    (Or.inl rfl) (requested := ["mu", "nu"])
    rfl hm.view hm.name hm.coords (ixo := some [-1, -1]) (ix := [-1, -1]) ⟨rfl, by simp⟩ (Or.inl rfl)
    (kind := .tensor) (Or.inl rfl) " Einstein" "G" (suffix_ne (by decide))
  simp only [Formula.run, Formula.runWith, pyM_bind_assoc] at main
  unfold Computes computeEinstein
  simp only [storeResult, pyM_bind_assoc]
  refine Does.mono main ?_
  rintro r w' ⟨V', D', h1, h2, h3, h4, h5, h6, h7, h8, h9, h10⟩
  refine ⟨V', D', h1, h2, h3, h4, h5, h6, h7, h8, h9, fun J hJ hJn => ?_⟩
  obtain ⟨ρ, hρ, hρv⟩ := exists_env hS.pos (labels := ["mu", "nu"]) (by decide) (J := J) hJ hJn
  rw [← hρv, h10 (fun _ => -1) ρ (fun _ => Or.inr rfl) hρ (by decide)]
  show ((Formula.tensor c ["mu", "nu"]).mean E G F).value (fun _ => -1) ρ -
    (ratExpr (1 / 2) * ((Formula.tensor s []).mean E G F).value (fun _ => -1) ρ) *
      ((Formula.tensor G.m ["mu", "nu"]).mean E G F).value (turned [] fun _ => -1) ρ = _
  rw [field_value hc (by decide) hρ (by decide), field_value hs (by decide) hρ (by decide),
    anyMetric_value hS hm F1 (by decide) rfl rfl hρ]
  rfl

theorem anyComputes_weyl (hE : ∀ x, E.simp x = x) (hS : Scene G V w) {Dm : TField K} (hm : AnyMetric G V Dm)
    (hn : 2 < G.n) {a c s : Id'} {Da Dc Ds : TField K} (ha : InView G V a [1, -1, -1, -1] (Quantity.compsOf E G Γ .riemann) Da)
    (hc : InView G V c [-1, -1] (Quantity.compsOf E G Γ .ricci) Dc) (hcm : c ≠ G.m) (hcn : Dc.name ≠ "TEMP")
    (hcr : c ∈ w.instances) (hck : ∃ o, w.objs[c]? = some o ∧ o.kind = .tensor)
    (hs : InView G V s [] (Quantity.compsOf E G Γ .scalar) Ds) :
    Does (computeWeyl E G.m G.n a c s) w fun r w' => ∃ V4 w4 t Dt D', w' = afterDelete c w4 ∧ Scene G V4 w4 ∧
      Scene G (View.drop V4 c) w' ∧ V.Keeps V4 ∧ Leaves (fun i => i = t ∨ i = r) w w4 ∧ New w w4 r ∧ New w w4 t ∧
      r ≠ t ∧ (∃ o, w4.objs[r]? = some o ∧ o.kind = .tensor) ∧ V4 t = some Dt ∧ Dt.name = "Result" ∧
      V4 r = some D' ∧ D'.coords = G.c ∧ D'.name = Dm.name ++ " Weyl Tensor" ∧ D'.ix = [-1, -1, -1, -1] ∧
      ∀ J, J.length = 4 → (∀ x ∈ J, x < G.n) → D'.val J = Quantity.compsOf E G Γ .weyl J := by
  have hsm : s ≠ G.m := anyMetric_ne hS hm hs (by decide)
  have hsc : s ≠ c := inView_ne hs hc (by decide)
  have ham : a ≠ G.m := anyMetric_ne hS hm ha (by decide)
  have hac : a ≠ c := inView_ne ha hc (by decide)
  have has : a ≠ s := inView_ne ha hs (by decide)
  set F : Id' → TField K := fun t => if t = G.m then Dm else if t = c then Dc else if t = s then Ds else Da with hF
  have F1 : F G.m = Dm := if_pos rfl
  have F2 : F c = Dc := by rw [hF]; dsimp only; rw [if_neg hcm, if_pos rfl]
  have F3 : F s = Ds := by rw [hF]; dsimp only; rw [if_neg hsm, if_neg hsc, if_pos rfl]
  have F4 : F a = Da := by rw [hF]; dsimp only; rw [if_neg ham, if_neg hac, if_neg has]
  rw [← F3] at hs
  rw [← F4] at ha
  have hc' := hc
  rw [← F2] at hc
  have okg : ∀ x y, [x, y].Nodup → (Formula.tensor G.m [x, y] : Formula K).OK G V F := fun x y h =>
    anyMetric_ok hS hm F1 h
  have okr : ∀ x y, [x, y].Nodup → (Formula.tensor c [x, y] : Formula K).OK G V F := fun x y h =>
    anyField_ok hc h rfl
  set fa : K := ratExpr (1 / (((G.n : Int) - 2 : Int) : ℚ)) with hfa
  set fb : K := ratExpr (1 / ((((G.n : Int) - 2) * ((G.n : Int) - 1) : Int) : ℚ)) with hfb
  have hf : (weylFormula G.m a c s fa fb : Formula K).OK G V F := by
    refine ⟨⟨anyField_ok ha (by decide) rfl, ⟨⟨⟨⟨okr _ _ (by decide), okg _ _ (by decide)⟩,
      ⟨okr _ _ (by decide), okg _ _ (by decide)⟩, ?_⟩, ⟨okr _ _ (by decide), okg _ _ (by decide)⟩, ?_⟩,
      ⟨okr _ _ (by decide), okg _ _ (by decide)⟩, ?_⟩, ?_⟩, ⟨anyField_ok hs (by decide) rfl,
      ⟨⟨okg _ _ (by decide), okg _ _ (by decide)⟩, ⟨okg _ _ (by decide), okg _ _ (by decide)⟩, ?_⟩⟩, ?_⟩
    · show List.Perm ["i", "l", "k", "m"] ["i", "m", "k", "l"]
      decide
    · show List.Perm ["k", "l", "i", "m"] ["i", "m", "k", "l"]
      decide
    · show List.Perm ["k", "m", "i", "l"] ["i", "m", "k", "l"]
      decide
    · show List.Perm ["i", "m", "k", "l"] ["i", "k", "l", "m"]
      decide
    · show List.Perm ["i", "m", "k", "l"] ["i", "l", "k", "m"]
      decide
    · show List.Perm ["i", "l", "k", "m"] ["i", "k", "l", "m"]
      decide
  have main := fun Q k hk => stores_with hE hS (fun _ _ h => h) (onlyTemps_refl w) hS hf (order := ["i", "k", "l", "m"])
    (Or.inr (show List.Perm _ ["i", "k", "l", "m"] by decide)) (requested := ["i", "k", "l", "m"]) rfl
    (ix := [-1, -1, -1, -1]) (Q := Q) (k := k) hk
  simp only [weylFormula, Formula.run, Formula.runWith, pyM_bind_assoc] at main
  unfold computeWeyl
  simp only [productOf, storeResult, pyM_bind_assoc]
  rw [lift_reciprocal (by omega : (G.n : Int) - 2 ≠ 0), lift_reciprocal (mul_ne_zero (by omega : (G.n : Int) - 2 ≠ 0)
    (by omega : (G.n : Int) - 1 ≠ 0))]
  simp only [pyM_pure_bind]
  refine main _ _ fun t D2 w2 V2 k1 k2 k3 k4 k5 k7 k6 k9 k10 => ?_
  have hl : D2.ix.length = 4 := by rw [k9]; rfl
  refine stores_new hE k1 k2 k3 k4 k5 (by rw [k7]; decide) k6 hm.view hm.name hm.coords (ix := [-1, -1, -1, -1])
    (by rw [hl]; exact ⟨rfl, by simp⟩) (Or.inl rfl) (kind := .tensor) (Or.inl rfl) " Weyl Tensor" "C"
    (suffix_ne (by decide)) fun r w4 V4 D' j1 j2 hL4 hNr hN4 hrt hor hr1 hr2 hr3 hr4 hr5 => ?_
  obtain ⟨oc, hoc, hock⟩ := hck
  obtain ⟨oc', q1, q2, q3, q4, q5, q6, q7, q8, q9, q10⟩ := hL4.1 c oc hoc
  have hocn : oc.name ≠ "TEMP" := by rw [scene_object_name hS hc'.view hoc]; exact hcn
  obtain ⟨d1, d2⟩ := scene_delete j1 ((q10 hocn).2.2 hcr) q1 (by rw [q2, hock]; decide) (by rw [q2, hock]; decide)
  refine Does.bind (Q := fun _ w' => w' = afterDelete c w4) ⟨_, _, d1, rfl⟩ ?_
  rintro _ w5 rfl
  refine Does.pure ⟨V4, w4, t, D2, D', rfl, j1, d2, keeps_trans k2 j2, hL4, hNr, hN4, hrt, hor,
    j2 _ _ k5 (by rw [k7]; decide), k7, hr1, hr2, hr3, hr4, fun J hJ hJn => ?_⟩
  obtain ⟨ρ, hρ, hρv⟩ := exists_env hS.pos (labels := ["i", "k", "l", "m"]) (by decide) (J := J) hJ hJn
  rw [hr5 J hJn hJ, ← hρv, k10 (fun _ => -1) ρ (fun _ => Or.inr rfl) hρ (by decide)]
  show ((Formula.tensor a ["i", "k", "l", "m"]).mean E G F).value (fun _ => -1) ρ + fa *
    (((Formula.tensor c ["i", "m"]).mean E G F).value (fun _ => -1) ρ *
        ((Formula.tensor G.m ["k", "l"]).mean E G F).value (turned [] fun _ => -1) ρ -
      ((Formula.tensor c ["i", "l"]).mean E G F).value (fun _ => -1) ρ *
        ((Formula.tensor G.m ["k", "m"]).mean E G F).value (turned [] fun _ => -1) ρ +
      ((Formula.tensor c ["k", "l"]).mean E G F).value (fun _ => -1) ρ *
        ((Formula.tensor G.m ["i", "m"]).mean E G F).value (turned [] fun _ => -1) ρ -
      ((Formula.tensor c ["k", "m"]).mean E G F).value (fun _ => -1) ρ *
        ((Formula.tensor G.m ["i", "l"]).mean E G F).value (turned [] fun _ => -1) ρ) +
    fb * (((Formula.tensor s []).mean E G F).value (fun _ => -1) ρ *
      (((Formula.tensor G.m ["i", "l"]).mean E G F).value (turned [] fun _ => -1) ρ *
        ((Formula.tensor G.m ["k", "m"]).mean E G F).value (turned [] (turned [] fun _ => -1)) ρ -
      ((Formula.tensor G.m ["i", "m"]).mean E G F).value (turned [] fun _ => -1) ρ *
        ((Formula.tensor G.m ["k", "l"]).mean E G F).value (turned [] (turned [] fun _ => -1)) ρ)) = _
  have gv : ∀ x y (pos : Sym → Int), [x, y].Nodup → (∀ s, pos s = -1) →
      ((Formula.tensor G.m [x, y]).mean E G F).value pos ρ = G.g (ρ x) (ρ y) := fun x y pos h h' =>
    anyMetric_value hS hm F1 h (h' x) (h' y) hρ
  have rv : ∀ x y, [x, y].Nodup →
      ((Formula.tensor c [x, y]).mean E G F).value (fun _ => -1) ρ = ricciOf E G Γ (ρ x) (ρ y) := fun x y h =>
    field_value hc h hρ rfl
  have ht1 : ∀ s, turned [] (fun _ => -1) s = -1 := fun s => rfl
  have ht2 : ∀ s, turned [] (turned [] fun _ => -1) s = -1 := fun s => rfl
  rw [gv _ _ _ (by decide) ht1, gv _ _ _ (by decide) ht1, gv _ _ _ (by decide) ht1, gv _ _ _ (by decide) ht1,
    gv _ _ _ (by decide) ht2, gv _ _ _ (by decide) ht2, rv _ _ (by decide), rv _ _ (by decide), rv _ _ (by decide),
    rv _ _ (by decide), field_value hs (by decide) hρ (by decide), tensor_value _ (by decide)]
  show TField.comp G (F a) [-1, -1, -1, -1] [ρ "i", ρ "k", ρ "l", ρ "m"] + _ + _ = _
  rw [comp_first ha.cfg rfl (by simp [hρ _])]
  have e1 : fa = rat (1 / ((G.n : ℚ) - 2)) := by rw [hfa]; push_cast; rfl
  have e2 : fb = rat (1 / (((G.n : ℚ) - 2) * ((G.n : ℚ) - 1))) := by rw [hfb]; push_cast; rfl
  rw [e1, e2]
  show _ = weylOf E G Γ _ _ _ _
  unfold weylOf
  congr 2
  refine Finset.sum_congr rfl fun z hz => ?_
  rw [ha.val _ rfl (by simp [hρ _, Finset.mem_range.1 hz])]
  simp [Quantity.compsOf, indexFactor]

omit [DecidableEq K] in
/-- The names stay right when one more computed tensor is registered. -/
theorem namesFor_leaves {V' : View K} {w' : World K} {base : String} (hS : Scene G V w) (hc : NamesFor E G Γ V w base)
    (hk : V.Keeps V') {new : Id' → Prop} (hL : Leaves new w w')
    (hr : ∀ i ∈ w'.instances, w.objs.length ≤ i → new i → ∀ o, w'.objs[i]? = some o → ∀ q : Quantity,
      o.name = base ++ q.suffix → o.kind = q.kind ∧ ∃ D, InView G V' i q.ix (q.compsOf E G Γ) D) :
    NamesFor E G Γ V' w' base := by
  intro q i hi o' ho' hn
  rcases lt_or_ge i w.objs.length with hl | hl
  · obtain ⟨o, ho⟩ : ∃ o, w.objs[i]? = some o := ⟨_, List.getElem?_eq_getElem hl⟩
    obtain ⟨o1, e1, e2, e3, -, -, -, -, -, -, e4⟩ := hL.1 i o ho
    rw [ho'] at e1; cases e1
    have hnt : o.name ≠ "TEMP" := by rw [← e3, hn]; exact quantity_temp _ _
    obtain ⟨h1, D, h2⟩ := hc q i ((e4 hnt).2.1 hi) o ho (e3.symm.trans hn)
    exact ⟨e2.trans h1, D, inView_keeps hS hk h2 ho hnt⟩
  · rcases hL.2 i hi hl with h | ⟨o, h1, h2⟩
    · exact hr i hi hl h o' ho' q hn
    · rw [ho'] at h1; cases h1
      rw [hn] at h2
      exact absurd h2 (quantity_temp _ _)

/-- A computation that stores the tensor `q`. -/
theorem anyProvides_computes {q : Quantity} (hq : q ≠ .weyl) {m : PyM K Id'} {Dm : TField K} (hS : Scene G V w)
    (hc : NamesFor E G Γ V w Dm.name) (h : Computes G V w Dm m q.kind q.suffix q.ix (q.compsOf E G Γ)) :
    ProvidesFor E G Γ V w Dm.name m q := by
  refine Does.mono h ?_
  rintro r w' ⟨V', D', h1, h2, h3, h4, ⟨o, h5, h5'⟩, h6, h7, h8, h9, h10⟩
  have hon : o.name = Dm.name ++ q.suffix := (scene_object_name h1 h6 h5).trans h8
  refine ⟨V', D', h1, h2, leaves_mono h3 fun i _ _ hi => ?_, namesFor_leaves hS hc h2 h3 ?_, h4.2.1, ⟨o, h5, h5', hon⟩,
    ⟨h6, h7, h9, h10⟩⟩
  · rw [hi]; exact ⟨o, h5, q, hq, hon⟩
  · intro i _ _ hi o' ho' q' hn
    rw [hi] at ho' ⊢
    rw [ho'] at h5; cases h5
    obtain rfl := suffix_inj (hon.symm.trans hn)
    exact ⟨h5', D', ⟨h6, h7, h9, h10⟩⟩

/-- The search for the name, and otherwise the computation. -/
theorem anyProvides_unless {q : Quantity} {m : PyM K Id'} {base : String} (hS : Scene G V w) (hc : NamesFor E G Γ V w base)
    (h : ProvidesFor E G Γ V w base m q) : ProvidesFor E G Γ V w base (unlessNamed (base ++ q.suffix) m) q := by
  unfold unlessNamed
  refine Does.step (a := w.instances.find? fun i => (w.objs[i]?).any (hasName (base ++ q.suffix))) rfl ?_
  rcases hf : w.instances.find? fun i => (w.objs[i]?).any (hasName (base ++ q.suffix)) with _ | t
  · exact h
  · have h1 := List.mem_of_find?_eq_some hf
    have h2 := List.find?_some hf
    obtain ⟨o, h3, -⟩ := hS.registry.inUse t h1
    rw [h3] at h2
    have h4 : o.name = base ++ q.suffix := by simpa [hasName] using h2
    obtain ⟨h5, D, h6⟩ := hc q t h1 o h3 h4
    exact Does.pure ⟨V, D, hS, keeps_refl V, leaves_refl _ hS.registry, hc, h1, ⟨o, h3, h5, h4⟩, h6⟩

/-- One more computation after a tensor was provided. -/
theorem anyProvides_bind {base : String} {m : PyM K Id'} {k : Id' → PyM K Id'} {q q' : Quantity}
    (hm : ProvidesFor E G Γ V w base m q)
    (hk : ∀ r w1 V1 D, Scene G V1 w1 → V.Keeps V1 → NamesFor E G Γ V1 w1 base → r ≠ G.m →
      r ∈ w1.instances → (∃ o, w1.objs[r]? = some o ∧ o.kind = q.kind ∧ o.name = base ++ q.suffix) →
      InView G V1 r q.ix (q.compsOf E G Γ) D → ProvidesFor E G Γ V1 w1 base (k r) q') :
    ProvidesFor E G Γ V w base (m >>= k) q' := by
  refine Does.bind hm ?_
  rintro r w1 ⟨V1, D, h1, h2, h3, h4, h5, ⟨o, h6, h6', h6''⟩, h7⟩
  have hne : r ≠ G.m := inView_kind_ne h1 h6 (by rw [h6']; cases q <;> decide)
  refine Does.mono (hk r w1 V1 D h1 h2 h4 hne h5 ⟨o, h6, h6', h6''⟩ h7) ?_
  rintro r2 w2 ⟨V2, D2, e1, e2, e3, e4, e5, e6, e7⟩
  exact ⟨V2, D2, e1, keeps_trans h2 e2, leaves_derived h3 e3, e4, e5, e6, e7⟩

/-- `CalcChristoffel` stores the coefficients `Γ`. -/
def GivesConnection (E : Engine K) (G : Ground K) (Γ : Nat → Nat → Nat → K) (Dm : TField K) : Prop :=
  ∀ V w, Scene G V w → AnyMetric G V Dm →
    Computes G V w Dm (computeChristoffel E G.m) .christoffel " Christoffel" [1, -1, -1] (Quantity.compsOf E G Γ .christoffel)

omit [DecidableEq K] in
theorem anyMetric_keeps {V' : View K} {Dm : TField K} (hm : AnyMetric G V Dm) (hk : V.Keeps V') :
    AnyMetric G V' Dm := ⟨hk _ _ hm.view hm.name, hm.name, hm.coords⟩

variable {Dm : TField K}

theorem anyProvides_christoffel (hΓ : GivesConnection E G Γ Dm) (hS : Scene G V w) (hm : AnyMetric G V Dm)
    (hc : NamesFor E G Γ V w Dm.name) : ProvidesFor E G Γ V w Dm.name (calcChristoffel E G.m) .christoffel :=
  does_named hS hm.view (k := fun s => unlessNamed (s ++ " Christoffel") (computeChristoffel E G.m))
    (anyProvides_unless (q := .christoffel) hS hc (anyProvides_computes (by decide) hS hc (hΓ V w hS hm)))

theorem anyProvides_riemann (hE : ∀ x, E.simp x = x) (hΓ : GivesConnection E G Γ Dm) (hS : Scene G V w) (hm : AnyMetric G V Dm)
    (hc : NamesFor E G Γ V w Dm.name) : ProvidesFor E G Γ V w Dm.name (calcRiemann E G.m) .riemann :=
  does_named hS hm.view (k := fun s => unlessNamed (s ++ " Riemann") _)
    (anyProvides_unless (q := .riemann) hS hc (anyProvides_bind (anyProvides_christoffel hΓ hS hm hc)
      fun r w1 V1 D h1 h2 h3 h4 _ _ h5 => anyProvides_computes (q := .riemann) (by decide) h1 h3
        (anyComputes_riemann hE h1 (anyMetric_keeps hm h2) h5 h4)))

theorem anyProvides_ricci (hE : ∀ x, E.simp x = x) (hΓ : GivesConnection E G Γ Dm) (hS : Scene G V w) (hm : AnyMetric G V Dm)
    (hc : NamesFor E G Γ V w Dm.name) : ProvidesFor E G Γ V w Dm.name (calcRicci E G.m) .ricci :=
  does_named hS hm.view (k := fun s => unlessNamed (s ++ " Ricci Tensor") _)
    (anyProvides_unless (q := .ricci) hS hc (anyProvides_bind (anyProvides_riemann hE hΓ hS hm hc)
      fun r w1 V1 D h1 h2 h3 h4 _ _ h5 => anyProvides_computes (q := .ricci) (by decide) h1 h3
        (anyComputes_ricci hE h1 (anyMetric_keeps hm h2) h5 h4)))

theorem anyProvides_scalar (hE : ∀ x, E.simp x = x) (hΓ : GivesConnection E G Γ Dm) (hS : Scene G V w) (hm : AnyMetric G V Dm)
    (hc : NamesFor E G Γ V w Dm.name) : ProvidesFor E G Γ V w Dm.name (calcScalar E G.m) .scalar :=
  does_named hS hm.view (k := fun s => unlessNamed (s ++ " Ricci Scalar") _)
    (anyProvides_unless (q := .scalar) hS hc (anyProvides_bind (anyProvides_ricci hE hΓ hS hm hc)
      fun r w1 V1 D h1 h2 h3 h4 _ _ h5 => anyProvides_computes (q := .scalar) (by decide) h1 h3
        (anyComputes_scalar hE h1 (anyMetric_keeps hm h2) h5 h4)))

theorem anyProvides_einstein (hE : ∀ x, E.simp x = x) (hΓ : GivesConnection E G Γ Dm) (hS : Scene G V w) (hm : AnyMetric G V Dm)
    (hc : NamesFor E G Γ V w Dm.name) : ProvidesFor E G Γ V w Dm.name (calcEinstein E G.m) .einstein :=
  does_named hS hm.view (k := fun s => unlessNamed (s ++ " Einstein") _)
    (anyProvides_unless (q := .einstein) hS hc (anyProvides_bind (anyProvides_ricci hE hΓ hS hm hc)
      fun r w1 V1 D h1 h2 h3 h4 _ h4' h5 => anyProvides_bind (anyProvides_scalar hE hΓ h1 (anyMetric_keeps hm h2) h3)
        fun s w2 V2 D2 k1 k2 k3 k4 _ _ k5 => by
          obtain ⟨o, o1, o2, o3⟩ := h4'
          exact anyProvides_computes (q := .einstein) (by decide) k1 k3 (anyComputes_einstein hE k1
            (anyMetric_keeps (anyMetric_keeps hm h2) k2)
            (inView_keeps h1 k2 h5 o1 (by rw [o3]; exact quantity_temp _ _)) h4 k5)))

/-- What `CalcWeylTensor` does when the other tensors are there. -/
theorem anyProvides_computeWeyl (hE : ∀ x, E.simp x = x) (hS : Scene G V w) (hm : AnyMetric G V Dm)
    (hN : NamesFor E G Γ V w Dm.name) (hn : 2 < G.n) {a c s : Id'} {Da Dc Ds : TField K}
    (ha : InView G V a [1, -1, -1, -1] (Quantity.compsOf E G Γ .riemann) Da)
    (hc : InView G V c [-1, -1] (Quantity.compsOf E G Γ .ricci) Dc) (hcm : c ≠ G.m) (hcr : c ∈ w.instances)
    (hck : ∃ o, w.objs[c]? = some o ∧ o.kind = .tensor ∧ o.name = Dm.name ++ " Ricci Tensor")
    (hs : InView G V s [] (Quantity.compsOf E G Γ .scalar) Ds) :
    Does (computeWeyl E G.m G.n a c s) w fun r w' => ∃ V' D, Scene G V' w' ∧ NamesFor E G Γ V' w' Dm.name ∧
      (∀ t D, V t = some D → D.name ≠ "TEMP" → t ≠ c → V' t = some D) ∧ r ∈ w'.instances ∧
      (∃ o, w'.objs[r]? = some o ∧ o.kind = .tensor ∧ o.name = Dm.name ++ " Weyl Tensor") ∧
      InView G V' r [-1, -1, -1, -1] (Quantity.compsOf E G Γ .weyl) D ∧
      (∃ o, w'.objs[c]? = some o ∧ o.alive = false) ∧ c ∉ w'.instances ∧
      ∃ t ∈ w'.instances, w.objs.length ≤ t ∧ ∃ o, w'.objs[t]? = some o ∧ o.name = "Result" := by
  obtain ⟨oc, hoc, hock, hocn⟩ := hck
  have hcn : Dc.name = Dm.name ++ " Ricci Tensor" := (scene_object_name hS hc.view hoc).symm.trans hocn
  refine Does.mono (anyComputes_weyl hE hS hm hn ha hc hcm (by rw [hcn]; exact quantity_temp _ .ricci) hcr
    ⟨oc, hoc, hock⟩ hs) ?_
  rintro r w' ⟨V4, w4, t, Dt, D', rfl, h1, h2, h3, h4, h5, h6, h7, ⟨o, h8, h9⟩, h10, h11, h12, h13, h14, h15, h16⟩
  have hcl : c < w.objs.length := view_lt hS hc.view
  have hrc : r ≠ c := fun h => absurd h5.1 (not_le.2 (h ▸ hcl))
  have htc : t ≠ c := fun h => absurd h6.1 (not_le.2 (h ▸ hcl))
  have hon : o.name = Dm.name ++ " Weyl Tensor" := (scene_object_name h1 h12 h8).trans h14
  have hN4 : NamesFor E G Γ V4 w4 Dm.name := by
    refine namesFor_leaves hS hN h3 h4 ?_
    intro i _ _ hi o' ho' q' hq
    rcases hi with rfl | rfl
    · rw [scene_object_name h1 h10 ho', h11] at hq
      exact absurd hq.symm (quantity_result _ _)
    · rw [ho'] at h8; cases h8
      obtain rfl := suffix_inj (q := .weyl) (hon.symm.trans hq)
      exact ⟨h9, D', ⟨h12, h13, h15, h16⟩⟩
  have hdrop : ∀ i D, i ≠ c → V4 i = some D → View.drop V4 c i = some D := fun i D hi hD => by
    unfold View.drop; rw [if_neg hi]; exact hD
  have hmem : ∀ i, i ∈ (afterDelete c w4).instances ↔ i ≠ c ∧ i ∈ w4.instances := fun i =>
    List.Nodup.mem_erase_iff h1.registry.nodup
  obtain ⟨ot, hot⟩ := h6.2.2
  refine ⟨View.drop V4 c, D', h2, ?_, fun i D hD hDn hi => hdrop i D hi (h3 i D hD hDn), (hmem r).2 ⟨hrc, h5.2.1⟩,
    ⟨o, (afterDelete_ne hrc).trans h8, h9, hon⟩, ⟨hdrop r D' hrc h12, h13, h15, h16⟩, ?_, fun h => ((hmem c).1 h).1 rfl,
    t, (hmem t).2 ⟨htc, h6.2.1⟩, h6.1, ot, (afterDelete_ne htc).trans hot.1,
    (scene_object_name h1 h10 hot.1).trans h11⟩
  · intro q i hi o' ho' hq
    obtain ⟨k1, k2⟩ := (hmem i).1 hi
    rw [afterDelete_ne k1] at ho'
    obtain ⟨e1, D, e2⟩ := hN4 q i k2 o' ho' hq
    exact ⟨e1, D, hdrop i D k1 e2.view, e2.coords, e2.cfg, e2.val⟩
  · obtain ⟨oc', q1, -⟩ := h4.1 c oc hoc
    refine ⟨{ oc' with alive := false }, ?_, rfl⟩
    show (w4.objs.modify c _)[c]? = _
    rw [List.getElem?_modify]
    simp [q1]

/-- The start of `CalcWeylTensor`. -/
theorem anyWeyl_start (hS : Scene G V w) (hm : AnyMetric G V Dm) :
    calcWeyl E G.m w = unlessNamed (Dm.name ++ " Weyl Tensor") (do
      let riemann ← calcRiemann E G.m
      let ricci ← calcRicci E G.m
      let scalar ← calcScalar E G.m
      computeWeyl E G.m G.n riemann ricci scalar) w := by
  obtain ⟨om, m1, m2⟩ := hS.shows _ _ hm.view
  obtain ⟨oc, c1, -, c2, c3⟩ := hS.chart
  obtain ⟨D, o, h1, h2, h3, -⟩ := hS.metric
  rw [m1] at h2; cases h2
  have hq : requireMetric G.m w = (.ok (), w) := by
    have : isMetric G.m w = (.ok true, w) := by
      unfold isMetric
      simp [PyM.bind_apply, PyM.world, m1, h3]
    unfold requireMetric
    rw [PyM.bind_apply, this]
    rfl
  unfold calcWeyl
  rw [PyM.bind_apply, hq]
  dsimp only
  rw [PyM.bind_apply, getObj_ok m1 m2.alive]
  dsimp only
  rw [m2.name, m2.coords, hm.coords]
  unfold unlessNamed
  rw [PyM.bind_apply, PyM.bind_apply]
  unfold findByName
  dsimp only
  rcases w.instances.find? fun i => (w.objs[i]?).any (hasName (Dm.name ++ " Weyl Tensor")) with _ | t
  · dsimp only
    rw [PyM.bind_apply, getObj_ok c1 c2]
    dsimp only
    rw [c3, hS.dim]
  · rfl

/-- `CalcWeylTensor`. -/
theorem anyProvides_weyl (hE : ∀ x, E.simp x = x) (hΓ : GivesConnection E G Γ Dm) (hS : Scene G V w) (hm : AnyMetric G V Dm)
    (hc : NamesFor E G Γ V w Dm.name) (hn : 2 < G.n) :
    Does (calcWeyl E G.m) w fun r w' => ∃ V' D, Scene G V' w' ∧ NamesFor E G Γ V' w' Dm.name ∧
      (∀ t D, V t = some D → D.name ≠ "TEMP" → D.name ≠ Dm.name ++ " Ricci Tensor" → V' t = some D) ∧
      r ∈ w'.instances ∧
      (∃ o, w'.objs[r]? = some o ∧ o.kind = .tensor ∧ o.name = Dm.name ++ " Weyl Tensor") ∧
      InView G V' r [-1, -1, -1, -1] (Quantity.compsOf E G Γ .weyl) D := by
  unfold Does
  rw [anyWeyl_start hS hm]
  show Does _ w _
  unfold unlessNamed
  refine Does.step (a := w.instances.find? fun i => (w.objs[i]?).any (hasName (Dm.name ++ " Weyl Tensor"))) rfl ?_
  rcases hf : w.instances.find? fun i => (w.objs[i]?).any (hasName (Dm.name ++ " Weyl Tensor")) with _ | t
  · refine Does.bind (anyProvides_riemann hE hΓ hS hm hc) ?_
    rintro a w1 ⟨V1, Da, a1, a2, a3, a4, a5, ⟨oa, a6, -, a6'⟩, a7⟩
    refine Does.bind (anyProvides_ricci hE hΓ a1 (anyMetric_keeps hm a2) a4) ?_
    rintro c w2 ⟨V2, Dc, b1, b2, b3, b4, b5, ⟨oc, b6, b6', b6''⟩, b7⟩
    have hm2 := anyMetric_keeps (anyMetric_keeps hm a2) b2
    refine Does.bind (anyProvides_scalar hE hΓ b1 hm2 b4) ?_
    rintro s w3 ⟨V3, Ds, c1, c2, c3, c4, c5, -, c7⟩
    have hat : oa.name ≠ "TEMP" := by rw [a6']; exact quantity_temp _ .riemann
    have hct : oc.name ≠ "TEMP" := by rw [b6'']; exact quantity_temp _ .ricci
    obtain ⟨oc', q1, q2, q3, -, -, -, -, -, -, q10⟩ := c3.1 c oc b6
    have hcm : c ≠ G.m := inView_kind_ne b1 b6 (by rw [b6']; decide)
    have hcn : Dc.name = Dm.name ++ " Ricci Tensor" := (scene_object_name b1 b7.view b6).symm.trans b6''
    refine Does.mono (anyProvides_computeWeyl hE c1 (anyMetric_keeps hm2 c2) c4 hn
      (inView_keeps a1 (keeps_trans b2 c2) a7 a6 hat) (inView_keeps b1 c2 b7 b6 hct) hcm ((q10 hct).2.2 b5)
      ⟨oc', q1, q2.trans b6', q3.trans b6''⟩ c7) ?_
    rintro r w' ⟨V', D, h1, h2, h3, h4, h5, h6, -, -⟩
    refine ⟨V', D, h1, h2, fun t Dt hDt hDn hDr => ?_, h4, h5, h6⟩
    have hk3 := keeps_trans a2 (keeps_trans b2 c2) t Dt hDt hDn
    refine h3 t Dt hk3 hDn fun htc => hDr ?_
    have := inView_keeps b1 c2 b7 b6 hct
    rw [htc, this.view] at hk3
    rw [← Option.some.inj hk3, hcn]
  · have h1 := List.mem_of_find?_eq_some hf
    have h2 := List.find?_some hf
    obtain ⟨o, h3, -⟩ := hS.registry.inUse t h1
    rw [h3] at h2
    have h4 : o.name = Dm.name ++ " Weyl Tensor" := by simpa [hasName] using h2
    obtain ⟨h5, D, h6⟩ := hc .weyl t h1 o h3 h4
    exact Does.pure ⟨V, D, hS, hc, fun t D hD _ _ => hD, h1, ⟨o, h3, h5, h4⟩, h6⟩

end PyOGRe
