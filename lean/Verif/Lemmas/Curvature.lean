import Verif.Lemmas.Christoffel

/-! Helper lemmas: curvature tensors. -/

namespace PyOGRe
open Spec Finset
variable {K : Type} [CommRing K] [DecidableEq K] [Algebra ℚ K] {E : Engine K} {G : Ground K} {V : View K} {w : World K}

/-- What the functions that compute curvatures do: a new tensor is stored under the name of the metric with a
suffix. -/
def Computes (G : Ground K) (V : View K) (w : World K) (Dm : TField K) (m : PyM K Id') (kind : Kind) (suffix : String)
    (ix : List Int) (f : List Nat → K) : Prop :=
  Does m w fun r w' => ∃ V' D', Scene G V' w' ∧ V.Keeps V' ∧ Leaves (· = r) w w' ∧
      New w w' r ∧ (∃ o, w'.objs[r]? = some o ∧ o.kind = kind) ∧
      V' r = some D' ∧ D'.coords = G.c ∧ D'.name = Dm.name ++ suffix ∧ D'.ix = ix ∧
      ∀ J, J.length = ix.length → (∀ x ∈ J, x < G.n) → D'.val J = f J

omit [DecidableEq K] [Algebra ℚ K] in
theorem field_ok {F : Id' → TField K} {t : Id'} {ix : List Int} {f : List Nat → K} {Dm : TField K}
    (hm : LowerMetric G V Dm) (hF : F G.m = Dm) (h : InView G V t ix f (F t)) {labels : List Sym} (hn : labels.Nodup)
    (hl : labels.length = ix.length) : (Formula.tensor t labels : Formula K).OK G V F :=
  ⟨h.view, h.coords, by rw [h.cfg]; exact hl, fun s => le_trans (List.nodup_iff_count_le_one.1 hn s) (by decide),
    Or.inl hn⟩

omit [DecidableEq K] [Algebra ℚ K] in
theorem field_value {F : Id' → TField K} {t : Id'} {ix : List Int} {f : List Nat → K} (h : InView G V t ix f (F t))
    {labels : List Sym} (hn : labels.Nodup) {pos : Sym → Int} {ρ : Sym → Nat} (hρ : Values G.n ρ)
    (hpos : labels.map pos = ix) :
    ((Formula.tensor t labels).mean E G F).value pos ρ = f (labels.map ρ) := by
  rw [tensor_default hn hρ (by rw [h.cfg]; exact hpos), h.val _ (by rw [← hpos]; simp) (values_map hρ _)]

omit [Algebra ℚ K] in
theorem field_diff (hE : ∀ x, E.simp x = x) (hS : Scene G V w) {Dm : TField K} (hm : LowerMetric G V Dm)
    {F : Id' → TField K} (hF : F G.m = Dm) {t : Id'} {ix : List Int} {f : List Nat → K} (h : InView G V t ix f (F t))
    {labels : List Sym} (hn : labels.Nodup) {a : Sym} (ha : a ∉ labels) {pos : Sym → Int} (hp : Positions pos)
    (hpa : pos a = -1) {ρ : Sym → Nat} (hρ : Values G.n ρ) (hpos : labels.map pos = ix) :
    ((Formula.diff a (Formula.tensor t labels)).mean E G F).value pos ρ = G.d E (ρ a) (f (labels.map ρ)) := by
  have hl : (Formula.tensor t labels : Formula K).labels = labels := single_nodup hn
  have hll : labels.length = ix.length := by rw [← hpos]; simp
  rw [diff_default hE hS (field_ok hm hF h hn hll) (by rw [hl]; exact ha) hp hpa hρ
    (by rw [hl, tensor_ix hn (by rw [h.cfg]; exact hll), h.cfg]; exact hpos), field_value h hn hρ hpos]

theorem computes_christoffel (hE : ∀ x, E.simp x = x) (hS : Scene G V w) {Dm : TField K} (hm : LowerMetric G V Dm) :
    Computes G V w Dm (computeChristoffel E G.m) .christoffel " Christoffel" [1, -1, -1] (christoffelComps E G) := by
  refine Does.mono (does_computeChristoffel hE hS hm) ?_
  rintro r w' ⟨V', D', h1, h2, h3, h4, h5, h6, h7, h8, h9, h10⟩
  refine ⟨V', D', h1, h2, h3, h4, h5, h6, h7, h8, h9, fun J hJ hJn => ?_⟩
  match J, hJ, hJn with
  | [a, b, c], _, hJn => exact h10 a b c (hJn a (by simp)) (hJn b (by simp)) (hJn c (by simp))

/-- The formula in `CalcRiemannTensor`. -/
def riemannFormula (c : Id') : Formula K :=
  .sub (.add (.sub (.diff "mu" (.tensor c ["rho", "nu", "sigma"])) (.diff "nu" (.tensor c ["rho", "mu", "sigma"])))
    (.mul (.tensor c ["rho", "mu", "lambda"]) (.tensor c ["lambda", "nu", "sigma"])))
    (.mul (.tensor c ["rho", "nu", "lambda"]) (.tensor c ["lambda", "mu", "sigma"]))

theorem computes_riemann (hE : ∀ x, E.simp x = x) (hS : Scene G V w) {Dm : TField K} (hm : LowerMetric G V Dm)
    {c : Id'} {Dc : TField K} (hc : InView G V c [1, -1, -1] (christoffelComps E G) Dc) (hcm : c ≠ G.m) :
    Computes G V w Dm (computeRiemann E G.m c) .tensor " Riemann" [1, -1, -1, -1] (riemannComps E G) := by
  set F : Id' → TField K := fun t => if t = G.m then Dm else Dc with hF
  have F1 : F G.m = Dm := if_pos rfl
  have F2 : F c = Dc := if_neg hcm
  rw [← F2] at hc
  have ok : ∀ a b d, [a, b, d].Nodup → (Formula.tensor c [a, b, d] : Formula K).OK G V F := fun a b d h =>
    field_ok hm F1 hc h rfl
  have hf : (riemannFormula c : Formula K).OK G V F := by
    refine ⟨⟨⟨⟨ok _ _ _ (by decide), ?_⟩, ⟨ok _ _ _ (by decide), ?_⟩, ?_⟩, ⟨ok _ _ _ (by decide), ok _ _ _ (by decide)⟩, ?_⟩,
      ⟨ok _ _ _ (by decide), ok _ _ _ (by decide)⟩, ?_⟩
    · exact fun h => absurd h (show ¬ "mu" ∈ ["rho", "nu", "sigma"] by decide)
    · exact fun h => absurd h (show ¬ "nu" ∈ ["rho", "mu", "sigma"] by decide)
    · show List.Perm ["nu", "rho", "mu", "sigma"] ["mu", "rho", "nu", "sigma"]
      decide
    · show List.Perm ["rho", "mu", "nu", "sigma"] ["mu", "rho", "nu", "sigma"]
      decide
    · show List.Perm ["rho", "nu", "mu", "sigma"] ["mu", "rho", "nu", "sigma"]
      decide
  have main := stores_formula hE hS (fun _ _ h => h) (onlyTemps_refl w) hS hf (order := ["rho", "sigma", "mu", "nu"])
    (Or.inr (show List.Perm _ ["mu", "rho", "nu", "sigma"] by decide)) (requested := ["rho", "sigma", "mu", "nu"])
    rfl hm.view hm.name hm.coords (ixo := some [1, -1, -1, -1]) (ix := [1, -1, -1, -1]) ⟨rfl, by simp⟩ (Or.inl rfl)
    (kind := .tensor) (Or.inl rfl) " Riemann" "R" (suffix_ne (by decide))
  simp only [riemannFormula, Formula.run, Formula.runWith, pyM_bind_assoc] at main
  unfold Computes computeRiemann
  simp only [partialOf, productOf, storeResult, pyM_bind_assoc]
  refine Does.mono main ?_
  rintro r w' ⟨V', D', h1, h2, h3, h4, h5, h6, h7, h8, h9, h10⟩
  refine ⟨V', D', h1, h2, h3, h4, h5, h6, h7, h8, h9, fun J hJ hJn => ?_⟩
  obtain ⟨ρ, hρ, hρv⟩ := exists_env hS.pos (labels := ["rho", "sigma", "mu", "nu"]) (by decide) (J := J) hJ hJn
  set pos : Sym → Int := fun s => if s = "rho" then 1 else -1 with hpos
  have hp : Positions pos := fun s => by rw [hpos]; dsimp only; split_ifs <;> simp
  rw [← hρv, h10 pos ρ hp hρ (by decide)]
  show ((Formula.diff "mu" (Formula.tensor c ["rho", "nu", "sigma"])).mean E G F).value pos ρ -
    ((Formula.diff "nu" (Formula.tensor c ["rho", "mu", "sigma"])).mean E G F).value pos ρ +
    sumOver G.n ["lambda"] (fun ρ' => ((Formula.tensor c ["rho", "mu", "lambda"]).mean E G F).value pos ρ' *
      ((Formula.tensor c ["lambda", "nu", "sigma"]).mean E G F).value (turned ["lambda"] pos) ρ') ρ -
    sumOver G.n ["lambda"] (fun ρ' => ((Formula.tensor c ["rho", "nu", "lambda"]).mean E G F).value pos ρ' *
      ((Formula.tensor c ["lambda", "mu", "sigma"]).mean E G F).value (turned ["lambda"] pos) ρ') ρ = _
  rw [field_diff hE hS hm F1 hc (by decide) (by decide) hp (by decide) hρ (by decide),
    field_diff hE hS hm F1 hc (by decide) (by decide) hp (by decide) hρ (by decide)]
  simp only [sumOver]
  unfold riemannComps riemann
  congr 1
  · congr 1
    refine Finset.sum_congr rfl fun l hl => ?_
    have hρ' : Values G.n (Function.update ρ "lambda" l) := values_update hρ _ (Finset.mem_range.1 hl)
    rw [field_value hc (by decide) hρ' (by decide), field_value hc (by decide) hρ' (by decide)]
    simp [christoffelComps]
  · refine Finset.sum_congr rfl fun l hl => ?_
    have hρ' : Values G.n (Function.update ρ "lambda" l) := values_update hρ _ (Finset.mem_range.1 hl)
    rw [field_value hc (by decide) hρ' (by decide), field_value hc (by decide) hρ' (by decide)]
    simp [christoffelComps]

omit [DecidableEq K] [Algebra ℚ K] in
/-- Raising or lowering the first index. -/
theorem comp_first {D : TField K} {a b : Int} {r : List Int} (hD : D.ix = a :: r) {j : Nat} {J : List Nat}
    (hl : J.length = r.length) (hJ : ∀ x ∈ J, x < G.n) :
    D.comp G (b :: r) (j :: J) = ∑ s ∈ range G.n, indexFactor G.g G.gi a b j s * D.val (s :: J) := by
  unfold TField.comp
  rw [hD, List.zipWith_cons_cons, applyFactors_cons]
  refine Finset.sum_congr rfl fun s _ => ?_
  rw [applyFactors_self _ _ hJ hl.symm]

theorem computes_ricci (hE : ∀ x, E.simp x = x) (hS : Scene G V w) {Dm : TField K} (hm : LowerMetric G V Dm)
    {c : Id'} {Dc : TField K} (hc : InView G V c [1, -1, -1, -1] (riemannComps E G) Dc) (hcm : c ≠ G.m) :
    Computes G V w Dm (computeRicci E G.m c) .tensor " Ricci Tensor" [-1, -1] (ricciComps E G) := by
  set F : Id' → TField K := fun t => if t = G.m then Dm else Dc with hF
  have F1 : F G.m = Dm := if_pos rfl
  have F2 : F c = Dc := if_neg hcm
  rw [← F2] at hc
  have hf : (Formula.tensor c ["lambda", "mu", "lambda", "nu"] : Formula K).OK G V F := by
    refine ⟨hc.view, hc.coords, by rw [hc.cfg]; rfl, fun s => ?_, Or.inr ⟨by rw [F1]; exact hm.view, by rw [F1]; exact hm.coords⟩⟩
    by_cases h : s = "lambda"
    · rw [h]; decide
    · have : List.count s ["lambda", "mu", "lambda", "nu"] = List.count s ["mu", "nu"] := by
        rw [List.count_cons_of_ne (Ne.symm h), List.count_cons, List.count_cons_of_ne (Ne.symm h), ← List.count_cons]
      rw [this]; exact count_two
  have main := stores_formula hE hS (fun _ _ h => h) (onlyTemps_refl w) hS hf (order := [])
    (Or.inl rfl) (requested := ["mu", "nu"])
    rfl hm.view hm.name hm.coords (ixo := some [-1, -1]) (ix := [-1, -1]) ⟨rfl, by simp⟩ (Or.inl rfl)
    (kind := .tensor) (Or.inl rfl) " Ricci Tensor" "R" (suffix_ne (by decide))
  simp only [Formula.run, Formula.runWith, pyM_bind_assoc] at main
  unfold Computes computeRicci
  simp only [storeResult, pyM_bind_assoc]
  refine Does.mono main ?_
  rintro r w' ⟨V', D', h1, h2, h3, h4, h5, h6, h7, h8, h9, h10⟩
  refine ⟨V', D', h1, h2, h3, h4, h5, h6, h7, h8, h9, fun J hJ hJn => ?_⟩
  obtain ⟨ρ, hρ, hρv⟩ := exists_env hS.pos (labels := ["mu", "nu"]) (by decide) (J := J) hJ hJn
  rw [← hρv, h10 (fun _ => -1) ρ (fun _ => Or.inr rfl) hρ (by decide)]
  show sumOver G.n ["lambda"] (fun ρ' => (F c).comp G [1, -1, -1, -1]
    (["lambda", "mu", "lambda", "nu"].map ρ')) ρ = _
  simp only [sumOver]
  unfold ricciComps ricci
  refine Finset.sum_congr rfl fun l hl => ?_
  have hρ' : Values G.n (Function.update ρ "lambda" l) := values_update hρ _ (Finset.mem_range.1 hl)
  rw [← hc.cfg, comp_self (values_map hρ' _) (by rw [hc.cfg]; rfl), hc.val _ rfl (values_map hρ' _)]
  simp [riemannComps]

theorem computes_scalar (hE : ∀ x, E.simp x = x) (hS : Scene G V w) {Dm : TField K} (hm : LowerMetric G V Dm)
    {c : Id'} {Dc : TField K} (hc : InView G V c [-1, -1] (ricciComps E G) Dc) (hcm : c ≠ G.m) :
    Computes G V w Dm (computeScalar E G.m c) .tensor " Ricci Scalar" [] (fun _ => scalarCurvature E G) := by
  set F : Id' → TField K := fun t => if t = G.m then Dm else Dc with hF
  have F1 : F G.m = Dm := if_pos rfl
  have F2 : F c = Dc := if_neg hcm
  rw [← F2] at hc
  have hf : (Formula.tensor c ["lambda", "lambda"] : Formula K).OK G V F :=
    ⟨hc.view, hc.coords, by rw [hc.cfg]; rfl, fun s => count_two, Or.inr ⟨by rw [F1]; exact hm.view, by rw [F1]; exact hm.coords⟩⟩
  have main := stores_formula hE hS (fun _ _ h => h) (onlyTemps_refl w) hS hf (order := [])
    (Or.inl rfl) (requested := [])
    rfl hm.view hm.name hm.coords (ixo := none) (ix := []) ⟨rfl, by simp⟩ (Or.inr ⟨rfl, rfl⟩)
    (kind := .tensor) (Or.inl rfl) " Ricci Scalar" "R" (suffix_ne (by decide))
  simp only [Formula.run, Formula.runWith, pyM_bind_assoc] at main
  unfold Computes computeScalar
  simp only [storeResult, pyM_bind_assoc]
  refine Does.mono main ?_
  rintro r w' ⟨V', D', h1, h2, h3, h4, h5, h6, h7, h8, h9, h10⟩
  refine ⟨V', D', h1, h2, h3, h4, h5, h6, h7, h8, h9, fun J hJ hJn => ?_⟩
  obtain ⟨ρ, hρ, hρv⟩ := exists_env hS.pos (labels := []) (by decide) (J := J) hJ hJn
  rw [← hρv, h10 (fun _ => -1) ρ (fun _ => Or.inr rfl) hρ (by decide)]
  show sumOver G.n ["lambda"] (fun ρ' => (F c).comp G [1, -1] (["lambda", "lambda"].map ρ')) ρ = _
  simp only [sumOver]
  unfold scalarCurvature
  rw [Finset.sum_comm]
  refine Finset.sum_congr rfl fun l hl => ?_
  have hl' := Finset.mem_range.1 hl
  simp only [List.map_cons, List.map_nil, Function.update_self]
  rw [comp_first hc.cfg rfl (by simp [hl'])]
  refine Finset.sum_congr rfl fun s hs => ?_
  have hs' := Finset.mem_range.1 hs
  rw [hc.val _ rfl (by simp [hl', hs']), inverse_symm hS.inverse hS.symm s l hs' hl']
  simp [ricciComps, indexFactor]

omit [DecidableEq K] [Algebra ℚ K] in
theorem inView_metric (hS : Scene G V w) {Dm : TField K} (hm : LowerMetric G V Dm) :
    InView G V G.m [-1, -1] (fun J => G.g (J.getD 0 0) (J.getD 1 0)) Dm := by
  refine ⟨hm.view, hm.coords, hm.ix, fun J hJ hJn => ?_⟩
  match J, hJ, hJn with
  | [a, b], _, hJn => exact lowerMetric_val hS hm (hJn a (by simp)) (hJn b (by simp))

theorem computes_einstein (hE : ∀ x, E.simp x = x) (hS : Scene G V w) {Dm : TField K} (hm : LowerMetric G V Dm)
    {c s : Id'} {Dc Ds : TField K} (hc : InView G V c [-1, -1] (ricciComps E G) Dc) (hcm : c ≠ G.m)
    (hs : InView G V s [] (fun _ => scalarCurvature E G) Ds) :
    Computes G V w Dm (computeEinstein E G.m c s) .tensor " Einstein" [-1, -1] (einsteinComps E G) := by
  have hsm : s ≠ G.m := fun h => by
    have h1 := hs.view
    rw [h, hm.view] at h1
    have h2 := hs.cfg
    rw [← Option.some.inj h1, hm.ix] at h2
    cases h2
  have hsc : s ≠ c := fun h => by
    have h1 := hs.view
    rw [h, hc.view] at h1
    have h2 := hs.cfg
    rw [← Option.some.inj h1, hc.cfg] at h2
    cases h2
  set F : Id' → TField K := fun t => if t = G.m then Dm else if t = c then Dc else Ds with hF
  have F1 : F G.m = Dm := if_pos rfl
  have F2 : F c = Dc := by rw [hF]; dsimp only; rw [if_neg hcm, if_pos rfl]
  have F3 : F s = Ds := by rw [hF]; dsimp only; rw [if_neg hsm, if_neg hsc]
  have hM := inView_metric hS hm
  rw [← F1] at hM
  rw [← F2] at hc
  rw [← F3] at hs
  have hf : (Formula.sub (.tensor c ["mu", "nu"]) (.mul (.scale (ratExpr (1 / 2)) (.tensor s []))
      (.tensor G.m ["mu", "nu"])) : Formula K).OK G V F :=
    ⟨field_ok hm F1 hc (by decide) rfl, ⟨field_ok hm F1 hs (by decide) rfl, field_ok hm F1 hM (by decide) rfl⟩,
      show List.Perm ["mu", "nu"] ["mu", "nu"] from List.Perm.refl _⟩
  have main := stores_formula hE hS (fun _ _ h => h) (onlyTemps_refl w) hS hf (order := [])
    (Or.inl rfl) (requested := ["mu", "nu"])
    rfl hm.view hm.name hm.coords (ixo := some [-1, -1]) (ix := [-1, -1]) ⟨rfl, by simp⟩ (Or.inl rfl)
    (kind := .tensor) (Or.inl rfl) " Einstein" "G" (suffix_ne (by decide))
  simp only [Formula.run, Formula.runWith, pyM_bind_assoc] at main
  unfold Computes computeEinstein
  simp only [storeResult, pyM_bind_assoc]
  refine Does.mono main ?_
  rintro r w' ⟨V', D', h1, h2, h3, h4, h5, h6, h7, h8, h9, h10⟩
  refine ⟨V', D', h1, h2, h3, h4, h5, h6, h7, h8, h9, fun J hJ hJn => ?_⟩
  obtain ⟨ρ, hρ, hρv⟩ := exists_env hS.pos (labels := ["mu", "nu"]) (by decide) (J := J) hJ hJn
  rw [← hρv, h10 (fun _ => -1) ρ (fun _ => Or.inr rfl) hρ (by decide)]
  show ((Formula.tensor c ["mu", "nu"]).mean E G F).value (fun _ => -1) ρ -
    (ratExpr (1 / 2) * ((Formula.tensor s []).mean E G F).value (fun _ => -1) ρ) *
      ((Formula.tensor G.m ["mu", "nu"]).mean E G F).value (turned [] fun _ => -1) ρ = _
  rw [field_value hc (by decide) hρ (by decide), field_value hs (by decide) hρ (by decide),
    field_value hM (by decide) hρ (by decide)]
  rfl

/-- The formula in `CalcWeylTensor`, with the factors `1/(n-2)` and `1/((n-2)(n-1))`. -/
def weylFormula (m riemann ricci scalar : Id') (a b : K) : Formula K :=
  .add (.add (.tensor riemann ["i", "k", "l", "m"])
    (.scale a (.sub (.add (.sub (.mul (.tensor ricci ["i", "m"]) (.tensor m ["k", "l"]))
      (.mul (.tensor ricci ["i", "l"]) (.tensor m ["k", "m"])))
      (.mul (.tensor ricci ["k", "l"]) (.tensor m ["i", "m"])))
      (.mul (.tensor ricci ["k", "m"]) (.tensor m ["i", "l"])))))
    (.scale b (.mul (.tensor scalar []) (.sub (.mul (.tensor m ["i", "l"]) (.tensor m ["k", "m"]))
      (.mul (.tensor m ["i", "m"]) (.tensor m ["k", "l"])))))

omit [CommRing K] [DecidableEq K] [Algebra ℚ K] in
theorem pyM_pure_bind {α β : Type} (a : α) (f : α → PyM K β) : (pure a >>= f : PyM K β) = f a := rfl

omit [DecidableEq K] in
theorem lift_reciprocal {k : Int} (h : k ≠ 0) :
    (PyM.lift (reciprocal k) : PyM K K) = pure (ratExpr (1 / (k : ℚ))) := by
  unfold reciprocal
  rw [if_neg h]
  rfl

omit [DecidableEq K] [Algebra ℚ K] in
theorem inView_ne {a b : Id'} {ix ix' : List Int} {f f' : List Nat → K} {D D' : TField K} (h : InView G V a ix f D)
    (h' : InView G V b ix' f' D') (hne : ix.length ≠ ix'.length) : a ≠ b := fun hab => by
  have h1 := h.view
  rw [hab, h'.view] at h1
  have h2 := h.cfg
  rw [← Option.some.inj h1, h'.cfg] at h2
  exact hne (by rw [h2])

theorem computes_weyl (hE : ∀ x, E.simp x = x) (hS : Scene G V w) {Dm : TField K} (hm : LowerMetric G V Dm)
    (hn : 2 < G.n) {a c s : Id'} {Da Dc Ds : TField K} (ha : InView G V a [1, -1, -1, -1] (riemannComps E G) Da)
    (hc : InView G V c [-1, -1] (ricciComps E G) Dc) (hcm : c ≠ G.m) (hcn : Dc.name ≠ "TEMP")
    (hcr : c ∈ w.instances) (hck : ∃ o, w.objs[c]? = some o ∧ o.kind = .tensor)
    (hs : InView G V s [] (fun _ => scalarCurvature E G) Ds) :
    Does (computeWeyl E G.m G.n a c s) w fun r w' => ∃ V4 w4 t Dt D', w' = afterDelete c w4 ∧ Scene G V4 w4 ∧
      Scene G (View.drop V4 c) w' ∧ V.Keeps V4 ∧ Leaves (fun i => i = t ∨ i = r) w w4 ∧ New w w4 r ∧ New w w4 t ∧
      r ≠ t ∧ (∃ o, w4.objs[r]? = some o ∧ o.kind = .tensor) ∧ V4 t = some Dt ∧ Dt.name = "Result" ∧
      V4 r = some D' ∧ D'.coords = G.c ∧ D'.name = Dm.name ++ " Weyl Tensor" ∧ D'.ix = [-1, -1, -1, -1] ∧
      ∀ J, J.length = 4 → (∀ x ∈ J, x < G.n) → D'.val J = weylComps E G J := by
  have hM := inView_metric hS hm
  have hsm : s ≠ G.m := inView_ne hs hM (by decide)
  have hsc : s ≠ c := inView_ne hs hc (by decide)
  have ham : a ≠ G.m := inView_ne ha hM (by decide)
  have hac : a ≠ c := inView_ne ha hc (by decide)
  have has : a ≠ s := inView_ne ha hs (by decide)
  set F : Id' → TField K := fun t => if t = G.m then Dm else if t = c then Dc else if t = s then Ds else Da with hF
  have F1 : F G.m = Dm := if_pos rfl
  have F2 : F c = Dc := by rw [hF]; dsimp only; rw [if_neg hcm, if_pos rfl]
  have F3 : F s = Ds := by rw [hF]; dsimp only; rw [if_neg hsm, if_neg hsc, if_pos rfl]
  have F4 : F a = Da := by rw [hF]; dsimp only; rw [if_neg ham, if_neg hac, if_neg has]
  rw [← F1] at hM
  rw [← F3] at hs
  rw [← F4] at ha
  have hc' := hc
  rw [← F2] at hc
  have okg : ∀ x y, [x, y].Nodup → (Formula.tensor G.m [x, y] : Formula K).OK G V F := fun x y h =>
    field_ok hm F1 hM h rfl
  have okr : ∀ x y, [x, y].Nodup → (Formula.tensor c [x, y] : Formula K).OK G V F := fun x y h =>
    field_ok hm F1 hc h rfl
  set fa : K := ratExpr (1 / (((G.n : Int) - 2 : Int) : ℚ)) with hfa
  set fb : K := ratExpr (1 / ((((G.n : Int) - 2) * ((G.n : Int) - 1) : Int) : ℚ)) with hfb
  have hf : (weylFormula G.m a c s fa fb : Formula K).OK G V F := by
    refine ⟨⟨field_ok hm F1 ha (by decide) rfl, ⟨⟨⟨⟨okr _ _ (by decide), okg _ _ (by decide)⟩,
      ⟨okr _ _ (by decide), okg _ _ (by decide)⟩, ?_⟩, ⟨okr _ _ (by decide), okg _ _ (by decide)⟩, ?_⟩,
      ⟨okr _ _ (by decide), okg _ _ (by decide)⟩, ?_⟩, ?_⟩, ⟨field_ok hm F1 hs (by decide) rfl,
      ⟨⟨okg _ _ (by decide), okg _ _ (by decide)⟩, ⟨okg _ _ (by decide), okg _ _ (by decide)⟩, ?_⟩⟩, ?_⟩
    · show List.Perm ["i", "l", "k", "m"] ["i", "m", "k", "l"]
      decide
    · show List.Perm ["k", "l", "i", "m"] ["i", "m", "k", "l"]
      decide
    · show List.Perm ["k", "m", "i", "l"] ["i", "m", "k", "l"]
      decide
    · show List.Perm ["i", "m", "k", "l"] ["i", "k", "l", "m"]
      decide
    · show List.Perm ["i", "m", "k", "l"] ["i", "l", "k", "m"]
      decide
    · show List.Perm ["i", "l", "k", "m"] ["i", "k", "l", "m"]
      decide
  have main := fun Q k hk => stores_with hE hS (fun _ _ h => h) (onlyTemps_refl w) hS hf (order := ["i", "k", "l", "m"])
    (Or.inr (show List.Perm _ ["i", "k", "l", "m"] by decide)) (requested := ["i", "k", "l", "m"]) rfl
    (ix := [-1, -1, -1, -1]) (Q := Q) (k := k) hk
  simp only [weylFormula, Formula.run, Formula.runWith, pyM_bind_assoc] at main
  unfold computeWeyl
  simp only [productOf, storeResult, pyM_bind_assoc]
  rw [lift_reciprocal (by omega : (G.n : Int) - 2 ≠ 0), lift_reciprocal (mul_ne_zero (by omega : (G.n : Int) - 2 ≠ 0)
    (by omega : (G.n : Int) - 1 ≠ 0))]
  simp only [pyM_pure_bind]
  refine main _ _ fun t D2 w2 V2 k1 k2 k3 k4 k5 k7 k6 k9 k10 => ?_
  have hl : D2.ix.length = 4 := by rw [k9]; rfl
  refine stores_new hE k1 k2 k3 k4 k5 (by rw [k7]; decide) k6 hm.view hm.name hm.coords (ix := [-1, -1, -1, -1])
    (by rw [hl]; exact ⟨rfl, by simp⟩) (Or.inl rfl) (kind := .tensor) (Or.inl rfl) " Weyl Tensor" "C"
    (suffix_ne (by decide)) fun r w4 V4 D' j1 j2 hL4 hNr hN4 hrt hor hr1 hr2 hr3 hr4 hr5 => ?_
  obtain ⟨oc, hoc, hock⟩ := hck
  obtain ⟨oc', q1, q2, q3, q4, q5, q6, q7, q8, q9, q10⟩ := hL4.1 c oc hoc
  have hocn : oc.name ≠ "TEMP" := by rw [scene_object_name hS hc'.view hoc]; exact hcn
  obtain ⟨d1, d2⟩ := scene_delete j1 ((q10 hocn).2.2 hcr) q1 (by rw [q2, hock]; decide) (by rw [q2, hock]; decide)
  refine Does.bind (Q := fun _ w' => w' = afterDelete c w4) ⟨_, _, d1, rfl⟩ ?_
  rintro _ w5 rfl
  refine Does.pure ⟨V4, w4, t, D2, D', rfl, j1, d2, keeps_trans k2 j2, hL4, hNr, hN4, hrt, hor,
    j2 _ _ k5 (by rw [k7]; decide), k7, hr1, hr2, hr3, hr4, fun J hJ hJn => ?_⟩
  obtain ⟨ρ, hρ, hρv⟩ := exists_env hS.pos (labels := ["i", "k", "l", "m"]) (by decide) (J := J) hJ hJn
  rw [hr5 J hJn hJ, ← hρv, k10 (fun _ => -1) ρ (fun _ => Or.inr rfl) hρ (by decide)]
  show ((Formula.tensor a ["i", "k", "l", "m"]).mean E G F).value (fun _ => -1) ρ + fa *
    (((Formula.tensor c ["i", "m"]).mean E G F).value (fun _ => -1) ρ *
        ((Formula.tensor G.m ["k", "l"]).mean E G F).value (turned [] fun _ => -1) ρ -
      ((Formula.tensor c ["i", "l"]).mean E G F).value (fun _ => -1) ρ *
        ((Formula.tensor G.m ["k", "m"]).mean E G F).value (turned [] fun _ => -1) ρ +
      ((Formula.tensor c ["k", "l"]).mean E G F).value (fun _ => -1) ρ *
        ((Formula.tensor G.m ["i", "m"]).mean E G F).value (turned [] fun _ => -1) ρ -
      ((Formula.tensor c ["k", "m"]).mean E G F).value (fun _ => -1) ρ *
        ((Formula.tensor G.m ["i", "l"]).mean E G F).value (turned [] fun _ => -1) ρ) +
    fb * (((Formula.tensor s []).mean E G F).value (fun _ => -1) ρ *
      (((Formula.tensor G.m ["i", "l"]).mean E G F).value (turned [] fun _ => -1) ρ *
        ((Formula.tensor G.m ["k", "m"]).mean E G F).value (turned [] (turned [] fun _ => -1)) ρ -
      ((Formula.tensor G.m ["i", "m"]).mean E G F).value (turned [] fun _ => -1) ρ *
        ((Formula.tensor G.m ["k", "l"]).mean E G F).value (turned [] (turned [] fun _ => -1)) ρ)) = _
  have gv : ∀ x y (pos : Sym → Int), [x, y].Nodup → (∀ s, pos s = -1) →
      ((Formula.tensor G.m [x, y]).mean E G F).value pos ρ = G.g (ρ x) (ρ y) := fun x y pos h h' =>
    field_value hM h hρ (by simp [h'])
  have rv : ∀ x y, [x, y].Nodup →
      ((Formula.tensor c [x, y]).mean E G F).value (fun _ => -1) ρ = ricci E G (ρ x) (ρ y) := fun x y h =>
    field_value hc h hρ rfl
  have ht1 : ∀ s, turned [] (fun _ => -1) s = -1 := fun s => rfl
  have ht2 : ∀ s, turned [] (turned [] fun _ => -1) s = -1 := fun s => rfl
  rw [gv _ _ _ (by decide) ht1, gv _ _ _ (by decide) ht1, gv _ _ _ (by decide) ht1, gv _ _ _ (by decide) ht1,
    gv _ _ _ (by decide) ht2, gv _ _ _ (by decide) ht2, rv _ _ (by decide), rv _ _ (by decide), rv _ _ (by decide),
    rv _ _ (by decide), field_value hs (by decide) hρ (by decide), tensor_value _ (by decide)]
  show TField.comp G (F a) [-1, -1, -1, -1] [ρ "i", ρ "k", ρ "l", ρ "m"] + _ + _ = _
  rw [comp_first ha.cfg rfl (by simp [hρ _])]
  have e1 : fa = rat (1 / ((G.n : ℚ) - 2)) := by rw [hfa]; push_cast; rfl
  have e2 : fb = rat (1 / (((G.n : ℚ) - 2) * ((G.n : ℚ) - 1))) := by rw [hfb]; push_cast; rfl
  rw [e1, e2]
  unfold weylComps weyl riemannLow
  congr 2
  refine Finset.sum_congr rfl fun z hz => ?_
  rw [ha.val _ rfl (by simp [hρ _, Finset.mem_range.1 hz])]
  simp [riemannComps, indexFactor]

end PyOGRe
