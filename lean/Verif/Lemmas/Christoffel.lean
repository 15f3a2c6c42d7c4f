import Verif.Lemmas.FormulaValue

/-! Helper lemmas: the Christoffel symbols. -/

namespace PyOGRe
open Spec Finset
variable {K : Type} [CommRing K] [DecidableEq K] [Algebra ℚ K] {E : Engine K} {G : Ground K} {V : View K} {w : World K}

/-- The formula in `CalcChristoffel`. -/
def christoffelFormula (i m : Id') : Formula K :=
  .mul (.scale (ratExpr (1 / 2)) (.tensor i ["lambda", "sigma"]))
    (.sub (.add (.diff "mu" (.tensor m ["nu", "sigma"])) (.diff "nu" (.tensor m ["sigma", "mu"])))
      (.diff "sigma" (.tensor m ["mu", "nu"])))

omit [DecidableEq K] [Algebra ℚ K] in
theorem lowerMetric_val (hS : Scene G V w) {Dm : TField K} (hm : LowerMetric G V Dm) {i j : Nat} (hi : i < G.n)
    (hj : j < G.n) : Dm.val [i, j] = G.g i j := by
  obtain ⟨h1, h2, h3⟩ := scene_metric_comp hS hm.view
  rw [← (h3 i j hi hj).1, ← hm.ix]
  exact (comp_self (by simp [hi, hj]) (by rw [hm.ix]; rfl)).symm

theorem count_two {a b s : Sym} : [a, b].count s ≤ 2 := List.count_le_length (l := [a, b])

theorem suffix_ne {suffix : String} (h : 4 < suffix.toList.length) (s : String) : s ++ suffix ≠ "TEMP" := by
  intro hs
  have := congrArg (fun s => s.toList.length) hs
  simp only [String.toList_append, List.length_append] at this
  have h4 : "TEMP".toList.length = 4 := by decide
  omega

/-- What `CalcChristoffel` computes when the lowered components of the derivative of the metric are `dg`. -/
theorem does_computeChristoffel' (hE : ∀ x, E.simp x = x) (hS : Scene G V w) {Dm : TField K} (hmv : V G.m = some Dm)
    (hmn : Dm.name ≠ "TEMP") (hmc : Dm.coords = G.c) (hmi : Dm.ix.length = 2) {dg : Nat → Nat → Nat → K}
    (hkey : ∀ (F : Id' → TField K) (V1 : View K) (w1 : World K) a b c pos ρ, F G.m = Dm → Scene G V1 w1 →
      (Formula.tensor G.m [b, c] : Formula K).OK G V1 F → [b, c].Nodup → a ∉ [b, c] → Positions pos →
      (∀ x ∈ [a, b, c], pos x = -1) → Values G.n ρ →
      ((Formula.diff a (Formula.tensor G.m [b, c])).mean E G F).value pos ρ = dg (ρ a) (ρ b) (ρ c)) :
    Does (computeChristoffel E G.m) w fun r w' => ∃ V' D', Scene G V' w' ∧ V.Keeps V' ∧ Leaves (· = r) w w' ∧
      New w w' r ∧ (∃ o, w'.objs[r]? = some o ∧ o.kind = .christoffel) ∧
      V' r = some D' ∧ D'.coords = G.c ∧ D'.name = Dm.name ++ " Christoffel" ∧ D'.ix = [1, -1, -1] ∧
      ∀ l m n, l < G.n → m < G.n → n < G.n → D'.val [l, m, n] =
        rat (1 / 2) * ∑ s ∈ range G.n, G.gi l s * (dg m n s + dg n s m - dg s m n) := by
  unfold computeChristoffel
  refine does_copy hS hmv hmc fun w1 hS1 hV1 hT1 => ?_
  set F : Id' → TField K := fun t => if t = G.m then Dm else upperMetric G with hF
  have hne : w.objs.length ≠ G.m := fun hc => by
    have := view_lt hS hmv
    rw [← hc] at this
    exact lt_irrefl _ this
  have F1 : F G.m = Dm := if_pos rfl
  have F2 : F w.objs.length = upperMetric G := if_neg hne
  have ok1 : ∀ a b, (Formula.tensor G.m [a, b] : Formula K).OK G (View.add V w.objs.length (upperMetric G)) F :=
    fun a b => ⟨by rw [F1]; exact hV1 _ _ hmv, by rw [F1]; exact hmc, by rw [F1, hmi]; rfl,
      fun s => count_two, Or.inr ⟨by rw [F1]; exact hV1 _ _ hmv, by rw [F1]; exact hmc⟩⟩
  have ok2 : ∀ a b, (Formula.tensor w.objs.length [a, b] : Formula K).OK G (View.add V w.objs.length (upperMetric G)) F :=
    fun a b => ⟨by rw [F2]; simp [View.add], by rw [F2]; rfl, by rw [F2]; rfl,
      fun s => count_two, Or.inr ⟨by rw [F1]; exact hV1 _ _ hmv, by rw [F1]; exact hmc⟩⟩
  have hf : (christoffelFormula w.objs.length G.m : Formula K).OK G (View.add V w.objs.length (upperMetric G)) F := by
    refine ⟨ok2 _ _, ⟨⟨⟨ok1 _ _, ?_⟩, ⟨ok1 _ _, ?_⟩, ?_⟩, ⟨ok1 _ _, ?_⟩, ?_⟩⟩
    · exact fun h => absurd h (show ¬ "mu" ∈ ["nu", "sigma"] by decide)
    · exact fun h => absurd h (show ¬ "nu" ∈ ["sigma", "mu"] by decide)
    · show List.Perm ["nu", "sigma", "mu"] ["mu", "nu", "sigma"]
      decide
    · exact fun h => absurd h (show ¬ "sigma" ∈ ["mu", "nu"] by decide)
    · show List.Perm ["sigma", "mu", "nu"] ["mu", "nu", "sigma"]
      decide
  have main := stores_formula hE hS hV1 hT1 hS1 hf (order := []) (Or.inl rfl) (requested := ["lambda", "mu", "nu"])
    rfl hmv hmn hmc (ixo := some [1, -1, -1]) (ix := [1, -1, -1]) ⟨rfl, by simp⟩ (Or.inl rfl)
    (kind := .christoffel) (Or.inr rfl) " Christoffel" "Gamma" (suffix_ne (by decide))
  simp only [christoffelFormula, Formula.run, Formula.runWith, pyM_bind_assoc] at main
  refine Does.mono main ?_
  rintro r w' ⟨V', D', h1, h2, h3, h4, h5, h6, h7, h8, h9, h10⟩
  refine ⟨V', D', h1, h2, h3, h4, h5, h6, h7, h8, h9, fun l m n hl hm' hn => ?_⟩
  obtain ⟨ρ, hρ, hρv⟩ := exists_env hS.pos (labels := ["lambda", "mu", "nu"]) (by decide) (J := [l, m, n]) rfl
    (by simp [hl, hm', hn])
  have e1 : ρ "lambda" = l := by simpa using congrArg (fun L => L.getD 0 0) hρv
  have e2 : ρ "mu" = m := by simpa using congrArg (fun L => L.getD 1 0) hρv
  have e3 : ρ "nu" = n := by simpa using congrArg (fun L => L.getD 2 0) hρv
  set pos : Sym → Int := fun s => if s = "lambda" ∨ s = "sigma" then 1 else -1 with hpos
  have hp : Positions pos := fun s => by rw [hpos]; dsimp only; split_ifs <;> simp
  rw [← hρv, h10 pos ρ hp hρ (by decide)]
  show sumOver G.n ["sigma"] _ ρ = _
  unfold sumOver sumOver
  rw [Finset.mul_sum]
  refine Finset.sum_congr rfl fun s hs => ?_
  have hρ' : Values G.n (Function.update ρ "sigma" s) := values_update hρ _ (Finset.mem_range.1 hs)
  set ρ' := Function.update ρ "sigma" s with hρ'e
  have e1' : ρ' "lambda" = l := by rw [← e1, hρ'e]; simp
  have e2' : ρ' "mu" = m := by rw [← e2, hρ'e]; simp
  have e3' : ρ' "nu" = n := by rw [← e3, hρ'e]; simp
  have e4' : ρ' "sigma" = s := by rw [hρ'e]; simp
  show (ratExpr (1 / 2) * ((Formula.tensor w.objs.length ["lambda", "sigma"]).mean E G F).value pos ρ') *
    (((Formula.diff "mu" (Formula.tensor G.m ["nu", "sigma"])).mean E G F).value (turned ["sigma"] pos) ρ' +
      ((Formula.diff "nu" (Formula.tensor G.m ["sigma", "mu"])).mean E G F).value (turned ["sigma"] pos) ρ' -
      ((Formula.diff "sigma" (Formula.tensor G.m ["mu", "nu"])).mean E G F).value (turned ["sigma"] pos) ρ') = _
  have hq : Positions (turned ["sigma"] pos) := positions_turned hp _
  have key : ∀ a b c, [b, c].Nodup → a ∉ [b, c] → (∀ x ∈ [a, b, c], turned ["sigma"] pos x = -1) →
      ((Formula.diff a (Formula.tensor G.m [b, c])).mean E G F).value (turned ["sigma"] pos) ρ' =
        dg (ρ' a) (ρ' b) (ρ' c) :=
    fun a b c h1 h2 h3 => hkey F _ w1 a b c _ _ F1 hS1 (ok1 b c) h1 h2 hq h3 hρ'
  rw [key "mu" "nu" "sigma" (by decide) (by decide) (by decide),
    key "nu" "sigma" "mu" (by decide) (by decide) (by decide),
    key "sigma" "mu" "nu" (by decide) (by decide) (by decide),
    tensor_default (by decide) hρ' (by rw [F2]; rfl), F2, e2', e3', e4']
  show rat (1 / 2) * G.gi (ρ' "lambda") (ρ' "sigma") * _ = _
  rw [e1', e4', mul_assoc]

theorem does_computeChristoffel (hE : ∀ x, E.simp x = x) (hS : Scene G V w) {Dm : TField K} (hm : LowerMetric G V Dm) :
    Does (computeChristoffel E G.m) w fun r w' => ∃ V' D', Scene G V' w' ∧ V.Keeps V' ∧ Leaves (· = r) w w' ∧
      New w w' r ∧ (∃ o, w'.objs[r]? = some o ∧ o.kind = .christoffel) ∧
      V' r = some D' ∧ D'.coords = G.c ∧ D'.name = Dm.name ++ " Christoffel" ∧ D'.ix = [1, -1, -1] ∧
      ∀ l m n, l < G.n → m < G.n → n < G.n → D'.val [l, m, n] = christoffel E G l m n := by
  refine does_computeChristoffel' hE hS hm.view hm.name hm.coords (by rw [hm.ix]; rfl)
    (dg := fun a b c => G.d E a (G.g b c)) ?_
  intro F V1 w1 a b c pos ρ F1 hS1 hok h1 h2 hq h3 hρ
  have hl : (Formula.tensor G.m [b, c] : Formula K).labels = [b, c] := single_nodup h1
  have hmap : [b, c].map pos = (F G.m).ix := by
    rw [F1, hm.ix]
    simp only [List.map_cons, List.map_nil]
    rw [h3 b (by simp), h3 c (by simp)]
  rw [diff_default hE hS1 hok (by rw [hl]; exact h2) hq (h3 a (by simp)) hρ (by
    rw [hl, tensor_ix h1 (by rw [F1, hm.ix]; rfl)]; exact hmap), tensor_default h1 hρ hmap, F1]
  exact congrArg _ (lowerMetric_val hS hm (hρ b) (hρ c))

end PyOGRe
