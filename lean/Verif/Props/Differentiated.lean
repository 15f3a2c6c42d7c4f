import Verif.Lemmas.Differentiated
import Verif.Props.Algebra

/-!
# Partial derivatives of formulae

C122 (`PartialD` obeys the rules of calculus).  The specification is `Spec/Algebra.lean`.
-/

namespace PyOGRe
open Spec Finset
variable {K : Type} [CommRing K] {E : Engine K} {G : Ground K} {V : View K} {w : World K} {F : Id' → TField K}

/-- **C122** `PartialD(a) @ (PartialD(b) @ f) = PartialD(b) @ (PartialD(a) @ f)`. -/
theorem C122_order [DecidableEq K] [Algebra ℚ K] (hE : EngineOK E) (hC : Calculus E) (hS : Scene G V w) (letters : List Sym)
    {f : Formula K} {a b : Sym} (hf : f.OK G V F) (ha : a ∉ f.labels) (hb : b ∉ f.labels) (hab : a ≠ b) :
    SameTensor G V w ((Formula.diff a (.diff b f)).eval E letters) ((Formula.diff b (.diff a f)).eval E letters) := by
  obtain ⟨h1, h2, h3, h4⟩ := mean_diff_diff hE.simp_eq hC hS hf ha hb hab
  exact sameTensor_mean hE hS letters h1 h2 h3 h4

/-- **C122** `PartialD(a) @ (v * f) = v * (PartialD(a) @ f)` if `v` is constant. -/
theorem C122_number [DecidableEq K] [Algebra ℚ K] (hE : EngineOK E) (hC : Calculus E) (hS : Scene G V w) (letters : List Sym)
    {f : Formula K} {a : Sym} {v : K} (hf : f.OK G V F) (ha : a ∉ f.labels) (hv : ∀ s, E.diff s v = 0) :
    SameTensor G V w ((Formula.diff a (.scale v f)).eval E letters) ((Formula.scale v (.diff a f)).eval E letters) := by
  obtain ⟨h1, h2, h3, h4⟩ := mean_diff_scale hE.simp_eq hC hS hf ha hv
  exact sameTensor_mean hE hS letters h1 h2 (h3 ▸ .refl _) h4

/-- **C122** `PartialD(a) @ (f + g) = PartialD(a) @ f + PartialD(a) @ g`, if every label has the same default position in `f` and in `g`.
(Full statement: for all `f` and `g` that can be added.) -/
theorem C122_sum_partial [DecidableEq K] [Algebra ℚ K] (hE : EngineOK E) (hC : Calculus E) (hS : Scene G V w) (letters : List Sym)
    {f g : Formula K} {a : Sym} (hf : (Formula.add f g).OK G V F) (ha : a ∉ f.labels)
    (hix : ∀ s ∈ f.labels, posOf g.labels (g.mean E G F).ix s = posOf f.labels (f.mean E G F).ix s) :
    SameTensor G V w ((Formula.diff a (.add f g)).eval E letters) ((Formula.add (.diff a f) (.diff a g)).eval E letters) := by
  obtain ⟨h1, h2, h3, h4⟩ := mean_diff_sum hE.simp_eq hC hS hf ha hix
  exact sameTensor_mean hE hS letters h1 h2 (h3 ▸ .refl _) h4

/-- **C122** `PartialD(a) @ (f @ g) = (PartialD(a) @ f) @ g + f @ (PartialD(a) @ g)`, if every label that `f` and `g` share has opposite default
positions in them.  (Full statement: for all `f` and `g`.) -/
theorem C122_product_partial [DecidableEq K] [Algebra ℚ K] (hE : EngineOK E) (hC : Calculus E) (hS : Scene G V w) (letters : List Sym)
    {f g : Formula K} {a : Sym} (hf : f.OK G V F) (hg : g.OK G V F) (ha : a ∉ f.labels) (hb : a ∉ g.labels)
    (hop : ∀ s ∈ f.labels, s ∈ g.labels → posOf g.labels (g.mean E G F).ix s = -posOf f.labels (f.mean E G F).ix s) :
    SameTensor G V w ((Formula.diff a (.mul f g)).eval E letters)
      ((Formula.add (.mul (.diff a f) g) (.mul f (.diff a g))).eval E letters) := by
  obtain ⟨h1, h2, h3, h4⟩ := mean_diff_mul hE.simp_eq hC hS hf hg ha hb hop
  exact sameTensor_mean hE hS letters h1 h2 h3 h4

/-- C122: `V(a)` and `T(a b)` of the plane have opposite default positions of `a`. -/
example : ∃ (E : Engine Poly) (G : Ground Poly) (V : View Poly) (w : World Poly) (F : Id' → TField Poly) (f g : Formula Poly),
    EngineOK E ∧ Calculus E ∧ Scene G V w ∧ f.OK G V F ∧ g.OK G V F ∧ "c" ∉ f.labels ∧ "c" ∉ g.labels ∧ "a" ∈ f.labels ∧ "a" ∈ g.labels ∧
    ∀ s ∈ f.labels, s ∈ g.labels → posOf g.labels (g.mean E G F).ix s = -posOf f.labels (f.mean E G F).ix s := by
  obtain ⟨G, V, w, hS, h1, h2, h3, h4, h5, h6, h7, h8⟩ := plane
  obtain ⟨k1, k2⟩ := plane_ok h2 h7 h8 "a" "b" "a" (by decide)
  refine ⟨polyEngine, G, V, w, planeFields, .tensor 3 ["a"], .tensor 4 ["b", "a"], polyEngine_ok, polyEngine_calculus, hS, k1, k2, by decide,
    by decide, by decide, by decide, fun s hs _ => ?_⟩
  have : s = "a" := by
    have : s ∈ ["a"] := hs
    simpa using this
  subst this
  rw [tensor_ix (by simp) rfl, tensor_ix (by simp) rfl]
  decide

/-- C122: `V(a)` and `3 * V(a)` of the plane can be added and have the same default positions. -/
example : ∃ (E : Engine Poly) (G : Ground Poly) (V : View Poly) (w : World Poly) (F : Id' → TField Poly) (f g : Formula Poly),
    EngineOK E ∧ Calculus E ∧ Scene G V w ∧ (Formula.add f g).OK G V F ∧ "c" ∉ f.labels ∧ f ≠ g ∧
    ∀ s ∈ f.labels, posOf g.labels (g.mean E G F).ix s = posOf f.labels (f.mean E G F).ix s := by
  obtain ⟨G, V, w, hS, h1, h2, h3, h4, h5, h6, h7, h8⟩ := plane
  have k1 := (plane_ok h2 h7 h8 "a" "a" "b" (by decide)).1
  exact ⟨polyEngine, G, V, w, planeFields, .tensor 3 ["a"], .scale 3 (.tensor 3 ["a"]), polyEngine_ok, polyEngine_calculus, hS,
    ⟨k1, k1, .refl _⟩, by decide, nofun, fun s _ => rfl⟩

/-- **C122** The rule for sums is false for `z(a) + v(a)`, with the metric `diag(1, 1+x)`, the vector `v = (0, 1)` for upper indices and the
vector `z = (0, 0)` for lower ones. -/
theorem C122_sum_false : ∃ (E : Engine (PowerSeries ℚ)) (G : Ground (PowerSeries ℚ)) (V : View (PowerSeries ℚ))
    (w : World (PowerSeries ℚ)) (F : Id' → TField (PowerSeries ℚ)) (f g : Formula (PowerSeries ℚ)), EngineOK E ∧ Calculus E ∧
    Scene G V w ∧ (Formula.add f g).OK G V F ∧ "c" ∉ f.labels ∧ ∀ letters,
    ¬ SameTensor G V w ((Formula.diff "c" (.add f g)).eval E letters) ((Formula.add (.diff "c" f) (.diff "c" g)).eval E letters) := by
  obtain ⟨G, V, w, F, t, u, hS, hn, hs, hg, hFt, hFu, k1, k2⟩ := slanted
  have hE := plainEngine_ok seriesDiff
  have hl : "c" ∉ single ["a"] := by decide
  have hρ : Values G.n fun s : Sym => if s = "a" then 1 else 0 := fun s => by dsimp only; split_ifs <;> omega
  refine ⟨plainEngine seriesDiff, G, V, w, F, .tensor u ["a"], .tensor t ["a"], hE, seriesDiff_calculus, hS, ⟨k2, k1, .refl _⟩, hl,
    fun letters => notSame hE hS letters (f := .diff "c" (.add _ _)) (f' := .add (.diff "c" _) (.diff "c" _))
      ⟨⟨k2, k1, .refl _⟩, fun h => absurd h hl⟩ ⟨⟨k2, fun h => absurd h hl⟩, ⟨k1, fun h => absurd h hl⟩, .refl _⟩
      (fun _ => Or.inr rfl) hρ ?_⟩
  rw [slanted_other hS hn hs hg hFt hFu k1 k2]
  show 1 ≠ ((Formula.diff "c" (.tensor u ["a"])).mean (plainEngine seriesDiff) G F).value _ _ +
    ((Formula.diff "c" (.tensor t ["a"])).mean (plainEngine seriesDiff) G F).value _ _
  rw [slanted_rate hS hn hFt k1 (fun _ => Or.inr rfl) rfl hρ, add_zero, diff_default hE.simp_eq hS k2 hl (fun _ => Or.inr rfl) rfl hρ
    (by rw [tensor_ix (by simp) (by rw [hFu]; rfl), hFu]; rfl), tensor_value u (by simp), slanted_zero hn hFu]
  unfold Ground.d
  rw [series_zero]
  exact one_ne_zero

/-- **C122** The rule for products is false for `v(a) @ v(a)`, with the metric `diag(1, 1+x)` and the vector `v = (0, 1)` for upper indices. -/
theorem C122_product_false : ∃ (E : Engine (PowerSeries ℚ)) (G : Ground (PowerSeries ℚ)) (V : View (PowerSeries ℚ))
    (w : World (PowerSeries ℚ)) (F : Id' → TField (PowerSeries ℚ)) (f : Formula (PowerSeries ℚ)), EngineOK E ∧ Calculus E ∧
    Scene G V w ∧ f.OK G V F ∧ "c" ∉ f.labels ∧ ∀ letters,
    ¬ SameTensor G V w ((Formula.diff "c" (.mul f f)).eval E letters)
      ((Formula.add (.mul (.diff "c" f) f) (.mul f (.diff "c" f))).eval E letters) := by
  obtain ⟨G, V, w, F, t, u, hS, hn, hs, hg, hFt, hFu, k1, k2⟩ := slanted
  have hE := plainEngine_ok seriesDiff
  have hl : "c" ∉ single ["a"] := by decide
  have hρ : Values G.n fun _ : Sym => 0 := fun s => hS.pos
  have o1 : (Formula.diff "c" (.tensor t ["a"])).OK G V F := ⟨k1, fun h => absurd h hl⟩
  have o2 : (Formula.mul (.diff "c" (.tensor t ["a"])) (.tensor t ["a"])).OK G V F := ⟨o1, k1⟩
  have o3 : (Formula.mul (.tensor t ["a"]) (.diff "c" (.tensor t ["a"]))).OK G V F := ⟨k1, o1⟩
  refine ⟨plainEngine seriesDiff, G, V, w, F, .tensor t ["a"], hE, seriesDiff_calculus, hS, k1, hl,
    fun letters => notSame hE hS letters (f := .diff "c" (.mul _ _)) (f' := .add (.mul _ _) (.mul _ _))
      ⟨⟨k1, k1⟩, fun h => by cases h⟩ ⟨o2, o3, .refl _⟩ (pos := fun _ => -1) (fun _ => Or.inr rfl) hρ ?_⟩
  have e1 : ((Formula.diff "c" (.mul (.tensor t ["a"]) (.tensor t ["a"]))).mean (plainEngine seriesDiff) G F).value (fun _ => -1)
      (fun _ => 0) = 1 := by
    rw [diff_default hE.simp_eq hS (f := .mul _ _) ⟨k1, k1⟩ (fun h => by cases h) (fun _ => Or.inr rfl) rfl hρ rfl]
    show (plainEngine seriesDiff).diff _ (∑ k ∈ range G.n, ((Formula.tensor t ["a"]).mean (plainEngine seriesDiff) G F).value
      (fun _ => -1) (Function.update (fun _ => 0) "a" k) * ((Formula.tensor t ["a"]).mean (plainEngine seriesDiff) G F).value
      (turned ["a"] fun _ => -1) (Function.update (fun _ => 0) "a" k)) = 1
    rw [hn, sum_range_succ, sum_range_one]
    simp only [tensor_value t (show ["a"].Nodup by simp)]
    have l := fun k (hk : k < 2) => slanted_lower hn hg hFt (pos := fun _ => -1) rfl
      (ρ := Function.update (fun _ => 0) "a" k) (by simpa using hk)
    have r := fun k (hk : k < 2) => slanted_upper hn hFt (pos := turned ["a"] fun _ => -1) (by decide)
      (ρ := Function.update (fun _ => 0) "a" k) (by simpa using hk)
    rw [l 0 (by decide), l 1 (by decide), r 0 (by decide), r 1 (by decide), hs]
    simp only [Function.update_self, if_neg (show ¬ 0 = 1 by decide), if_true, mul_zero, mul_one, zero_add]
    exact onePlus_diff
  have e2 : ((Formula.mul (.diff "c" (.tensor t ["a"])) (.tensor t ["a"])).mean (plainEngine seriesDiff) G F).value (fun _ => -1)
      (fun _ => 0) = 0 := by
    show ∑ k ∈ range G.n, ((Formula.diff "c" (.tensor t ["a"])).mean (plainEngine seriesDiff) G F).value
      (fun _ => -1) (Function.update (fun _ => 0) "a" k) * _ = 0
    refine sum_eq_zero fun k hk => ?_
    rw [slanted_rate hS hn hFt k1 (fun _ => Or.inr rfl) rfl (values_update hρ "a" (mem_range.1 hk)), zero_mul]
  have e3 : ((Formula.mul (.tensor t ["a"]) (.diff "c" (.tensor t ["a"]))).mean (plainEngine seriesDiff) G F).value (fun _ => -1)
      (fun _ => 0) = 0 := by
    show ∑ k ∈ range G.n, _ * ((Formula.diff "c" (.tensor t ["a"])).mean (plainEngine seriesDiff) G F).value
      (turned ["a"] fun _ => -1) (Function.update (fun _ => 0) "a" k) = 0
    refine sum_eq_zero fun k hk => ?_
    rw [slanted_rate hS hn hFt k1 (positions_turned (fun _ => Or.inr rfl) _) rfl (values_update hρ "a" (mem_range.1 hk)), mul_zero]
  rw [e1]
  show 1 ≠ ((Formula.mul (.diff "c" (.tensor t ["a"])) (.tensor t ["a"])).mean (plainEngine seriesDiff) G F).value _ _ +
    ((Formula.mul (.tensor t ["a"]) (.diff "c" (.tensor t ["a"]))).mean (plainEngine seriesDiff) G F).value _ _
  rw [e2, e3, add_zero]
  exact one_ne_zero

end PyOGRe
