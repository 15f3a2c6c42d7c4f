import Verif.Lemmas.Provided
import Verif.Lemmas.Symmetry

/-! Helper lemmas: the Christoffel symbols of a metric whose default indices are upper. -/

namespace PyOGRe
open Spec Finset
variable {K : Type} [CommRing K] [DecidableEq K] [Algebra ℚ K] {E : Engine K} {G : Ground K} {V : View K} {w : World K}

omit [DecidableEq K] in
/-- `g_{bx} g_{cy} ∂_a g^{xy} = -∂_a g_{bc}`. -/
theorem lowered_derivative (hC : Calculus E) (hi : Inverse G.n G.g G.gi)
    (hs : ∀ i j, i < G.n → j < G.n → G.g i j = G.g j i) {a b c : Nat} (ha : a < G.n) (hb : b < G.n) (hc : c < G.n) :
    ∑ x ∈ range G.n, G.g b x * ∑ y ∈ range G.n, G.g c y * G.d E a (G.gi x y) = -G.d E a (G.g b c) := by
  set S := geo hC hi hs with hS
  have h0 := S.D_mul ⟨a, ha⟩ S.g S.h
  rw [S.gh, S.D_one] at h0
  have h1 : S.g * S.D ⟨a, ha⟩ S.h * S.g = -S.D ⟨a, ha⟩ S.g := by
    have : S.D ⟨a, ha⟩ S.g * S.h * S.g + S.g * S.D ⟨a, ha⟩ S.h * S.g = 0 := by
      rw [← add_mul, ← h0, zero_mul]
    rw [mul_assoc, S.hg, mul_one] at this
    exact eq_neg_of_add_eq_zero_right this
  have h2 := congrFun (congrFun h1 ⟨b, hb⟩) ⟨c, hc⟩
  simp only [Matrix.mul_apply, Matrix.neg_apply] at h2
  have h3 : ∀ x : Fin G.n, ∀ y : Fin G.n, S.D ⟨a, ha⟩ S.h x y = G.d E a (G.gi x y) := fun _ _ => rfl
  have h4 : ∀ x : Fin G.n, ∀ y : Fin G.n, S.g x y = G.g x y := fun _ _ => rfl
  have h5 : S.D ⟨a, ha⟩ S.g ⟨b, hb⟩ ⟨c, hc⟩ = G.d E a (G.g b c) := rfl
  rw [h5] at h2
  rw [← h2, Finset.sum_range]
  simp only [Finset.sum_mul, h3, h4]
  rw [Finset.sum_comm]
  refine Finset.sum_congr rfl fun x _ => ?_
  rw [Finset.sum_range, Finset.mul_sum]
  refine Finset.sum_congr rfl fun y _ => ?_
  rw [hs c y hc y.2]
  ring

/-- For such a metric `CalcChristoffel` returns the Christoffel symbols with the wrong sign. -/
theorem does_upperChristoffel (hE : ∀ x, E.simp x = x) (hC : Calculus E) (hS : Scene G V w) {Dm : TField K}
    (hm : UpperMetric G V Dm) :
    Does (computeChristoffel E G.m) w fun r w' => ∃ V' D', Scene G V' w' ∧ V.Keeps V' ∧ Leaves (· = r) w w' ∧
      New w w' r ∧ (∃ o, w'.objs[r]? = some o ∧ o.kind = .christoffel) ∧
      V' r = some D' ∧ D'.coords = G.c ∧ D'.name = Dm.name ++ " Christoffel" ∧ D'.ix = [1, -1, -1] ∧
      ∀ l m n, l < G.n → m < G.n → n < G.n → D'.val [l, m, n] = -christoffel E G l m n := by
  have hval : ∀ {i j : Nat}, i < G.n → j < G.n → Dm.val [i, j] = G.gi i j := by
    intro i j hi hj
    obtain ⟨h1, h2, h3⟩ := scene_metric_comp hS hm.view
    rw [← (h3 i j hi hj).2.1, ← hm.ix]
    exact (comp_self (by simp [hi, hj]) (by rw [hm.ix]; rfl)).symm
  refine Does.mono (does_computeChristoffel' hE hS hm.view hm.name hm.coords (by rw [hm.ix]; rfl)
    (dg := fun a b c => ∑ x ∈ range G.n, G.g b x * ∑ y ∈ range G.n, G.g c y * G.d E a (G.gi x y)) ?_) ?_
  · intro F V1 w1 a b c pos ρ F1 hS1 hok h1 h2 hq h3 hρ
    have hl : (Formula.tensor G.m [b, c] : Formula K).labels = [b, c] := single_nodup h1
    obtain ⟨k1, k2, k3, k4⟩ := mean_facts hE hS1 hok
    have hix : ((Formula.tensor G.m [b, c]).mean E G F).ix = [1, 1] := by
      rw [tensor_ix h1 (by rw [F1, hm.ix]; rfl), F1, hm.ix]
    show (Meaning.diff E G a ((Formula.tensor G.m [b, c]).mean E G F)).value pos ρ = _
    unfold Meaning.diff
    rw [mean_labels, hl, if_neg h2, hix]
    show TField.at G ⟨"", G.c, [-1, 1, 1], _⟩ [a, b, c] pos ρ = _
    unfold TField.at TField.comp
    simp only [List.map_cons, List.map_nil]
    rw [h3 a (by simp), h3 b (by simp), h3 c (by simp)]
    simp only [List.zipWith_cons_cons, List.zipWith_nil_left]
    have d1 : indexFactor G.g G.gi (-1) (-1) = delta := rfl
    have d2 : indexFactor G.g G.gi 1 (-1) = G.g := rfl
    rw [d1, d2, applyFactors_cons]
    rw [Finset.sum_eq_single (ρ a)]
    · rw [show (delta (ρ a) (ρ a) : K) = 1 from if_pos rfl, one_mul, applyFactors_cons]
      refine Finset.sum_congr rfl fun x hx => ?_
      rw [applyFactors_cons]
      refine congrArg _ (Finset.sum_congr rfl fun y hy => ?_)
      rw [applyFactors_nil]
      show _ * E.diff _ _ = _ * E.diff _ _
      congr 2
      show ((Formula.tensor G.m [b, c]).mean E G F).value
        (posOf ((Formula.tensor G.m [b, c]).mean E G F).labels ((Formula.tensor G.m [b, c]).mean E G F).ix)
        (fun s => [x, y].getD (((Formula.tensor G.m [b, c]).mean E G F).labels.idxOf s) 0) = _
      rw [mean_labels, hl, hix]
      have hbc : b ≠ c := by simpa using h1
      rw [tensor_default h1 (values_getD hS.pos (by simpa using ⟨Finset.mem_range.1 hx, Finset.mem_range.1 hy⟩) fun s => [b, c].idxOf s)]
      · simp only [List.map_cons, List.map_nil, List.idxOf_cons_self, List.idxOf_cons_ne _ hbc]
        rw [F1]
        exact hval (Finset.mem_range.1 hx) (Finset.mem_range.1 hy)
      · rw [F1, hm.ix]
        simp [posOf, List.idxOf_cons_ne _ hbc]
    · intro x _ hx
      rw [show (delta (ρ a) x : K) = 0 from if_neg (Ne.symm hx), zero_mul]
    · intro h
      exact absurd (Finset.mem_range.2 (hρ a)) h
  · rintro r w' ⟨V', D', h1, h2, h3, h4, h5, h6, h7, h8, h9, h10⟩
    refine ⟨V', D', h1, h2, h3, h4, h5, h6, h7, h8, h9, fun l m n hl hm' hn => ?_⟩
    rw [h10 l m n hl hm' hn]
    unfold christoffel
    rw [← mul_neg, ← Finset.sum_neg_distrib]
    refine congrArg _ (Finset.sum_congr rfl fun s hs => ?_)
    have hs' := Finset.mem_range.1 hs
    rw [lowered_derivative hC hS.inverse hS.symm hm' hn hs', lowered_derivative hC hS.inverse hS.symm hn hs' hm',
      lowered_derivative hC hS.inverse hS.symm hs' hm' hn]
    ring

end PyOGRe
