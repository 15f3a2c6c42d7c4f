import Verif.Lemmas.Covariance
import Verif.Lemmas.NewChristoffel
import Verif.Lemmas.Symmetry

/-! Helper lemmas: curvature in new coordinates. -/

namespace PyOGRe
open Spec Finset
variable {K : Type} [CommRing K] [Algebra ℚ K] {E : Engine K} {G : Ground K} {new : List Sym}
  {rules : List (Option (Sym × K))} {Jinv : Nat → Nat → K} {φ : K →+* K}

theorem moved_matrix (hX : Change E G.n G.syms new rules Jinv φ) (c' : Id') :
    toMat G.n (G.moved E c' new rules Jinv).g = (toMat G.n (chartJacobian E G.syms new rules)).transpose *
      (toMat G.n G.g).map φ * toMat G.n (chartJacobian E G.syms new rules) ∧
    toMat G.n (G.moved E c' new rules Jinv).gi = toMat G.n Jinv * (toMat G.n G.gi).map φ * (toMat G.n Jinv).transpose := by
  constructor
  · ext a b
    show (G.moved E c' new rules Jinv).g a b = _
    rw [moved_g hX]
    simp only [Matrix.mul_apply, Matrix.transpose_apply, Matrix.map_apply, toMat, sum_mul, Finset.sum_range]
    rw [sum_comm]
    refine sum_congr rfl fun i _ => sum_congr rfl fun j _ => ?_
    ring
  · ext a b
    show (G.moved E c' new rules Jinv).gi a b = _
    rw [moved_gi hX c' a.2 b.2]
    simp only [Matrix.mul_apply, Matrix.transpose_apply, Matrix.map_apply, toMat, sum_mul, Finset.sum_range]
    rw [sum_comm]
    refine sum_congr rfl fun i _ => sum_congr rfl fun j _ => ?_
    ring

theorem moved_inverse (hX : Change E G.n G.syms new rules Jinv φ)
    (hI : Inverse G.n (chartJacobian E G.syms new rules) Jinv) (hg : Inverse G.n G.g G.gi) (c' : Id') :
    Inverse G.n (G.moved E c' new rules Jinv).g (G.moved E c' new rules Jinv).gi := by
  rw [inverse_iff] at hI hg ⊢
  obtain ⟨e1, e2⟩ := moved_matrix hX c'
  rw [e1, e2]
  set J := toMat G.n (chartJacobian E G.syms new rules)
  set Ji := toMat G.n Jinv
  have t1 : Ji.transpose * J.transpose = 1 := by rw [← Matrix.transpose_mul, hI.1, Matrix.transpose_one]
  have t2 : J.transpose * Ji.transpose = 1 := by rw [← Matrix.transpose_mul, hI.2, Matrix.transpose_one]
  have m1 : (toMat G.n G.g).map φ * (toMat G.n G.gi).map φ = 1 := by rw [← Matrix.map_mul, hg.1, Matrix.map_one _ (map_zero _) (map_one _)]
  have m2 : (toMat G.n G.gi).map φ * (toMat G.n G.g).map φ = 1 := by rw [← Matrix.map_mul, hg.2, Matrix.map_one _ (map_zero _) (map_one _)]
  have r1 : ∀ z, J * (Ji * z) = z := fun z => by rw [← mul_assoc, hI.1, one_mul]
  have r2 : ∀ z, Ji.transpose * (J.transpose * z) = z := fun z => by rw [← mul_assoc, t1, one_mul]
  have r3 : ∀ z, (toMat G.n G.g).map φ * ((toMat G.n G.gi).map φ * z) = z := fun z => by rw [← mul_assoc, m1, one_mul]
  have r4 : ∀ z, (toMat G.n G.gi).map φ * ((toMat G.n G.g).map φ * z) = z := fun z => by rw [← mul_assoc, m2, one_mul]
  constructor
  · simp only [mul_assoc, r1, r3, t2]
  · simp only [mul_assoc, r2, r4, hI.2]

theorem moved_symm (hX : Change E G.n G.syms new rules Jinv φ) (hs : ∀ i j, i < G.n → j < G.n → G.g i j = G.g j i)
    (c' : Id') (i j : Nat) : (G.moved E c' new rules Jinv).g i j = (G.moved E c' new rules Jinv).g j i := by
  rw [moved_g hX, moved_g hX, sum_comm]
  refine sum_congr rfl fun a ha => sum_congr rfl fun b hb => ?_
  rw [hs b a (mem_range.1 hb) (mem_range.1 ha)]
  ring

/-- Christoffel symbols are free of the names the metric is free of. -/
theorem fresh_christoffel (hC : Calculus E) (hg : Inverse G.n G.g G.gi) {s : Sym}
    (hf : ∀ i j, i < G.n → j < G.n → E.diff s (G.g i j) = 0) {l m n : Nat} (hl : l < G.n) (hm : m < G.n) (hn : n < G.n) :
    E.diff s (christoffel E G l m n) = 0 := by
  have hz := diff_zero hC s
  have hneg : ∀ x, E.diff s (-x) = -E.diff s x := fun x => by
    have := hC.add s x (-x)
    rw [add_neg_cancel, hz] at this
    exact (neg_eq_of_add_eq_zero_right this.symm).symm
  have h1 : E.diff s 1 = 0 := by
    have := hC.mul s 1 1
    simpa using this
  have hdelta : ∀ i j : Nat, E.diff s (delta i j : K) = 0 := fun i j => by
    unfold delta
    split_ifs
    · exact h1
    · exact hz
  have hgi : ∀ i j, i < G.n → j < G.n → E.diff s (G.gi i j) = 0 := by
    have e1 : (toMat G.n fun i j => E.diff s (G.gi i j)) * toMat G.n G.g = 0 := by
      ext i j
      have := congrArg (E.diff s) (hg i j i.2 j.2).2
      unfold matMul at this
      rw [hdelta, diff_sum hC] at this
      rw [Matrix.mul_apply, Matrix.zero_apply, ← this, Finset.sum_range]
      refine sum_congr rfl fun k _ => ?_
      rw [hC.mul, hf k j k.2 j.2, mul_zero, add_zero]
      rfl
    have e2 : (toMat G.n fun i j => E.diff s (G.gi i j)) = 0 := by
      have : _ * toMat G.n G.gi = _ * toMat G.n G.gi := congrArg (· * toMat G.n G.gi) e1
      rwa [mul_assoc, (inverse_iff.1 hg).1, mul_one, zero_mul] at this
    intro i j hi hj
    exact congrFun (congrFun e2 ⟨i, hi⟩) ⟨j, hj⟩
  have hd : ∀ k i j, i < G.n → j < G.n → E.diff s (G.d E k (G.g i j)) = 0 := fun k i j hi hj => by
    unfold Ground.d
    rw [hC.comm, hf i j hi hj, diff_zero hC]
  unfold christoffel
  rw [diff_rat hC, diff_sum hC, sum_eq_zero, mul_zero]
  intro t ht
  have ht := mem_range.1 ht
  rw [hC.mul, hgi l t hl ht, sub_eq_add_neg, hC.add, hC.add, hneg, hd _ _ _ hn ht, hd _ _ _ ht hm, hd _ _ _ hm hn]
  simp

theorem moved_geo (hX : Change E G.n G.syms new rules Jinv φ) (hC : Calculus E)
    (hI : Inverse G.n (chartJacobian E G.syms new rules) Jinv) (hg : Inverse G.n G.g G.gi)
    (hs : ∀ i j, i < G.n → j < G.n → G.g i j = G.g j i)
    (hf : ∀ i j, i < G.n → j < G.n → ∀ s ∈ new, s ∉ G.syms → E.diff s (G.g i j) = 0) (hnew : new.length = G.n) (c' : Id') :
    Geo.Moved (geo hC hg hs) (geo (G := G.moved E c' new rules Jinv) hC (moved_inverse hX hI hg c') fun i j _ _ => moved_symm hX hs c' i j)
      φ (toMat G.n (chartJacobian E G.syms new rules)) (toMat G.n Jinv) := by
  have hmem : ∀ i, i < G.n → new.getD i "" ∈ new := fun i hi => by
    rw [List.getD_eq_getElem?_getD, List.getElem?_eq_getElem (by omega)]
    exact List.getElem_mem _
  refine ⟨(inverse_iff.1 hI).1, (inverse_iff.1 hI).2, (moved_matrix hX c').1, (moved_matrix hX c').2, ?_, ?_, ?_⟩
  · intro c m i j
    rw [← geo_christoffel hC hg hs]
    show E.diff (new.getD c "") _ = _
    rw [hX.chain c _ c.2 (fun hx => fresh_christoffel hC hg (fun a b ha hb => hf a b ha hb _ (hmem c c.2) hx) i.2 m.2 j.2), Finset.sum_range]
    rfl
  · intro i a b
    show E.diff (new.getD b "") (chartJacobian E G.syms new rules i a) = E.diff (new.getD a "") (chartJacobian E G.syms new rules i b)
    rw [hX.second i a b i.2, hX.second i b a i.2, hX.symm]
  · intro c
    ext a b
    refine (geo_christoffel (G := G.moved E c' new rules Jinv) hC (moved_inverse hX hI hg c')
      (fun i j _ _ => moved_symm hX hs c' i j) a c b).symm.trans ?_
    refine (christoffel_moved hX hC hI hg hs hf hnew c' a.2 c.2 b.2).trans ?_
    unfold christoffelLaw
    rw [hX.subst, map_add, List.map_cons, List.map_cons, List.map_cons, List.map_nil, applyFactors_three,
      show coordFactor (chartJacobian E G.syms new rules) Jinv 1 = Jinv from if_pos rfl,
      show coordFactor (chartJacobian E G.syms new rules) Jinv (-1) = fun j i => chartJacobian E G.syms new rules i j from
        if_neg (by decide)]
    simp only [map_sum, map_mul, Finset.sum_range, Matrix.add_apply, Matrix.mul_apply, Matrix.sum_apply, Matrix.smul_apply,
      Matrix.map_apply, smul_eq_mul, sum_mul, mul_sum]
    congr 1
    · rw [sum_comm, sum_congr rfl fun x _ => sum_comm]
      refine sum_congr rfl fun l _ => sum_congr rfl fun p _ => sum_congr rfl fun k _ => ?_
      rw [hX.inv a k a.2 k.2, hX.jac l c l.2, hX.jac p b p.2]
      rw [← geo_christoffel hC hg hs]
      simp only [toMat]
      show _ * (_ * (_ * φ (christoffel E G k l p))) = _
      ring
    · refine sum_congr rfl fun l _ => ?_
      rw [hX.inv a l a.2 l.2, hX.jac2 l c b l.2, hX.symm, ← hX.second l b c l.2]
      rfl

theorem applyFactors_four (n : Nat) (M N O P : Nat → Nat → K) (T : List Nat → K) (i j m q : Nat) :
    applyFactors n [M, N, O, P] T [i, j, m, q] =
      ∑ k : Fin n, ∑ l : Fin n, ∑ p : Fin n, ∑ r : Fin n, M i k * (N j l * (O m p * (P q r * T [k, l, p, r]))) := by
  rw [applyFactors_cons, Finset.sum_range]
  refine sum_congr rfl fun k _ => ?_
  rw [applyFactors_three, Finset.sum_range, mul_sum]
  refine sum_congr rfl fun l _ => ?_
  rw [Finset.sum_range, mul_sum]
  refine sum_congr rfl fun p _ => ?_
  rw [Finset.sum_range, mul_sum]

/-- **Curvature in new coordinates is the curvature of the metric in new coordinates.** -/
theorem quantity_moved (hX : Change E G.n G.syms new rules Jinv φ) (hC : Calculus E)
    (hI : Inverse G.n (chartJacobian E G.syms new rules) Jinv) (hg : Inverse G.n G.g G.gi)
    (hs : ∀ i j, i < G.n → j < G.n → G.g i j = G.g j i)
    (hf : ∀ i j, i < G.n → j < G.n → ∀ s ∈ new, s ∉ G.syms → E.diff s (G.g i j) = 0) (hnew : new.length = G.n) (c' : Id')
    {q : Quantity} (hq : q ≠ .christoffel) {I : List Nat} (hl : I.length = q.ix.length) (hlt : ∀ x ∈ I, x < G.n) :
    transformed E G.n (chartJacobian E G.syms new rules) Jinv rules q.ix (q.comps E G) I =
      q.comps E (G.moved E c' new rules Jinv) I := by
  have H := moved_geo hX hC hI hg hs hf hnew c'
  have hi' := moved_inverse hX hI hg c'
  have hs' : ∀ i j, i < G.n → j < G.n → _ := fun i j _ _ => moved_symm hX hs c' i j
  have f1 : coordFactor (chartJacobian E G.syms new rules) Jinv 1 = Jinv := if_pos rfl
  have f2 : coordFactor (chartJacobian E G.syms new rules) Jinv (-1) = fun j i => chartJacobian E G.syms new rules i j :=
    if_neg (by decide)
  unfold transformed
  rw [hX.subst]
  cases q with
  | christoffel => exact absurd rfl hq
  | riemann =>
    match I, hl, hlt with
    | [r, s, c, d], _, hlt =>
      simp only [List.mem_cons, List.not_mem_nil, or_false, forall_eq_or_imp, forall_eq] at hlt
      obtain ⟨h1, h2, h3, h4⟩ := hlt
      refine Eq.trans ?_ ((H.R_apply ⟨r, h1⟩ ⟨s, h2⟩ ⟨c, h3⟩ ⟨d, h4⟩).symm.trans
        (geo_riemann (G := G.moved E c' new rules Jinv) hC hi' hs' ⟨r, h1⟩ ⟨s, h2⟩ ⟨c, h3⟩ ⟨d, h4⟩).symm)
      show φ (applyFactors G.n ([1, -1, -1, -1].map _) _ _) = _
      simp only [List.map_cons, List.map_nil, f1, f2]
      rw [applyFactors_four]
      simp only [map_sum, map_mul]
      refine sum_congr rfl fun k _ => sum_congr rfl fun l _ => sum_congr rfl fun m _ => sum_congr rfl fun p _ => ?_
      rw [hX.inv r k h1 k.2, hX.jac l s l.2, hX.jac m c m.2, hX.jac p d p.2, ← geo_riemann hC hg hs]
      rfl
  | ricci =>
    match I, hl, hlt with
    | [s, c], _, hlt =>
      simp only [List.mem_cons, List.not_mem_nil, or_false, forall_eq_or_imp, forall_eq] at hlt
      obtain ⟨h1, h2⟩ := hlt
      refine Eq.trans ?_ ((H.ric ⟨s, h1⟩ ⟨c, h2⟩).symm.trans
        (geo_ricci (G := G.moved E c' new rules Jinv) hC hi' hs' ⟨s, h1⟩ ⟨c, h2⟩).symm)
      show φ (applyFactors G.n ([-1, -1].map _) _ _) = _
      simp only [List.map_cons, List.map_nil, f2]
      rw [applyFactors_two]
      simp only [map_sum, map_mul, Finset.sum_range]
      refine sum_congr rfl fun k _ => sum_congr rfl fun l _ => ?_
      rw [hX.jac k s k.2, hX.jac l c l.2, ← geo_ricci hC hg hs]
      rfl
  | scalar =>
    match I, hl with
    | [], _ =>
      refine Eq.trans ?_ (H.scal.symm.trans (geo_scalar (G := G.moved E c' new rules Jinv) hC hi' hs').symm)
      rw [← geo_scalar hC hg hs, applyFactors_nil]
      rfl
  | einstein =>
    match I, hl, hlt with
    | [s, c], _, hlt =>
      simp only [List.mem_cons, List.not_mem_nil, or_false, forall_eq_or_imp, forall_eq] at hlt
      obtain ⟨h1, h2⟩ := hlt
      refine Eq.trans ?_ ((H.ein ⟨s, h1⟩ ⟨c, h2⟩).symm.trans
        (geo_einstein (G := G.moved E c' new rules Jinv) hC hi' hs' ⟨s, h1⟩ ⟨c, h2⟩).symm)
      show φ (applyFactors G.n ([-1, -1].map _) _ _) = _
      simp only [List.map_cons, List.map_nil, f2]
      rw [applyFactors_two]
      simp only [map_sum, map_mul, Finset.sum_range]
      refine sum_congr rfl fun k _ => sum_congr rfl fun l _ => ?_
      rw [hX.jac k s k.2, hX.jac l c l.2, ← geo_einstein hC hg hs]
      rfl
  | weyl =>
    match I, hl, hlt with
    | [r, s, c, d], _, hlt =>
      simp only [List.mem_cons, List.not_mem_nil, or_false, forall_eq_or_imp, forall_eq] at hlt
      obtain ⟨h1, h2, h3, h4⟩ := hlt
      refine Eq.trans ?_ ((H.W _ _ ⟨r, h1⟩ ⟨s, h2⟩ ⟨c, h3⟩ ⟨d, h4⟩).symm.trans
        (geo_weyl (G := G.moved E c' new rules Jinv) hC hi' hs' ⟨r, h1⟩ ⟨s, h2⟩ ⟨c, h3⟩ ⟨d, h4⟩).symm)
      show φ (applyFactors G.n ([-1, -1, -1, -1].map _) _ _) = _
      simp only [List.map_cons, List.map_nil, f2]
      rw [applyFactors_four]
      unfold Geo.Moved.four
      simp only [map_sum, map_mul]
      refine sum_congr rfl fun k _ => sum_congr rfl fun l _ => sum_congr rfl fun m _ => sum_congr rfl fun p _ => ?_
      rw [hX.jac k r k.2, hX.jac l s l.2, hX.jac m c m.2, hX.jac p d p.2]
      refine congrArg (fun z => _ * (_ * (_ * (_ * φ z)))) ?_
      exact geo_weyl hC hg hs k l m p

end PyOGRe
