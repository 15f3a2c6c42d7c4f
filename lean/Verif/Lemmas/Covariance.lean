import Verif.Lemmas.Bianchi

/-! Helper lemmas: curvature and changes of coordinates, with matrices. -/

namespace PyOGRe.Geo
open Matrix Finset
variable {ι K : Type} [Fintype ι] [DecidableEq ι] [CommRing K] [Algebra ℚ K]

/-- The geometry `S'` is that of `S` in other coordinates. -/
structure Moved (S S' : Data ι K) (φ : K →+* K) (J Ji : Matrix ι ι K) : Prop where
  left : J * Ji = 1
  right : Ji * J = 1
  g : S'.g = Jᵀ * S.g.map φ * J
  h : S'.h = Ji * S.h.map φ * Jiᵀ
  chain : ∀ c m i j, S'.d c (φ (S.Γ m i j)) = ∑ l, φ (S.d l (S.Γ m i j)) * J l c
  second : ∀ i a b, S'.d b (J i a) = S'.d a (J i b)
  law : ∀ c, S'.Γ c = Ji * (∑ m, J m c • (S.Γ m).map φ) * J + Ji * S'.D c J

theorem hom_smul (φ : K →+* K) (q : ℚ) (x : K) : φ (q • x) = q • φ x := map_rat_smul φ q x

namespace Moved
variable {S S' : Data ι K} {φ : K →+* K} {J Ji : Matrix ι ι K} (H : Moved S S' φ J Ji)
include H

theorem D_inv (c : ι) : S'.D c Ji = -(Ji * S'.D c J * Ji) := by
  have h0 := S'.D_mul c Ji J
  rw [H.right, S'.D_one] at h0
  have h1 : S'.D c Ji * J * Ji = -(Ji * S'.D c J) * Ji := by rw [eq_neg_of_add_eq_zero_left h0.symm]
  rw [mul_assoc, H.left, mul_one, neg_mul] at h1
  exact h1

theorem D_first (c d : ι) : S'.D c (∑ m, J m d • (S.Γ m).map φ) =
    ∑ m, S'.d c (J m d) • (S.Γ m).map φ + ∑ m, ∑ l, (J l c * J m d) • (S.D l (S.Γ m)).map φ := by
  ext i j
  simp only [Data.D, Matrix.map_apply, Matrix.add_apply, Matrix.sum_apply, Matrix.smul_apply, smul_eq_mul, S'.d_sum, S'.mul,
    Finset.sum_add_distrib, H.chain]
  congr 1
  refine sum_congr rfl fun m _ => ?_
  rw [mul_sum]
  refine sum_congr rfl fun l _ => ?_
  ring

/-- **The curvature is a tensor.** -/
theorem R (c d : ι) : S'.R c d = Ji * (∑ m, ∑ p, (J m c * J p d) • (S.R m p).map φ) * J := by
  have hmap : ∀ m p, (S.R m p).map φ = (S.D m (S.Γ p)).map φ - (S.D p (S.Γ m)).map φ +
      (S.Γ m).map φ * (S.Γ p).map φ - (S.Γ p).map φ * (S.Γ m).map φ := fun m p => by
    rw [← Matrix.map_mul, ← Matrix.map_mul]
    ext i j
    simp only [Data.R, Matrix.map_apply, Matrix.sub_apply, Matrix.add_apply, map_sub, map_add]
  have hA : ∀ c d, (∑ m, J m c • (S.Γ m).map φ) * (∑ m, J m d • (S.Γ m).map φ) =
      ∑ m, ∑ p, (J m c * J p d) • ((S.Γ m).map φ * (S.Γ p).map φ) := fun c d => by
    rw [sum_mul]
    refine sum_congr rfl fun m _ => ?_
    rw [mul_sum]
    refine sum_congr rfl fun p _ => ?_
    rw [smul_mul_smul_comm]
  have hsym : ∑ m, S'.d c (J m d) • (S.Γ m).map φ = ∑ m, S'.d d (J m c) • (S.Γ m).map φ :=
    sum_congr rfl fun m _ => by rw [H.second m d c]
  have hsum : ∑ m, ∑ p, (J m c * J p d) • (S.R m p).map φ =
      S'.D c (∑ m, J m d • (S.Γ m).map φ) - S'.D d (∑ m, J m c • (S.Γ m).map φ) +
        (∑ m, J m c • (S.Γ m).map φ) * (∑ m, J m d • (S.Γ m).map φ) -
        (∑ m, J m d • (S.Γ m).map φ) * (∑ m, J m c • (S.Γ m).map φ) := by
    rw [H.D_first, H.D_first, hA, hA, hsym, add_sub_add_left_eq_sub]
    have e1 : ∑ m, ∑ l, (J l c * J m d) • (S.D l (S.Γ m)).map φ = ∑ m, ∑ p, (J m c * J p d) • (S.D m (S.Γ p)).map φ := sum_comm
    have e2 : ∑ m, ∑ l, (J l d * J m c) • (S.D l (S.Γ m)).map φ = ∑ m, ∑ p, (J m c * J p d) • (S.D p (S.Γ m)).map φ :=
      sum_congr rfl fun m _ => sum_congr rfl fun p _ => by rw [mul_comm]
    have e3 : ∑ m, ∑ p, (J m d * J p c) • ((S.Γ m).map φ * (S.Γ p).map φ) =
        ∑ m, ∑ p, (J m c * J p d) • ((S.Γ p).map φ * (S.Γ m).map φ) := by
      rw [sum_comm]
      exact sum_congr rfl fun m _ => sum_congr rfl fun p _ => by rw [mul_comm (J m c)]
    rw [e1, e2, e3, ← sum_sub_distrib, ← sum_add_distrib, ← sum_sub_distrib]
    refine sum_congr rfl fun m _ => ?_
    rw [← sum_sub_distrib, ← sum_add_distrib, ← sum_sub_distrib]
    refine sum_congr rfl fun p _ => ?_
    rw [hmap, smul_sub, smul_add, smul_sub]
  have hW : S'.D c (S'.D d J) = S'.D d (S'.D c J) := S'.D_comm _ _ _
  rw [hsum]
  set a := ∑ m, J m c • (S.Γ m).map φ with ha
  set b := ∑ m, J m d • (S.Γ m).map φ with hb
  have hui : ∀ z : Matrix ι ι K, J * (Ji * z) = z := fun z => by rw [← mul_assoc, H.left, one_mul]
  rw [Data.R, H.law, H.law, ← ha, ← hb]
  simp only [S'.D_add, S'.D_mul, H.D_inv, hW, add_mul, mul_add, neg_mul, mul_neg, mul_sub, sub_mul, mul_assoc, hui]
  abel

theorem R_apply (r s c d : ι) : S'.R c d r s = ∑ k, ∑ l, ∑ m, ∑ p, Ji r k * (J l s * (J m c * (J p d * φ (S.R m p k l)))) := by
  rw [H.R]
  simp only [Matrix.mul_apply, Matrix.sum_apply, Matrix.smul_apply, Matrix.map_apply, smul_eq_mul, sum_mul, mul_sum]
  refine Eq.symm ?_
  rw [sum_comm]
  refine sum_congr rfl fun l _ => ?_
  rw [sum_comm]
  refine sum_congr rfl fun m _ => ?_
  rw [sum_comm]
  refine sum_congr rfl fun p _ => sum_congr rfl fun k _ => ?_
  ring

theorem contract (m k : ι) : ∑ r, J m r * Ji r k = if m = k then 1 else 0 := by
  have := congrFun (congrFun H.left m) k
  rwa [Matrix.mul_apply, Matrix.one_apply] at this

theorem ric (s n : ι) : S'.ric s n = ∑ l, ∑ p, J l s * (J p n * φ (S.ric l p)) := by
  unfold Data.ric
  simp only [H.R_apply, map_sum, mul_sum]
  rw [sum_comm]
  have : ∀ k, ∑ r, ∑ l, ∑ m, ∑ p, Ji r k * (J l s * (J m r * (J p n * φ (S.R m p k l)))) =
      ∑ l, ∑ p, J l s * (J p n * φ (S.R k p k l)) := by
    intro k
    rw [sum_comm]
    refine sum_congr rfl fun l _ => ?_
    rw [sum_comm]
    have e : ∀ m, ∑ r, ∑ p, Ji r k * (J l s * (J m r * (J p n * φ (S.R m p k l)))) =
        (if m = k then 1 else 0) * ∑ p, J l s * (J p n * φ (S.R m p k l)) := by
      intro m
      rw [← H.contract, sum_mul]
      refine sum_congr rfl fun r _ => ?_
      rw [mul_sum]
      refine sum_congr rfl fun p _ => ?_
      ring
    rw [sum_congr rfl fun m _ => e m]
    simp
  rw [sum_congr rfl fun k _ => this k, sum_comm]
  refine sum_congr rfl fun l _ => ?_
  rw [sum_comm]

theorem g_apply (a b : ι) : S'.g a b = ∑ i, ∑ j, J i a * (J j b * φ (S.g i j)) := by
  rw [H.g]
  simp only [Matrix.mul_apply, Matrix.transpose_apply, Matrix.map_apply, sum_mul]
  rw [sum_comm]
  refine sum_congr rfl fun k _ => sum_congr rfl fun l _ => ?_
  ring

theorem scal : S'.scal = φ S.scal := by
  have e : ∀ T : Data ι K, T.scal = ((Matrix.of fun s n => T.ric s n)ᵀ * T.h).trace := fun T => by
    unfold Data.scal
    simp only [Matrix.trace, Matrix.diag_apply, Matrix.mul_apply, Matrix.transpose_apply, Matrix.of_apply]
    rw [sum_comm]
    exact sum_congr rfl fun k _ => sum_congr rfl fun l _ => mul_comm _ _
  have hr : (Matrix.of fun s n => S'.ric s n) = Jᵀ * (Matrix.of fun s n => S.ric s n).map φ * J := by
    ext s n
    rw [Matrix.of_apply, H.ric]
    simp only [Matrix.mul_apply, Matrix.transpose_apply, Matrix.map_apply, Matrix.of_apply, sum_mul]
    rw [sum_comm]
    refine sum_congr rfl fun k _ => sum_congr rfl fun l _ => ?_
    ring
  rw [e, e, hr, H.h, Matrix.transpose_mul, Matrix.transpose_mul, Matrix.transpose_transpose]
  set q := (Matrix.of fun s n => S.ric s n)
  have h1 : Jᵀ * (q.map φ)ᵀ * J * (Ji * S.h.map φ * Jiᵀ) = Jᵀ * ((q.map φ)ᵀ * S.h.map φ * Jiᵀ) := by
    have hui : ∀ z : Matrix ι ι K, J * (Ji * z) = z := fun z => by rw [← mul_assoc, H.left, one_mul]
    simp only [mul_assoc, hui]
  have h2 : Jiᵀ * Jᵀ = 1 := by rw [← Matrix.transpose_mul, H.left, Matrix.transpose_one]
  rw [show Jᵀ * ((q.map φ)ᵀ * J) * (Ji * S.h.map φ * Jiᵀ) = Jᵀ * ((q.map φ)ᵀ * S.h.map φ * Jiᵀ) by rw [← h1]; simp only [mul_assoc],
    Matrix.trace_mul_comm, mul_assoc, h2, mul_one, ← Matrix.transpose_map, ← Matrix.map_mul]
  simp only [Matrix.trace, Matrix.diag_apply, Matrix.map_apply, map_sum]

theorem L_apply (r s c d : ι) : S'.L c d r s = ∑ k, ∑ l, ∑ m, ∑ p, J k r * (J l s * (J m c * (J p d * φ (S.L m p k l)))) := by
  have : S'.L c d = Jᵀ * (∑ m, ∑ p, (J m c * J p d) • (S.L m p).map φ) * J := by
    have hui : ∀ z : Matrix ι ι K, J * (Ji * z) = z := fun z => by rw [← mul_assoc, H.left, one_mul]
    rw [Data.L, H.R, H.g]
    have e : (∑ m, ∑ p, (J m c * J p d) • (S.L m p).map φ) = S.g.map φ * ∑ m, ∑ p, (J m c * J p d) • (S.R m p).map φ := by
      simp only [mul_sum, Data.L, Matrix.map_mul, Matrix.mul_smul]
    rw [e]
    simp only [mul_assoc, hui]
  rw [this]
  simp only [Matrix.mul_apply, Matrix.transpose_apply, Matrix.sum_apply, Matrix.smul_apply, Matrix.map_apply, smul_eq_mul, sum_mul, mul_sum]
  refine Eq.symm ?_
  rw [sum_comm]
  refine sum_congr rfl fun l _ => ?_
  rw [sum_comm]
  refine sum_congr rfl fun m _ => ?_
  rw [sum_comm]
  refine sum_congr rfl fun p _ => sum_congr rfl fun k _ => ?_
  ring

theorem ein (s n : ι) : S'.ein s n = ∑ l, ∑ p, J l s * (J p n * φ (S.ein l p)) := by
  unfold Data.ein
  rw [H.ric, H.scal, H.g_apply, mul_sum, ← sum_sub_distrib]
  refine sum_congr rfl fun l _ => ?_
  rw [mul_sum, ← sum_sub_distrib]
  refine sum_congr rfl fun p _ => ?_
  rw [map_sub, map_mul, hom_smul]
  ring

/-- Tensors with four lower indices. -/
def four (J : Matrix ι ι K) (φ : K →+* K) (T : ι → ι → ι → ι → K) (i k l m : ι) : K :=
  ∑ a, ∑ b, ∑ c, ∑ d, J a i * (J b k * (J c l * (J d m * φ (T a b c d))))

omit H in
theorem four_add (T T' : ι → ι → ι → ι → K) (i k l m : ι) :
    four J φ (fun a b c d => T a b c d + T' a b c d) i k l m = four J φ T i k l m + four J φ T' i k l m := by
  unfold four
  simp only [map_add, mul_add, sum_add_distrib]

omit H in
theorem four_sub (T T' : ι → ι → ι → ι → K) (i k l m : ι) :
    four J φ (fun a b c d => T a b c d - T' a b c d) i k l m = four J φ T i k l m - four J φ T' i k l m := by
  unfold four
  simp only [map_sub, mul_sub, sum_sub_distrib]

omit H in
theorem four_mul (x : K) (T : ι → ι → ι → ι → K) (i k l m : ι) :
    four J φ (fun a b c d => x * T a b c d) i k l m = φ x * four J φ T i k l m := by
  unfold four
  simp only [mul_sum, map_mul]
  refine sum_congr rfl fun a _ => sum_congr rfl fun b _ => sum_congr rfl fun c _ => sum_congr rfl fun d _ => ?_
  ring

omit H in
theorem four_smul (x : ℚ) (T : ι → ι → ι → ι → K) (i k l m : ι) :
    four J φ (fun a b c d => x • T a b c d) i k l m = x • four J φ T i k l m := by
  have e : ∀ y : K, x • y = algebraMap ℚ K x * y := fun y => Algebra.smul_def _ _
  simp only [e, four_mul]
  congr 1
  exact RingHom.congr_fun (Subsingleton.elim (φ.comp (algebraMap ℚ K)) (algebraMap ℚ K)) x

omit H in
/-- Products of two tensors with two lower indices. -/
theorem four_pairs {P Q P' Q' : ι → ι → K} (hP : ∀ s n, P' s n = ∑ l, ∑ p, J l s * (J p n * φ (P l p)))
    (hQ : ∀ s n, Q' s n = ∑ l, ∑ p, J l s * (J p n * φ (Q l p))) (i k l m : ι) :
    four J φ (fun a b c d => P a d * Q b c) i k l m = P' i m * Q' k l ∧
    four J φ (fun a b c d => P a c * Q b d) i k l m = P' i l * Q' k m ∧
    four J φ (fun a b c d => P b c * Q a d) i k l m = P' k l * Q' i m ∧
    four J φ (fun a b c d => P b d * Q a c) i k l m = P' k m * Q' i l := by
  have e : ∀ (A B : ι → ι → K) (x y z t : ι), (∑ a, ∑ d, A a d) * (∑ b, ∑ c, B b c) = ∑ a, ∑ b, ∑ c, ∑ d, A a d * B b c := by
    intro A B _ _ _ _
    rw [sum_mul]
    refine sum_congr rfl fun a _ => ?_
    rw [mul_sum]
    refine sum_congr rfl fun b _ => ?_
    rw [mul_sum]
    refine sum_congr rfl fun c _ => ?_
    rw [sum_mul]
  have e' : ∀ (A B : ι → ι → K) (x y z t : ι), (∑ a, ∑ c, A a c) * (∑ b, ∑ d, B b d) = ∑ a, ∑ b, ∑ c, ∑ d, A a c * B b d := by
    intro A B _ _ _ _
    rw [sum_mul]
    refine sum_congr rfl fun a _ => ?_
    rw [mul_sum]
    refine sum_congr rfl fun b _ => ?_
    rw [sum_mul]
    refine sum_congr rfl fun c _ => ?_
    rw [mul_sum]
  unfold four
  refine ⟨?_, ?_, ?_, ?_⟩
  · rw [hP, hQ, e _ _ i k l m]
    refine sum_congr rfl fun a _ => sum_congr rfl fun b _ => sum_congr rfl fun c _ => sum_congr rfl fun d _ => ?_
    rw [map_mul]; ring
  · rw [hP, hQ, e' _ _ i k l m]
    refine sum_congr rfl fun a _ => sum_congr rfl fun b _ => sum_congr rfl fun c _ => sum_congr rfl fun d _ => ?_
    rw [map_mul]; ring
  · rw [hP, hQ, mul_comm, e _ _ i k l m]
    refine sum_congr rfl fun a _ => sum_congr rfl fun b _ => sum_congr rfl fun c _ => sum_congr rfl fun d _ => ?_
    rw [map_mul]; ring
  · rw [hP, hQ, mul_comm, e' _ _ i k l m]
    refine sum_congr rfl fun a _ => sum_congr rfl fun b _ => sum_congr rfl fun c _ => sum_congr rfl fun d _ => ?_
    rw [map_mul]; ring

theorem W (a b : ℚ) (i k l m : ι) : S'.W a b i k l m = four J φ (S.W a b) i k l m := by
  have h1 := four_pairs (J := J) (φ := φ) (P := S.ric) (Q := fun i j => S.g i j) H.ric H.g_apply i k l m
  have h2 := four_pairs (J := J) (φ := φ) (P := fun i j => S.g i j) (Q := fun i j => S.g i j) H.g_apply H.g_apply i k l m
  have h3 : four J φ (fun a b c d => S.L c d a b) i k l m = S'.L l m i k := (H.L_apply i k l m).symm
  show _ = four J φ (fun i k l m => S.L l m i k + a • (S.ric i m * S.g k l - S.ric i l * S.g k m + S.ric k l * S.g i m -
    S.ric k m * S.g i l) + b • (S.scal * (S.g i l * S.g k m - S.g i m * S.g k l))) i k l m
  rw [four_add, four_add, four_smul, four_smul, four_mul, four_sub, four_sub, four_add, four_sub, h1.1, h1.2.1, h1.2.2.1,
    h1.2.2.2, h2.1, h2.2.1, h3, ← H.scal]
  rfl

end Moved
end PyOGRe.Geo
