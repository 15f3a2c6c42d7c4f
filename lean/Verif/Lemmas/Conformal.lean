import Verif.Lemmas.Bianchi

/-! Helper lemmas: the curvature of a metric that is multiplied by a function. -/

namespace PyOGRe.Geo
open Matrix Finset
variable {ι K : Type} [Fintype ι] [DecidableEq ι] [CommRing K] [Algebra ℚ K]

/-- The second metric is `c` times the first; `e` is the inverse of `c`. -/
structure Conformal (S T : Data ι K) (c e : K) : Prop where
  d : ∀ k x, T.d k x = S.d k x
  inv : c * e = 1
  g : ∀ i j, T.g i j = c * S.g i j
  h : ∀ i j, T.h i j = e * S.h i j

namespace Data
variable (S : Data ι K) (c e : K)

/-- Half the logarithmic derivative of the factor. -/
def φ (m : ι) : K := (1 / 2 : ℚ) • (e * S.d m c)
/-- With upper index. -/
def u (l : ι) : K := ∑ s, S.h l s * S.φ c e s
/-- The change of the Christoffel symbols, up to `φ m` times the unit matrix. -/
def M (m : ι) : Matrix ι ι K := fun l n => (1 : Matrix ι ι K) l m * S.φ c e n - S.u c e l * S.g m n
/-- The covariant derivative of `φ`. -/
def P (m n : ι) : K := S.d m (S.φ c e n) - ∑ l, S.Γ m l n * S.φ c e l
/-- The square of `φ`. -/
def q : K := ∑ l, S.φ c e l * S.u c e l
def Q (m n : ι) : K := S.P c e m n - S.φ c e m * S.φ c e n + (1 / 2 : ℚ) • (S.q c e * S.g m n)

theorem two_half (x : K) : 2 * ((1 / 2 : ℚ) • x) = x := by
  rw [two_mul]; module

theorem φ_closed (hce : c * e = 1) (m n : ι) : S.d m (S.φ c e n) = S.d n (S.φ c e m) := by
  have h1 : ∀ k, S.d k e = -(e * e * S.d k c) := fun k => by
    have h := S.mul k c e
    have h0 : S.d k 1 = 0 := by have := S.mul k 1 1; simpa using this
    rw [hce, h0] at h
    linear_combination (-e) * h - S.d k e * hce
  unfold φ
  rw [S.d_rat, S.d_rat, S.mul, S.mul, h1, h1, S.comm m n]
  congr 1
  ring

theorem g_u (m : ι) : ∑ k, S.g m k * S.u c e k = S.φ c e m := by
  unfold u
  simp only [Finset.mul_sum, ← mul_assoc]
  rw [Finset.sum_comm]
  simp only [← Finset.sum_mul]
  have : ∀ s, ∑ k, S.g m k * S.h k s = (1 : Matrix ι ι K) m s := fun s => by
    rw [← S.gh, Matrix.mul_apply]
  simp only [this, Matrix.one_apply]
  simp

theorem P_symm (hce : c * e = 1) (m n : ι) : S.P c e m n = S.P c e n m := by
  unfold P
  rw [S.φ_closed c e hce m n]
  congr 1
  exact Finset.sum_congr rfl fun l _ => by rw [S.Γ_symm]

/-- `∇_m u^l = g^{lk} ∇_m φ_k`. -/
theorem cov_u (m l : ι) : S.d m (S.u c e l) + ∑ k, S.Γ m l k * S.u c e k = ∑ k, S.h l k * S.P c e m k := by
  have hh : ∀ s, S.d m (S.h l s) = -(∑ k, S.Γ m l k * S.h k s) - ∑ k, S.h l k * S.Γ m s k := fun s => by
    have := congrFun (congrFun (S.D_h m) l) s
    simp only [D, Matrix.map_apply, Matrix.neg_apply, Matrix.add_apply, Matrix.mul_apply, Matrix.transpose_apply] at this
    rw [this]; ring
  have h1 : S.d m (S.u c e l) = ∑ s, S.d m (S.h l s) * S.φ c e s + ∑ s, S.h l s * S.d m (S.φ c e s) := by
    unfold u
    rw [S.d_sum, ← Finset.sum_add_distrib]
    exact Finset.sum_congr rfl fun s _ => S.mul _ _ _
  have h2 : ∑ s, S.d m (S.h l s) * S.φ c e s = -(∑ k, S.Γ m l k * S.u c e k) -
      ∑ k, S.h l k * ∑ s, S.Γ m s k * S.φ c e s := by
    simp only [hh, sub_mul, neg_mul, Finset.sum_sub_distrib, Finset.sum_neg_distrib, Finset.sum_mul, Finset.mul_sum, u]
    congr 1
    · congr 1
      rw [Finset.sum_comm]
      exact Finset.sum_congr rfl fun _ _ => Finset.sum_congr rfl fun _ _ => by ring
    · rw [Finset.sum_comm]
      exact Finset.sum_congr rfl fun _ _ => Finset.sum_congr rfl fun _ _ => by ring
  rw [h1, h2]
  unfold P
  simp only [mul_sub, Finset.sum_sub_distrib]
  ring

theorem D_M (m n l s : ι) : (S.D m (S.M c e n) + S.Γ m * S.M c e n - S.M c e n * S.Γ m) l s =
    (1 : Matrix ι ι K) l n * S.P c e m s + S.Γ m l n * S.φ c e s - (∑ k, S.h l k * S.P c e m k) * S.g n s -
      S.u c e l * ∑ k, S.g s k * S.Γ m k n := by
  have hg : S.d m (S.g n s) = ∑ k, S.g n k * S.Γ m k s + ∑ k, S.g s k * S.Γ m k n := by
    have := congrFun (congrFun (S.D_g m) n) s
    simp only [D, Matrix.map_apply, Matrix.add_apply, Matrix.mul_apply, Matrix.transpose_apply] at this
    rw [this]
    congr 1
    exact Finset.sum_congr rfl fun k _ => by rw [S.g_symm k s, mul_comm]
  have h1 : ∀ k a b, S.d m ((1 : Matrix ι ι K) a b * k) = (1 : Matrix ι ι K) a b * S.d m k := fun k a b => by
    rw [Matrix.one_apply]
    split_ifs
    · rw [one_mul, one_mul]
    · rw [zero_mul, zero_mul, S.d_zero]
  have h2 : ∑ k, S.Γ m l k * S.M c e n k s = S.Γ m l n * S.φ c e s - (∑ k, S.Γ m l k * S.u c e k) * S.g n s := by
    simp only [M, mul_sub, Finset.sum_sub_distrib, Finset.sum_mul, Matrix.one_apply]
    congr 1
    · simp
    · exact Finset.sum_congr rfl fun _ _ => by ring
  have h3 : ∑ k, S.M c e n l k * S.Γ m k s = (1 : Matrix ι ι K) l n * ∑ k, S.Γ m k s * S.φ c e k -
      S.u c e l * ∑ k, S.g n k * S.Γ m k s := by
    simp only [M, sub_mul, Finset.sum_sub_distrib, Finset.mul_sum]
    congr 1
    · exact Finset.sum_congr rfl fun _ _ => by ring
    · exact Finset.sum_congr rfl fun _ _ => by ring
  rw [Matrix.sub_apply, Matrix.add_apply, Matrix.mul_apply, Matrix.mul_apply, h2, h3, ← S.cov_u c e m l]
  simp only [D, Matrix.map_apply, M]
  rw [S.d_sub, h1, S.mul, hg]
  unfold P
  ring

theorem M_mul (m n l s : ι) : (S.M c e m * S.M c e n) l s =
    (1 : Matrix ι ι K) l m * (S.φ c e n * S.φ c e s) - (1 : Matrix ι ι K) l m * (S.q c e * S.g n s) -
      S.u c e l * (S.g m n * S.φ c e s) + S.u c e l * (S.φ c e m * S.g n s) := by
  rw [Matrix.mul_apply]
  have h : ∀ k, S.M c e m l k * S.M c e n k s = (1 : Matrix ι ι K) l m * S.φ c e s * (S.φ c e k * (1 : Matrix ι ι K) k n) -
      (1 : Matrix ι ι K) l m * S.g n s * (S.φ c e k * S.u c e k) - S.u c e l * S.φ c e s * (S.g m k * (1 : Matrix ι ι K) k n) +
      S.u c e l * S.g n s * (S.g m k * S.u c e k) := fun k => by unfold M; ring
  have e1 : ∑ k, S.φ c e k * (1 : Matrix ι ι K) k n = S.φ c e n := by simp [Matrix.one_apply]
  have e2 : ∑ k, S.g m k * (1 : Matrix ι ι K) k n = S.g m n := by simp [Matrix.one_apply]
  simp only [h, Finset.sum_add_distrib, Finset.sum_sub_distrib, ← Finset.mul_sum, e1, e2, S.g_u]
  unfold q
  ring

variable {S} {T : Data ι K} {c e : K}

theorem conformal_Γ (hT : Conformal S T c e) (m : ι) : T.Γ m = S.Γ m + S.φ c e m • (1 : Matrix ι ι K) + S.M c e m := by
  ext l n
  have hX : ∀ s, T.X m s n = c * S.X m s n + (S.d m c * S.g n s + S.d n c * S.g s m - S.d s c * S.g m n) := fun s => by
    simp only [X, hT.d, hT.g, S.mul]; ring
  have h2 : ∀ k, c * S.φ c e k = (1 / 2 : ℚ) • S.d k c := fun k => by
    unfold φ
    rw [mul_smul_comm, ← mul_assoc, hT.inv, one_mul]
  have h3 : ∀ k, e * S.d k c = 2 * S.φ c e k := fun k => by unfold φ; rw [two_half]
  have hg : ∀ a, ∑ s, S.h l s * S.g s a = (1 : Matrix ι ι K) l a := fun a => by rw [← S.hg, Matrix.mul_apply]
  have h4 : ∑ s, T.h l s * T.X m s n = ∑ s, S.h l s * S.X m s n + 2 * S.φ c e m * (1 : Matrix ι ι K) l n +
      2 * S.φ c e n * (1 : Matrix ι ι K) l m - 2 * S.g m n * S.u c e l := by
    have : ∀ s, T.h l s * T.X m s n = S.h l s * S.X m s n + 2 * S.φ c e m * (S.h l s * S.g s n) +
        2 * S.φ c e n * (S.h l s * S.g s m) - 2 * S.g m n * (S.h l s * S.φ c e s) := fun s => by
      rw [hX, hT.h, S.g_symm n s]
      linear_combination (S.h l s * S.X m s n) * hT.inv + (S.h l s * S.g s n) * h3 m + (S.h l s * S.g s m) * h3 n -
        (S.h l s * S.g m n) * h3 s
    simp only [this, Finset.sum_add_distrib, Finset.sum_sub_distrib, ← Finset.mul_sum, hg]
    rfl
  simp only [Γ, Matrix.add_apply, Matrix.smul_apply, Matrix.mul_apply, smul_eq_mul]
  rw [h4, M]
  have t : ∀ x : K, (1 / 2 : ℚ) • (2 * x) = x := fun x => by rw [two_mul]; module
  have := t (S.φ c e m * (1 : Matrix ι ι K) l n + S.φ c e n * (1 : Matrix ι ι K) l m - S.g m n * S.u c e l)
  rw [show ∑ s, S.h l s * S.X m s n + 2 * S.φ c e m * (1 : Matrix ι ι K) l n + 2 * S.φ c e n * (1 : Matrix ι ι K) l m -
      2 * S.g m n * S.u c e l = ∑ s, S.h l s * S.X m s n + 2 * (S.φ c e m * (1 : Matrix ι ι K) l n +
      S.φ c e n * (1 : Matrix ι ι K) l m - S.g m n * S.u c e l) by ring, smul_add, this]
  ring

theorem conformal_R (hT : Conformal S T c e) (m n : ι) : T.R m n = S.R m n +
    (S.D m (S.M c e n) + S.Γ m * S.M c e n - S.M c e n * S.Γ m) - (S.D n (S.M c e m) + S.Γ n * S.M c e m - S.M c e m * S.Γ n) +
    (S.M c e m * S.M c e n - S.M c e n * S.M c e m) := by
  have hD : ∀ k A, T.D k A = S.D k A := fun k A => by ext i j; exact hT.d _ _
  have h1 : ∀ k j, S.D k (S.φ c e j • (1 : Matrix ι ι K)) = S.d k (S.φ c e j) • (1 : Matrix ι ι K) := fun k j => by
    ext a b
    simp only [D, Matrix.map_apply, Matrix.smul_apply, smul_eq_mul, S.mul]
    have := congrFun (congrFun (S.D_one k) a) b
    simp only [D, Matrix.map_apply, Matrix.zero_apply] at this
    rw [this, mul_zero, add_zero]
  unfold R
  simp only [hD, conformal_Γ hT, S.D_add, h1]
  rw [S.φ_closed c e hT.inv m n]
  simp only [add_mul, mul_add, Matrix.smul_mul, Matrix.mul_smul, one_mul, mul_one]
  rw [smul_comm (S.φ c e m) (S.φ c e n)]
  abel

theorem Q_symm (hce : c * e = 1) (m n : ι) : S.Q c e m n = S.Q c e n m := by
  unfold Q
  rw [S.P_symm c e hce m n, S.g_symm m n, mul_comm (S.φ c e m)]

/-- The Riemann tensor changes by products of the metric with `Q`. -/
theorem conformal_L (hT : Conformal S T c e) (m n r s : ι) : T.L m n r s = c * (S.L m n r s +
    (S.g r n * S.Q c e m s - S.g r m * S.Q c e n s - S.Q c e m r * S.g n s + S.Q c e n r * S.g m s)) := by
  have h0 : T.L m n r s = c * ∑ l, S.g r l * T.R m n l s := by
    unfold L
    rw [Matrix.mul_apply, Finset.mul_sum]
    exact Finset.sum_congr rfl fun l _ => by rw [hT.g]; ring
  have hR : ∀ l, T.R m n l s = S.R m n l s + ((1 : Matrix ι ι K) l n * S.P c e m s - (1 : Matrix ι ι K) l m * S.P c e n s -
      (∑ k, S.h l k * S.P c e m k) * S.g n s + (∑ k, S.h l k * S.P c e n k) * S.g m s) +
      ((1 : Matrix ι ι K) l m * (S.φ c e n * S.φ c e s - S.q c e * S.g n s) -
        (1 : Matrix ι ι K) l n * (S.φ c e m * S.φ c e s - S.q c e * S.g m s) +
        S.u c e l * (S.φ c e m * S.g n s - S.φ c e n * S.g m s)) := fun l => by
    have hΓ : ∑ k, S.g s k * S.Γ m k n = ∑ k, S.g s k * S.Γ n k m := Finset.sum_congr rfl fun k _ => by rw [S.Γ_symm]
    rw [conformal_R hT, Matrix.add_apply, Matrix.sub_apply, Matrix.add_apply, Matrix.sub_apply (S.M c e m * _), S.D_M, S.D_M,
      S.M_mul, S.M_mul, hΓ, S.Γ_symm l m n, S.g_symm n m]
    ring
  have e1 : ∀ a, ∑ l, S.g r l * (1 : Matrix ι ι K) l a = S.g r a := fun a => by simp [Matrix.one_apply]
  have e2 : ∀ a, ∑ l, S.g r l * ∑ k, S.h l k * S.P c e a k = S.P c e a r := fun a => by
    simp only [Finset.mul_sum, ← mul_assoc]
    rw [Finset.sum_comm]
    simp only [← Finset.sum_mul]
    have : ∀ s, ∑ k, S.g r k * S.h k s = (1 : Matrix ι ι K) r s := fun s => by
      rw [← S.gh, Matrix.mul_apply]
    simp only [this, Matrix.one_apply]
    simp
  have h1 : ∀ l, S.g r l * T.R m n l s = S.g r l * S.R m n l s + (S.P c e m s - (S.φ c e m * S.φ c e s - S.q c e * S.g m s)) *
      (S.g r l * (1 : Matrix ι ι K) l n) - (S.P c e n s - (S.φ c e n * S.φ c e s - S.q c e * S.g n s)) *
      (S.g r l * (1 : Matrix ι ι K) l m) - S.g n s * (S.g r l * ∑ k, S.h l k * S.P c e m k) +
      S.g m s * (S.g r l * ∑ k, S.h l k * S.P c e n k) + (S.φ c e m * S.g n s - S.φ c e n * S.g m s) * (S.g r l * S.u c e l) :=
    fun l => by rw [hR]; ring
  rw [h0]
  congr 1
  simp only [h1, Finset.sum_add_distrib, Finset.sum_sub_distrib, ← Finset.mul_sum, e1, e2, S.g_u]
  unfold Q L
  rw [Matrix.mul_apply, S.g_symm m r, S.g_symm n r]
  simp only [Algebra.smul_def]
  have hh : (2 : K) * algebraMap ℚ K (1 / 2) = 1 := by
    have := two_half (1 : K)
    rwa [Algebra.smul_def, mul_one] at this
  linear_combination (S.q c e * (S.g r m * S.g n s - S.g r n * S.g m s)) * hh

/-- The trace of `Q`. -/
def trQ (S : Data ι K) (c e : K) : K := ∑ r, ∑ k, S.h r k * S.Q c e r k

theorem conformal_ric (hT : Conformal S T c e) (s n : ι) : T.ric s n = S.ric s n +
    ((2 - (Fintype.card ι : K)) * S.Q c e n s - trQ S c e * S.g n s) := by
  have h0 : ∀ S : Data ι K, S.ric s n = ∑ r, ∑ k, S.h r k * S.L r n k s := fun S => by
    unfold ric
    exact Finset.sum_congr rfl fun r _ => by rw [← S.hL, Matrix.mul_apply]
  rw [h0 T, h0 S]
  have h1 : ∀ r k, T.h r k * T.L r n k s = S.h r k * S.L r n k s + (S.h r k * S.g k n) * S.Q c e r s -
      S.Q c e n s * (S.h r k * S.g r k) - S.g n s * (S.h r k * S.Q c e r k) + S.Q c e n k * (S.h r k * S.g r s) := fun r k => by
    rw [hT.h, conformal_L hT, S.g_symm k r]
    linear_combination (S.h r k * (S.L r n k s + (S.g k n * S.Q c e r s - S.g r k * S.Q c e n s - S.Q c e r k * S.g n s +
      S.Q c e n k * S.g r s))) * hT.inv
  simp only [h1, Finset.sum_add_distrib, Finset.sum_sub_distrib, ← Finset.mul_sum]
  have e1 : ∑ r, ∑ k, S.h r k * S.g k n * S.Q c e r s = S.Q c e n s := by
    simp only [← Finset.sum_mul, S.sum_g]
    simp
  have e2 : ∑ r, ∑ k, S.Q c e n k * (S.h r k * S.g r s) = S.Q c e n s := by
    rw [Finset.sum_comm]
    have : ∀ k, ∑ r, S.Q c e n k * (S.h r k * S.g r s) = S.Q c e n k * if k = s then 1 else 0 := fun k => by
      rw [← S.sum_g k s, Finset.mul_sum]
      exact Finset.sum_congr rfl fun r _ => by rw [S.h_symm r k]
    simp [this]
  rw [e1, e2, S.trace_hg]
  unfold trQ
  ring

theorem conformal_scal (hT : Conformal S T c e) : T.scal = e * (S.scal + (2 - 2 * (Fintype.card ι : K)) * trQ S c e) := by
  have h1 : ∀ s n, T.h s n * T.ric s n = e * (S.h s n * S.ric s n + (2 - (Fintype.card ι : K)) * (S.h s n * S.Q c e s n) -
      trQ S c e * (S.h s n * S.g s n)) := fun s n => by
    rw [hT.h, conformal_ric hT, Q_symm hT.inv n s, S.g_symm n s]; ring
  unfold scal
  simp only [h1, ← Finset.mul_sum, Finset.sum_add_distrib, Finset.sum_sub_distrib, S.trace_hg]
  unfold trQ
  ring

/-- The Weyl tensor is multiplied by the factor. -/
theorem conformal_W (hT : Conformal S T c e) {a b : ℚ} (ha : 1 + a * (2 - Fintype.card ι) = 0)
    (hb : b * (Fintype.card ι - 1) = a) (i k l m : ι) : T.W a b i k l m = c * S.W a b i k l m := by
  have ha' := congrArg (algebraMap ℚ K) ha
  have hb' := congrArg (algebraMap ℚ K) hb
  simp only [map_add, map_one, map_mul, map_sub, map_natCast, map_zero, map_ofNat] at ha' hb'
  unfold W
  rw [conformal_scal hT, conformal_L hT]
  simp only [conformal_ric hT, hT.g, Algebra.smul_def]
  rw [Q_symm hT.inv m i, Q_symm hT.inv l i, Q_symm hT.inv l k, Q_symm hT.inv m k, S.g_symm m i, S.g_symm l i, S.g_symm l k,
    S.g_symm m k]
  linear_combination (c * (S.Q c e i m * S.g k l - S.Q c e i l * S.g k m + S.Q c e k l * S.g i m - S.Q c e k m * S.g i l)) * ha' -
    (2 * c * trQ S c e * (S.g i l * S.g k m - S.g i m * S.g k l)) * hb' +
    algebraMap ℚ K b * c * (S.scal + (2 - 2 * (Fintype.card ι : K)) * trQ S c e) * (S.g i l * S.g k m - S.g i m * S.g k l) * hT.inv

end Data
end PyOGRe.Geo
