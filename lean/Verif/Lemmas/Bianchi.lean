import Mathlib.Data.Matrix.Mul
import Mathlib.LinearAlgebra.Matrix.Trace
import Mathlib.Algebra.Algebra.Rat
import Mathlib.Algebra.Module.Rat
import Mathlib.Tactic.NoncommRing
import Mathlib.Tactic.LinearCombination
import Mathlib.Tactic.Module
import Mathlib.Tactic.Abel

/-!
Helper lemmas: Riemannian geometry in components.  The Christoffel symbols are matrices `Γ m` with entries
`Γ m l n = Γ^l_{mn}`, and so is the curvature: `curv m n r s = R^r_{smn}`.
-/

namespace PyOGRe.Geo
open Matrix Finset
variable {ι K : Type} [Fintype ι] [DecidableEq ι] [CommRing K] [Algebra ℚ K]

/-- Commuting derivations, a symmetric matrix and its inverse. -/
structure Data (ι K : Type) [Fintype ι] [DecidableEq ι] [CommRing K] [Algebra ℚ K] where
  d : ι → K → K
  add : ∀ k x y, d k (x + y) = d k x + d k y
  mul : ∀ k x y, d k (x * y) = d k x * y + x * d k y
  comm : ∀ k l x, d k (d l x) = d l (d k x)
  g : Matrix ι ι K
  h : Matrix ι ι K
  symm : gᵀ = g
  gh : g * h = 1
  hg : h * g = 1

variable (S : Data ι K)
namespace Data

def hom (k : ι) : K →+ K where
  toFun := S.d k
  map_zero' := by have := S.add k 0 0; simpa using this
  map_add' := S.add k

theorem d_zero (k : ι) : S.d k 0 = 0 := (S.hom k).map_zero
theorem d_neg (k : ι) (x : K) : S.d k (-x) = -S.d k x := (S.hom k).map_neg x
theorem d_sub (k : ι) (x y : K) : S.d k (x - y) = S.d k x - S.d k y := (S.hom k).map_sub x y
theorem d_sum {α : Type} (k : ι) (s : Finset α) (f : α → K) : S.d k (∑ i ∈ s, f i) = ∑ i ∈ s, S.d k (f i) :=
  map_sum (S.hom k) f s
theorem d_rat (k : ι) (q : ℚ) (x : K) : S.d k (q • x) = q • S.d k x := map_rat_smul (S.hom k) q x

/-- The derivative of a matrix. -/
def D (k : ι) (A : Matrix ι ι K) : Matrix ι ι K := A.map (S.d k)

theorem D_add (k : ι) (A B : Matrix ι ι K) : S.D k (A + B) = S.D k A + S.D k B := by ext i j; exact S.add _ _ _
theorem D_sub (k : ι) (A B : Matrix ι ι K) : S.D k (A - B) = S.D k A - S.D k B := by ext i j; exact S.d_sub _ _ _
theorem D_neg (k : ι) (A : Matrix ι ι K) : S.D k (-A) = -S.D k A := by ext i j; exact S.d_neg _ _
theorem D_mul (k : ι) (A B : Matrix ι ι K) : S.D k (A * B) = S.D k A * B + A * S.D k B := by
  ext i j
  simp only [D, Matrix.map_apply, Matrix.mul_apply, Matrix.add_apply, S.d_sum, S.mul, Finset.sum_add_distrib]
theorem D_transpose (k : ι) (A : Matrix ι ι K) : S.D k Aᵀ = (S.D k A)ᵀ := rfl
theorem D_comm (k l : ι) (A : Matrix ι ι K) : S.D k (S.D l A) = S.D l (S.D k A) := by ext i j; exact S.comm _ _ _

theorem D_one (k : ι) : S.D k (1 : Matrix ι ι K) = 0 := by
  have h1 : S.d k 1 = 0 := by have := S.mul k 1 1; simpa using this
  ext i j
  simp only [D, Matrix.map_apply, Matrix.one_apply, Matrix.zero_apply]
  split_ifs
  · exact h1
  · exact S.d_zero k

/-- `∂_m g_{ns} + ∂_n g_{sm} - ∂_s g_{mn}` in row `s` and column `n`. -/
def X (m : ι) : Matrix ι ι K := fun s n => S.d m (S.g n s) + S.d n (S.g s m) - S.d s (S.g m n)

/-- The Christoffel symbols. -/
def Γ (m : ι) : Matrix ι ι K := (1 / 2 : ℚ) • (S.h * S.X m)

theorem g_symm (i j : ι) : S.g i j = S.g j i := by
  conv_lhs => rw [← S.symm]
  rfl

theorem h_symm' : S.hᵀ = S.h := by
  have h1 : S.hᵀ * S.g = 1 := by
    have := congrArg Matrix.transpose S.gh
    rwa [Matrix.transpose_mul, S.symm, Matrix.transpose_one] at this
  calc S.hᵀ = S.hᵀ * (S.g * S.h) := by rw [S.gh, mul_one]
    _ = S.h := by rw [← mul_assoc, h1, one_mul]

theorem h_symm (i j : ι) : S.h i j = S.h j i := by
  conv_lhs => rw [← S.h_symm']
  rfl

/-- `Γ^l_{mn} = Γ^l_{nm}`. -/
theorem Γ_symm (l m n : ι) : S.Γ m l n = S.Γ n l m := by
  simp only [Γ, Matrix.smul_apply, Matrix.mul_apply]
  congr 1
  refine Finset.sum_congr rfl fun s _ => ?_
  simp only [X]
  rw [S.g_symm n s, S.g_symm s m, S.g_symm m n]
  ring

theorem gΓ (m : ι) : S.g * S.Γ m = (1 / 2 : ℚ) • S.X m := by
  rw [Γ, Matrix.mul_smul, ← mul_assoc, S.gh, one_mul]

/-- Metric compatibility. -/
theorem D_g (m : ι) : S.D m S.g = S.g * S.Γ m + (S.Γ m)ᵀ * S.g := by
  have : (S.Γ m)ᵀ * S.g = (S.g * S.Γ m)ᵀ := by rw [Matrix.transpose_mul, S.symm]
  rw [this, S.gΓ]
  ext a b
  simp only [D, Matrix.map_apply, Matrix.add_apply, Matrix.smul_apply, Matrix.transpose_apply, X]
  rw [S.g_symm b a, S.g_symm a m, S.g_symm b m]
  module

theorem D_h (m : ι) : S.D m S.h = -(S.Γ m * S.h + S.h * (S.Γ m)ᵀ) := by
  have h0 := S.D_mul m S.h S.g
  rw [S.hg, S.D_one, S.D_g] at h0
  have h1 : S.D m S.h * S.g * S.h = -(S.h * (S.g * S.Γ m + (S.Γ m)ᵀ * S.g)) * S.h := by
    rw [eq_neg_of_add_eq_zero_left h0.symm]
  rw [mul_assoc, S.gh, mul_one] at h1
  rw [h1, neg_mul, mul_add, ← mul_assoc, S.hg, one_mul, add_mul]
  congr 2
  rw [mul_assoc, mul_assoc, S.gh, mul_one]

/-- The curvature. -/
def R (m n : ι) : Matrix ι ι K := S.D m (S.Γ n) - S.D n (S.Γ m) + S.Γ m * S.Γ n - S.Γ n * S.Γ m

theorem R_antisymm (m n : ι) : S.R m n = -S.R n m := by
  simp only [R]; abel

/-- With the first index lowered. -/
def L (m n : ι) : Matrix ι ι K := S.g * S.R m n

theorem hL (m n : ι) : S.h * S.L m n = S.R m n := by rw [L, ← mul_assoc, S.hg, one_mul]

theorem L_antisymm (m n : ι) : S.L m n = -S.L n m := by
  rw [L, S.R_antisymm, mul_neg]; rfl

theorem DD_g (m n : ι) : S.D n (S.D m S.g) =
    (S.g * S.Γ n + (S.Γ n)ᵀ * S.g) * S.Γ m + S.g * S.D n (S.Γ m) +
      ((S.D n (S.Γ m))ᵀ * S.g + (S.Γ m)ᵀ * (S.g * S.Γ n + (S.Γ n)ᵀ * S.g)) := by
  rw [S.D_g m, S.D_add, S.D_mul, S.D_mul, S.D_g n, S.D_transpose]

/-- `R_{rsmn} = -R_{srmn}`. -/
theorem L_first (m n : ι) : (S.L m n)ᵀ = -S.L m n := by
  have h := S.D_comm n m S.g
  rw [S.DD_g, S.DD_g] at h
  rw [eq_neg_iff_add_eq_zero]
  have ht : (S.L m n)ᵀ = (S.R m n)ᵀ * S.g := by rw [L, Matrix.transpose_mul, S.symm]
  rw [ht, L]
  simp only [R, Matrix.transpose_add, Matrix.transpose_sub, Matrix.transpose_mul]
  rw [← sub_eq_zero] at h
  rw [← neg_eq_zero, ← h]
  noncomm_ring

theorem L_first' (r s m n : ι) : S.L m n r s = -S.L m n s r := by
  have := congrFun (congrFun (S.L_first m n) s) r
  simpa using this

/-- First Bianchi identity. -/
theorem R_cyclic (r s m n : ι) : S.R m n r s + S.R n s r m + S.R s m r n = 0 := by
  simp only [R, Matrix.add_apply, Matrix.sub_apply, Matrix.mul_apply, D, Matrix.map_apply]
  have e : ∀ a b c, S.d a (S.Γ b r c) = S.d a (S.Γ c r b) := fun a b c => by rw [S.Γ_symm]
  have e' : ∀ a b c, ∑ l, S.Γ a r l * S.Γ b l c = ∑ l, S.Γ a r l * S.Γ c l b := fun a b c =>
    Finset.sum_congr rfl fun l _ => by rw [S.Γ_symm l b c]
  linear_combination e m n s - e n m s + e s m n + e' m n s - e' n m s + e' s m n

theorem L_cyclic (r s m n : ι) : S.L m n r s + S.L n s r m + S.L s m r n = 0 := by
  simp only [L, Matrix.mul_apply]
  rw [← Finset.sum_add_distrib, ← Finset.sum_add_distrib]
  refine Finset.sum_eq_zero fun l _ => ?_
  rw [← mul_add, ← mul_add, S.R_cyclic, mul_zero]

theorem two_cancel {x : K} (h : 2 * x = 0) : x = 0 := by
  have : (1 / 2 : ℚ) • (2 * x) = x := by
    rw [two_mul]
    module
  rw [← this, h, smul_zero]

theorem L_last' (r s m n : ι) : S.L m n r s = -S.L n m r s := by
  rw [S.L_antisymm]; rfl

/-- `R_{rsmn} = R_{mnrs}`. -/
theorem L_pairs (r s m n : ι) : S.L m n r s = S.L r s m n := by
  rw [← sub_eq_zero]
  apply two_cancel
  have h1 := S.L_cyclic r s m n
  have h2 := S.L_cyclic s r n m
  have h3 := S.L_cyclic m n r s
  have h4 := S.L_cyclic n m s r
  have ff : ∀ a b c d, S.L c d a b = S.L d c b a := fun a b c d => by
    rw [S.L_first' a b c d, S.L_last' b a c d, neg_neg]
  rw [ff s r n m, ff s n m r] at h2
  rw [ff m r s n, ff m s n r] at h3
  rw [ff n m s r, ff n r m s] at h4
  linear_combination h1 + h2 - h3 - h4

/-- The Ricci tensor. -/
def ric (s n : ι) : K := ∑ r, S.R r n r s

theorem ric_symm (s n : ι) : S.ric s n = S.ric n s := by
  have h : ∀ s n, S.ric s n = ∑ r, ∑ k, S.h r k * S.L r n k s := fun s n => by
    unfold ric
    refine Finset.sum_congr rfl fun r _ => ?_
    rw [← S.hL, Matrix.mul_apply]
  rw [h, h, Finset.sum_comm]
  refine Finset.sum_congr rfl fun r _ => Finset.sum_congr rfl fun k _ => ?_
  rw [S.L_pairs, S.h_symm]

/-- The scalar curvature. -/
def scal : K := ∑ s, ∑ n, S.h s n * S.ric s n

theorem trace_hg : ∑ s, ∑ n, S.h s n * S.g s n = (Fintype.card ι : K) := by
  have h1 : ∀ s, ∑ n, S.h s n * S.g s n = 1 := fun s => by
    have := congrFun (congrFun S.hg s) s
    rw [Matrix.mul_apply, Matrix.one_apply_eq] at this
    rw [← this]
    exact Finset.sum_congr rfl fun n _ => by rw [S.g_symm s n]
  rw [Finset.sum_congr rfl fun s _ => h1 s]
  simp

/-- The part of the covariant derivative of the curvature that belongs to the first two indices. -/
def B (k m n : ι) : Matrix ι ι K := S.D k (S.R m n) + S.Γ k * S.R m n - S.R m n * S.Γ k

theorem B_cyclic (k m n : ι) : S.B k m n + S.B m n k + S.B n k m = 0 := by
  simp only [B, R, D_add, D_sub, D_mul]
  rw [S.D_comm m n (S.Γ k), S.D_comm k n (S.Γ m), S.D_comm k m (S.Γ n)]
  noncomm_ring

/-- The covariant derivative of the curvature. -/
def cov (k m n : ι) : Matrix ι ι K := S.B k m n - ∑ l, S.Γ k l m • S.R l n - ∑ l, S.Γ k l n • S.R m l

/-- Second Bianchi identity. -/
theorem cov_cyclic (k m n : ι) : S.cov k m n + S.cov m n k + S.cov n k m = 0 := by
  have h := S.B_cyclic k m n
  have e : ∀ a b c, ∑ l, S.Γ a l b • S.R l c = -∑ l, S.Γ b l a • S.R c l := fun a b c => by
    rw [← Finset.sum_neg_distrib]
    refine Finset.sum_congr rfl fun l _ => ?_
    rw [S.Γ_symm l a b, S.R_antisymm, smul_neg]
  unfold cov
  rw [e k m n, e m n k, e n k m]
  rw [← h]
  abel

/-- The covariant derivative of a tensor with two lower indices. -/
def cov2 (T : ι → ι → K) (k s n : ι) : K := S.d k (T s n) - ∑ l, S.Γ k l s * T l n - ∑ l, S.Γ k l n * T s l

theorem cov_trace (k s n : ι) : ∑ r, S.cov k r n r s = S.cov2 S.ric k s n := by
  have e : ∑ r, ∑ l, S.Γ k r l * S.R r n l s = ∑ r, ∑ l, S.Γ k l r * S.R l n r s := Finset.sum_comm
  have e1 : ∑ r, ∑ l, S.R r n r l * S.Γ k l s = ∑ l, S.Γ k l s * S.ric l n := by
    rw [Finset.sum_comm]
    refine Finset.sum_congr rfl fun l _ => ?_
    rw [ric, Finset.mul_sum]
    exact Finset.sum_congr rfl fun r _ => mul_comm _ _
  have e2 : ∑ r, ∑ l, S.Γ k l n * S.R r l r s = ∑ l, S.Γ k l n * S.ric s l := by
    rw [Finset.sum_comm]
    refine Finset.sum_congr rfl fun l _ => ?_
    rw [ric, Finset.mul_sum]
  have e3 : ∑ r, S.d k (S.R r n r s) = S.d k (S.ric s n) := (S.d_sum k _ _).symm
  simp only [cov, B, Matrix.sub_apply, Matrix.add_apply, Matrix.mul_apply, Matrix.sum_apply, Matrix.smul_apply,
    smul_eq_mul, D, Matrix.map_apply, Finset.sum_sub_distrib, Finset.sum_add_distrib]
  unfold cov2
  rw [e, e1, e2, e3]
  ring

theorem cov_antisymm (k m n : ι) : S.cov k m n = -S.cov k n m := by
  have hB : S.B k m n = -S.B k n m := by
    simp only [B]
    rw [S.R_antisymm m n, S.D_neg]
    noncomm_ring
  have e1 : ∀ m n, ∑ l, S.Γ k l n • S.R m l = -∑ l, S.Γ k l n • S.R l m := fun m n => by
    rw [← Finset.sum_neg_distrib]
    refine Finset.sum_congr rfl fun l _ => ?_
    rw [S.R_antisymm m l, smul_neg]
  unfold cov
  rw [hB, e1 m n, e1 n m]
  abel

/-- The derivative of the lowered curvature is antisymmetric in the first two indices. -/
theorem gcov_first (k m n : ι) : (S.g * S.cov k m n)ᵀ = -(S.g * S.cov k m n) := by
  have hB : S.g * S.B k m n = S.D k (S.L m n) - (S.Γ k)ᵀ * S.L m n - S.L m n * S.Γ k := by
    rw [L, S.D_mul, S.D_g, B]
    noncomm_ring
  have hBt : (S.g * S.B k m n)ᵀ = -(S.g * S.B k m n) := by
    rw [hB]
    simp only [Matrix.transpose_sub, Matrix.transpose_mul, Matrix.transpose_transpose]
    rw [← S.D_transpose, S.L_first, S.D_neg]
    noncomm_ring
  have e : ∀ c : ι → K, ∀ f : ι → Matrix ι ι K, (∀ l, (S.g * f l)ᵀ = -(S.g * f l)) →
      (S.g * ∑ l, c l • f l)ᵀ = -(S.g * ∑ l, c l • f l) := by
    intro c f hf
    rw [Finset.mul_sum, Matrix.transpose_sum, ← Finset.sum_neg_distrib]
    refine Finset.sum_congr rfl fun l _ => ?_
    rw [Matrix.mul_smul, Matrix.transpose_smul, hf, smul_neg]
  unfold cov
  rw [mul_sub, mul_sub, Matrix.transpose_sub, Matrix.transpose_sub, hBt, e _ _ fun l => S.L_first l n,
    e _ _ fun l => S.L_first m l]
  abel

theorem cov_scal (k : ι) : ∑ s, ∑ n, S.h s n * S.cov2 S.ric k s n = S.d k S.scal := by
  have hd : ∀ s n, S.d k (S.h s n) = -(∑ l, S.Γ k s l * S.h l n + ∑ l, S.h s l * S.Γ k n l) := fun s n => by
    have := congrFun (congrFun (S.D_h k) s) n
    simpa only [D, Matrix.map_apply, Matrix.neg_apply, Matrix.add_apply, Matrix.mul_apply, Matrix.transpose_apply] using this
  have e1 : ∑ s, ∑ n, (∑ l, S.Γ k s l * S.h l n) * S.ric s n = ∑ s, ∑ n, S.h s n * ∑ l, S.Γ k l s * S.ric l n := by
    simp only [Finset.sum_mul, Finset.mul_sum]
    have : ∀ s, ∑ n, ∑ l, S.Γ k s l * S.h l n * S.ric s n = ∑ l, ∑ n, S.Γ k s l * S.h l n * S.ric s n :=
      fun s => Finset.sum_comm
    rw [Finset.sum_congr rfl fun s _ => this s, Finset.sum_comm]
    refine Finset.sum_congr rfl fun s _ => ?_
    rw [Finset.sum_comm]
    exact Finset.sum_congr rfl fun n _ => Finset.sum_congr rfl fun l _ => by ring
  have e2 : ∑ s, ∑ n, (∑ l, S.h s l * S.Γ k n l) * S.ric s n = ∑ s, ∑ n, S.h s n * ∑ l, S.Γ k l n * S.ric s l := by
    simp only [Finset.sum_mul, Finset.mul_sum]
    refine Finset.sum_congr rfl fun s _ => ?_
    rw [Finset.sum_comm]
    exact Finset.sum_congr rfl fun n _ => Finset.sum_congr rfl fun l _ => by ring
  have e3 : S.d k S.scal = ∑ s, ∑ n, S.d k (S.h s n) * S.ric s n + ∑ s, ∑ n, S.h s n * S.d k (S.ric s n) := by
    unfold scal
    simp only [S.d_sum, S.mul, Finset.sum_add_distrib]
  rw [e3]
  simp only [hd, neg_mul, add_mul, Finset.sum_neg_distrib, Finset.sum_add_distrib, e1, e2, cov2, mul_sub,
    Finset.sum_sub_distrib]
  ring

/-- The divergence of a tensor with two lower indices. -/
def div (T : ι → ι → K) (k : ι) : K := ∑ s, ∑ n, S.h s n * S.cov2 T n s k

/-- Contracted second Bianchi identity. -/
theorem d_scal (k : ι) : S.d k S.scal = 2 * S.div S.ric k := by
  have e0 : ∀ s n, ∑ m, S.cov k m n m s + ∑ m, S.cov m n k m s + ∑ m, S.cov n k m m s = 0 := fun s n => by
    rw [← Finset.sum_add_distrib, ← Finset.sum_add_distrib]
    refine Finset.sum_eq_zero fun m _ => ?_
    have := congrFun (congrFun (S.cov_cyclic k m n) m) s
    simpa only [Matrix.add_apply, Matrix.zero_apply] using this
  have e1 : ∀ s n, ∑ m, S.cov n k m m s = -S.cov2 S.ric n s k := fun s n => by
    rw [← S.cov_trace, ← Finset.sum_neg_distrib]
    refine Finset.sum_congr rfl fun m _ => ?_
    rw [S.cov_antisymm]; rfl
  have e2 : ∑ s, ∑ n, S.h s n * ∑ m, S.cov m n k m s = -S.div S.ric k := by
    have hC : ∀ m n a s, (S.g * S.cov m n k) a s = -(S.g * S.cov m n k) s a := fun m n a s => by
      have := congrFun (congrFun (S.gcov_first m n k) s) a
      simpa using this
    have hc : ∀ m n, S.cov m n k = S.h * (S.g * S.cov m n k) := fun m n => by rw [← mul_assoc, S.hg, one_mul]
    have l1 : ∀ m n, ∑ s, S.h s n * S.cov m n k m s = -∑ a, S.h m a * S.cov m n k n a := fun m n => by
      have hC' := hC m n
      rw [hc m n]
      revert hC'
      generalize S.g * S.cov m n k = C
      intro hC'
      simp only [Matrix.mul_apply, Finset.mul_sum]
      rw [← Finset.sum_neg_distrib, Finset.sum_comm]
      refine Finset.sum_congr rfl fun a _ => ?_
      rw [← Finset.sum_neg_distrib]
      refine Finset.sum_congr rfl fun s _ => ?_
      rw [hC' a s, S.h_symm s n]
      ring
    have l2 : ∑ s, ∑ n, S.h s n * ∑ m, S.cov m n k m s = ∑ m, ∑ n, ∑ s, S.h s n * S.cov m n k m s := by
      simp only [Finset.mul_sum]
      rw [Finset.sum_comm]
      have : ∀ n, ∑ s, ∑ m, S.h s n * S.cov m n k m s = ∑ m, ∑ s, S.h s n * S.cov m n k m s :=
        fun n => Finset.sum_comm
      rw [Finset.sum_congr rfl fun n _ => this n, Finset.sum_comm]
    have l3 : ∀ m, ∑ n, ∑ s, S.h s n * S.cov m n k m s = -∑ a, S.h a m * S.cov2 S.ric m a k := fun m => by
      rw [Finset.sum_congr rfl fun n _ => l1 m n, Finset.sum_neg_distrib, Finset.sum_comm]
      congr 1
      refine Finset.sum_congr rfl fun a _ => ?_
      rw [← S.cov_trace, ← Finset.mul_sum, S.h_symm]
    rw [l2, Finset.sum_congr rfl fun m _ => l3 m, Finset.sum_neg_distrib, div, Finset.sum_comm]
  have e3 : ∑ s, ∑ n, S.h s n * (∑ m, S.cov k m n m s + ∑ m, S.cov m n k m s + ∑ m, S.cov n k m m s) = 0 :=
    Finset.sum_eq_zero fun s _ => Finset.sum_eq_zero fun n _ => by rw [e0, mul_zero]
  simp only [mul_add, Finset.sum_add_distrib] at e3
  rw [e2] at e3
  simp only [S.cov_trace, e1, mul_neg, Finset.sum_neg_distrib] at e3
  rw [S.cov_scal] at e3
  have : S.div S.ric k = ∑ s, ∑ n, S.h s n * S.cov2 S.ric n s k := rfl
  rw [← this] at e3
  linear_combination e3

/-- The Einstein tensor. -/
def ein (s n : ι) : K := S.ric s n - (1 / 2 : ℚ) • S.scal * S.g s n

theorem ein_symm (s n : ι) : S.ein s n = S.ein n s := by
  unfold ein; rw [S.ric_symm, S.g_symm]

theorem ein_trace : ∑ s, ∑ n, S.h s n * S.ein s n = (1 - (Fintype.card ι : ℚ) / 2) • S.scal := by
  have h1 : ∀ s n, S.h s n * S.ein s n = S.h s n * S.ric s n - (1 / 2 : ℚ) • S.scal * (S.h s n * S.g s n) :=
    fun s n => by unfold ein; ring
  simp only [h1, Finset.sum_sub_distrib, ← Finset.mul_sum, S.trace_hg]
  show S.scal - _ = _
  have : (Fintype.card ι : K) = algebraMap ℚ K (Fintype.card ι : ℚ) := by simp
  rw [this, Algebra.smul_def, Algebra.smul_def, mul_comm _ S.scal, mul_assoc, ← map_mul, mul_comm _ S.scal]
  rw [map_sub, map_one, mul_sub, mul_one]
  congr 3
  ring

theorem cov2_g (k s n : ι) : S.cov2 (fun a b => S.g a b) k s n = 0 := by
  have := congrFun (congrFun (S.D_g k) s) n
  simp only [D, Matrix.map_apply, Matrix.add_apply, Matrix.mul_apply, Matrix.transpose_apply] at this
  unfold cov2
  rw [this, Finset.sum_congr rfl fun l _ => mul_comm (S.g s l) (S.Γ k l n)]
  ring

theorem ein_div (k : ι) : S.div S.ein k = 0 := by
  have h1 : ∀ n s, S.cov2 S.ein n s k = S.cov2 S.ric n s k - (1 / 2 : ℚ) • S.d n S.scal * S.g s k := fun n s => by
    have h2 := S.cov2_g n s k
    unfold cov2 at h2 ⊢
    dsimp only at h2
    have e1 : ∀ (a : ι) (b c : ι → ι), ∑ l, S.Γ n l a * S.ein (c l) (b l) = ∑ l, S.Γ n l a * S.ric (c l) (b l) -
        (1 / 2 : ℚ) • S.scal * ∑ l, S.Γ n l a * S.g (c l) (b l) := fun a b c => by
      rw [Finset.mul_sum, ← Finset.sum_sub_distrib]
      exact Finset.sum_congr rfl fun l _ => by unfold ein; ring
    rw [e1 s (fun _ => k) (fun l => l), e1 k (fun l => l) (fun _ => s)]
    unfold ein
    rw [S.d_sub, S.mul, S.d_rat]
    linear_combination (-((1 / 2 : ℚ) • S.scal)) * h2
  have h3 : ∀ s n, S.h s n * S.cov2 S.ein n s k = S.h s n * S.cov2 S.ric n s k -
      (1 / 2 : ℚ) • S.d n S.scal * (S.h s n * S.g s k) := fun s n => by rw [h1]; ring
  have h4 : ∀ n, ∑ s, S.h s n * S.g s k = if n = k then 1 else 0 := fun n => by
    have := congrFun (congrFun S.hg n) k
    rw [Matrix.mul_apply, Matrix.one_apply] at this
    rw [← this]
    exact Finset.sum_congr rfl fun s _ => by rw [S.h_symm]
  unfold div
  simp only [h3, Finset.sum_sub_distrib]
  have h5 : ∑ s, ∑ n, (1 / 2 : ℚ) • S.d n S.scal * (S.h s n * S.g s k) = (1 / 2 : ℚ) • S.d k S.scal := by
    rw [Finset.sum_comm]
    simp only [← Finset.mul_sum, h4]
    simp
  rw [h5, S.d_scal]
  show S.div S.ric k - _ = 0
  rw [two_mul]
  module

/-- The Weyl tensor, with factors `a` and `b`. -/
def W (a b : ℚ) (i k l m : ι) : K :=
  S.L l m i k + a • (S.ric i m * S.g k l - S.ric i l * S.g k m + S.ric k l * S.g i m - S.ric k m * S.g i l) +
    b • (S.scal * (S.g i l * S.g k m - S.g i m * S.g k l))

theorem W_first (a b : ℚ) (i k l m : ι) : S.W a b i k l m = -S.W a b k i l m := by
  unfold W; rw [S.L_first' i k l m]; simp only [Algebra.smul_def]; ring

theorem W_last (a b : ℚ) (i k l m : ι) : S.W a b i k l m = -S.W a b i k m l := by
  unfold W; rw [S.L_last' i k l m]; simp only [Algebra.smul_def]; ring

theorem W_pairs (a b : ℚ) (i k l m : ι) : S.W a b i k l m = S.W a b l m i k := by
  unfold W
  rw [S.L_pairs i k l m, S.ric_symm m i, S.ric_symm l i, S.ric_symm m k, S.ric_symm l k, S.g_symm m i, S.g_symm m k,
    S.g_symm l i, S.g_symm l k]
  simp only [Algebra.smul_def]
  ring

theorem W_cyclic (a b : ℚ) (i k l m : ι) : S.W a b i k l m + S.W a b i l m k + S.W a b i m k l = 0 := by
  have h := S.L_cyclic i k l m
  unfold W
  rw [S.ric_symm l k, S.ric_symm m k, S.ric_symm m l, S.g_symm l k, S.g_symm m k, S.g_symm m l]
  simp only [Algebra.smul_def]
  linear_combination h

theorem sum_g (i j : ι) : ∑ l, S.h i l * S.g l j = if i = j then 1 else 0 := by
  have := congrFun (congrFun S.hg i) j
  rwa [Matrix.mul_apply, Matrix.one_apply] at this

theorem W_trace {a b : ℚ} (ha : 1 + a * (2 - Fintype.card ι) = 0) (hb : b * (Fintype.card ι - 1) = a) (k m : ι) :
    ∑ i, ∑ l, S.h i l * S.W a b i k l m = 0 := by
  have e1 : ∑ i, ∑ l, S.h i l * S.L l m i k = S.ric k m := by
    unfold ric
    rw [Finset.sum_comm]
    refine Finset.sum_congr rfl fun r _ => ?_
    rw [← S.hL, Matrix.mul_apply]
    exact Finset.sum_congr rfl fun j _ => by rw [S.h_symm]
  have e2 : ∑ i, ∑ l, S.h i l * (S.ric i m * S.g k l) = S.ric k m := by
    have : ∀ i, ∑ l, S.h i l * (S.ric i m * S.g k l) = S.ric i m * if i = k then 1 else 0 := fun i => by
      rw [← S.sum_g i k, Finset.mul_sum]
      exact Finset.sum_congr rfl fun l _ => by rw [S.g_symm l k]; ring
    rw [Finset.sum_congr rfl fun i _ => this i]
    simp
  have e3 : ∑ i, ∑ l, S.h i l * (S.ric i l * S.g k m) = S.scal * S.g k m := by
    unfold scal
    simp only [Finset.sum_mul]
    exact Finset.sum_congr rfl fun i _ => Finset.sum_congr rfl fun l _ => by ring
  have e4 : ∑ i, ∑ l, S.h i l * (S.ric k l * S.g i m) = S.ric k m := by
    rw [Finset.sum_comm]
    have : ∀ l, ∑ i, S.h i l * (S.ric k l * S.g i m) = S.ric k l * if l = m then 1 else 0 := fun l => by
      rw [← S.sum_g l m, Finset.mul_sum]
      exact Finset.sum_congr rfl fun i _ => by rw [S.h_symm i l]; ring
    rw [Finset.sum_congr rfl fun l _ => this l]
    simp
  have e5 : ∑ i, ∑ l, S.h i l * (S.ric k m * S.g i l) = S.ric k m * (Fintype.card ι : K) := by
    rw [← S.trace_hg, Finset.mul_sum]
    refine Finset.sum_congr rfl fun i _ => ?_
    rw [Finset.mul_sum]
    exact Finset.sum_congr rfl fun l _ => by ring
  have e6 : ∑ i, ∑ l, S.h i l * (S.scal * (S.g i l * S.g k m)) = S.scal * S.g k m * (Fintype.card ι : K) := by
    rw [← S.trace_hg, Finset.mul_sum]
    refine Finset.sum_congr rfl fun i _ => ?_
    rw [Finset.mul_sum]
    exact Finset.sum_congr rfl fun l _ => by ring
  have e7 : ∑ i, ∑ l, S.h i l * (S.scal * (S.g i m * S.g k l)) = S.scal * S.g k m := by
    have : ∀ i, ∑ l, S.h i l * (S.scal * (S.g i m * S.g k l)) = S.scal * S.g i m * if i = k then 1 else 0 :=
      fun i => by
        rw [← S.sum_g i k, Finset.mul_sum]
        exact Finset.sum_congr rfl fun l _ => by rw [S.g_symm l k]; ring
    rw [Finset.sum_congr rfl fun i _ => this i]
    simp
  have hW : ∀ i l, S.h i l * S.W a b i k l m = S.h i l * S.L l m i k + algebraMap ℚ K a *
      (S.h i l * (S.ric i m * S.g k l)) - algebraMap ℚ K a * (S.h i l * (S.ric i l * S.g k m)) + algebraMap ℚ K a *
      (S.h i l * (S.ric k l * S.g i m)) - algebraMap ℚ K a * (S.h i l * (S.ric k m * S.g i l)) + algebraMap ℚ K b *
      (S.h i l * (S.scal * (S.g i l * S.g k m))) - algebraMap ℚ K b * (S.h i l * (S.scal * (S.g i m * S.g k l))) :=
    fun i l => by unfold W; simp only [Algebra.smul_def]; ring
  simp only [hW, Finset.sum_add_distrib, Finset.sum_sub_distrib, ← Finset.mul_sum, e1, e2, e3, e4, e5, e6, e7]
  have ha' := congrArg (algebraMap ℚ K) ha
  have hb' := congrArg (algebraMap ℚ K) hb
  simp only [map_add, map_one, map_mul, map_sub, map_natCast, map_zero, map_ofNat] at ha' hb'
  linear_combination (S.ric k m) * ha' + S.scal * S.g k m * hb'

end Data
end PyOGRe.Geo
