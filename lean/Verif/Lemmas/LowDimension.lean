import Verif.Lemmas.Symmetry
import Mathlib.Tactic.IntervalCases
import Mathlib.Tactic.LinearCombination

/-! Helper lemmas: curvature in one, two and three dimensions. -/

namespace PyOGRe
open Spec Finset
variable {K : Type} [CommRing K] [Algebra ℚ K] {E : Engine K} {G : Ground K}

omit [CommRing K] [Algebra ℚ K] in
theorem half_zero [CommRing K] [Algebra ℚ K] {x : K} (h : x = -x) : x = 0 := by
  have h2 : (rat (1 / 2) : K) * 2 = 1 := by
    unfold rat
    rw [show (2 : K) = algebraMap ℚ K 2 from (map_ofNat _ 2).symm, ← map_mul]
    norm_num
  linear_combination (rat (1 / 2)) * h - x * h2

/-- The Riemann tensor from its lower components. -/
theorem riemann_raise (hi : Inverse G.n G.g G.gi) {a b c d : Nat} (ha : a < G.n) :
    riemann E G a b c d = ∑ i ∈ range G.n, G.gi a i * riemannLow E G i b c d := by
  unfold riemannLow
  simp only [Finset.mul_sum]
  rw [Finset.sum_comm]
  have : ∀ k ∈ range G.n, ∑ i ∈ range G.n, G.gi a i * (G.g i k * riemann E G k b c d) = delta a k * riemann E G k b c d := by
    intro k hk
    rw [← (hi a k ha (Finset.mem_range.1 hk)).2]
    unfold matMul
    rw [Finset.sum_mul]
    exact Finset.sum_congr rfl fun i _ => by ring
  rw [Finset.sum_congr rfl this]
  unfold delta
  simp [ha]

variable (hC : Calculus E) (hi : Inverse G.n G.g G.gi) (hs : ∀ i j, i < G.n → j < G.n → G.g i j = G.g j i)
include hC hi hs

theorem riemann_one (hn : G.n = 1) : riemann E G 0 0 0 0 = 0 :=
  half_zero (riemann_antisymm hC hi hs (by omega) (by omega) (by omega) (by omega))

theorem einstein_two (hn : G.n = 2) {m n : Nat} (hm : m < 2) (hn' : n < 2) : einstein E G m n = 0 := by
  have a1 : ∀ a b c d, a < 2 → b < 2 → c < 2 → d < 2 → riemannLow E G a b c d = -riemannLow E G b a c d :=
    fun a b c d ha hb hc hd => riemannLow_first hC hi hs (by omega) (by omega) (by omega) (by omega)
  have a2 : ∀ a b c d, a < 2 → b < 2 → c < 2 → d < 2 → riemannLow E G a b c d = riemannLow E G c d a b :=
    fun a b c d ha hb hc hd => riemannLow_pairs hC hi hs (by omega) (by omega) (by omega) (by omega)
  have z1 : ∀ a c d, a < 2 → c < 2 → d < 2 → riemannLow E G a a c d = 0 := fun a c d ha hc hd => half_zero (a1 a a c d ha ha hc hd)
  have z2 : ∀ a c d, a < 2 → c < 2 → d < 2 → riemannLow E G c d a a = 0 := fun a c d ha hc hd => by
    rw [a2 c d a a hc hd ha ha]; exact z1 a c d ha hc hd
  have l1 : riemannLow E G 1 0 1 0 = riemannLow E G 0 1 0 1 := by
    rw [a1 1 0 1 0 (by decide) (by decide) (by decide) (by decide), a2 0 1 1 0 (by decide) (by decide) (by decide) (by decide),
      a1 1 0 0 1 (by decide) (by decide) (by decide) (by decide), neg_neg]
  have l2 : riemannLow E G 1 0 0 1 = -riemannLow E G 0 1 0 1 := a1 1 0 0 1 (by decide) (by decide) (by decide) (by decide)
  have l3 : riemannLow E G 0 1 1 0 = -riemannLow E G 0 1 0 1 := by
    rw [a2 0 1 1 0 (by decide) (by decide) (by decide) (by decide), l2]
  have e : ∀ m n, m < 2 → n < 2 → ricci E G m n = ∑ l ∈ range 2, ∑ i ∈ range 2, G.gi l i * riemannLow E G i m l n := by
    intro m n hm hn'
    unfold ricci
    rw [hn]
    refine Finset.sum_congr rfl fun l hl => ?_
    rw [riemann_raise hi (by rw [hn]; exact Finset.mem_range.1 hl), hn]
  have e00 : ricci E G 0 0 = G.gi 1 1 * riemannLow E G 0 1 0 1 := by
    rw [e 0 0 (by decide) (by decide)]
    simp [Finset.sum_range_succ, z1, z2, l1]
  have e01 : ricci E G 0 1 = -(G.gi 0 1 * riemannLow E G 0 1 0 1) := by
    rw [e 0 1 (by decide) (by decide)]
    simp [Finset.sum_range_succ, z1, z2, l2]
  have e10 : ricci E G 1 0 = -(G.gi 1 0 * riemannLow E G 0 1 0 1) := by
    rw [e 1 0 (by decide) (by decide)]
    simp [Finset.sum_range_succ, z1, z2, l3]
  have e11 : ricci E G 1 1 = G.gi 0 0 * riemannLow E G 0 1 0 1 := by
    rw [e 1 1 (by decide) (by decide)]
    simp [Finset.sum_range_succ, z1, z2]
  have hsym : G.gi 1 0 = G.gi 0 1 := inverse_symm hi hs 1 0 (by omega) (by omega)
  have hg : G.g 1 0 = G.g 0 1 := hs 1 0 (by omega) (by omega)
  have h2 : (rat (1 / 2) : K) * 2 = 1 := by
    unfold rat
    rw [show (2 : K) = algebraMap ℚ K 2 from (map_ofNat _ 2).symm, ← map_mul]
    norm_num
  have hsc : rat (1 / 2) * scalarCurvature E G =
      (G.gi 0 0 * G.gi 1 1 - G.gi 0 1 * G.gi 0 1) * riemannLow E G 0 1 0 1 := by
    unfold scalarCurvature
    rw [hn]
    simp only [Finset.sum_range_succ, Finset.sum_range_zero, e00, e01, e10, e11, hsym]
    linear_combination (G.gi 0 0 * G.gi 1 1 - G.gi 0 1 * G.gi 0 1) * riemannLow E G 0 1 0 1 * h2
  have i00 := (hi 0 0 (by omega) (by omega)).1
  have i01 := (hi 0 1 (by omega) (by omega)).1
  have i10 := (hi 1 0 (by omega) (by omega)).1
  have i11 := (hi 1 1 (by omega) (by omega)).1
  unfold matMul delta at i00 i01 i10 i11
  rw [hn] at i00 i01 i10 i11
  simp only [Finset.sum_range_succ, Finset.sum_range_zero, hsym, hg, if_true, show ((0 : Nat) = 1) = False by decide,
    show ((1 : Nat) = 0) = False by decide, if_false, zero_add] at i00 i01 i10 i11
  unfold einstein
  rw [hsc]
  interval_cases m <;> interval_cases n
  · rw [e00]
    linear_combination (riemannLow E G 0 1 0 1) * (G.gi 0 1 * i01 - G.gi 1 1 * i00)
  · rw [e01]
    linear_combination (riemannLow E G 0 1 0 1) * (G.gi 0 1 * i00 - G.gi 0 0 * i01)
  · rw [e10, hsym, hg]
    linear_combination (riemannLow E G 0 1 0 1) * (G.gi 0 1 * i00 - G.gi 0 0 * i01)
  · rw [e11]
    linear_combination (riemannLow E G 0 1 0 1) * (G.gi 0 1 * i10 - G.gi 0 0 * i11)

omit hC hi hs in
/-- A tensor with the symmetries of the Weyl tensor in three dimensions, two indices of which are upper. -/
theorem three_zero {U : Nat → Nat → Nat → Nat → K}
    (h1 : ∀ a b c d, a < 3 → b < 3 → c < 3 → d < 3 → U a b c d = -U b a c d)
    (h2 : ∀ a b c d, a < 3 → b < 3 → c < 3 → d < 3 → U a b c d = -U a b d c)
    (ht : ∀ b d, b < 3 → d < 3 → ∑ a ∈ range 3, U a b a d = 0)
    {a b c d : Nat} (ha : a < 3) (hb : b < 3) (hc : c < 3) (hd : d < 3) : U a b c d = 0 := by
  have z1 : ∀ a c d, a < 3 → c < 3 → d < 3 → U a a c d = 0 := fun a c d ha hc hd => half_zero (h1 a a c d ha ha hc hd)
  have z2 : ∀ a c d, a < 3 → c < 3 → d < 3 → U c d a a = 0 := fun a c d ha hc hd => half_zero (h2 c d a a hc hd ha ha)
  have s : ∀ a b c d, a < 3 → b < 3 → c < 3 → d < 3 → U b a d c = U a b c d := fun a b c d ha hb hc hd => by
    rw [h1 b a d c hb ha hd hc, h2 a b d c ha hb hd hc, neg_neg]
  have t : ∀ b d, b < 3 → d < 3 → U 0 b 0 d + U 1 b 1 d + U 2 b 2 d = 0 := fun b d hb hd => by
    have := ht b d hb hd
    simpa [Finset.sum_range_succ] using this
  have l : ∀ {x : Nat}, x = 0 ∨ x = 1 ∨ x = 2 → x < 3 := by omega
  have t00 := t 0 0 (by decide) (by decide)
  have t01 := t 0 1 (by decide) (by decide)
  have t02 := t 0 2 (by decide) (by decide)
  have t10 := t 1 0 (by decide) (by decide)
  have t11 := t 1 1 (by decide) (by decide)
  have t12 := t 1 2 (by decide) (by decide)
  have t20 := t 2 0 (by decide) (by decide)
  have t21 := t 2 1 (by decide) (by decide)
  have t22 := t 2 2 (by decide) (by decide)
  have q : ∀ a b c d, a < 3 → b < 3 → c < 3 → d < 3 → a < b → c < d → U a b c d = 0 := by
    rw [z1 0 0 0 (by decide) (by decide) (by decide), s 0 1 0 1 (by decide) (by decide) (by decide) (by decide),
      s 0 2 0 2 (by decide) (by decide) (by decide) (by decide)] at t00
    rw [z1 1 1 1 (by decide) (by decide) (by decide), s 1 2 1 2 (by decide) (by decide) (by decide) (by decide)] at t11
    rw [z1 2 2 2 (by decide) (by decide) (by decide)] at t22
    rw [z1 0 0 1 (by decide) (by decide) (by decide), z2 1 1 0 (by decide) (by decide) (by decide),
      s 0 2 1 2 (by decide) (by decide) (by decide) (by decide)] at t01
    rw [z1 0 0 2 (by decide) (by decide) (by decide), z2 2 2 0 (by decide) (by decide) (by decide),
      h1 1 0 1 2 (by decide) (by decide) (by decide) (by decide)] at t02
    rw [z2 0 0 1 (by decide) (by decide) (by decide), z1 1 1 0 (by decide) (by decide) (by decide),
      s 1 2 0 2 (by decide) (by decide) (by decide) (by decide)] at t10
    rw [z1 1 1 2 (by decide) (by decide) (by decide), z2 2 2 1 (by decide) (by decide) (by decide)] at t12
    rw [z2 0 0 2 (by decide) (by decide) (by decide), z1 2 2 0 (by decide) (by decide) (by decide),
      h2 1 2 1 0 (by decide) (by decide) (by decide) (by decide)] at t20
    rw [z1 2 2 1 (by decide) (by decide) (by decide), z2 1 1 2 (by decide) (by decide) (by decide)] at t21
    have f : U 0 1 0 1 = 0 := half_zero (by linear_combination t00 + t11 - t22)
    intro a b c d ha hb hc hd hab hcd
    interval_cases a <;> interval_cases b <;> first | exact absurd hab (by decide) | skip
    all_goals interval_cases c <;> interval_cases d <;> first | exact absurd hcd (by decide) | skip
    · exact f
    · linear_combination t12
    · linear_combination -t02
    · linear_combination t21
    · linear_combination t00 - f
    · linear_combination t01
    · linear_combination -t20
    · linear_combination t10
    · linear_combination t11 - f
  rcases Nat.lt_trichotomy a b with hab | rfl | hab
  · rcases Nat.lt_trichotomy c d with hcd | rfl | hcd
    · exact q a b c d ha hb hc hd hab hcd
    · exact z2 c a b hc ha hb
    · rw [h2 a b c d ha hb hc hd, q a b d c ha hb hd hc hab hcd, neg_zero]
  · exact z1 a c d ha hc hd
  · rcases Nat.lt_trichotomy c d with hcd | rfl | hcd
    · rw [h1 a b c d ha hb hc hd, q b a c d hb ha hc hd hab hcd, neg_zero]
    · exact z2 c a b hc ha hb
    · rw [s b a d c hb ha hd hc, q b a d c hb ha hd hc hab hcd]

theorem weyl_three (hn : G.n = 3) {a b c d : Nat} (ha : a < 3) (hb : b < 3) (hc : c < 3) (hd : d < 3) : weyl E G a b c d = 0 := by
  have u : ∀ a b c d, a < 3 → b < 3 → c < 3 → d < 3 →
      ∑ i ∈ range G.n, ∑ j ∈ range G.n, G.gi i a * G.gi j b * weyl E G i j c d = 0 := by
    intro a b c d ha hb hc hd
    refine three_zero (U := fun a b c d => ∑ i ∈ range G.n, ∑ j ∈ range G.n, G.gi i a * G.gi j b * weyl E G i j c d)
      ?_ ?_ ?_ ha hb hc hd
    · intro a b c d ha hb hc hd
      rw [Finset.sum_comm, ← Finset.sum_neg_distrib]
      refine Finset.sum_congr rfl fun i hi' => ?_
      rw [← Finset.sum_neg_distrib]
      refine Finset.sum_congr rfl fun j hj' => ?_
      rw [weyl_first hC hi hs (Finset.mem_range.1 hj') (Finset.mem_range.1 hi') (by omega) (by omega)]
      ring
    · intro a b c d ha hb hc hd
      rw [← Finset.sum_neg_distrib]
      refine Finset.sum_congr rfl fun i hi' => ?_
      rw [← Finset.sum_neg_distrib]
      refine Finset.sum_congr rfl fun j hj' => ?_
      rw [weyl_last hC hi hs (Finset.mem_range.1 hi') (Finset.mem_range.1 hj') (by omega) (by omega)]
      ring
    · intro b d hb hd
      rw [← hn]
      have : ∀ j ∈ range G.n, ∑ a ∈ range G.n, ∑ i ∈ range G.n, G.gi i a * G.gi j b * weyl E G i j a d = 0 := by
        intro j hj
        have ht := weyl_trace hC hi hs (b := j) (d := d) (Finset.mem_range.1 hj) (by omega) (by omega)
        rw [Finset.sum_comm] at ht
        rw [show (0 : K) = G.gi j b * 0 by rw [mul_zero], ← ht, Finset.mul_sum]
        refine Finset.sum_congr rfl fun a _ => ?_
        rw [Finset.mul_sum]
        exact Finset.sum_congr rfl fun i _ => by ring
      have e : ∀ a ∈ range G.n, ∑ i ∈ range G.n, ∑ j ∈ range G.n, G.gi i a * G.gi j b * weyl E G i j a d =
          ∑ j ∈ range G.n, ∑ i ∈ range G.n, G.gi i a * G.gi j b * weyl E G i j a d := fun a _ => Finset.sum_comm
      rw [Finset.sum_congr rfl e, Finset.sum_comm, Finset.sum_congr rfl this, Finset.sum_const_zero]
  have r : weyl E G a b c d = ∑ p ∈ range G.n, ∑ q ∈ range G.n, G.g p a * G.g q b *
      ∑ i ∈ range G.n, ∑ j ∈ range G.n, G.gi i p * G.gi j q * weyl E G i j c d := by
    have hd' : ∀ i k, i < G.n → k < G.n → ∑ p ∈ range G.n, G.gi i p * G.g p k = delta i k := fun i k h h' => (hi i k h h').2
    have e : ∑ p ∈ range G.n, ∑ q ∈ range G.n, G.g p a * G.g q b *
        ∑ i ∈ range G.n, ∑ j ∈ range G.n, G.gi i p * G.gi j q * weyl E G i j c d =
        ∑ i ∈ range G.n, ∑ j ∈ range G.n, (∑ p ∈ range G.n, G.gi i p * G.g p a) * (∑ q ∈ range G.n, G.gi j q * G.g q b) *
          weyl E G i j c d := by
      simp only [hn, Finset.sum_range_succ, Finset.sum_range_zero]
      ring
    rw [e]
    have : ∀ i ∈ range G.n, ∑ j ∈ range G.n, (∑ p ∈ range G.n, G.gi i p * G.g p a) * (∑ q ∈ range G.n, G.gi j q * G.g q b) *
          weyl E G i j c d = delta i a * weyl E G i b c d := by
      intro i hi'
      have : ∀ j ∈ range G.n, (∑ p ∈ range G.n, G.gi i p * G.g p a) * (∑ q ∈ range G.n, G.gi j q * G.g q b) *
          weyl E G i j c d = delta i a * (delta j b * weyl E G i j c d) := by
        intro j hj'
        rw [hd' i a (Finset.mem_range.1 hi') (by omega), hd' j b (Finset.mem_range.1 hj') (by omega), mul_assoc]
      rw [Finset.sum_congr rfl this, ← Finset.mul_sum]
      congr 1
      unfold delta
      simp [hn, hb]
    rw [Finset.sum_congr rfl this]
    unfold delta
    simp [hn, ha]
  rw [r]
  refine Finset.sum_eq_zero fun p hp => Finset.sum_eq_zero fun q hq => ?_
  rw [u p q c d (by rw [← hn]; exact Finset.mem_range.1 hp) (by rw [← hn]; exact Finset.mem_range.1 hq) hc hd, mul_zero]

end PyOGRe
