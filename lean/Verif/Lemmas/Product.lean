import Verif.Lemmas.Constant
import Verif.Lemmas.EulerLagrange
import Verif.Spec.Product

/-! Helper lemmas: the connection and the curvature of a product. -/

namespace PyOGRe
open Spec Finset
variable {K : Type} [CommRing K] [Algebra ℚ K] {E : Engine K} {A B G F : Ground K}

/-- All on the same side of `a`. -/
def Alike (a : Nat) (l : List Nat) : Prop := (∀ x ∈ l, x < a) ∨ ∀ x ∈ l, a ≤ x

theorem below_or {a b x : Nat} (h : x < a + b) : x < a ∨ ∃ y, x = a + y ∧ y < b := by
  by_cases hx : x < a
  · exact Or.inl hx
  · exact Or.inr ⟨x - a, by omega, by omega⟩

/-- The Christoffel symbols do not depend on a coordinate that the metric does not depend on. -/
theorem apart_christoffel (hC : Calculus E) (hi : Inverse F.n F.g F.gi) {k : Nat}
    (hg : ∀ i j, i < F.n → j < F.n → G.d E k (F.g i j) = 0) {l m n : Nat} (hl : l < F.n) (hm : m < F.n) (hn : n < F.n) :
    G.d E k (christoffel E F l m n) = 0 := by
  have h2 : ∀ p i j, i < F.n → j < F.n → G.d E k (F.d E p (F.g i j)) = 0 := fun p i j hi hj => by
    show E.diff _ (E.diff _ _) = 0
    rw [hC.comm]
    show F.d E p (G.d E k (F.g i j)) = 0
    rw [hg i j hi hj, d_zero hC]
  unfold christoffel
  have e : G.d E k (rat (1 / 2) * ∑ s ∈ range F.n, F.gi l s * (F.d E m (F.g n s) + F.d E n (F.g s m) - F.d E s (F.g m n))) =
      rat (1 / 2) * G.d E k (∑ s ∈ range F.n, F.gi l s * (F.d E m (F.g n s) + F.d E n (F.g s m) - F.d E s (F.g m n))) :=
    diff_rat hC _ _ _
  rw [e, d_sum hC, sum_eq_zero fun s hs => ?_, mul_zero]
  have hs : s < F.n := by simpa using hs
  have e1 : G.d E k (F.d E m (F.g n s) + F.d E n (F.g s m) - F.d E s (F.g m n)) = 0 := by
    rw [sub_eq_add_neg]
    have e2 : G.d E k (-F.d E s (F.g m n)) = 0 := by
      have := hC.add (G.syms.getD k "") (F.d E s (F.g m n)) (-F.d E s (F.g m n))
      rw [add_neg_cancel] at this
      have h0 := d_zero (G := G) hC k
      have h1 := h2 s m n hm hn
      unfold Ground.d at *
      rw [h0, h1, zero_add] at this
      exact this.symm
    have := hC.add (G.syms.getD k "") (F.d E m (F.g n s) + F.d E n (F.g s m)) (-F.d E s (F.g m n))
    have h1 := hC.add (G.syms.getD k "") (F.d E m (F.g n s)) (F.d E n (F.g s m))
    have h3 := h2 m n s hn hs
    have h4 := h2 n s m hs hm
    unfold Ground.d at *
    rw [this, h1, h3, h4, e2, add_zero, add_zero]
  rw [d_mul hC, e1, mul_zero, add_zero, constant_inverse hC hi hg hl hs, zero_mul]

section
variable (h : Product E A B G) (hA : A.syms.length = A.n)
include h hA

theorem product_d_first {k : Nat} (hk : k < A.n) (x : K) : G.d E k x = A.d E k x := by
  unfold Ground.d
  rw [h.syms, List.getD_eq_getElem?_getD, List.getElem?_append_left (by omega), ← List.getD_eq_getElem?_getD]

theorem product_d_second (k : Nat) (x : K) : G.d E (A.n + k) x = B.d E k x := by
  unfold Ground.d
  rw [h.syms, List.getD_eq_getElem?_getD, List.getElem?_append_right (by omega), hA, Nat.add_sub_cancel_left,
    ← List.getD_eq_getElem?_getD]

omit hA [Algebra ℚ K] in
theorem product_gi (hi : Inverse G.n G.g G.gi) (ha : Inverse A.n A.g A.gi) (hb : Inverse B.n B.g B.gi) :
    (∀ i j, i < A.n → j < A.n → G.gi i j = A.gi i j) ∧ (∀ i j, i < B.n → j < B.n → G.gi (A.n + i) (A.n + j) = B.gi i j) ∧
    ∀ i j, i < A.n → j < B.n → G.gi i (A.n + j) = 0 ∧ G.gi (A.n + j) i = 0 := by
  let N : Nat → Nat → K := fun i j => if i < A.n ∧ j < A.n then A.gi i j else if A.n ≤ i ∧ A.n ≤ j then
    B.gi (i - A.n) (j - A.n) else 0
  have n1 : ∀ i j, i < A.n → j < A.n → N i j = A.gi i j := fun i j hi hj => if_pos ⟨hi, hj⟩
  have n2 : ∀ i j, N (A.n + i) (A.n + j) = B.gi i j := fun i j => by
    show (if _ then _ else _) = _
    rw [if_neg (by omega), if_pos (by omega), Nat.add_sub_cancel_left, Nat.add_sub_cancel_left]
  have n3 : ∀ i j, i < A.n → N i (A.n + j) = 0 ∧ N (A.n + j) i = 0 := fun i j hi => by
    constructor <;>
    · show (if _ then _ else _) = _
      rw [if_neg (by omega), if_neg (by omega)]
  have hN : Inverse G.n G.g N := by
    rw [h.n]
    intro i j hi0 hj0
    unfold matMul
    rw [sum_range_add, sum_range_add]
    rcases below_or hi0 with hi | ⟨i, rfl, hi⟩ <;> rcases below_or hj0 with hj | ⟨j, rfl, hj⟩
    · obtain ⟨e1, e2⟩ := ha i j hi hj
      unfold matMul at e1 e2
      constructor
      · rw [← e1, sum_eq_zero (s := range B.n) fun x hx => by rw [(n3 j x hj).2, mul_zero], add_zero]
        exact sum_congr rfl fun x hx => by rw [n1 x j (mem_range.1 hx) hj, h.first i x hi (mem_range.1 hx)]
      · rw [sum_eq_zero (s := range B.n) fun x hx => by rw [(n3 i x hi).1, zero_mul], add_zero, ← e2]
        exact sum_congr rfl fun x hx => by rw [n1 i x hi (mem_range.1 hx), h.first x j (mem_range.1 hx) hj]
    · have e : (delta i (A.n + j) : K) = 0 := if_neg (by omega)
      rw [e]
      constructor
      · rw [sum_eq_zero fun x hx => by rw [(n3 x j (mem_range.1 hx)).1, mul_zero],
          sum_eq_zero fun x hx => by rw [(h.between i x hi (mem_range.1 hx)).1, zero_mul], add_zero]
      · rw [sum_eq_zero fun x hx => by rw [(h.between x j (mem_range.1 hx) hj).1, mul_zero],
          sum_eq_zero fun x hx => by rw [(n3 i x hi).1, zero_mul], add_zero]
    · have e : (delta (A.n + i) j : K) = 0 := if_neg (by omega)
      rw [e]
      constructor
      · rw [sum_eq_zero fun x hx => by rw [(h.between x i (mem_range.1 hx) hi).2, zero_mul],
          sum_eq_zero fun x hx => by rw [(n3 j x hj).2, mul_zero], add_zero]
      · rw [sum_eq_zero fun x hx => by rw [(n3 x i (mem_range.1 hx)).2, zero_mul],
          sum_eq_zero fun x hx => by rw [(h.between j x hj (mem_range.1 hx)).2, mul_zero], add_zero]
    · have e : (delta (A.n + i) (A.n + j) : K) = delta i j := by
        unfold delta
        simp
      obtain ⟨e1, e2⟩ := hb i j hi hj
      unfold matMul at e1 e2
      rw [e]
      constructor
      · rw [← e1, sum_eq_zero fun x hx => by rw [(h.between x i (mem_range.1 hx) hi).2, zero_mul], zero_add]
        exact sum_congr rfl fun x hx => by rw [n2, h.second i x hi (mem_range.1 hx)]
      · rw [← e2, sum_eq_zero fun x hx => by rw [(n3 x i (mem_range.1 hx)).2, zero_mul], zero_add]
        exact sum_congr rfl fun x hx => by rw [n2, h.second x j (mem_range.1 hx) hj]
  have e := fun i j => inverse_unique hi hN i j
  rw [h.n] at e
  refine ⟨fun i j hi hj => ?_, fun i j hi hj => ?_, fun i j hi hj => ⟨?_, ?_⟩⟩
  · rw [e i j (by omega) (by omega), n1 i j hi hj]
  · rw [e _ _ (by omega) (by omega), n2]
  · rw [e _ _ (by omega) (by omega), (n3 i j hi).1]
  · rw [e _ _ (by omega) (by omega), (n3 i j hi).2]

end

/-- A connection consists of two blocks, each of which depends only on its own coordinates. -/
structure SplitConnection (E : Engine K) (A B G : Ground K) (α β Γ : Nat → Nat → Nat → K) : Prop where
  first : ∀ l m n, l < A.n → m < A.n → n < A.n → Γ l m n = α l m n
  second : ∀ l m n, l < B.n → m < B.n → n < B.n → Γ (A.n + l) (A.n + m) (A.n + n) = β l m n
  zero : ∀ l m n, l < G.n → m < G.n → n < G.n → ¬ Alike A.n [l, m, n] → Γ l m n = 0
  apart : ∀ k l m n, k < G.n → l < G.n → m < G.n → n < G.n → ¬ Alike A.n [k, l, m, n] → G.d E k (Γ l m n) = 0

theorem alike_three {a l m n : Nat} : Alike a [l, m, n] ↔ (l < a ∧ m < a ∧ n < a) ∨ (a ≤ l ∧ a ≤ m ∧ a ≤ n) := by
  simp [Alike]

theorem alike_four {a k l m n : Nat} :
    Alike a [k, l, m, n] ↔ (k < a ∧ l < a ∧ m < a ∧ n < a) ∨ (a ≤ k ∧ a ≤ l ∧ a ≤ m ∧ a ≤ n) := by
  simp [Alike]

theorem split_christoffel (hC : Calculus E) (h : Product E A B G) (hA : A.syms.length = A.n) (hi : Inverse G.n G.g G.gi)
    (ha : Inverse A.n A.g A.gi) (hb : Inverse B.n B.g B.gi) :
    SplitConnection E A B G (christoffel E A) (christoffel E B) (christoffel E G) := by
  obtain ⟨g1, g2, g3⟩ := product_gi h hi ha hb
  have dg : ∀ k i j, k < G.n → i < G.n → j < G.n → ¬ Alike A.n [k, i, j] → G.d E k (G.g i j) = 0 := by
    intro k i j hk0 hi0 hj0 hn
    rw [alike_three] at hn
    rw [h.n] at hk0 hi0 hj0
    rcases below_or hi0 with hi | ⟨i, rfl, hi⟩ <;> rcases below_or hj0 with hj | ⟨j, rfl, hj⟩
    · obtain ⟨k, rfl, hk⟩ := (below_or hk0).resolve_left (by omega)
      rw [h.first i j hi hj, product_d_second h hA, h.firstApart k i j hk hi hj]
    · rw [(h.between i j hi hj).1, d_zero hC]
    · rw [(h.between j i hj hi).2, d_zero hC]
    · rcases below_or hk0 with hk | ⟨k, rfl, hk⟩
      · rw [h.second i j hi hj, product_d_first h hA hk, h.secondApart k i j hk hi hj]
      · omega
  have z : ∀ l m n, l < G.n → m < G.n → n < G.n → ¬ Alike A.n [l, m, n] → christoffel E G l m n = 0 := by
    intro l m n hl hm hn hz
    unfold christoffel
    rw [sum_eq_zero fun s hs => ?_, mul_zero]
    have hs : s < G.n := by simpa using hs
    by_cases hls : l < A.n ↔ s < A.n
    · rw [alike_three] at hz
      rw [dg m n s hm hn hs (by rw [alike_three]; omega), dg n s m hn hs hm (by rw [alike_three]; omega),
        dg s m n hs hm hn (by rw [alike_three]; omega)]
      ring
    · have hl0 := hl
      have hs0 := hs
      rw [h.n] at hl0 hs0
      have : G.gi l s = 0 := by
        rcases below_or hl0 with hl' | ⟨l, rfl, hl'⟩ <;> rcases below_or hs0 with hs' | ⟨s, rfl, hs'⟩
        · omega
        · exact (g3 l s hl' hs').1
        · exact (g3 s l hs' hl').2
        · omega
      rw [this, zero_mul]
  have f : ∀ l m n, l < A.n → m < A.n → n < A.n → christoffel E G l m n = christoffel E A l m n := by
    intro l m n hl hm hn
    unfold christoffel
    rw [h.n, sum_range_add, sum_eq_zero (s := range B.n) fun s hs => by rw [(g3 l s hl (mem_range.1 hs)).1, zero_mul], add_zero]
    congr 1
    refine sum_congr rfl fun s hs => ?_
    have hs : s < A.n := by simpa using hs
    rw [g1 l s hl hs, h.first n s hn hs, h.first s m hs hm, h.first m n hm hn, product_d_first h hA hm, product_d_first h hA hn,
      product_d_first h hA hs]
  have f' : ∀ l m n, l < B.n → m < B.n → n < B.n →
      christoffel E G (A.n + l) (A.n + m) (A.n + n) = christoffel E B l m n := by
    intro l m n hl hm hn
    unfold christoffel
    rw [h.n, sum_range_add, sum_eq_zero (s := range A.n) fun s hs => by rw [(g3 s l (mem_range.1 hs) hl).2, zero_mul], zero_add]
    congr 1
    refine sum_congr rfl fun s hs => ?_
    have hs : s < B.n := by simpa using hs
    rw [g2 l s hl hs, h.second n s hn hs, h.second s m hs hm, h.second m n hm hn, product_d_second h hA, product_d_second h hA,
      product_d_second h hA]
  refine ⟨f, f', z, fun k l m n hk0 hl0 hm0 hn0 hz => ?_⟩
  by_cases hlm : Alike A.n [l, m, n]
  · rw [alike_four] at hz
    rw [alike_three] at hlm
    rw [h.n] at hk0 hl0 hm0 hn0
    rcases hlm with ⟨h1, h2, h3⟩ | ⟨h1, h2, h3⟩
    · obtain ⟨k, rfl, hk⟩ := (below_or hk0).resolve_left (by omega)
      rw [f l m n h1 h2 h3]
      exact apart_christoffel hC ha (fun i j hi hj => by rw [product_d_second h hA]; exact h.firstApart k i j hk hi hj) h1 h2 h3
    · obtain ⟨l, rfl, hl⟩ := (below_or hl0).resolve_left (by omega)
      obtain ⟨m, rfl, hm⟩ := (below_or hm0).resolve_left (by omega)
      obtain ⟨n, rfl, hn⟩ := (below_or hn0).resolve_left (by omega)
      have hk : k < A.n := by omega
      rw [f' l m n hl hm hn]
      exact apart_christoffel hC hb (fun i j hi hj => by rw [product_d_first h hA hk]; exact h.secondApart k i j hk hi hj) hl hm hn
  · rw [z l m n hl0 hm0 hn0 hlm, d_zero hC]

section
variable {α β Γ : Nat → Nat → Nat → K} (hC : Calculus E) (h : Product E A B G) (hA : A.syms.length = A.n)
  (s : SplitConnection E A B G α β Γ)
include hC h hA s

omit hA in
theorem split_riemann_zero {r p m n : Nat} (hr : r < G.n) (hp : p < G.n) (hm : m < G.n) (hn : n < G.n)
    (hz : ¬ Alike A.n [r, p, m, n]) : riemannOf E G Γ r p m n = 0 := by
  rw [alike_four] at hz
  unfold riemannOf
  have hs : ∀ m n, m < G.n → n < G.n → ¬ Alike A.n [r, p, m, n] → ∑ l ∈ range G.n, Γ r m l * Γ l n p = 0 := by
    intro m n hm hn hz
    rw [alike_four] at hz
    refine sum_eq_zero fun l hl => ?_
    have hl : l < G.n := by simpa using hl
    by_cases h1 : Alike A.n [r, m, l]
    · rw [s.zero l n p hl hn hp (by rw [alike_three] at h1 ⊢; omega), mul_zero]
    · rw [s.zero r m l hr hm hl h1, zero_mul]
  rw [s.apart m r n p hm hr hn hp (by rw [alike_four]; omega), s.apart n r m p hn hr hm hp (by rw [alike_four]; omega),
    hs m n hm hn (by rw [alike_four]; omega), hs n m hn hm (by rw [alike_four]; omega)]
  ring

theorem split_riemann_first {r p m n : Nat} (hr : r < A.n) (hp : p < A.n) (hm : m < A.n) (hn : n < A.n) :
    riemannOf E G Γ r p m n = riemannOf E A α r p m n := by
  have hs : ∀ m n, m < A.n → n < A.n → ∑ l ∈ range G.n, Γ r m l * Γ l n p = ∑ l ∈ range A.n, α r m l * α l n p := by
    intro m n hm hn
    rw [h.n, sum_range_add, sum_eq_zero (s := range B.n) fun l hl => by
      rw [s.zero r m (A.n + l) (by rw [h.n]; omega) (by rw [h.n]; omega) (by rw [h.n]; have := mem_range.1 hl; omega)
        (by rw [alike_three]; omega), zero_mul], add_zero]
    exact sum_congr rfl fun l hl => by rw [s.first r m l hr hm (mem_range.1 hl), s.first l n p (mem_range.1 hl) hn hp]
  unfold riemannOf
  rw [hs m n hm hn, hs n m hn hm, s.first r n p hr hn hp, s.first r m p hr hm hp, product_d_first h hA hm, product_d_first h hA hn]

theorem split_riemann_second {r p m n : Nat} (hr : r < B.n) (hp : p < B.n) (hm : m < B.n) (hn : n < B.n) :
    riemannOf E G Γ (A.n + r) (A.n + p) (A.n + m) (A.n + n) = riemannOf E B β r p m n := by
  have hs : ∀ m n, m < B.n → n < B.n → ∑ l ∈ range G.n, Γ (A.n + r) (A.n + m) l * Γ l (A.n + n) (A.n + p) =
      ∑ l ∈ range B.n, β r m l * β l n p := by
    intro m n hm hn
    rw [h.n, sum_range_add, sum_eq_zero (s := range A.n) fun l hl => by
      rw [s.zero (A.n + r) (A.n + m) l (by rw [h.n]; omega) (by rw [h.n]; omega) (by rw [h.n]; have := mem_range.1 hl; omega)
        (by rw [alike_three]; have := mem_range.1 hl; omega), zero_mul], zero_add]
    exact sum_congr rfl fun l hl => by rw [s.second r m l hr hm (mem_range.1 hl), s.second l n p (mem_range.1 hl) hn hp]
  unfold riemannOf
  rw [hs m n hm hn, hs n m hn hm, s.second r n p hr hn hp, s.second r m p hr hm hp, product_d_second h hA, product_d_second h hA]

omit hA in
theorem split_ricci_zero {m n : Nat} (hm : m < G.n) (hn : n < G.n) (hz : ¬ (m < A.n ↔ n < A.n)) : ricciOf E G Γ m n = 0 :=
  sum_eq_zero fun l hl => split_riemann_zero hC h s (by simpa using hl) hm (by simpa using hl) hn (by rw [alike_four]; omega)

theorem split_ricci_first {m n : Nat} (hm : m < A.n) (hn : n < A.n) : ricciOf E G Γ m n = ricciOf E A α m n := by
  unfold ricciOf
  rw [h.n, sum_range_add, sum_eq_zero (s := range B.n) fun l hl => split_riemann_zero hC h s
    (by rw [h.n]; have := mem_range.1 hl; omega) (by rw [h.n]; omega) (by rw [h.n]; have := mem_range.1 hl; omega)
    (by rw [h.n]; omega) (by rw [alike_four]; omega), add_zero]
  exact sum_congr rfl fun l hl => split_riemann_first hC h hA s (mem_range.1 hl) hm (mem_range.1 hl) hn

theorem split_ricci_second {m n : Nat} (hm : m < B.n) (hn : n < B.n) :
    ricciOf E G Γ (A.n + m) (A.n + n) = ricciOf E B β m n := by
  unfold ricciOf
  rw [h.n, sum_range_add, sum_eq_zero (s := range A.n) fun l hl => split_riemann_zero hC h s
    (by rw [h.n]; have := mem_range.1 hl; omega) (by rw [h.n]; omega) (by rw [h.n]; have := mem_range.1 hl; omega)
    (by rw [h.n]; omega) (by rw [alike_four]; have := mem_range.1 hl; omega), zero_add]
  exact sum_congr rfl fun l hl => split_riemann_second hC h hA s (mem_range.1 hl) hm (mem_range.1 hl) hn

theorem split_scalar (hi : Inverse G.n G.g G.gi) (ha : Inverse A.n A.g A.gi) (hb : Inverse B.n B.g B.gi) :
    scalarOf E G Γ = scalarOf E A α + scalarOf E B β := by
  obtain ⟨g1, g2, -⟩ := product_gi h hi ha hb
  unfold scalarOf
  rw [h.n, sum_range_add]
  congr 1
  · refine sum_congr rfl fun m hm => ?_
    have hm : m < A.n := by simpa using hm
    rw [sum_range_add, sum_eq_zero (s := range B.n) fun n hn => by
      rw [split_ricci_zero hC h s (by rw [h.n]; omega) (by rw [h.n]; have := mem_range.1 hn; omega) (by omega), mul_zero], add_zero]
    exact sum_congr rfl fun n hn => by rw [g1 m n hm (mem_range.1 hn), split_ricci_first hC h hA s hm (mem_range.1 hn)]
  · refine sum_congr rfl fun m hm => ?_
    have hm : m < B.n := by simpa using hm
    rw [sum_range_add, sum_eq_zero (s := range A.n) fun n hn => by
      rw [split_ricci_zero hC h s (by rw [h.n]; omega) (by rw [h.n]; have := mem_range.1 hn; omega)
        (by have := mem_range.1 hn; omega), mul_zero], zero_add]
    exact sum_congr rfl fun n hn => by rw [g2 m n hm (mem_range.1 hn), split_ricci_second hC h hA s hm (mem_range.1 hn)]

end

end PyOGRe
