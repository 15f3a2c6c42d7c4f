import Verif.Lemmas.Leibniz
import Verif.Spec.Geodesic
import Mathlib.Data.List.Induction

/-! Helper lemmas: the equations of Euler and Lagrange of `g_{mn} ẋ^m ẋ^n`. -/

namespace PyOGRe
open Spec Finset
variable {K : Type} [CommRing K] [Algebra ℚ K] {E : Engine K} {G : Ground K} {C : Curves K}

omit [Algebra ℚ K] in
theorem diff_zero (hC : Calculus E) (s : Sym) : E.diff s 0 = 0 := by
  have := hC.add s 0 0
  rw [add_zero] at this
  exact left_eq_add.1 this

omit [Algebra ℚ K] in
theorem diff_sum (hC : Calculus E) (s : Sym) {ι : Type} (t : Finset ι) (f : ι → K) :
    E.diff s (∑ x ∈ t, f x) = ∑ x ∈ t, E.diff s (f x) := by
  classical
  induction t using Finset.induction_on with
  | empty => simp [diff_zero hC]
  | insert x s hx ih =>
    rw [sum_insert hx, sum_insert hx, ← ih]
    exact hC.add _ _ _

theorem diff_rat (hC : Calculus E) (s : Sym) (q : ℚ) (x : K) : E.diff s (rat q * x) = rat q * E.diff s x := by
  let f : K →+ K := ⟨⟨E.diff s, diff_zero hC s⟩, hC.add s⟩
  have := map_rat_smul f q x
  rw [Algebra.smul_def, Algebra.smul_def] at this
  exact this

/-- The names of coordinates and velocities, as needed below. -/
structure NamesApart (G : Ground K) (C : Curves K) : Prop where
  dots : ∀ i j, i < G.n → j < G.n → dot (G.syms.getD i "") = dot (G.syms.getD j "") → i = j
  coord : ∀ i j, i < G.n → j < G.n → G.syms.getD i "" ≠ dot (G.syms.getD j "")
  ddots : ∀ i j, i < G.n → j < G.n → ddot (G.syms.getD i "") ≠ dot (G.syms.getD j "")
  param : ∀ j, j < G.n → C.parameter ≠ dot (G.syms.getD j "")

omit [Algebra ℚ K] in
theorem apart_of (hd : G.syms.length = G.n) (h : ProperNames C G.syms) : NamesApart G C := by
  have hmem : ∀ i, i < G.n → G.syms.getD i "" ∈ G.syms := fun i hi => by
    have : i < G.syms.length := hd ▸ hi
    rw [List.getD_eq_getElem?_getD, List.getElem?_eq_getElem this]
    exact List.getElem_mem this
  unfold ProperNames at h
  rw [List.nodup_cons, List.nodup_append, List.nodup_append] at h
  obtain ⟨h1, ⟨h2, h3, h4⟩, h5, h6⟩ := h
  simp only [List.mem_append, not_or] at h1 h6
  refine ⟨fun i j hi hj he => ?_, fun i j hi hj he => ?_, fun i j hi hj he => ?_, fun j hj he => ?_⟩
  · have hi' : i < (G.syms.map dot).length := by simpa [hd] using hi
    have hj' : j < (G.syms.map dot).length := by simpa [hd] using hj
    refine (List.Nodup.getElem_inj_iff h3 (hi := hi') (hj := hj')).1 ?_
    have hi2 : i < G.syms.length := hd ▸ hi
    have hj2 : j < G.syms.length := hd ▸ hj
    simpa [List.getD_eq_getElem?_getD, hi2, hj2] using he
  · exact h4 _ (hmem i hi) _ (List.mem_map_of_mem (hmem j hj)) he
  · exact h6 _ (Or.inr (List.mem_map_of_mem (hmem j hj))) _ (List.mem_map_of_mem (hmem i hi)) he.symm
  · exact h1.1.2 (he ▸ List.mem_map_of_mem (hmem j hj))

/-- The momentum `g_{in} ẋ^n`. -/
def momentum (C : Curves K) (G : Ground K) (i : Nat) : K := ∑ n ∈ range G.n, G.g i n * G.speed C n

section
variable (hC : Calculus E) (hv : ∀ s t, E.diff s (C.var t) = if s = t then 1 else 0) (hA : NamesApart G C)
include hC hv hA

omit [Algebra ℚ K] in
theorem diff_momentum {s : Sym} {i : Nat} (hs : ∀ j, j < G.n → s ≠ dot (G.syms.getD j "")) :
    E.diff s (momentum C G i) = ∑ n ∈ range G.n, E.diff s (G.g i n) * G.speed C n := by
  unfold momentum
  rw [diff_sum hC]
  refine sum_congr rfl fun n hn => ?_
  unfold Ground.speed
  rw [hC.mul, hv, if_neg (hs n (mem_range.1 hn))]
  ring

omit [Algebra ℚ K] in
theorem diff_momentum_dot {k i : Nat} (hk : k < G.n)
    (hg : ∀ n, n < G.n → E.diff (dot (G.syms.getD k "")) (G.g i n) = 0) :
    E.diff (dot (G.syms.getD k "")) (momentum C G i) = G.g i k := by
  unfold momentum
  rw [diff_sum hC, sum_eq_single_of_mem k (mem_range.2 hk)]
  · unfold Ground.speed
    rw [hC.mul, hv, if_pos rfl, hg k hk]
    ring
  · intro n hn hnk
    unfold Ground.speed
    rw [hC.mul, hv, if_neg (fun h => hnk (hA.dots k n hk (mem_range.1 hn) h).symm), hg n (mem_range.1 hn)]
    ring

omit [Algebra ℚ K] in
theorem lagrangian_eq : lagrangian C G = ∑ m ∈ range G.n, G.speed C m * momentum C G m := by
  unfold lagrangian momentum
  refine sum_congr rfl fun m _ => ?_
  rw [mul_sum]
  exact sum_congr rfl fun n _ => by ring

omit [Algebra ℚ K] in
theorem diff_lagrangian {s : Sym} (hs : ∀ j, j < G.n → s ≠ dot (G.syms.getD j "")) :
    E.diff s (lagrangian C G) = ∑ m ∈ range G.n, ∑ n ∈ range G.n, E.diff s (G.g m n) * G.speed C m * G.speed C n := by
  rw [lagrangian_eq hC hv hA, diff_sum hC]
  refine sum_congr rfl fun m hm => ?_
  rw [hC.mul, diff_momentum hC hv hA hs]
  unfold Ground.speed
  rw [hv, if_neg (hs m (mem_range.1 hm)), zero_mul, zero_add, mul_sum]
  exact sum_congr rfl fun n _ => by ring

theorem diff_lagrangian_dot (hsym : ∀ i j, i < G.n → j < G.n → G.g i j = G.g j i) {k : Nat} (hk : k < G.n)
    (hg : ∀ i n, i < G.n → n < G.n → E.diff (dot (G.syms.getD k "")) (G.g i n) = 0) :
    E.diff (dot (G.syms.getD k "")) (rat (1 / 2) * lagrangian C G) = momentum C G k := by
  rw [diff_rat hC, lagrangian_eq hC hv hA, diff_sum hC]
  have : ∑ m ∈ range G.n, E.diff (dot (G.syms.getD k "")) (G.speed C m * momentum C G m) =
      ∑ m ∈ range G.n, ((if m = k then momentum C G m else 0) + G.g k m * G.speed C m) := by
    refine sum_congr rfl fun m hm => ?_
    rw [hC.mul, diff_momentum_dot hC hv hA hk fun n hn => hg m n (mem_range.1 hm) hn, hsym m k (mem_range.1 hm) hk]
    unfold Ground.speed
    rw [hv]
    by_cases h : m = k
    · rw [h, if_pos rfl, if_pos rfl]; ring
    · rw [if_neg h, if_neg fun h' => h (hA.dots k m hk (mem_range.1 hm) h').symm]; ring
  rw [this, sum_add_distrib, sum_ite_eq' (range G.n) k, if_pos (mem_range.2 hk)]
  show rat (1 / 2) * (momentum C G k + momentum C G k) = _
  rw [← two_mul, ← mul_assoc]
  have h2 : (rat (1 / 2) * 2 : K) = 1 := by
    unfold rat
    rw [← map_ofNat (algebraMap ℚ K) 2, ← map_mul]
    norm_num
  rw [h2, one_mul]

end

/-- `d/dλ (∂L/∂ẋ^i) - ∂L/∂x^i = g_{ij} (ẍ^j + Γ^j_{mn} ẋ^m ẋ^n)` for half the Lagrangian. -/
theorem eulerLagrange_eq (hC : Calculus E) (hi : Inverse G.n G.g G.gi)
    (hs : ∀ i j, i < G.n → j < G.n → G.g i j = G.g j i) {i : Nat} (hn : i < G.n) :
    ∑ k ∈ range G.n, ((∑ n ∈ range G.n, G.d E k (G.g i n) * G.speed C n) * G.speed C k + G.g i k * G.accel C k) -
      rat (1 / 2) * ∑ m ∈ range G.n, ∑ n ∈ range G.n, G.d E i (G.g m n) * G.speed C m * G.speed C n =
    ∑ j ∈ range G.n, G.g i j * geodesic E C G j := by
  set A : Nat → Nat → Nat → K := fun a m b => ∑ l ∈ range G.n, G.g a l * christoffel E G l m b with hA
  set v : Nat → K := fun n => G.speed C n with hvdef
  have hd : ∀ m a b, m < G.n → a < G.n → b < G.n → G.d E m (G.g a b) = A a m b + A b m a := by
    intro m a b hm ha hb
    rw [d_metric hC hi hs hm ha hb]
    congr 1
    refine sum_congr rfl fun l hl => ?_
    rw [hs l b (mem_range.1 hl) hb, mul_comm]
  have hsy : ∀ a m b, m < G.n → a < G.n → b < G.n → A a m b = A a b m := by
    intro a m b hm ha hb
    refine sum_congr rfl fun l hl => ?_
    rw [christoffel_symm hC hi hs (mem_range.1 hl) hm hb]
  have e1 : ∑ k ∈ range G.n, ((∑ n ∈ range G.n, G.d E k (G.g i n) * v n) * v k + G.g i k * G.accel C k) =
      (∑ k ∈ range G.n, ∑ n ∈ range G.n, A i k n * v k * v n) + (∑ k ∈ range G.n, ∑ n ∈ range G.n, A n i k * v k * v n) +
        ∑ k ∈ range G.n, G.g i k * G.accel C k := by
    rw [← sum_add_distrib, ← sum_add_distrib]
    refine sum_congr rfl fun k hk => ?_
    rw [← sum_add_distrib, sum_mul]
    congr 1
    refine sum_congr rfl fun n hn' => ?_
    rw [hd k i n (mem_range.1 hk) hn (mem_range.1 hn'), hsy n k i (mem_range.1 hk) (mem_range.1 hn') hn]
    ring
  have e2 : ∑ m ∈ range G.n, ∑ n ∈ range G.n, G.d E i (G.g m n) * v m * v n =
      2 * ∑ k ∈ range G.n, ∑ n ∈ range G.n, A n i k * v k * v n := by
    have h1 : ∑ m ∈ range G.n, ∑ n ∈ range G.n, G.d E i (G.g m n) * v m * v n =
        ∑ m ∈ range G.n, ∑ n ∈ range G.n, A m i n * v n * v m + ∑ m ∈ range G.n, ∑ n ∈ range G.n, A n i m * v m * v n := by
      rw [← sum_add_distrib]
      refine sum_congr rfl fun m hm => ?_
      rw [← sum_add_distrib]
      refine sum_congr rfl fun n hn' => ?_
      rw [hd i m n hn (mem_range.1 hm) (mem_range.1 hn')]
      ring
    rw [h1, sum_comm (f := fun m n => A m i n * v n * v m), two_mul]
  have h2 : (rat (1 / 2) * 2 : K) = 1 := by
    unfold rat
    rw [← map_ofNat (algebraMap ℚ K) 2, ← map_mul]
    norm_num
  rw [e1, e2, ← mul_assoc, h2, one_mul]
  have e3 : ∑ j ∈ range G.n, G.g i j * geodesic E C G j = ∑ k ∈ range G.n, G.g i k * G.accel C k +
      ∑ k ∈ range G.n, ∑ n ∈ range G.n, A i k n * v k * v n := by
    unfold geodesic
    simp only [mul_add, sum_add_distrib, mul_sum, hA, sum_mul]
    congr 1
    rw [sum_comm]
    refine sum_congr rfl fun k _ => ?_
    rw [sum_comm]
    exact sum_congr rfl fun n _ => sum_congr rfl fun j _ => by ring
  rw [e3]
  ring

omit [Algebra ℚ K] in
theorem getD_mem (hd : G.syms.length = G.n) {i : Nat} (hi : i < G.n) : G.syms.getD i "" ∈ G.syms := by
  have : i < G.syms.length := hd ▸ hi
  rw [List.getD_eq_getElem?_getD, List.getElem?_eq_getElem this]
  exact List.getElem_mem this

omit [Algebra ℚ K] in
theorem sum_syms (hd : G.syms.length = G.n) (f : Sym → K) :
    (G.syms.map f).sum = ∑ k ∈ range G.n, f (G.syms.getD k "") := by
  rw [← hd]
  generalize G.syms = l
  induction l using List.reverseRecOn with
  | nil => simp
  | append_singleton l s ih =>
    rw [List.map_append, List.sum_append, ih, List.length_append]
    simp only [List.map_cons, List.map_nil, List.sum_cons, List.sum_nil, add_zero, List.length_cons, List.length_nil,
      zero_add, sum_range_succ]
    congr 1
    · refine sum_congr rfl fun k hk => ?_
      rw [List.getD_eq_getElem?_getD, List.getD_eq_getElem?_getD, List.getElem?_append_left (mem_range.1 hk)]
    · simp [List.getD_eq_getElem?_getD]

theorem asFunctions_rat {syms : List Sym} (h : CurvesOK E C syms) (p : Sym) (q : ℚ) (x : K) :
    rat q * C.asFunctions p syms x = C.asFunctions p syms (rat q * x) := by
  have h0 : C.asFunctions p syms 0 = 0 := by
    have := h.add p 0 0
    rw [add_zero] at this
    exact left_eq_add.1 this
  let f : K →+* K := ⟨⟨⟨C.asFunctions p syms, h.one p⟩, h.mul p⟩, h0, h.add p⟩
  have := RingHom.map_rat_algebraMap f q
  rw [h.mul]
  congr 1
  exact this.symm

/-- The equations of Euler and Lagrange as computed. -/
theorem eulerLagrange_value (hC : Calculus E) (hi : Inverse G.n G.g G.gi)
    (hs : ∀ i j, i < G.n → j < G.n → G.g i j = G.g j i) (hd : G.syms.length = G.n) (hO : CurvesOK E C G.syms)
    (hP : ProperNames C G.syms) (hT : Static E C G) {i : Nat} (hn : i < G.n) :
    (eulerLagrange C G.syms (C.asFunctions C.parameter G.syms (lagrangian C G))).getD i 0 =
      ∑ j ∈ range G.n, G.g i j * geodesic E C G j := by
  have hA := apart_of (C := C) hd hP
  have hlt : i < G.syms.length := hd ▸ hn
  have hmem := getD_mem hd hn
  unfold eulerLagrange
  rw [List.getD_eq_getElem?_getD, List.getElem?_map, List.getElem?_eq_getElem hlt, Option.map_some, Option.getD_some]
  rw [show G.syms[i] = G.syms.getD i "" by simp [List.getD_eq_getElem?_getD, hlt]]
  set s := G.syms.getD i "" with hsdef
  show C.asSymbols G.syms (C.rate (C.byFunction (dot s) (rat (1 / 2) * _)) - C.byFunction s (rat (1 / 2) * _)) = _
  rw [asFunctions_rat hO, hO.byFunction _ (List.mem_append_right _ (List.mem_map_of_mem hmem)),
    hO.byFunction _ (List.mem_append_left _ hmem),
    diff_lagrangian_dot hC hO.var hA hs hn fun a b ha hb => ((hT a b ha hb).2 s hmem).1, hO.sub]
  have hdd : ∀ t ∈ G.syms, ∀ j, j < G.n → ddot t ≠ dot (G.syms.getD j "") := by
    intro t ht j hj
    obtain ⟨k, hk, rfl⟩ := List.mem_iff_getElem.1 ht
    have := hA.ddots k j (hd ▸ hk) hj
    rwa [show G.syms.getD k "" = G.syms[k] by simp [List.getD_eq_getElem?_getD, hk]] at this
  rw [hO.chain]
  · rw [hO.back]
    · rw [sum_syms hd, ← eulerLagrange_eq hC hi hs hn]
      congr 1
      · refine sum_congr rfl fun k hk => ?_
        rw [diff_momentum hC hO.var hA fun j hj => hA.coord k j (mem_range.1 hk) hj,
          diff_momentum_dot hC hO.var hA (mem_range.1 hk) fun n hn' =>
            ((hT i n hn hn').2 _ (getD_mem hd (mem_range.1 hk))).1]
        rfl
      · rw [diff_rat hC, diff_lagrangian hC hO.var hA fun j hj => hA.coord i j hn hj]
        rfl
    · intro t ht
      rw [hC.comm, diff_rat hC, diff_lagrangian hC hO.var hA (hdd t ht)]
      rw [sum_eq_zero, mul_zero, diff_zero hC]
      intro m hm
      refine sum_eq_zero fun n hn' => ?_
      rw [((hT m n (mem_range.1 hm) (mem_range.1 hn')).2 t ht).2]
      ring
  · intro t ht
    rw [diff_momentum hC hO.var hA (hdd t ht)]
    refine sum_eq_zero fun n hn' => ?_
    rw [((hT i n hn (mem_range.1 hn')).2 t ht).2, zero_mul]
  · rw [diff_momentum hC hO.var hA hA.param]
    refine sum_eq_zero fun n hn' => ?_
    rw [(hT i n hn (mem_range.1 hn')).1, zero_mul]

end PyOGRe
