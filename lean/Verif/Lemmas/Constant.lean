import Verif.Lemmas.IdentitySessions
import Verif.Props.Upper
import Verif.Spec.Scaled

/-! Helper lemmas: tensors without components, constant metrics, and metrics multiplied by a constant. -/

namespace PyOGRe
open Spec Finset
variable {K : Type} [CommRing K] [DecidableEq K] [Algebra ℚ K] {E : Engine K} {G G' : Ground K} {V : View K} {w : World K}
  {Dm : TField K}

omit [DecidableEq K] [Algebra ℚ K] in
theorem comp_zero {D : TField K} (h : ∀ J, J.length = D.ix.length → (∀ x ∈ J, x < G.n) → D.val J = 0) (cfg : List Int)
    {J : List Nat} (hJ : J.length = D.ix.length) : D.comp G cfg J = 0 := by
  unfold TField.comp applyFactors
  refine List.sum_eq_zero fun x hx => ?_
  obtain ⟨s, hs, rfl⟩ := List.mem_map.1 hx
  obtain ⟨h1, h2⟩ := mem_tuples.1 hs
  rw [h s (h1.trans hJ) h2, mul_zero]

omit [DecidableEq K] [Algebra ℚ K] in
theorem d_mul (hC : Calculus E) (k : Nat) (x y : K) : G.d E k (x * y) = G.d E k x * y + x * G.d E k y := hC.mul _ x y

omit [DecidableEq K] in
/-- If the components of a matrix are constant, then so are those of its inverse. -/
theorem constant_inverse {n : Nat} {a b : Nat → Nat → K} (hC : Calculus E) (hi : Inverse n a b) {k : Nat}
    (ha : ∀ i j, i < n → j < n → G.d E k (a i j) = 0) {i j : Nat} (h1 : i < n) (h2 : j < n) : G.d E k (b i j) = 0 := by
  have h : ∀ i j, i < n → j < n → ∑ l ∈ range n, a i l * G.d E k (b l j) = 0 := by
    intro i j hi' hj
    have e := congrArg (G.d E k) (hi i j hi' hj).1
    unfold matMul at e
    rw [d_sum hC] at e
    have e2 : G.d E k (delta i j : K) = 0 := by
      unfold delta
      split_ifs
      · exact d_one hC k
      · exact d_zero hC k
    rw [e2] at e
    rw [← e]
    refine sum_congr rfl fun l hl => ?_
    rw [d_mul hC, ha i l hi' (by simpa using hl), zero_mul, zero_add]
  have e : ∑ p ∈ range n, b i p * ∑ l ∈ range n, a p l * G.d E k (b l j) = G.d E k (b i j) := by
    simp only [mul_sum]
    rw [sum_comm]
    have : ∀ l ∈ range n, ∑ p ∈ range n, b i p * (a p l * G.d E k (b l j)) = delta i l * G.d E k (b l j) := by
      intro l hl
      rw [← (hi i l h1 (by simpa using hl)).2]
      unfold matMul
      rw [sum_mul]
      exact sum_congr rfl fun p _ => by ring
    rw [sum_congr rfl this]
    unfold delta
    simp [h1]
  rw [← e]
  exact sum_eq_zero fun p hp => by rw [h p j (by simpa using hp) h2, mul_zero]

omit [DecidableEq K] in
theorem constant_christoffel (hg : ∀ k i j, k < G.n → i < G.n → j < G.n → G.d E k (G.g i j) = 0) (l : Nat) {m n : Nat}
    (hm : m < G.n) (hn : n < G.n) : christoffel E G l m n = 0 := by
  unfold christoffel
  rw [sum_eq_zero fun s hs => ?_, mul_zero]
  have hs : s < G.n := by simpa using hs
  rw [hg m n s hm hn hs, hg n s m hn hs hm, hg s m n hs hm hn]
  ring

omit [DecidableEq K] in
/-- The declared components of a constant metric, whichever they are. -/
theorem constant_lower (hC : Calculus E) (hS : Scene G V w) (hm : AnyMetric G V Dm) (hix : Dm.ix = [-1, -1] ∨ Dm.ix = [1, 1])
    (hg : ∀ k i j, k < G.n → i < G.n → j < G.n → G.d E k (Dm.val [i, j]) = 0) :
    ∀ k i j, k < G.n → i < G.n → j < G.n → G.d E k (G.g i j) = 0 := by
  obtain ⟨-, -, hc⟩ := scene_metric_comp hS hm.view
  intro k i j hk hi hj
  rcases hix with hix | hix
  · rw [← (hc i j hi hj).1, ← hix, comp_self (by simp [hi, hj]) (by rw [hix]; rfl)]
    exact hg k i j hk hi hj
  · refine constant_inverse (a := G.gi) (n := G.n) hC (fun i j hi hj => (hS.inverse i j hi hj).symm) (fun i j hi hj => ?_) hi hj
    rw [← (hc i j hi hj).2.1, ← hix, comp_self (by simp [hi, hj]) (by rw [hix]; rfl)]
    exact hg k i j hk hi hj

/-- With coefficients that agree. -/
theorem gives_congr {Γ Γ' : Nat → Nat → Nat → K} (h : GivesConnection E G Γ Dm)
    (he : ∀ l m n, l < G.n → m < G.n → n < G.n → Γ l m n = Γ' l m n) : GivesConnection E G Γ' Dm := by
  intro V w hS hm
  refine Does.mono (h V w hS hm) ?_
  rintro r w' ⟨V', D', h1, h2, h3, h4, h5, h6, h7, h8, h9, h10⟩
  refine ⟨V', D', h1, h2, h3, h4, h5, h6, h7, h8, h9, fun J hJ hJn => ?_⟩
  rw [h10 J hJ hJn]
  match J, hJ, hJn with
  | [a, b, c], _, hJn => exact he a b c (hJn a (by simp)) (hJn b (by simp)) (hJn c (by simp))

theorem gives_zero (hE : ∀ x, E.simp x = x) (hC : Calculus E) (hix : Dm.ix = [-1, -1] ∨ Dm.ix = [1, 1])
    (hg : ∀ k i j, k < G.n → i < G.n → j < G.n → G.d E k (G.g i j) = 0) : GivesConnection E G (fun _ _ _ => 0) Dm := by
  rcases hix with hix | hix
  · exact gives_congr (gives_christoffel hE hix) fun l m n _ hm hn => constant_christoffel hg l hm hn
  · refine gives_congr (gives_opposite hE hC hix) fun l m n _ hm hn => ?_
    show -christoffel E G l m n = 0
    rw [constant_christoffel hg l hm hn, neg_zero]

omit [DecidableEq K] in
theorem compsOf_zero (hC : Calculus E) (q : Quantity) (J : List Nat) : q.compsOf E G (fun _ _ _ => 0) J = 0 := by
  have h1 : ∀ r s m n, riemannOf E G (fun _ _ _ => 0) r s m n = 0 := fun r s m n => by simp [riemannOf, d_zero hC]
  have h2 : ∀ m n, ricciOf E G (fun _ _ _ => 0) m n = 0 := fun m n => by simp [ricciOf, h1]
  have h3 : scalarOf E G (fun _ _ _ => 0) = 0 := by simp [scalarOf, h2]
  cases q <;> simp [Quantity.compsOf, einsteinOf, weylOf, h1, h2, h3]

/-! Metrics multiplied by a constant -/

variable {c c' : K}

omit [DecidableEq K] in
theorem scaled_d (h : Scaled E G G' c c') (k : Nat) (x : K) : G'.d E k x = G.d E k x := by
  unfold Ground.d
  rw [h.syms]

omit [DecidableEq K] in
theorem scaled_gi (h : Scaled E G G' c c') (hi : Inverse G.n G.g G.gi) (hi' : Inverse G'.n G'.g G'.gi) {i j : Nat}
    (h1 : i < G.n) (h2 : j < G.n) : G'.gi i j = c' * G.gi i j := by
  rw [h.n] at hi'
  refine inverse_unique (M := G'.g) (N' := fun i j => c' * G.gi i j) hi' ?_ i j h1 h2
  intro i j h1 h2
  obtain ⟨e1, e2⟩ := hi i j h1 h2
  have hc := h.inv
  constructor
  · rw [← e1]
    unfold matMul
    refine sum_congr rfl fun l hl => ?_
    rw [h.g i l h1 (by simpa using hl)]
    linear_combination G.g i l * G.gi l j * hc
  · rw [← e2]
    unfold matMul
    refine sum_congr rfl fun l hl => ?_
    rw [h.g l j (by simpa using hl) h2]
    linear_combination G.g l j * G.gi i l * hc

omit [DecidableEq K] in
theorem scaled_christoffel (hC : Calculus E) (h : Scaled E G G' c c') (hi : Inverse G.n G.g G.gi)
    (hi' : Inverse G'.n G'.g G'.gi) {l m n : Nat} (hl : l < G.n) (hm : m < G.n) (hn : n < G.n) :
    christoffel E G' l m n = christoffel E G l m n := by
  have hd : ∀ k i j, k < G.n → i < G.n → j < G.n → G'.d E k (G'.g i j) = c * G.d E k (G.g i j) := by
    intro k i j hk hi hj
    rw [scaled_d h, h.g i j hi hj, d_mul hC, h.const k hk, zero_mul, zero_add]
  unfold christoffel
  rw [h.n]
  congr 1
  refine sum_congr rfl fun s hs => ?_
  have hs : s < G.n := by simpa using hs
  rw [hd m n s hm hn hs, hd n s m hn hs hm, hd s m n hs hm hn, scaled_gi h hi hi' hl hs]
  linear_combination G.gi l s * (G.d E m (G.g n s) + G.d E n (G.g s m) - G.d E s (G.g m n)) * h.inv

section
variable {Γ Γ' : Nat → Nat → Nat → K} (h : Scaled E G G' c c') (hi : Inverse G.n G.g G.gi) (hi' : Inverse G'.n G'.g G'.gi)
  (he : ∀ l m n, l < G.n → m < G.n → n < G.n → Γ' l m n = Γ l m n)
include h he

omit [DecidableEq K] in
theorem scaled_riemann {r s m n : Nat} (hr : r < G.n) (hs : s < G.n) (hm : m < G.n) (hn : n < G.n) :
    riemannOf E G' Γ' r s m n = riemannOf E G Γ r s m n := by
  have e : ∀ m n, m < G.n → n < G.n → ∑ l ∈ range G.n, Γ' r m l * Γ' l n s = ∑ l ∈ range G.n, Γ r m l * Γ l n s :=
    fun m n hm hn => sum_congr rfl fun l hl => by
      have hl : l < G.n := by simpa using hl
      rw [he r m l hr hm hl, he l n s hl hn hs]
  unfold riemannOf
  rw [h.n, e m n hm hn, e n m hn hm, scaled_d h, scaled_d h, he r n s hr hn hs, he r m s hr hm hs]

omit [DecidableEq K] in
theorem scaled_ricci {m n : Nat} (hm : m < G.n) (hn : n < G.n) : ricciOf E G' Γ' m n = ricciOf E G Γ m n := by
  unfold ricciOf
  rw [h.n]
  exact sum_congr rfl fun l hl => by
    have hl : l < G.n := by simpa using hl
    exact scaled_riemann h he hl hm hl hn

include hi hi'
omit [DecidableEq K] in
theorem scaled_scalar : scalarOf E G' Γ' = c' * scalarOf E G Γ := by
  unfold scalarOf
  rw [h.n, mul_sum]
  refine sum_congr rfl fun m hm => ?_
  rw [mul_sum]
  refine sum_congr rfl fun n hn => ?_
  have hm : m < G.n := by simpa using hm
  have hn : n < G.n := by simpa using hn
  rw [scaled_ricci h he hm hn, scaled_gi h hi hi' hm hn]
  ring

omit [DecidableEq K] in
theorem scaled_einstein {m n : Nat} (hm : m < G.n) (hn : n < G.n) : einsteinOf E G' Γ' m n = einsteinOf E G Γ m n := by
  unfold einsteinOf
  rw [scaled_ricci h he hm hn, scaled_scalar h hi hi' he, h.g m n hm hn]
  linear_combination -rat (1 / 2) * scalarOf E G Γ * G.g m n * h.inv

omit [DecidableEq K] in
theorem scaled_weyl {i k l m : Nat} (h1 : i < G.n) (h2 : k < G.n) (h3 : l < G.n) (h4 : m < G.n) :
    weylOf E G' Γ' i k l m = c * weylOf E G Γ i k l m := by
  have e : ∑ r ∈ range G.n, G'.g i r * riemannOf E G' Γ' r k l m = c * ∑ r ∈ range G.n, G.g i r * riemannOf E G Γ r k l m := by
    rw [mul_sum]
    refine sum_congr rfl fun r hr => ?_
    have hr : r < G.n := by simpa using hr
    rw [scaled_riemann h he hr h2 h3 h4, h.g i r h1 hr]
    ring
  unfold weylOf
  rw [h.n, e, scaled_scalar h hi hi' he, scaled_ricci h he h1 h4, scaled_ricci h he h1 h3, scaled_ricci h he h2 h3,
    scaled_ricci h he h2 h4, h.g k l h2 h3, h.g k m h2 h4, h.g i m h1 h4, h.g i l h1 h3]
  linear_combination c * rat (1 / (((G.n : ℚ) - 2) * ((G.n : ℚ) - 1))) * scalarOf E G Γ *
    (G.g i l * G.g k m - G.g i m * G.g k l) * h.inv
end

end PyOGRe
