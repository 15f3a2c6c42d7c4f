import Verif.Lemmas.Product
import Verif.Props.Constant

/-!
# Products of spaces: C123

The specification is `Spec/Product.lean`.
-/

namespace PyOGRe
open Spec Finset MvPolynomial
variable {K : Type} [CommRing K] [DecidableEq K] [Algebra ℚ K] {E : Engine K} {A B G : Ground K} {VA VB V : View K}
  {wA wB w : World K} {DA DB Dm : TField K}

omit [DecidableEq K] [Algebra ℚ K] in
theorem blocks_first {m : Nat} {S T : List Nat → K} {J : List Nat} (h : ∀ x ∈ J, x < m) : twoBlocks m S T J = S J := if_pos h

omit [DecidableEq K] [Algebra ℚ K] in
theorem blocks_second {m : Nat} {S T : List Nat → K} {J : List Nat} (hJ : J ≠ []) : twoBlocks m S T (J.map (m + ·)) = T J := by
  unfold twoBlocks
  rw [if_neg, if_pos]
  · rw [List.map_map]
    congr 1
    conv_rhs => rw [← List.map_id J]
    exact List.map_congr_left fun x _ => Nat.add_sub_cancel_left m x
  · intro x hx
    obtain ⟨y, -, rfl⟩ := List.mem_map.1 hx
    omega
  · intro h
    obtain ⟨y, l, rfl⟩ := List.exists_cons_of_ne_nil hJ
    have := h (m + y) (by simp)
    omega

omit [DecidableEq K] [Algebra ℚ K] in
theorem blocks_zero {m : Nat} {S T : List Nat → K} {J : List Nat} (h : ¬ Alike m J) : twoBlocks m S T J = 0 := by
  unfold twoBlocks
  rw [if_neg fun h' => h (Or.inl h'), if_neg fun h' => h (Or.inr h')]

/-- Arrays of the same rank that agree for indices of the first factor, of the second factor, and otherwise. -/
theorem blocks_eq {a b r : Nat} (hr : 0 < r) {f S T : List Nat → K}
    (h1 : ∀ J, J.length = r → (∀ x ∈ J, x < a) → f J = S J)
    (h2 : ∀ J, J.length = r → (∀ x ∈ J, x < b) → f (J.map (a + ·)) = T J)
    (h3 : ∀ J, J.length = r → (∀ x ∈ J, x < a + b) → ¬ Alike a J → f J = 0) (J : List Nat) (hJ : J.length = r)
    (hJn : ∀ x ∈ J, x < a + b) : f J = twoBlocks a S T J := by
  by_cases h : Alike a J
  · rcases h with h | h
    · rw [blocks_first h, h1 J hJ h]
    · have e : J = (J.map (· - a)).map (a + ·) := by
        rw [List.map_map]
        conv_lhs => rw [← List.map_id J]
        exact List.map_congr_left fun x hx => by
          have := h x hx
          show x = a + (x - a)
          omega
      have hne : J.map (· - a) ≠ [] := fun h0 => by
        have := congrArg List.length h0
        simp at this
        rw [this] at hJ
        simp at hJ
        omega
      rw [e, blocks_second hne, h2 _ (by simpa using hJ)]
      intro x hx
      obtain ⟨y, hy, rfl⟩ := List.mem_map.1 hx
      have := h y hy
      have := hJn y hy
      omega
  · rw [blocks_zero h, h3 J hJ hJn h]

theorem splits_of {α β Γ : Nat → Nat → Nat → K} {q : Quantity} {f : Id' → PyM K Id'} {a b c : String} (hn : G.n = A.n + B.n)
    (hq : 0 < q.ix.length) (hA : ProvidesFor E A α VA wA a (f A.m) q) (hB : ProvidesFor E B β VB wB b (f B.m) q)
    (hG : ProvidesFor E G Γ V w c (f G.m) q)
    (h1 : ∀ J, J.length = q.ix.length → (∀ x ∈ J, x < A.n) → q.compsOf E G Γ J = q.compsOf E A α J)
    (h2 : ∀ J, J.length = q.ix.length → (∀ x ∈ J, x < B.n) → q.compsOf E G Γ (J.map (A.n + ·)) = q.compsOf E B β J)
    (h3 : ∀ J, J.length = q.ix.length → (∀ x ∈ J, x < A.n + B.n) → ¬ Alike A.n J → q.compsOf E G Γ J = 0) :
    Splits A B G wA wB w f q.ix := by
  refine ⟨q.compsOf E A α, q.compsOf E B β, returns_for hA fun D hD => hD, returns_for hB fun D hD => hD,
    returns_for hG fun D hD J hJ hJn => ?_⟩
  rw [hD J hJ hJn]
  exact blocks_eq hq h1 h2 h3 J hJ (by rw [← hn]; exact hJn)

/-- With any connections that split. -/
theorem any_product {α β Γ : Nat → Nat → Nat → K} (hE : EngineOK E) (hC : Calculus E) (hSA : Scene A VA wA)
    (hSB : Scene B VB wB) (hS : Scene G V w) (hmA : AnyMetric A VA DA) (hmB : AnyMetric B VB DB) (hm : AnyMetric G V Dm)
    (hα : GivesConnection E A α DA) (hβ : GivesConnection E B β DB) (hΓ : GivesConnection E G Γ Dm)
    (hNA : NamesFor E A α VA wA DA.name) (hNB : NamesFor E B β VB wB DB.name) (hN : NamesFor E G Γ V w Dm.name)
    (h : Product E A B G) (s : SplitConnection E A B G α β Γ) :
    Splits A B G wA wB w (calcChristoffel E) [1, -1, -1] ∧ Splits A B G wA wB w (calcRiemann E) [1, -1, -1, -1] ∧
    Splits A B G wA wB w (calcRicci E) [-1, -1] ∧ ScalarsAdd E A B G wA wB w := by
  refine ⟨splits_of (q := .christoffel) h.n (by decide) (anyProvides_christoffel hα hSA hmA hNA)
      (anyProvides_christoffel hβ hSB hmB hNB) (anyProvides_christoffel hΓ hS hm hN) ?_ ?_ ?_,
    splits_of (q := .riemann) h.n (by decide) (anyProvides_riemann hE.simp_eq hα hSA hmA hNA)
      (anyProvides_riemann hE.simp_eq hβ hSB hmB hNB) (anyProvides_riemann hE.simp_eq hΓ hS hm hN) ?_ ?_ ?_,
    splits_of (q := .ricci) h.n (by decide) (anyProvides_ricci hE.simp_eq hα hSA hmA hNA)
      (anyProvides_ricci hE.simp_eq hβ hSB hmB hNB) (anyProvides_ricci hE.simp_eq hΓ hS hm hN) ?_ ?_ ?_,
    scalarOf E A α, scalarOf E B β, Quantity.compsOf E A α .einstein, Quantity.compsOf E B β .einstein,
    returns_for (q := .scalar) (anyProvides_scalar hE.simp_eq hα hSA hmA hNA) fun D hD => hD [] rfl (by simp),
    returns_for (q := .scalar) (anyProvides_scalar hE.simp_eq hβ hSB hmB hNB) fun D hD => hD [] rfl (by simp),
    returns_for (q := .scalar) (anyProvides_scalar hE.simp_eq hΓ hS hm hN) fun D hD => ?_,
    returns_for (q := .einstein) (anyProvides_einstein hE.simp_eq hα hSA hmA hNA) fun D hD => hD,
    returns_for (q := .einstein) (anyProvides_einstein hE.simp_eq hβ hSB hmB hNB) fun D hD => hD,
    returns_for (q := .einstein) (anyProvides_einstein hE.simp_eq hΓ hS hm hN) fun D hD J hJ hJn => ?_⟩
  · intro J hJ hJn
    match J, hJ, hJn with
    | [a, b, d], _, hJn => exact s.first a b d (hJn a (by simp)) (hJn b (by simp)) (hJn d (by simp))
  · intro J hJ hJn
    match J, hJ, hJn with
    | [a, b, d], _, hJn => exact s.second a b d (hJn a (by simp)) (hJn b (by simp)) (hJn d (by simp))
  · intro J hJ hJn hz
    rw [← h.n] at hJn
    match J, hJ, hJn with
    | [a, b, d], _, hJn => exact s.zero a b d (hJn a (by simp)) (hJn b (by simp)) (hJn d (by simp)) hz
  · intro J hJ hJn
    match J, hJ, hJn with
    | [a, b, d, e], _, hJn =>
      exact split_riemann_first hC h hSA.dim s (hJn a (by simp)) (hJn b (by simp)) (hJn d (by simp)) (hJn e (by simp))
  · intro J hJ hJn
    match J, hJ, hJn with
    | [a, b, d, e], _, hJn =>
      exact split_riemann_second hC h hSA.dim s (hJn a (by simp)) (hJn b (by simp)) (hJn d (by simp)) (hJn e (by simp))
  · intro J hJ hJn hz
    rw [← h.n] at hJn
    match J, hJ, hJn with
    | [a, b, d, e], _, hJn =>
      exact split_riemann_zero hC h s (hJn a (by simp)) (hJn b (by simp)) (hJn d (by simp)) (hJn e (by simp)) hz
  · intro J hJ hJn
    match J, hJ, hJn with
    | [a, b], _, hJn => exact split_ricci_first hC h hSA.dim s (hJn a (by simp)) (hJn b (by simp))
  · intro J hJ hJn
    match J, hJ, hJn with
    | [a, b], _, hJn => exact split_ricci_second hC h hSA.dim s (hJn a (by simp)) (hJn b (by simp))
  · intro J hJ hJn hz
    rw [← h.n] at hJn
    match J, hJ, hJn, hz with
    | [a, b], _, hJn, hz =>
      refine split_ricci_zero hC h s (hJn a (by simp)) (hJn b (by simp)) ?_
      simp only [Alike, List.mem_cons, List.not_mem_nil, or_false, forall_eq_or_imp, forall_eq] at hz
      show ¬ (a < A.n ↔ b < A.n)
      omega
  · rw [hD [] rfl (by simp)]
    exact split_scalar hC h hSA.dim s hS.inverse hSA.inverse hSB.inverse
  · have e := split_scalar hC h hSA.dim s hS.inverse hSA.inverse hSB.inverse
    rw [hD J hJ hJn]
    refine blocks_eq (b := B.n) (by decide) (f := Quantity.compsOf E G Γ .einstein) ?_ ?_ ?_ J hJ (by rw [← h.n]; exact hJn)
    · intro J hJ hJn
      match J, hJ, hJn with
      | [a, b], _, hJn =>
        show ricciOf E G Γ a b - rat (1 / 2) * scalarOf E G Γ * G.g a b = ricciOf E A α a b - rat (1 / 2) * scalarOf E A α * A.g a b -
          rat (1 / 2) * scalarOf E B β * A.g a b
        rw [split_ricci_first hC h hSA.dim s (hJn a (by simp)) (hJn b (by simp)), h.first a b (hJn a (by simp)) (hJn b (by simp)), e]
        ring
    · intro J hJ hJn
      match J, hJ, hJn with
      | [a, b], _, hJn =>
        show ricciOf E G Γ (A.n + a) (A.n + b) - rat (1 / 2) * scalarOf E G Γ * G.g (A.n + a) (A.n + b) =
          ricciOf E B β a b - rat (1 / 2) * scalarOf E B β * B.g a b - rat (1 / 2) * scalarOf E A α * B.g a b
        rw [split_ricci_second hC h hSA.dim s (hJn a (by simp)) (hJn b (by simp)), h.second a b (hJn a (by simp)) (hJn b (by simp)), e]
        ring
    · intro J hJ hJn hz
      rw [← h.n] at hJn
      match J, hJ, hJn, hz with
      | [a, b], _, hJn, hz =>
        simp only [Alike, List.mem_cons, List.not_mem_nil, or_false, forall_eq_or_imp, forall_eq] at hz
        have ha := hJn a (by simp)
        have hb := hJn b (by simp)
        have hg : G.g a b = 0 := by
          rw [h.n] at ha hb
          rcases below_or ha with h1 | ⟨a, rfl, h1⟩ <;> rcases below_or hb with h2 | ⟨b, rfl, h2⟩
          · omega
          · exact (h.between a b h1 h2).1
          · exact (h.between b a h2 h1).2
          · omega
        show ricciOf E G Γ a b - rat (1 / 2) * scalarOf E G Γ * G.g a b = 0
        rw [split_ricci_zero hC h s ha hb (by omega), hg]
        ring

/-- **C123** For a product of two spaces with metrics with default configuration (-1,-1), the Christoffel symbols and the
Riemann and Ricci tensors consist of the blocks of the factors, all other components are zero; the Ricci scalar is the sum of
those of the factors, and the Einstein tensor is as in `ScalarsAdd`. -/
theorem C123_product (hE : EngineOK E) (hC : Calculus E) (hSA : Scene A VA wA) (hSB : Scene B VB wB) (hS : Scene G V w)
    (hmA : LowerMetric A VA DA) (hmB : LowerMetric B VB DB) (hm : LowerMetric G V Dm) (hNA : NamesOK E A VA wA DA.name)
    (hNB : NamesOK E B VB wB DB.name) (hN : NamesOK E G V w Dm.name) (h : Product E A B G) :
    Splits A B G wA wB w (calcChristoffel E) [1, -1, -1] ∧ Splits A B G wA wB w (calcRiemann E) [1, -1, -1, -1] ∧
    Splits A B G wA wB w (calcRicci E) [-1, -1] ∧ ScalarsAdd E A B G wA wB w :=
  any_product hE hC hSA hSB hS ⟨hmA.view, hmA.name, hmA.coords⟩ ⟨hmB.view, hmB.name, hmB.coords⟩ ⟨hm.view, hm.name, hm.coords⟩
    (gives_christoffel hE.simp_eq hmA.ix) (gives_christoffel hE.simp_eq hmB.ix) (gives_christoffel hE.simp_eq hm.ix)
    (namesFor_christoffel hNA) (namesFor_christoffel hNB) (namesFor_christoffel hN) h
    (split_christoffel hC h hSA.dim hS.inverse hSA.inverse hSB.inverse)

/-- **C123** for metrics with default configuration (1,1): the same, although these tensors are not those of the metrics
(C35 to C39). -/
theorem C123_product_upper (hE : EngineOK E) (hC : Calculus E) (hSA : Scene A VA wA) (hSB : Scene B VB wB) (hS : Scene G V w)
    (hmA : UpperMetric A VA DA) (hmB : UpperMetric B VB DB) (hm : UpperMetric G V Dm) (hNA : NoNames wA DA.name)
    (hNB : NoNames wB DB.name) (hN : NoNames w Dm.name) (h : Product E A B G) :
    Splits A B G wA wB w (calcChristoffel E) [1, -1, -1] ∧ Splits A B G wA wB w (calcRiemann E) [1, -1, -1, -1] ∧
    Splits A B G wA wB w (calcRicci E) [-1, -1] ∧ ScalarsAdd E A B G wA wB w := by
  have s := split_christoffel hC h hSA.dim hS.inverse hSA.inverse hSB.inverse
  refine any_product hE hC hSA hSB hS ⟨hmA.view, hmA.name, hmA.coords⟩ ⟨hmB.view, hmB.name, hmB.coords⟩
    ⟨hm.view, hm.name, hm.coords⟩ (gives_opposite hE.simp_eq hC hmA.ix) (gives_opposite hE.simp_eq hC hmB.ix)
    (gives_opposite hE.simp_eq hC hm.ix) (noNames_for hNA) (noNames_for hNB) (noNames_for hN) h
    ⟨fun l m n hl hm hn => congrArg Neg.neg (s.first l m n hl hm hn), fun l m n hl hm hn => congrArg Neg.neg (s.second l m n hl hm hn),
      fun l m n hl hm hn hz => ?_, fun k l m n hk hl hm hn hz => ?_⟩
  · show -_ = (0 : K)
    rw [s.zero l m n hl hm hn hz, neg_zero]
  · have e := hC.add (G.syms.getD k "") (christoffel E G l m n) (-christoffel E G l m n)
    have e0 := d_zero (G := G) hC k
    have e1 := s.apart k l m n hk hl hm hn hz
    unfold Ground.d at *
    rw [add_neg_cancel, e0, e1, zero_add] at e
    exact e.symm

/-- The metric `du² + (dv + u du)²`, its product with `nil`, and their inverses. -/
noncomputable def sheared : Arr Poly := ⟨[2, 2], [1 + X "u" * X "u", X "u", X "u", 1]⟩
noncomputable def shearedInv : Arr Poly := ⟨[2, 2], [1, -X "u", -X "u", 1 + X "u" * X "u"]⟩
noncomputable def fivefold : Arr Poly := ⟨[5, 5], [1 + X "z" * X "z", X "z", 0, 0, 0, X "z", 1, 0, 0, 0, 0, 0, 1, 0, 0,
  0, 0, 0, 1 + X "u" * X "u", X "u", 0, 0, 0, X "u", 1]⟩
noncomputable def fivefoldInv : Arr Poly := ⟨[5, 5], [1, -X "z", 0, 0, 0, -X "z", 1 + X "z" * X "z", 0, 0, 0, 0, 0, 1, 0, 0,
  0, 0, 0, 1, -X "u", 0, 0, 0, -X "u", 1 + X "u" * X "u"]⟩

theorem sheared_inverse : Inverse 2 (fun i j => sheared.get [i, j]) (fun i j => shearedInv.get [i, j]) := by
  intro i j hi hj
  interval_cases i <;> interval_cases j <;>
    simp [matMul, Finset.sum_range_succ, delta, sheared, shearedInv, Arr.get, ravel] <;> ring

set_option maxHeartbeats 1000000 in
theorem fivefold_inverse : Inverse 5 (fun i j => fivefold.get [i, j]) (fun i j => fivefoldInv.get [i, j]) := by
  intro i j hi hj
  interval_cases i <;> interval_cases j <;>
    simp [matMul, Finset.sum_range_succ, delta, fivefold, fivefoldInv, Arr.get, ravel] <;> ring

/-- The product of these two metrics. -/
theorem fivefold_product {A B G : Ground Poly} (a2 : A.n = 3) (a3 : A.syms = ["x", "y", "z"])
    (a6 : ∀ i j, A.g i j = entry nil i j) (b2 : B.n = 2) (b3 : B.syms = ["u", "v"]) (b6 : ∀ i j, B.g i j = entry sheared i j)
    (g2 : G.n = 5) (g3 : G.syms = ["x", "y", "z", "u", "v"]) (g6 : ∀ i j, G.g i j = entry fivefold i j) :
    Product polyEngine A B G := by
  refine ⟨by rw [a2, b2, g2], by rw [a3, b3, g3]; rfl, ?_, ?_, ?_, ?_, ?_⟩
  · intro i j hi hj
    rw [a2] at hi hj
    rw [g6, a6]
    interval_cases i <;> interval_cases j <;> rfl
  · intro i j hi hj
    rw [b2] at hi hj
    rw [g6, b6, a2]
    interval_cases i <;> interval_cases j <;> rfl
  · intro i j hi hj
    rw [a2] at hi
    rw [b2] at hj
    rw [g6, g6, a2]
    interval_cases i <;> interval_cases j <;> exact ⟨rfl, rfl⟩
  · intro k i j hk hi hj
    rw [a2] at hi hj
    rw [b2] at hk
    show pderiv (B.syms.getD k "") (A.g i j) = 0
    rw [a6, b3]
    have h1 : pderiv "u" (X "z" : Poly) = 0 := pderiv_X_ne (by decide)
    have h2 : pderiv "v" (X "z" : Poly) = 0 := pderiv_X_ne (by decide)
    interval_cases k <;> interval_cases i <;> interval_cases j <;> simp [entry, nil, Arr.get, ravel, h1, h2]
  · intro k i j hk hi hj
    rw [b2] at hi hj
    rw [a2] at hk
    show pderiv (A.syms.getD k "") (B.g i j) = 0
    rw [b6, a3]
    have h1 : pderiv "x" (X "u" : Poly) = 0 := pderiv_X_ne (by decide)
    have h2 : pderiv "y" (X "u" : Poly) = 0 := pderiv_X_ne (by decide)
    have h3 : pderiv "z" (X "u" : Poly) = 0 := pderiv_X_ne (by decide)
    interval_cases k <;> interval_cases i <;> interval_cases j <;> simp [entry, sheared, Arr.get, ravel, h1, h2, h3]

/-- A product of two curved metrics. -/
example : ∃ (A B G : Ground Poly) (VA VB V : View Poly) (wA wB w : World Poly) (DA DB Dm : TField Poly),
    EngineOK polyEngine ∧ Calculus polyEngine ∧ Scene A VA wA ∧ Scene B VB wB ∧ Scene G V w ∧ LowerMetric A VA DA ∧
    LowerMetric B VB DB ∧ LowerMetric G V Dm ∧ NamesOK polyEngine A VA wA DA.name ∧ NamesOK polyEngine B VB wB DB.name ∧
    NamesOK polyEngine G V w Dm.name ∧ Product polyEngine A B G ∧ A.g 0 1 = X "z" ∧ B.g 0 1 = X "u" := by
  obtain ⟨A, VA, wA, a1, a2, a3, a4, a5, a6, -⟩ := declared (syms := ["x", "y", "z"]) (a := nil) rfl rfl
    (fun i j hi hj => by
      have hi : i < 3 := hi
      have hj : j < 3 := hj
      interval_cases i <;> interval_cases j <;> rfl) nil_inverse (Or.inl rfl) (by simp)
  obtain ⟨B, VB, wB, b1, b2, b3, b4, b5, b6, -⟩ := declared (syms := ["u", "v"]) (a := sheared) rfl rfl
    (fun i j hi hj => by
      have hi : i < 2 := hi
      have hj : j < 2 := hj
      interval_cases i <;> interval_cases j <;> rfl) sheared_inverse (Or.inl rfl) (by simp)
  obtain ⟨G, V, w, g1, g2, g3, g4, g5, g6, -⟩ := declared (syms := ["x", "y", "z", "u", "v"]) (a := fivefold) rfl rfl
    (fun i j hi hj => by
      have hi : i < 5 := hi
      have hj : j < 5 := hj
      interval_cases i <;> interval_cases j <;> rfl) fivefold_inverse (Or.inl rfl) (by simp)
  have a6 := a6 rfl
  have b6 := b6 rfl
  have g6 := g6 rfl
  have a2 : A.n = 3 := a2
  have b2 : B.n = 2 := b2
  have g2 : G.n = 5 := g2
  have n1 : ∀ {G : Ground Poly} {V : View Poly} {w : World Poly}, NoNames w "Given" → NamesOK polyEngine G V w "Given" :=
    fun h q i hi o ho he => absurd he (h q i hi o ho)
  refine ⟨A, B, G, VA, VB, V, wA, wB, w, _, _, _, polyEngine_ok, polyEngine_calculus, a1, b1, g1,
    ⟨a4.view, a4.name, a4.coords, rfl⟩, ⟨b4.view, b4.name, b4.coords, rfl⟩, ⟨g4.view, g4.name, g4.coords, rfl⟩, n1 a5, n1 b5, n1 g5,
    fivefold_product a2 a3 a6 b2 b3 b6 g2 g3 g6, by rw [a6]; rfl, by rw [b6]; rfl⟩

end PyOGRe
