import Verif.Props.Product
import Verif.Props.Straight
import Verif.Spec.ProductMotion

/-!
# Motion in products of spaces: C124

The specification is `Spec/ProductMotion.lean`.
-/

namespace PyOGRe
open Spec Finset MvPolynomial
variable {K : Type} [CommRing K] [DecidableEq K] [Algebra ℚ K] {E : Engine K} {A B G : Ground K} {VA VB V : View K}
  {wA wB w : World K} {DA DB Dm : TField K} {C : Curves K}

/-! ## Expressions that do not depend on a symbol -/

section
variable (hC : Calculus E) {s : Sym}
include hC

omit [DecidableEq K] in
theorem free_add {x y : K} (hx : E.diff s x = 0) (hy : E.diff s y = 0) : E.diff s (x + y) = 0 := by
  rw [hC.add, hx, hy, add_zero]

omit [DecidableEq K] in
theorem free_mul {x y : K} (hx : E.diff s x = 0) (hy : E.diff s y = 0) : E.diff s (x * y) = 0 := by
  rw [hC.mul, hx, hy, zero_mul, mul_zero, add_zero]

omit [DecidableEq K] in
theorem free_neg {x : K} (hx : E.diff s x = 0) : E.diff s (-x) = 0 := by
  have := hC.add s x (-x)
  rw [add_neg_cancel, diff_zero hC, hx, zero_add] at this
  exact this.symm

omit [DecidableEq K] in
theorem free_one : E.diff s 1 = 0 := by
  have := hC.mul s 1 1
  simp only [mul_one, one_mul] at this
  exact (left_eq_add.1 this)

omit [DecidableEq K] in
theorem free_sum {ι : Type} {t : Finset ι} {f : ι → K} (h : ∀ i ∈ t, E.diff s (f i) = 0) : E.diff s (∑ i ∈ t, f i) = 0 := by
  rw [diff_sum hC]
  exact sum_eq_zero h

/-- The Christoffel symbols do not depend on a symbol that the metric does not depend on. -/
theorem free_christoffel (hi : Inverse A.n A.g A.gi) (hg : ∀ i j, i < A.n → j < A.n → E.diff s (A.g i j) = 0) {l m n : Nat}
    (hl : l < A.n) (hm : m < A.n) (hn : n < A.n) : E.diff s (christoffel E A l m n) = 0 :=
  apart_christoffel (G := { A with syms := [s] }) (k := 0) hC hi hg hl hm hn

variable {α : Nat → Nat → Nat → K}

theorem free_geodesic (hα : ∀ l m n, l < A.n → m < A.n → n < A.n → E.diff s (α l m n) = 0)
    (hv : ∀ i, i < A.n → E.diff s (A.speed C i) = 0 ∧ E.diff s (A.accel C i) = 0) {i : Nat} (hi : i < A.n) :
    E.diff s (geodesicOf C A α i) = 0 :=
  free_add hC (hv i hi).2 (free_sum hC fun m hm => free_sum hC fun n hn =>
    free_mul hC (free_mul hC (hα i m n hi (by simpa using hm) (by simpa using hn)) (hv m (by simpa using hm)).1)
      (hv n (by simpa using hn)).1)

theorem free_geodesicT (hα : ∀ l m n, l < A.n → m < A.n → n < A.n → E.diff s (α l m n) = 0)
    (hv : ∀ i, i < A.n → E.diff s (A.speed C i) = 0 ∧ E.diff s (A.accel C i) = 0) {i : Nat} (hi : i < A.n) :
    E.diff s (geodesicTOf C A α i) = 0 := by
  have h1 : ∀ i, i < A.n → E.diff s (A.speedT C i) = 0 := fun i hi => by
    unfold Ground.speedT
    split_ifs
    · exact free_one hC
    · exact (hv i hi).1
  refine free_add hC ?_ (free_sum hC fun m hm => free_sum hC fun n hn =>
    free_mul hC (free_mul hC ?_ (h1 m (by simpa using hm))) (h1 n (by simpa using hn)))
  · unfold Ground.accelT
    split_ifs
    · exact diff_zero hC s
    · exact (hv i hi).2
  · have hm : m < A.n := by simpa using hm
    have hn : n < A.n := by simpa using hn
    rw [sub_eq_add_neg]
    exact free_add hC (hα i m n hi hm hn) (free_neg hC (free_mul hC (hα 0 m n (by omega) hm hn) (h1 i hi)))

theorem free_lagrangian (hg : ∀ i j, i < A.n → j < A.n → E.diff s (A.g i j) = 0)
    (hv : ∀ i, i < A.n → E.diff s (A.speed C i) = 0 ∧ E.diff s (A.accel C i) = 0) : E.diff s (lagrangian C A) = 0 :=
  free_sum hC fun m hm => free_sum hC fun n hn =>
    free_mul hC (free_mul hC (hg m n (by simpa using hm) (by simpa using hn)) (hv m (by simpa using hm)).1)
      (hv n (by simpa using hn)).1

end

/-! ## The formulae for a product -/

section
variable (h : Product E A B G) (hA : A.syms.length = A.n)
include h hA

theorem product_sym_first {i : Nat} (hi : i < A.n) : G.syms.getD i "" = A.syms.getD i "" := by
  rw [h.syms, List.getD_eq_getElem?_getD, List.getElem?_append_left (by omega), ← List.getD_eq_getElem?_getD]

theorem product_sym_second (i : Nat) : G.syms.getD (A.n + i) "" = B.syms.getD i "" := by
  rw [h.syms, List.getD_eq_getElem?_getD, List.getElem?_append_right (by omega), hA, Nat.add_sub_cancel_left,
    ← List.getD_eq_getElem?_getD]

variable {α β Γ : Nat → Nat → Nat → K} (s : SplitConnection E A B G α β Γ)
include s

theorem product_sum_first {v u : Nat → K} {i : Nat} (hi : i < A.n) (hv : ∀ m, m < A.n → v m = u m) :
    ∑ m ∈ range G.n, ∑ n ∈ range G.n, Γ i m n * v m * v n = ∑ m ∈ range A.n, ∑ n ∈ range A.n, α i m n * u m * u n := by
  have h0 := h.n
  rw [h0, sum_range_add, sum_eq_zero (s := range B.n) fun m hm => sum_eq_zero fun n hn => ?_, add_zero]
  · refine sum_congr rfl fun m hm => ?_
    have hm : m < A.n := by simpa using hm
    rw [sum_range_add, sum_eq_zero (s := range B.n) fun n hn => ?_, add_zero]
    · refine sum_congr rfl fun n hn => ?_
      have hn : n < A.n := by simpa using hn
      rw [s.first i m n hi hm hn, hv m hm, hv n hn]
    · have hn : n < B.n := by simpa using hn
      rw [s.zero i m (A.n + n) (by omega) (by omega) (by omega) (by rw [alike_three]; omega), zero_mul, zero_mul]
  · have hm : m < B.n := by simpa using hm
    have hn : n < A.n + B.n := by simpa using hn
    rw [s.zero i (A.n + m) n (by omega) (by omega) (by omega) (by rw [alike_three]; omega), zero_mul, zero_mul]

theorem product_sum_second {v u : Nat → K} {i : Nat} (hi : i < B.n) (hv : ∀ m, m < B.n → v (A.n + m) = u m) :
    ∑ m ∈ range G.n, ∑ n ∈ range G.n, Γ (A.n + i) m n * v m * v n =
      ∑ m ∈ range B.n, ∑ n ∈ range B.n, β i m n * u m * u n := by
  have h0 := h.n
  rw [h0, sum_range_add, sum_eq_zero (s := range A.n) fun m hm => sum_eq_zero fun n hn => ?_, zero_add]
  · refine sum_congr rfl fun m hm => ?_
    have hm : m < B.n := by simpa using hm
    rw [sum_range_add, sum_eq_zero (s := range A.n) fun n hn => ?_, zero_add]
    · refine sum_congr rfl fun n hn => ?_
      have hn : n < B.n := by simpa using hn
      rw [s.second i m n hi hm hn, hv m hm, hv n hn]
    · have hn : n < A.n := by simpa using hn
      rw [s.zero (A.n + i) (A.n + m) n (by omega) (by omega) (by omega) (by rw [alike_three]; omega), zero_mul, zero_mul]
  · have hm : m < A.n := by simpa using hm
    have hn : n < A.n + B.n := by simpa using hn
    rw [s.zero (A.n + i) m n (by omega) (by omega) (by omega) (by rw [alike_three]; omega), zero_mul, zero_mul]

theorem product_geodesic_first {i : Nat} (hi : i < A.n) : geodesicOf C G Γ i = geodesicOf C A α i := by
  unfold geodesicOf
  rw [product_sum_first h hA s (v := G.speed C) (u := A.speed C) hi fun m hm => ?_]
  · unfold Ground.accel
    rw [product_sym_first h hA hi]
  · unfold Ground.speed
    rw [product_sym_first h hA hm]

theorem product_geodesic_second {i : Nat} (hi : i < B.n) : geodesicOf C G Γ (A.n + i) = geodesicOf C B β i := by
  unfold geodesicOf
  rw [product_sum_second h hA s (v := G.speed C) (u := B.speed C) hi fun m hm => ?_]
  · unfold Ground.accel
    rw [product_sym_second h hA]
  · unfold Ground.speed
    rw [product_sym_second h hA]

theorem product_geodesicT_first {i : Nat} (hi : i < A.n) : geodesicTOf C G Γ i = geodesicTOf C A α i := by
  have e : ∀ m, m < A.n → G.speedT C m = A.speedT C m := fun m hm => by
    unfold Ground.speedT Ground.speed
    rw [product_sym_first h hA hm]
  have key : ∀ (F : Ground K) (γ : Nat → Nat → Nat → K), geodesicTOf C F γ i = F.accelT C i +
      (∑ m ∈ range F.n, ∑ n ∈ range F.n, γ i m n * F.speedT C m * F.speedT C n -
        (∑ m ∈ range F.n, ∑ n ∈ range F.n, γ 0 m n * F.speedT C m * F.speedT C n) * F.speedT C i) := by
    intro F γ
    unfold geodesicTOf
    rw [sum_mul, ← sum_sub_distrib]
    congr 1
    refine sum_congr rfl fun m _ => ?_
    rw [sum_mul, ← sum_sub_distrib]
    exact sum_congr rfl fun n _ => by ring
  rw [key, key, product_sum_first h hA s hi e, product_sum_first h hA s (i := 0) (by omega) e, e i hi]
  congr 1
  unfold Ground.accelT Ground.accel
  rw [product_sym_first h hA hi]

omit s in
theorem product_lagrangian : lagrangian C G = lagrangian C A + lagrangian C B := by
  have e1 : ∀ m, m < A.n → G.speed C m = A.speed C m := fun m hm => by
    unfold Ground.speed
    rw [product_sym_first h hA hm]
  have e2 : ∀ m, G.speed C (A.n + m) = B.speed C m := fun m => by
    unfold Ground.speed
    rw [product_sym_second h hA]
  unfold lagrangian
  rw [h.n, sum_range_add]
  congr 1
  · refine sum_congr rfl fun m hm => ?_
    have hm : m < A.n := by simpa using hm
    rw [sum_range_add, sum_eq_zero (s := range B.n) fun n hn => by
      rw [(h.between m n hm (by simpa using hn)).1, zero_mul, zero_mul], add_zero]
    refine sum_congr rfl fun n hn => ?_
    have hn : n < A.n := by simpa using hn
    rw [h.first m n hm hn, e1 m hm, e1 n hn]
  · refine sum_congr rfl fun m hm => ?_
    have hm : m < B.n := by simpa using hm
    rw [sum_range_add, sum_eq_zero (s := range A.n) fun n hn => by
      rw [(h.between n m (by simpa using hn) hm).2, zero_mul, zero_mul], zero_add]
    refine sum_congr rfl fun n hn => ?_
    have hn : n < B.n := by simpa using hn
    rw [h.second m n hm hn, e2, e2]

end

/-! ## What the sessions answer -/

theorem obtains_same {m : PyM K Id'} {shape : List Nat} {P : Arr K → Prop} (h : Obtains E C w m shape P) :
    ∃ a, Obtains E C w m shape (· = a) ∧ P a := by
  obtain ⟨r, w', h1, h2, a, h3, h4, h5⟩ := h
  exact ⟨a, ⟨r, w', h1, h2, a, h3, h4, rfl⟩, h5⟩

theorem solved_lagrangian (hE : EngineOK E) (hC : Calculus E) (hF : Fresh E C G V w Dm) :
    Obtains E C w (calcGeodesicLagrangian E C G.m none) [G.n] fun a =>
      SameSolutions a G.n (fun i => C.asFunctions C.parameter G.syms (geodesic E C G i)) fun _ => True := by
  have hQ : NamesFor E G (christoffel E G) V w Dm.name := noNames_for hF.free
  refine obtains_given (anyGiven_geodesicLagrangian hE.simp_eq hF.scene hC hF.curves hF.names hF.static hF.metric.view
    hF.metric.name hQ (Or.inr ⟨rfl, hF.metric.coords⟩) (namesCurve_unnamed (hF.unnamed _ _ (by simp)))
    (namesCurve_unnamed (hF.unnamed _ _ (by simp)))) fun a ha R _ φ => ?_
  have := (equations_equivalent (functionsHom hF.curves C.parameter) hF.scene.inverse (e := geodesic E C G)
    (x := fun i => a.get [i]) (y := fun i => C.asFunctions C.parameter G.syms (geodesic E C G i)) (fun i hi => ?_) fun i _ =>
      ⟨1, isUnit_one, by rw [one_mul]; rfl⟩).2 R φ
  · simpa using this
  · obtain ⟨u, hu, hu'⟩ := hF.curves.clear (∑ j ∈ range G.n, G.g i j * geodesic E C G j)
    exact ⟨u, hu, (ha [i] rfl (by simpa using hi)).trans (congrArg (C.asFunctions C.parameter G.syms) hu')⟩

/-- A component is a unit times the formula. -/
theorem cleared_zero (hO : CurvesOK E C G.syms) (p : Sym) (x : K) {R : Type} [CommRing R] (φ : K →+* R) :
    φ (C.asFunctions p G.syms (C.clear x)) = 0 ↔ φ (C.asFunctions p G.syms x) = 0 := by
  obtain ⟨u, hu, hu'⟩ := hO.clear x
  have hv : IsUnit (φ (C.asFunctions p G.syms u)) := (hu.map (functionsHom hO p)).map φ
  rw [hu', hO.mul, map_mul]
  exact hv.mul_right_eq_zero

theorem solved_christoffel {Γ : Nat → Nat → Nat → K} (hE : EngineOK E) (hF : Fresh E C G V w Dm) (hΓ : GivesConnection E G Γ Dm) :
    Obtains E C w (calcGeodesicChristoffel E C G.m none) [G.n] fun a =>
      SameSolutions a G.n (fun i => C.asFunctions C.parameter G.syms (geodesicOf C G Γ i)) fun _ => True := by
  refine obtains_given (anyGiven_geodesicChristoffel hE.simp_eq hΓ hF.scene C hF.metric (noNames_for hF.free) (Or.inr rfl)
    (namesCurve_unnamed (hF.unnamed _ _ (by simp)))) fun a ha R _ φ => forall_congr' fun i => forall_congr' fun hi => ?_
  rw [ha [i] rfl (by simpa using hi)]
  simp only [forall_const]
  exact cleared_zero hF.curves _ _ φ

theorem solved_time {Γ : Nat → Nat → Nat → K} (hE : EngineOK E) (hF : Fresh E C G V w Dm) (hΓ : GivesConnection E G Γ Dm) :
    Obtains E C w (calcGeodesicTime E C G.m none) [G.n] fun a => ∀ (R : Type) [CommRing R] (φ : K →+* R), ∀ i, i < G.n →
      (φ (a.get [i]) = 0 ↔ φ (C.asFunctions (G.syms.getD 0 "") G.syms (geodesicTOf C G Γ i)) = 0) := by
  refine obtains_given (anyGiven_geodesicTime hE.simp_eq hΓ hF.scene C hF.metric (noNames_for hF.free) (Or.inr rfl)
    (namesCurve_unnamed (hF.unnamed _ _ (by simp)))) fun a ha R _ φ i hi => ?_
  rw [ha [i] rfl (by simpa using hi)]
  exact cleared_zero hF.curves _ _ φ

theorem solved_pairs {f : Id' → PyM K Id'} {x y z : Nat → K} (hn : G.n = A.n + B.n)
    (hA : Obtains E C wA (f A.m) [A.n] fun a => SameSolutions a A.n x fun _ => True)
    (hB : Obtains E C wB (f B.m) [B.n] fun a => SameSolutions a B.n y fun _ => True)
    (hG : Obtains E C w (f G.m) [G.n] fun a => SameSolutions a G.n z fun _ => True)
    (h1 : ∀ i, i < A.n → z i = x i) (h2 : ∀ i, i < B.n → z (A.n + i) = y i) : Pairs E C A B G wA wB w f := by
  obtain ⟨a, a1, a2⟩ := obtains_same hA
  obtain ⟨b, b1, b2⟩ := obtains_same hB
  obtain ⟨c, c1, c2⟩ := obtains_same hG
  refine ⟨a, b, c, a1, b1, c1, fun R _ φ => ?_⟩
  rw [a2 R φ, b2 R φ, c2 R φ]
  simp only [forall_const]
  constructor
  · exact fun h => ⟨fun i hi => by rw [← h1 i hi]; exact h i (by omega), fun i hi => by
      rw [← h2 i hi]; exact h (A.n + i) (by omega)⟩
  · rintro ⟨ha, hb⟩ i hi
    rw [hn] at hi
    rcases below_or hi with hi | ⟨j, rfl, hj⟩
    · rw [h1 i hi]; exact ha i hi
    · rw [h2 j hj]; exact hb j hj

theorem split_opposite {α β Γ : Nat → Nat → Nat → K} (hC : Calculus E) (s : SplitConnection E A B G α β Γ) :
    SplitConnection E A B G (fun l m n => -α l m n) (fun l m n => -β l m n) fun l m n => -Γ l m n :=
  ⟨fun l m n hl hm hn => congrArg Neg.neg (s.first l m n hl hm hn), fun l m n hl hm hn => congrArg Neg.neg (s.second l m n hl hm hn),
    fun l m n hl hm hn hz => by rw [s.zero l m n hl hm hn hz, neg_zero],
    fun k l m n hk hl hm hn hz => free_neg hC (s.apart k l m n hk hl hm hn hz)⟩

/-- **C124** Let the session of each of three metrics, the third one the product of the others, be as in `Fresh`, and let the
metrics have the same default configuration.  Then the solutions of the geodesic equations of the product, whether from the
Lagrangian or from the Christoffel symbols, are the pairs of solutions for the factors; the Lagrangian of the product is the
sum; and of the equations with the time parameter, those for the coordinates of the first factor are those of this factor. -/
theorem C124_product (hE : EngineOK E) (hC : Calculus E) (hA : Fresh E C A VA wA DA) (hB : Fresh E C B VB wB DB)
    (hF : Fresh E C G V w Dm)
    (hix : DA.ix = [-1, -1] ∧ DB.ix = [-1, -1] ∧ Dm.ix = [-1, -1] ∨ DA.ix = [1, 1] ∧ DB.ix = [1, 1] ∧ Dm.ix = [1, 1])
    (h : Product E A B G) (hO : OnlyOccurring E C A.syms B.syms) :
    Pairs E C A B G wA wB w (fun m => calcGeodesicLagrangian E C m none) ∧
    Pairs E C A B G wA wB w (fun m => calcGeodesicChristoffel E C m none) ∧
    LagrangiansAdd E C A B G wA wB w ∧ Begins E C A G wA w fun m => calcGeodesicTime E C m none := by
  have dA := hA.scene.dim
  have dB := hB.scene.dim
  have hs := split_christoffel hC h dA hF.scene.inverse hA.scene.inverse hB.scene.inverse
  obtain ⟨α, β, Γ, gA, gB, gG, s, fA, fB⟩ : ∃ α β Γ, GivesConnection E A α DA ∧ GivesConnection E B β DB ∧
      GivesConnection E G Γ Dm ∧ SplitConnection E A B G α β Γ ∧
      (∀ s, (∀ i j, i < A.n → j < A.n → E.diff s (A.g i j) = 0) → ∀ l m n, l < A.n → m < A.n → n < A.n → E.diff s (α l m n) = 0) ∧
      ∀ s, (∀ i j, i < B.n → j < B.n → E.diff s (B.g i j) = 0) → ∀ l m n, l < B.n → m < B.n → n < B.n →
        E.diff s (β l m n) = 0 := by
    rcases hix with ⟨h1, h2, h3⟩ | ⟨h1, h2, h3⟩
    · exact ⟨_, _, _, gives_christoffel hE.simp_eq h1, gives_christoffel hE.simp_eq h2, gives_christoffel hE.simp_eq h3, hs,
        fun s hg l m n hl hm hn => free_christoffel hC hA.scene.inverse hg hl hm hn,
        fun s hg l m n hl hm hn => free_christoffel hC hB.scene.inverse hg hl hm hn⟩
    · exact ⟨_, _, _, gives_opposite hE.simp_eq hC h1, gives_opposite hE.simp_eq hC h2, gives_opposite hE.simp_eq hC h3,
        split_opposite hC hs,
        fun s hg l m n hl hm hn => free_neg hC (free_christoffel hC hA.scene.inverse hg hl hm hn),
        fun s hg l m n hl hm hn => free_neg hC (free_christoffel hC hB.scene.inverse hg hl hm hn)⟩
  -- the formulae for one factor do not contain the coordinates of the other
  have names := hF.names
  unfold ProperNames at names
  rw [h.syms] at names
  have mem : ∀ {l : List Sym} {n : Nat}, l.length = n → ∀ i, i < n → l.getD i "" ∈ l := fun {l n} hl i hi => by
    rw [List.getD_eq_getElem?_getD, List.getElem?_eq_getElem (by omega)]
    exact List.getElem_mem _
  have at' : ∀ {l : List Sym} {n : Nat}, l.length = n → ∀ s ∈ l, ∃ k, k < n ∧ l.getD k "" = s := fun {l n} hl s hs => by
    obtain ⟨k, hk, rfl⟩ := List.getElem_of_mem hs
    exact ⟨k, by omega, by rw [List.getD_eq_getElem?_getD, List.getElem?_eq_getElem hk]; rfl⟩
  have apart : ∀ s ∈ A.syms, ∀ t ∈ B.syms, s ≠ dot t ∧ s ≠ ddot t ∧ dot s ≠ dot t ∧ dot s ≠ ddot t ∧ ddot s ≠ dot t ∧
      ddot s ≠ ddot t ∧ t ≠ dot s ∧ t ≠ ddot s := by
    intro s hs t ht
    simp only [List.map_append, List.nodup_cons, List.nodup_append, List.mem_append, List.mem_map, not_or] at names
    grind
  have vA : ∀ s ∈ B.syms, ∀ i, i < A.n → (E.diff s (A.speed C i) = 0 ∧ E.diff s (A.accel C i) = 0) ∧
      (E.diff (dot s) (A.speed C i) = 0 ∧ E.diff (dot s) (A.accel C i) = 0) ∧
      (E.diff (ddot s) (A.speed C i) = 0 ∧ E.diff (ddot s) (A.accel C i) = 0) := by
    intro s hs i hi
    have := apart _ (mem dA i hi) s hs
    unfold Ground.speed Ground.accel
    simp only [hA.curves.var]
    grind
  have vB : ∀ s ∈ A.syms, ∀ i, i < B.n → (E.diff s (B.speed C i) = 0 ∧ E.diff s (B.accel C i) = 0) ∧
      (E.diff (dot s) (B.speed C i) = 0 ∧ E.diff (dot s) (B.accel C i) = 0) ∧
      (E.diff (ddot s) (B.speed C i) = 0 ∧ E.diff (ddot s) (B.accel C i) = 0) := by
    intro s hs i hi
    have := apart s hs _ (mem dB i hi)
    unfold Ground.speed Ground.accel
    simp only [hA.curves.var]
    grind
  have mA : ∀ s ∈ B.syms, ∀ i j, i < A.n → j < A.n →
      E.diff s (A.g i j) = 0 ∧ E.diff (dot s) (A.g i j) = 0 ∧ E.diff (ddot s) (A.g i j) = 0 := by
    intro s hs i j hi hj
    obtain ⟨k, hk, rfl⟩ := at' dB s hs
    have := (hF.static i j (by rw [h.n]; omega) (by rw [h.n]; omega)).2 _ (by rw [h.syms]; exact List.mem_append_right _ hs)
    rw [h.first i j hi hj] at this
    exact ⟨h.firstApart k i j hk hi hj, this⟩
  have mB : ∀ s ∈ A.syms, ∀ i j, i < B.n → j < B.n →
      E.diff s (B.g i j) = 0 ∧ E.diff (dot s) (B.g i j) = 0 ∧ E.diff (ddot s) (B.g i j) = 0 := by
    intro s hs i j hi hj
    obtain ⟨k, hk, rfl⟩ := at' dA s hs
    have := (hF.static (A.n + i) (A.n + j) (by rw [h.n]; omega) (by rw [h.n]; omega)).2 _
      (by rw [h.syms]; exact List.mem_append_left _ hs)
    rw [h.second i j hi hj] at this
    exact ⟨h.secondApart k i j hk hi hj, this⟩
  have oA : ∀ {γ : Nat → Nat → Nat → K} (_ : ∀ s, (∀ i j, i < A.n → j < A.n → E.diff s (A.g i j) = 0) →
      ∀ l m n, l < A.n → m < A.n → n < A.n → E.diff s (γ l m n) = 0) (p : Sym) (i : Nat), i < A.n →
      C.asFunctions p G.syms (geodesicOf C A γ i) = C.asFunctions p A.syms (geodesicOf C A γ i) := by
    intro γ hγ p i hi
    rw [h.syms]
    refine hO.1 p _ fun s hs => ⟨free_geodesic hC (hγ _ fun i j hi hj => (mA s hs i j hi hj).1) (fun i hi => (vA s hs i hi).1) hi,
      free_geodesic hC (hγ _ fun i j hi hj => (mA s hs i j hi hj).2.1) (fun i hi => (vA s hs i hi).2.1) hi,
      free_geodesic hC (hγ _ fun i j hi hj => (mA s hs i j hi hj).2.2) (fun i hi => (vA s hs i hi).2.2) hi⟩
  have oB : ∀ {γ : Nat → Nat → Nat → K} (_ : ∀ s, (∀ i j, i < B.n → j < B.n → E.diff s (B.g i j) = 0) →
      ∀ l m n, l < B.n → m < B.n → n < B.n → E.diff s (γ l m n) = 0) (p : Sym) (i : Nat), i < B.n →
      C.asFunctions p G.syms (geodesicOf C B γ i) = C.asFunctions p B.syms (geodesicOf C B γ i) := by
    intro γ hγ p i hi
    rw [h.syms]
    refine hO.2 p _ fun s hs => ⟨free_geodesic hC (hγ _ fun i j hi hj => (mB s hs i j hi hj).1) (fun i hi => (vB s hs i hi).1) hi,
      free_geodesic hC (hγ _ fun i j hi hj => (mB s hs i j hi hj).2.1) (fun i hi => (vB s hs i hi).2.1) hi,
      free_geodesic hC (hγ _ fun i j hi hj => (mB s hs i j hi hj).2.2) (fun i hi => (vB s hs i hi).2.2) hi⟩
  refine ⟨solved_pairs h.n (solved_lagrangian hE hC hA) (solved_lagrangian hE hC hB) (solved_lagrangian hE hC hF) ?_ ?_,
    solved_pairs h.n (solved_christoffel hE hA gA) (solved_christoffel hE hB gB) (solved_christoffel hE hF gG) ?_ ?_, ?_, ?_⟩
  · intro i hi
    have e : geodesic E C G i = geodesic E C A i := product_geodesic_first h dA hs hi
    simp only [e]
    exact oA (fun s hg l m n hl hm hn => free_christoffel hC hA.scene.inverse hg hl hm hn) _ i hi
  · intro i hi
    have e : geodesic E C G (A.n + i) = geodesic E C B i := product_geodesic_second h dA hs hi
    simp only [e]
    exact oB (fun s hg l m n hl hm hn => free_christoffel hC hB.scene.inverse hg hl hm hn) _ i hi
  · intro i hi
    simp only [product_geodesic_first (C := C) h dA s hi]
    exact oA fA _ i hi
  · intro i hi
    simp only [product_geodesic_second (C := C) h dA s hi]
    exact oB fB _ i hi
  · refine ⟨C.asFunctions C.parameter A.syms (lagrangian C A), C.asFunctions C.parameter B.syms (lagrangian C B),
      obtains_given (anyGiven_lagrangian hE.simp_eq hA.scene C hA.metric.view hA.metric.name
        (noNames_for (Γ := α) hA.free) (Or.inr ⟨rfl, hA.metric.coords⟩) (namesCurve_unnamed (hA.unnamed _ _ (by simp))))
        fun a ha => ha [] rfl (by simp),
      obtains_given (anyGiven_lagrangian hE.simp_eq hB.scene C hB.metric.view hB.metric.name
        (noNames_for (Γ := β) hB.free) (Or.inr ⟨rfl, hB.metric.coords⟩) (namesCurve_unnamed (hB.unnamed _ _ (by simp))))
        fun a ha => ha [] rfl (by simp),
      obtains_given (anyGiven_lagrangian hE.simp_eq hF.scene C hF.metric.view hF.metric.name
        (noNames_for (Γ := Γ) hF.free) (Or.inr ⟨rfl, hF.metric.coords⟩) (namesCurve_unnamed (hF.unnamed _ _ (by simp))))
        fun a ha => ?_⟩
    rw [ha [] rfl (by simp), product_lagrangian h dA, hF.curves.add]
    congr 1
    · rw [h.syms]
      exact hO.1 _ _ fun s hs => ⟨free_lagrangian hC (fun i j hi hj => (mA s hs i j hi hj).1) fun i hi => (vA s hs i hi).1,
        free_lagrangian hC (fun i j hi hj => (mA s hs i j hi hj).2.1) fun i hi => (vA s hs i hi).2.1,
        free_lagrangian hC (fun i j hi hj => (mA s hs i j hi hj).2.2) fun i hi => (vA s hs i hi).2.2⟩
    · rw [h.syms]
      exact hO.2 _ _ fun s hs => ⟨free_lagrangian hC (fun i j hi hj => (mB s hs i j hi hj).1) fun i hi => (vB s hs i hi).1,
        free_lagrangian hC (fun i j hi hj => (mB s hs i j hi hj).2.1) fun i hi => (vB s hs i hi).2.1,
        free_lagrangian hC (fun i j hi hj => (mB s hs i j hi hj).2.2) fun i hi => (vB s hs i hi).2.2⟩
  · obtain ⟨a, a1, a2⟩ := obtains_same (solved_time hE hA gA)
    obtain ⟨c, c1, c2⟩ := obtains_same (solved_time hE hF gG)
    refine ⟨a, c, a1, c1, fun R _ φ i hi => ?_⟩
    rw [a2 R φ i hi, c2 R φ i (by rw [h.n]; omega), product_geodesicT_first h dA s hi, product_sym_first h dA (by omega), h.syms,
      hO.1 _ _ fun s hs => ⟨free_geodesicT hC (fA _ fun i j hi hj => (mA s hs i j hi hj).1) (fun i hi => (vA s hs i hi).1) hi,
        free_geodesicT hC (fA _ fun i j hi hj => (mA s hs i j hi hj).2.1) (fun i hi => (vA s hs i hi).2.1) hi,
        free_geodesicT hC (fA _ fun i j hi hj => (mA s hs i j hi hj).2.2) (fun i hi => (vA s hs i hi).2.2) hi⟩]

/-! ## An example -/

/-- The symbol and the function of the curve parameter with a name. -/
def plainName (s : Sym) : Sym := "S" ++ s
def curveName (s : Sym) : Sym := "F" ++ s

theorem plainName_inj : Function.Injective plainName := fun a b h => by
  have := congrArg String.toList h
  exact String.toList_inj.1 (by simpa [plainName, String.toList_append] using this)

theorem curveName_inj : Function.Injective curveName := fun a b h => by
  have := congrArg String.toList h
  exact String.toList_inj.1 (by simpa [curveName, String.toList_append] using this)

theorem plain_ne_curve (a b : Sym) : plainName a ≠ curveName b := fun h => by
  have := congrArg (fun s => s.toList.head?) h
  simp [plainName, curveName, String.toList_append] at this

/-- The names of coordinates, velocities and accelerations. -/
def motionNames (syms : List Sym) : List Sym := syms ++ syms.map dot ++ syms.map ddot

/-- Functions for the coordinates, velocities and accelerations except for the parameter `p`. -/
def codeName (p : Sym) (syms : List Sym) (t : Sym) : Sym :=
  if t ≠ p ∧ t ∈ motionNames syms then curveName t else plainName t

theorem codeName_inj (p : Sym) (syms : List Sym) : Function.Injective (codeName p syms) := fun a b h => by
  unfold codeName at h
  split_ifs at h
  · exact curveName_inj h
  · exact absurd h.symm (plain_ne_curve _ _)
  · exact absurd h (plain_ne_curve _ _)
  · exact plainName_inj h

/-- The name without the first letter. -/
def bareName (s : Sym) : Sym := String.ofList (s.toList.drop 1)

theorem bare_code (p : Sym) (syms : List Sym) (t : Sym) : bareName (codeName p syms t) = t := by
  unfold codeName
  split_ifs <;> simp [bareName, curveName, plainName, String.toList_append]

/-- The coordinates of the product. -/
def fiveNames : List Sym := ["x", "y", "z", "u", "v"]

/-- Motion in the five dimensions, where symbols and functions are different variables. -/
noncomputable def pairCurves : Curves Poly where
  var s := X s
  parameter := "lambda"
  asFunctions p syms := rename (codeName p syms)
  byFunction s x := pderiv (curveName s) x
  rate x := (fiveNames.map fun s => pderiv (curveName s) x * X (curveName (dot s)) +
    pderiv (curveName (dot s)) x * X (curveName (ddot s))).sum
  later x := x * X "pending"
  asSymbols _ := rename bareName
  velocity syms x := (syms.map fun s => pderiv s x * X (dot s)).sum
  clear x := x

theorem bare_functions (p : Sym) (syms : List Sym) (x : Poly) : rename bareName (rename (codeName p syms) x) = x := by
  rw [rename_rename, show bareName ∘ codeName p syms = id from funext (bare_code p syms), rename_id]
  rfl

theorem pderiv_curve {p : Sym} {syms : List Sym} {s : Sym} (hs : s ≠ p) (x : Poly) :
    pderiv (curveName s) (rename (codeName p syms) x) =
      if s ∈ motionNames syms then rename (codeName p syms) (pderiv s x) else 0 := by
  split_ifs with h
  · have e : curveName s = codeName p syms s := (if_pos ⟨hs, h⟩).symm
    rw [e, pderiv_rename (codeName_inj p syms)]
  · refine pderiv_eq_zero_of_notMem_vars fun hv => ?_
    obtain ⟨t, -, ht⟩ := Finset.mem_image.1 (vars_rename _ _ hv)
    unfold codeName at ht
    split_ifs at ht with ht'
    · exact h (curveName_inj ht ▸ ht'.2)
    · exact plain_ne_curve _ _ ht

/-- Which of the five coordinates are among the given ones. -/
structure Chosen (syms : List Sym) : Prop where
  names : ∀ s ∈ syms ++ syms.map dot, s ≠ "lambda" ∧ s ∈ motionNames syms
  five : ∀ s ∈ fiveNames, s ≠ "lambda" ∧ dot s ≠ "lambda" ∧ ddot s ≠ "lambda" ∧ (s ∈ motionNames syms ↔ s ∈ syms) ∧
    (dot s ∈ motionNames syms ↔ s ∈ syms)
  listed : fiveNames.filter (· ∈ syms) = syms

theorem sum_filter_list {l : List Sym} (q : Sym → Prop) [DecidablePred q] (f : Sym → Poly) :
    (l.map fun s => if q s then f s else 0).sum = ((l.filter q).map f).sum := by
  induction l with
  | nil => rfl
  | cons a l ih =>
    by_cases h : q a
    · simp [h, ih]
    · simp [h, ih]

theorem pairCurves_ok {syms : List Sym} (h : Chosen syms) : CurvesOK polyEngine pairCurves syms where
  var s t := by
    show pderiv s (X t) = _
    rw [pderiv_X, Pi.single_apply]
    split_ifs with h1 h2 h2
    · rfl
    · exact absurd h1.symm h2
    · exact absurd h2.symm h1
    · rfl
  one p := map_one (rename _)
  add p := map_add (rename _)
  mul p := map_mul (rename _)
  byFunction s hs x := by
    show pderiv (curveName s) (rename (codeName "lambda" syms) x) = rename (codeName "lambda" syms) (pderiv s x)
    rw [pderiv_curve (h.names s hs).1, if_pos (h.names s hs).2]
  sub x y := map_sub (rename bareName) x y
  back x _ := bare_functions _ _ x
  chain x _ _ := by
    show rename bareName ((fiveNames.map fun s => pderiv (curveName s) (rename (codeName "lambda" syms) x) * X (curveName (dot s)) +
      pderiv (curveName (dot s)) (rename (codeName "lambda" syms) x) * X (curveName (ddot s))).sum) =
      (syms.map fun s => pderiv s x * X (dot s) + pderiv (dot s) x * X (ddot s)).sum
    rw [map_list_sum, List.map_map]
    have e : ∀ s ∈ fiveNames, (rename bareName ∘ fun s => pderiv (curveName s) (rename (codeName "lambda" syms) x) *
        X (curveName (dot s)) + pderiv (curveName (dot s)) (rename (codeName "lambda" syms) x) * X (curveName (ddot s))) s =
        if s ∈ syms then pderiv s x * X (dot s) + pderiv (dot s) x * X (ddot s) else 0 := by
      intro s hs
      obtain ⟨h1, h2, h3, h4, h5⟩ := h.five s hs
      have b : ∀ t, bareName (curveName t) = t := fun t => by simp [bareName, curveName, String.toList_append]
      simp only [Function.comp_apply]
      rw [pderiv_curve h1, pderiv_curve h2]
      simp only [h4, h5]
      by_cases hm : s ∈ syms
      · simp only [if_pos hm, map_add, map_mul, bare_functions, rename_X, b]
      · simp only [if_neg hm, zero_mul, add_zero, map_zero]
    rw [List.map_congr_left e, sum_filter_list (· ∈ syms), h.listed]
  clear x := ⟨1, isUnit_one, (one_mul x).symm⟩

theorem pairCurves_occurring {first second : List Sym} (hd : ∀ s ∈ motionNames first, s ∉ motionNames second) :
    OnlyOccurring polyEngine pairCurves first second := by
  have hm : ∀ l s, s ∈ motionNames l ↔ s ∈ l ∨ (∃ t ∈ l, dot t = s) ∨ ∃ t ∈ l, ddot t = s := by
    intro l s
    simp [motionNames, or_assoc]
  have ha : ∀ s, s ∈ motionNames (first ++ second) ↔ s ∈ motionNames first ∨ s ∈ motionNames second := by
    intro s
    simp only [hm, List.mem_append]
    grind
  have hv : ∀ {l : List Sym} {x : Poly}, (∀ s ∈ l, pderiv s x = 0 ∧ pderiv (dot s) x = 0 ∧ pderiv (ddot s) x = 0) →
      ∀ s ∈ x.vars, s ∉ motionNames l := by
    intro l x h s hs hn
    rcases (hm l s).1 hn with h1 | ⟨t, h1, rfl⟩ | ⟨t, h1, rfl⟩
    · exact not_mem_vars (h s h1).1 hs
    · exact not_mem_vars (h t h1).2.1 hs
    · exact not_mem_vars (h t h1).2.2 hs
  have key : ∀ {f g : Sym → Sym} {x : Poly}, (∀ s ∈ x.vars, f s = g s) → rename f x = rename g x := by
    intro f g x h
    rw [rename_eq_aeval, rename_eq_aeval]
    exact eval₂Hom_congr' rfl (fun i hi _ => by simp [h i hi]) rfl
  refine ⟨fun p x h => key fun s hs => ?_, fun p x h => key fun s hs => ?_⟩
  · have := hv h s hs
    unfold codeName
    simp only [ha, this, or_false]
  · have := hv h s hs
    unfold codeName
    simp only [ha, this, false_or]

/-- A metric that contains only `z` and `u` does not depend on the parameter, the velocities and the accelerations. -/
theorem only_static {F : Ground Poly} {syms : List Sym} (h1 : F.syms = syms)
    (h2 : "lambda" ≠ "z" ∧ "lambda" ≠ "u" ∧ ∀ s ∈ syms, (dot s ≠ "z" ∧ dot s ≠ "u") ∧ ddot s ≠ "z" ∧ ddot s ≠ "u")
    (h3 : ∀ s, s ≠ "z" → s ≠ "u" → ∀ i j, i < F.n → j < F.n → pderiv s (F.g i j) = 0) : Static polyEngine pairCurves F := by
  intro i j hi hj
  refine ⟨h3 _ h2.1 h2.2.1 i j hi hj, fun s hs => ?_⟩
  rw [h1] at hs
  obtain ⟨h4, h5⟩ := h2.2.2 s hs
  exact ⟨h3 _ h4.1 h4.2 i j hi hj, h3 _ h5.1 h5.2 i j hi hj⟩

theorem chosen_first : Chosen ["x", "y", "z"] := ⟨by decide, by decide, by decide⟩
theorem chosen_second : Chosen ["u", "v"] := ⟨by decide, by decide, by decide⟩
theorem chosen_all : Chosen ["x", "y", "z", "u", "v"] := ⟨by decide, by decide, by decide⟩

/-- The metrics of the example beside `C123_product`. -/
example : ∃ (A B G : Ground Poly) (VA VB V : View Poly) (wA wB w : World Poly) (DA DB Dm : TField Poly),
    EngineOK polyEngine ∧ Calculus polyEngine ∧ Fresh polyEngine pairCurves A VA wA DA ∧ Fresh polyEngine pairCurves B VB wB DB ∧
    Fresh polyEngine pairCurves G V w Dm ∧ DA.ix = [-1, -1] ∧ DB.ix = [-1, -1] ∧ Dm.ix = [-1, -1] ∧ Product polyEngine A B G ∧
    OnlyOccurring polyEngine pairCurves A.syms B.syms ∧ A.g 0 1 = X "z" ∧ B.g 0 1 = X "u" := by
  obtain ⟨A, VA, wA, a1, a2, a3, a4, a5, a6, -, a8⟩ := declared_all (syms := ["x", "y", "z"]) (a := nil) rfl rfl
    nil_symm nil_inverse (Or.inl rfl) (by simp)
  obtain ⟨B, VB, wB, b1, b2, b3, b4, b5, b6, -, b8⟩ := declared_all (syms := ["u", "v"]) (a := sheared) rfl rfl
    (fun i j hi hj => by
      have hi : i < 2 := hi
      have hj : j < 2 := hj
      interval_cases i <;> interval_cases j <;> rfl) sheared_inverse (Or.inl rfl) (by simp)
  obtain ⟨G, V, w, g1, g2, g3, g4, g5, g6, -, g8⟩ := declared_all (syms := ["x", "y", "z", "u", "v"]) (a := fivefold) rfl rfl
    (fun i j hi hj => by
      have hi : i < 5 := hi
      have hj : j < 5 := hj
      interval_cases i <;> interval_cases j <;> rfl) fivefold_inverse (Or.inl rfl) (by simp)
  have a6 := a6 rfl
  have b6 := b6 rfl
  have g6 := g6 rfl
  have a2 : A.n = 3 := a2
  have b2 : B.n = 2 := b2
  have g2 : G.n = 5 := g2
  have hp := fivefold_product a2 a3 a6 b2 b3 b6 g2 g3 g6
  have ha : ∀ s, s ≠ "z" → s ≠ "u" → ∀ i j, i < A.n → j < A.n → pderiv s (A.g i j) = 0 := by
    intro s h1 _ i j hi hj
    have e : pderiv s (X "z" : Poly) = 0 := pderiv_X_ne h1
    rw [a2] at hi hj
    rw [a6]
    interval_cases i <;> interval_cases j <;> simp [entry, nil, Arr.get, ravel, e]
  have hb : ∀ s, s ≠ "z" → s ≠ "u" → ∀ i j, i < B.n → j < B.n → pderiv s (B.g i j) = 0 := by
    intro s _ h1 i j hi hj
    have e : pderiv s (X "u" : Poly) = 0 := pderiv_X_ne h1
    rw [b2] at hi hj
    rw [b6]
    interval_cases i <;> interval_cases j <;> simp [entry, sheared, Arr.get, ravel, e]
  have hg : ∀ s, s ≠ "z" → s ≠ "u" → ∀ i j, i < G.n → j < G.n → pderiv s (G.g i j) = 0 := by
    intro s h1 h2 i j hi hj
    rw [hp.n] at hi hj
    rcases below_or hi with hi | ⟨i2, e1, hi2⟩ <;> rcases below_or hj with hj | ⟨j2, e2, hj2⟩
    · rw [hp.first i j hi hj]; exact ha s h1 h2 i j hi hj
    · subst e2; rw [(hp.between i j2 hi hj2).1, map_zero]
    · subst e1; rw [(hp.between j i2 hj hi2).2, map_zero]
    · subst e1 e2; rw [hp.second i2 j2 hi2 hj2]; exact hb s h1 h2 i2 j2 hi2 hj2
  exact ⟨A, B, G, VA, VB, V, wA, wB, w, _, _, _, polyEngine_ok, polyEngine_calculus,
    ⟨a1, by rw [a3]; exact pairCurves_ok chosen_first, by rw [a3]; unfold ProperNames; decide,
      only_static a3 (by decide) ha, a4, a5, given_unnamed a8⟩,
    ⟨b1, by rw [b3]; exact pairCurves_ok chosen_second, by rw [b3]; unfold ProperNames; decide,
      only_static b3 (by decide) hb, b4, b5, given_unnamed b8⟩,
    ⟨g1, by rw [g3]; exact pairCurves_ok chosen_all, by rw [g3]; unfold ProperNames; decide,
      only_static g3 (by decide) hg, g4, g5, given_unnamed g8⟩,
    rfl, rfl, rfl, hp, by rw [a3, b3]; exact pairCurves_occurring (by decide), by rw [a6]; rfl, by rw [b6]; rfl⟩

end PyOGRe
