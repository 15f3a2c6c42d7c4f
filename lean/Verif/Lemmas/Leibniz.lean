import Verif.Lemmas.Covariant
import Verif.Lemmas.Symmetry
import Verif.Lemmas.Contracted

/-! Helper lemmas: the covariant derivative follows the metric and obeys the Leibniz rule. -/

namespace PyOGRe
open Spec Finset
variable {K : Type} [CommRing K] [Algebra ℚ K] {E : Engine K} {G : Ground K}

/-- The connection for an index in position `p`. -/
def conn (E : Engine K) (G : Ground K) (i : Nat) (p : Int) (x k : Nat) : K :=
  if p = 1 then christoffel E G x i k else -christoffel E G k i x

theorem covariantAt_eq (a : Sym) (labels : List Sym) (T : (Sym → Int) → (Sym → Nat) → K) (pos : Sym → Int)
    (ρ : Sym → Nat) : covariantAt E G a labels T pos ρ = G.d E (ρ a) (T pos ρ) + ∑ s ∈ labels.toFinset,
      ∑ k ∈ range G.n, conn E G (ρ a) (pos s) (ρ s) k * T pos (Function.update ρ s k) := by
  unfold covariantAt conn
  congr 1
  refine sum_congr rfl fun s _ => ?_
  by_cases h : pos s = 1
  · simp only [h, if_true]
  · simp only [h, if_false, neg_mul, sum_neg_distrib]

theorem conn_opposite {p : Int} (hp : p = 1 ∨ p = -1) (i x k : Nat) :
    conn E G i (-p) x k = -conn E G i p k x := by
  unfold conn
  rcases hp with rfl | rfl
  · simp
  · simp

section
variable (hC : Calculus E) (hi : Inverse G.n G.g G.gi) (hs : ∀ i j, i < G.n → j < G.n → G.g i j = G.g j i)
include hC hi hs

theorem d_metric {m a b : Nat} (hm : m < G.n) (ha : a < G.n) (hb : b < G.n) : G.d E m (G.g a b) =
    ∑ l ∈ range G.n, G.g a l * christoffel E G l m b + ∑ l ∈ range G.n, christoffel E G l m a * G.g l b := by
  have := congrFun (congrFun ((geo hC hi hs).D_g ⟨m, hm⟩) ⟨a, ha⟩) ⟨b, hb⟩
  simp only [Matrix.add_apply, Matrix.mul_apply, Matrix.transpose_apply] at this
  simp only [Finset.sum_range]
  refine Eq.trans this ?_
  congr 1
  · exact sum_congr rfl fun l _ => by rw [← geo_christoffel hC hi hs l ⟨m, hm⟩ ⟨b, hb⟩]; rfl
  · exact sum_congr rfl fun l _ => by rw [← geo_christoffel hC hi hs l ⟨m, hm⟩ ⟨a, ha⟩]; rfl

theorem d_inverse {m a b : Nat} (hm : m < G.n) (ha : a < G.n) (hb : b < G.n) : G.d E m (G.gi a b) =
    -(∑ l ∈ range G.n, christoffel E G a m l * G.gi l b + ∑ l ∈ range G.n, G.gi a l * christoffel E G b m l) := by
  have := congrFun (congrFun ((geo hC hi hs).D_h ⟨m, hm⟩) ⟨a, ha⟩) ⟨b, hb⟩
  simp only [Matrix.neg_apply, Matrix.add_apply, Matrix.mul_apply, Matrix.transpose_apply] at this
  simp only [Finset.sum_range]
  refine Eq.trans this ?_
  congr 2
  · exact sum_congr rfl fun l _ => by rw [← geo_christoffel hC hi hs ⟨a, ha⟩ ⟨m, hm⟩ l]; rfl
  · exact sum_congr rfl fun l _ => by rw [← geo_christoffel hC hi hs ⟨b, hb⟩ ⟨m, hm⟩ l]; rfl

end

theorem d_zero (hC : Calculus E) (i : Nat) : G.d E i 0 = 0 := by
  have := hC.add (G.syms.getD i "") 0 0
  rw [add_zero] at this
  exact left_eq_add.1 this

theorem d_one (hC : Calculus E) (i : Nat) : G.d E i 1 = 0 := by
  have := hC.mul (G.syms.getD i "") 1 1
  rw [mul_one, mul_one, one_mul] at this
  exact left_eq_add.1 this

theorem d_sum (hC : Calculus E) (i : Nat) {ι : Type} (s : Finset ι) (f : ι → K) :
    G.d E i (∑ x ∈ s, f x) = ∑ x ∈ s, G.d E i (f x) := by
  classical
  induction s using Finset.induction_on with
  | empty => simp [d_zero hC]
  | insert x s hx ih =>
    rw [sum_insert hx, sum_insert hx, ← ih]
    exact hC.add _ _ _

theorem sum_delta_left {n x : Nat} (hx : x < n) (f : Nat → K) : ∑ k ∈ range n, delta x k * f k = f x := by
  rw [sum_eq_single_of_mem x (by simpa using hx)]
  · simp [delta]
  · intro k _ hk; simp [delta, Ne.symm hk]

theorem sum_delta_right {n x : Nat} (hx : x < n) (f : Nat → K) : ∑ k ∈ range n, f k * delta k x = f x := by
  rw [sum_eq_single_of_mem x (by simpa using hx)]
  · simp [delta]
  · intro k _ hk; simp [delta, hk]

/-- The factors that raise and lower indices are covariantly constant. -/
theorem d_indexFactor (hC : Calculus E) (hi : Inverse G.n G.g G.gi)
    (hs : ∀ i j, i < G.n → j < G.n → G.g i j = G.g j i) {p b : Int} (hp : p = 1 ∨ p = -1) (hb : b = 1 ∨ b = -1)
    {i x k : Nat} (hi' : i < G.n) (hx : x < G.n) (hk : k < G.n) :
    G.d E i (indexFactor G.g G.gi p b x k) + ∑ l ∈ range G.n, conn E G i b x l * indexFactor G.g G.gi p b l k =
      ∑ l ∈ range G.n, indexFactor G.g G.gi p b x l * conn E G i p l k := by
  have hself : ∀ p, G.d E i (delta x k) + ∑ l ∈ range G.n, conn E G i p x l * delta l k =
      ∑ l ∈ range G.n, delta x l * conn E G i p l k := by
    intro p
    rw [sum_delta_right hk, sum_delta_left hx]
    have : G.d E i (delta x k) = 0 := by
      unfold delta
      split_ifs
      · exact d_one hC i
      · exact d_zero hC i
    rw [this, zero_add]
  rcases hp with rfl | rfl <;> rcases hb with rfl | rfl
  · rw [indexFactor_self]; exact hself 1
  · have hf : indexFactor G.g G.gi 1 (-1) = G.g := by unfold indexFactor; simp
    simp only [hf, conn, if_true, show ¬ ((-1 : Int) = 1) by decide, if_false, neg_mul, sum_neg_distrib]
    rw [d_metric hC hi hs hi' hx hk]
    ring
  · have hf : indexFactor G.g G.gi (-1) 1 = G.gi := by unfold indexFactor; simp
    simp only [hf, conn, if_true, show ¬ ((-1 : Int) = 1) by decide, if_false, mul_neg, sum_neg_distrib]
    rw [d_inverse hC hi hs hi' hx hk]
    ring
  · rw [indexFactor_self]; exact hself (-1)

/-- The covariant derivative follows the metric. -/
theorem lawful_covariantAt (hC : Calculus E) (hi : Inverse G.n G.g G.gi)
    (hs : ∀ i j, i < G.n → j < G.n → G.g i j = G.g j i) {a : Sym} {labels : List Sym} (ha : a ∉ labels)
    {T : (Sym → Int) → (Sym → Nat) → K} (hT : Lawful G labels T) : Lawful G labels (covariantAt E G a labels T) := by
  intro s hs' pos ρ b hpos hρ hb
  have has : a ≠ s := fun h => ha (h ▸ hs')
  have hsF : s ∈ labels.toFinset := by simpa using hs'
  have hT' : ∀ ρ', Values G.n ρ' → T (Function.update pos s b) ρ' = ∑ k ∈ range G.n,
      indexFactor G.g G.gi (pos s) b (ρ' s) k * T pos (Function.update ρ' s k) := fun ρ' h => hT s hs' pos ρ' b hpos h hb
  simp only [covariantAt_eq]
  rw [← Finset.add_sum_erase _ _ hsF, ← add_assoc]
  simp only [Function.update_self, Function.update_of_ne has]
  have e1 : ∀ t ∈ labels.toFinset.erase s, (∑ m ∈ range G.n,
      conn E G (ρ a) (Function.update pos s b t) (ρ t) m * T (Function.update pos s b) (Function.update ρ t m)) =
      ∑ k ∈ range G.n, indexFactor G.g G.gi (pos s) b (ρ s) k * ∑ m ∈ range G.n,
        conn E G (ρ a) (pos t) (ρ t) m * T pos (Function.update (Function.update ρ s k) t m) := by
    intro t ht
    have hts : t ≠ s := (Finset.mem_erase.1 ht).1
    rw [Function.update_of_ne hts]
    have : ∀ m ∈ range G.n, conn E G (ρ a) (pos t) (ρ t) m * T (Function.update pos s b) (Function.update ρ t m) =
        ∑ k ∈ range G.n, indexFactor G.g G.gi (pos s) b (ρ s) k * (conn E G (ρ a) (pos t) (ρ t) m *
          T pos (Function.update (Function.update ρ s k) t m)) := by
      intro m hm
      rw [hT' _ (values_update hρ t (by simpa using hm)), Function.update_of_ne hts.symm, mul_sum]
      refine sum_congr rfl fun k _ => ?_
      rw [Function.update_comm hts]
      ring
    rw [sum_congr rfl this, sum_comm]
    exact sum_congr rfl fun k _ => by rw [mul_sum]
  rw [sum_congr rfl e1]
  have e2 : G.d E (ρ a) (T (Function.update pos s b) ρ) + ∑ m ∈ range G.n,
      conn E G (ρ a) b (ρ s) m * T (Function.update pos s b) (Function.update ρ s m) =
      ∑ k ∈ range G.n, indexFactor G.g G.gi (pos s) b (ρ s) k * (G.d E (ρ a) (T pos (Function.update ρ s k)) +
        ∑ m ∈ range G.n, conn E G (ρ a) (pos s) k m * T pos (Function.update ρ s m)) := by
    rw [hT' ρ hρ, d_sum hC]
    have h1 : ∀ m ∈ range G.n, conn E G (ρ a) b (ρ s) m * T (Function.update pos s b) (Function.update ρ s m) =
        ∑ k ∈ range G.n, conn E G (ρ a) b (ρ s) m * indexFactor G.g G.gi (pos s) b m k *
          T pos (Function.update ρ s k) := by
      intro m hm
      rw [hT' _ (values_update hρ s (by simpa using hm)), mul_sum]
      refine sum_congr rfl fun k _ => ?_
      rw [Function.update_self, Function.update_idem]
      ring
    have h2 : ∑ k ∈ range G.n, indexFactor G.g G.gi (pos s) b (ρ s) k *
        ∑ m ∈ range G.n, conn E G (ρ a) (pos s) k m * T pos (Function.update ρ s m) =
        ∑ m ∈ range G.n, (∑ k ∈ range G.n, indexFactor G.g G.gi (pos s) b (ρ s) k * conn E G (ρ a) (pos s) k m) *
          T pos (Function.update ρ s m) := by
      simp only [mul_sum, sum_mul]
      rw [sum_comm]
      exact sum_congr rfl fun m _ => sum_congr rfl fun k _ => by ring
    rw [sum_congr rfl h1, sum_comm]
    simp only [mul_add, sum_add_distrib]
    rw [h2, ← sum_add_distrib, ← sum_add_distrib]
    refine sum_congr rfl fun k hk => ?_
    rw [← d_indexFactor hC hi hs (hpos s) hb (hρ a) (hρ s) (by simpa using hk)]
    have hmul : G.d E (ρ a) (indexFactor G.g G.gi (pos s) b (ρ s) k * T pos (Function.update ρ s k)) =
        G.d E (ρ a) (indexFactor G.g G.gi (pos s) b (ρ s) k) * T pos (Function.update ρ s k) +
        indexFactor G.g G.gi (pos s) b (ρ s) k * G.d E (ρ a) (T pos (Function.update ρ s k)) := hC.mul _ _ _
    rw [hmul, add_mul, sum_mul]
    ring
  rw [e2, sum_comm, ← sum_add_distrib]
  refine sum_congr rfl fun k _ => ?_
  rw [← mul_sum, ← mul_add]
  congr 1
  rw [← Finset.add_sum_erase (labels.toFinset) _ hsF, ← add_assoc]
  simp only [Function.update_self, Function.update_idem]
  congr 1
  refine sum_congr rfl fun t ht => ?_
  rw [Function.update_of_ne (Finset.mem_erase.1 ht).1]

theorem covariantAt_congr {a : Sym} {labels : List Sym} {T T' : (Sym → Int) → (Sym → Nat) → K} {pos : Sym → Int}
    (h : ∀ ρ, Values G.n ρ → T pos ρ = T' pos ρ) {ρ : Sym → Nat} (hρ : Values G.n ρ) :
    covariantAt E G a labels T pos ρ = covariantAt E G a labels T' pos ρ := by
  rw [covariantAt_eq, covariantAt_eq, h ρ hρ]
  congr 1
  refine sum_congr rfl fun s _ => sum_congr rfl fun k hk => ?_
  rw [h _ (values_update hρ s (by simpa using hk))]

theorem covariantAt_perm {a : Sym} {labels labels' : List Sym} (h : labels.Perm labels')
    (T : (Sym → Int) → (Sym → Nat) → K) (pos : Sym → Int) (ρ : Sym → Nat) :
    covariantAt E G a labels T pos ρ = covariantAt E G a labels' T pos ρ := by
  unfold covariantAt
  rw [List.toFinset_eq_of_perm _ _ h]

theorem covariantAt_pos {a : Sym} {labels : List Sym} {T : (Sym → Int) → (Sym → Nat) → K} {pos pos' : Sym → Int}
    (h : ∀ ρ, Values G.n ρ → T pos ρ = T pos' ρ) (hp : ∀ s ∈ labels, pos s = pos' s) {ρ : Sym → Nat}
    (hρ : Values G.n ρ) : covariantAt E G a labels T pos ρ = covariantAt E G a labels T pos' ρ := by
  rw [covariantAt_eq, covariantAt_eq, h ρ hρ]
  congr 1
  refine sum_congr rfl fun s hs => sum_congr rfl fun k hk => ?_
  rw [h _ (values_update hρ s (by simpa using hk)), hp s (by simpa using hs)]

theorem sum_labels {labels : List Sym} (hn : labels.Nodup) (f : Sym → K) :
    ∑ s ∈ labels.toFinset, f s = ∑ j ∈ range labels.length, f (labels.getD j "") := by
  rw [List.sum_toFinset _ hn]
  conv_lhs => rw [← map_getD_range labels ""]
  rw [List.map_map]
  exact (Multiset.sum_coe _).symm

/-- The covariant derivative of a labelled tensor. -/
theorem nabla_at (hC : Calculus E) (hi : Inverse G.n G.g G.gi)
    (hs : ∀ i j, i < G.n → j < G.n → G.g i j = G.g j i) {D : TField K} (hD : Config D.ix.length D.ix) {a : Sym}
    {labels : List Sym} (ha : a ∉ labels) (hn : labels.Nodup) (hl : labels.length = D.ix.length) {pos : Sym → Int}
    (hpos : Positions pos) (hpa : pos a = -1) {ρ : Sym → Nat} (hρ : Values G.n ρ) :
    (nabla E G D).at G (a :: labels) pos ρ = covariantAt E G a labels (D.at G labels) pos ρ := by
  have hnab : Config (nabla E G D).ix.length (nabla E G D).ix := by
    refine ⟨rfl, fun x hx => ?_⟩
    rcases List.mem_cons.1 hx with rfl | h
    · exact Or.inr rfl
    · exact hD.2 x h
  have hL := lawful_at hi hnab (List.nodup_cons.2 ⟨ha, hn⟩) (by simp [nabla, hl])
  have hO := onlyOn_at (G := G) (nabla E G D) (a :: labels)
  set T : (Sym → Int) → (Sym → Nat) → K := fun pos ρ => (nabla E G D).at G (a :: labels) (Function.update pos a (-1)) ρ
    with hT
  set T' := covariantAt E G a labels (D.at G labels) with hT'
  have hlT : Lawful G labels T := by
    intro s hs' pos ρ b hp hρ hb
    have has : a ≠ s := fun h => ha (h ▸ hs')
    simp only [hT]
    rw [← Function.update_comm has, hL s (by simp [hs']) _ ρ b (positions_update hp a (Or.inr rfl)) hρ hb,
      Function.update_of_ne has.symm]
  have hmain : T pos ρ = T' pos ρ := by
    have hlT' : Lawful G labels T' := lawful_covariantAt hC hi hs ha (lawful_at hi hD hn hl)
    have key : ∀ l : List Sym, (∀ s ∈ l, s ∈ labels) → ∀ pos, Positions pos →
        (∀ s ∈ labels, s ∉ l → pos s = posOf labels D.ix s) → ∀ ρ, Values G.n ρ → T pos ρ = T' pos ρ := by
      intro l
      induction l with
      | nil =>
        intro _ pos hp hout ρ hρ
        have hmp : labels.map pos = D.ix := by
          rw [List.map_congr_left fun s hs => hout s hs (by simp), map_posOf hn hl]
        have hval : ∀ ρ, Values G.n ρ → D.at G labels pos ρ = D.val (labels.map ρ) := by
          intro ρ hρ
          unfold TField.at
          rw [hmp, comp_self (values_map hρ _) (by simp [hl])]
        simp only [hT, hT']
        rw [covariantAt_eq]
        have hcp : (a :: labels).map (Function.update pos a (-1)) = -1 :: D.ix := by
          rw [List.map_cons, Function.update_self, List.map_congr_left (g := pos), hmp]
          intro s hs
          exact Function.update_of_ne (by rintro rfl; exact ha hs) _ _
        have hc := comp_self (G := G) (D := nabla E G D) (J := ρ a :: labels.map ρ)
          (by
            intro x hx
            rcases List.mem_cons.1 hx with rfl | h
            · exact hρ a
            · exact values_map hρ _ x h) (by simp [nabla, hl])
        refine Eq.trans (b := (nabla E G D).val (ρ a :: labels.map ρ)) ?_ ?_
        · unfold TField.at
          rw [hcp]
          exact hc
        show covariant E G D.ix D.val (ρ a) (labels.map ρ) = _
        unfold covariant
        congr 1
        · exact congrArg _ (hval ρ hρ).symm
        · rw [sum_labels hn, hl]
          refine sum_congr rfl fun j hj => ?_
          have hj : j < labels.length := by rw [hl]; simpa using hj
          have hj' : j < D.ix.length := by rw [← hl]; exact hj
          have e1 : labels.getD j "" = labels[j] := by simp [hj]
          have e2 : (labels.map ρ).getD j 0 = ρ labels[j] := by simp [hj]
          have e3 : D.ix.getD j 1 = pos labels[j] := by
            have : D.ix[j] = pos labels[j] := by
              have := List.getElem_of_eq hmp.symm hj'
              rw [this, List.getElem_map]
            rw [List.getD_eq_getElem?_getD, List.getElem?_eq_getElem hj', this]; rfl
          rw [e1, e2, e3]
          have e4 : ∀ k, (labels.map ρ).set j k = labels.map (Function.update ρ labels[j] k) := by
            intro k
            rw [map_update_nodup ρ labels hn _ (List.getElem_mem hj), List.Nodup.idxOf_getElem hn]
          have e5 : ∀ k ∈ range G.n, D.val ((labels.map ρ).set j k) =
              D.at G labels pos (Function.update ρ labels[j] k) := by
            intro k hk
            rw [hval _ (values_update hρ _ (by simpa using hk)), e4]
          unfold conn
          split_ifs
          · exact sum_congr rfl fun k hk => by rw [e5 k hk]
          · rw [← sum_neg_distrib]
            exact sum_congr rfl fun k hk => by rw [e5 k hk, neg_mul]
      | cons s l ih =>
        intro hls pos hp hout ρ hρ
        have hs' : s ∈ labels := hls s (by simp)
        have hq0 : posOf labels D.ix s = 1 ∨ posOf labels D.ix s = -1 := positions_posOf labels hD s
        have e : pos = Function.update (Function.update pos s (posOf labels D.ix s)) s (pos s) := by simp
        have hq := positions_update hp s hq0
        rw [e, hlT s hs' _ ρ (pos s) hq hρ (hp s), hlT' s hs' _ ρ (pos s) hq hρ (hp s)]
        refine Finset.sum_congr rfl fun k hk => ?_
        rw [ih (fun t ht => hls t (by simp [ht])) _ hq ?_ _ (values_update hρ s (by simpa using hk))]
        intro t ht htl
        by_cases hts : t = s
        · subst hts; simp
        · rw [Function.update_of_ne hts]
          exact hout t ht (by simp [htl, hts])
    exact key labels (fun s h => h) pos hpos (fun s h h' => absurd h h') ρ hρ
  rw [← hmain, hT]
  dsimp only
  rw [← hpa, Function.update_eq_self]

/-- The derivative of a sum. -/
theorem covariantAt_add (hC : Calculus E) (a : Sym) (labels : List Sym) (T T' : (Sym → Int) → (Sym → Nat) → K)
    (pos : Sym → Int) (ρ : Sym → Nat) :
    covariantAt E G a labels (fun pos ρ => T pos ρ + T' pos ρ) pos ρ =
      covariantAt E G a labels T pos ρ + covariantAt E G a labels T' pos ρ := by
  simp only [covariantAt_eq, mul_add, sum_add_distrib]
  rw [show G.d E (ρ a) (T pos ρ + T' pos ρ) = G.d E (ρ a) (T pos ρ) + G.d E (ρ a) (T' pos ρ) from hC.add _ _ _]
  ring

theorem d_sumOver (hC : Calculus E) (i : Nat) (ss : List Sym) (f : (Sym → Nat) → K) (ρ : Sym → Nat) :
    G.d E i (sumOver G.n ss f ρ) = sumOver G.n ss (fun ρ => G.d E i (f ρ)) ρ := by
  induction ss generalizing ρ with
  | nil => rfl
  | cons s ss ih =>
    simp only [sumOver]
    rw [d_sum hC]
    exact sum_congr rfl fun k _ => ih _


theorem sumOver_finset {n : Nat} (ss : List Sym) {ι : Type} (F : Finset ι) (f : ι → (Sym → Nat) → K) (ρ : Sym → Nat) :
    sumOver n ss (fun ρ' => ∑ k ∈ F, f k ρ') ρ = ∑ k ∈ F, sumOver n ss (f k) ρ := by
  induction ss generalizing ρ with
  | nil => rfl
  | cons s ss ih =>
    simp only [sumOver, ih]
    rw [Finset.sum_comm]

/-- The derivative of a product with the labels `ss` summed over. -/
theorem covariantAt_contracted (hC : Calculus E) {a : Sym} {lA lB ss l : List Sym}
    {A B : (Sym → Int) → (Sym → Nat) → K} (hA : OnlyOn lA A) (hB : OnlyOn lB B) (haA : a ∉ lA) (haB : a ∉ lB)
    (hn : ss.Nodup) (hss : ∀ s, s ∈ ss ↔ s ∈ lA ∧ s ∈ lB)
    (hl : ∀ s, s ∈ l ↔ (s ∈ lA ∧ s ∉ lB) ∨ (s ∈ lB ∧ s ∉ lA)) {pos : Sym → Int} (hpos : Positions pos)
    {ρ : Sym → Nat} (hρ : Values G.n ρ) :
    covariantAt E G a l (contracted G ss A B) pos ρ =
      contracted G ss (covariantAt E G a lA A) B pos ρ + contracted G ss A (covariantAt E G a lB B) pos ρ := by
  have has : a ∉ ss := fun h => haA ((hss a).1 h).1
  set P := turned ss pos with hP
  -- the terms of the connection
  set tA : Sym → (Sym → Nat) → K := fun s ρ =>
    ∑ k ∈ range G.n, conn E G (ρ a) (pos s) (ρ s) k * A pos (Function.update ρ s k) with htA
  set tB : Sym → (Sym → Nat) → K := fun s ρ =>
    ∑ k ∈ range G.n, conn E G (ρ a) (P s) (ρ s) k * B P (Function.update ρ s k) with htB
  have eR1 : contracted G ss (covariantAt E G a lA A) B pos ρ = sumOver G.n ss (fun ρ' =>
      G.d E (ρ' a) (A pos ρ') * B P ρ') ρ + ∑ s ∈ lA.toFinset, sumOver G.n ss (fun ρ' => tA s ρ' * B P ρ') ρ := by
    unfold contracted
    rw [← sumOver_finset, ← sumOver_add]
    congr 1
    funext ρ'
    rw [covariantAt_eq, add_mul, sum_mul]
  have eR2 : contracted G ss A (covariantAt E G a lB B) pos ρ = sumOver G.n ss (fun ρ' =>
      A pos ρ' * G.d E (ρ' a) (B P ρ')) ρ + ∑ s ∈ lB.toFinset, sumOver G.n ss (fun ρ' => A pos ρ' * tB s ρ') ρ := by
    unfold contracted
    rw [← sumOver_finset, ← sumOver_add]
    congr 1
    funext ρ'
    rw [covariantAt_eq, mul_add, mul_sum]
  have e0 : ∀ s ∈ ss, sumOver G.n ss (fun ρ' => tA s ρ' * B P ρ') ρ + sumOver G.n ss (fun ρ' => A pos ρ' * tB s ρ') ρ
      = 0 := by
    intro s hs
    have hsa : a ≠ s := fun h => has (h ▸ hs)
    have hperm : ss.Perm (ss.erase s ++ [s]) :=
      (List.perm_cons_erase hs).trans (List.perm_append_comm (l₁ := [s]))
    rw [← sumOver_add, sumOver_perm hperm, sumOver_append]
    rw [sumOver_congr (f' := fun _ => 0) hρ]
    · have : ∀ (l : List Sym) (ρ : Sym → Nat), sumOver G.n l (fun _ => (0 : K)) ρ = 0 := by
        intro l
        induction l with
        | nil => intro _; rfl
        | cons x l ih => intro ρ; simp only [sumOver, ih, sum_const_zero]
      exact this _ _
    · intro ρ' _ _
      simp only [sumOver, htA, htB, Function.update_self, Function.update_of_ne hsa, Function.update_idem, sum_mul,
        mul_sum, sum_add_distrib]
      have h1 : P s = -pos s := by rw [hP]; unfold turned; rw [if_pos hs]
      rw [h1]
      simp only [conn_opposite (hpos s)]
      rw [add_comm, sum_comm, ← sum_add_distrib]
      refine sum_eq_zero fun m _ => ?_
      rw [← sum_add_distrib]
      exact sum_eq_zero fun k _ => by ring
  have eL : covariantAt E G a l (contracted G ss A B) pos ρ = sumOver G.n ss (fun ρ' =>
      G.d E (ρ' a) (A pos ρ') * B P ρ') ρ + sumOver G.n ss (fun ρ' => A pos ρ' * G.d E (ρ' a) (B P ρ')) ρ +
      ∑ s ∈ l.toFinset, sumOver G.n ss (fun ρ' => ∑ k ∈ range G.n, conn E G (ρ' a) (pos s) (ρ' s) k *
        (A pos (Function.update ρ' s k) * B P (Function.update ρ' s k))) ρ := by
    rw [covariantAt_eq]
    congr 1
    · unfold contracted
      rw [d_sumOver hC, ← sumOver_add]
      refine sumOver_congr hρ fun ρ' _ h2 => ?_
      rw [h2 a has]
      exact hC.mul _ _ _
    · refine sum_congr rfl fun s hs => ?_
      have hsl : s ∉ ss := by
        intro h
        have h1 := (hss s).1 h
        rcases (hl s).1 (by simpa using hs) with h' | h'
        · exact h'.2 h1.2
        · exact h'.2 h1.1
      have : ∀ k ∈ range G.n, conn E G (ρ a) (pos s) (ρ s) k * contracted G ss A B pos (Function.update ρ s k) =
          sumOver G.n ss (fun ρ' => conn E G (ρ' a) (pos s) (ρ' s) k *
            (A pos (Function.update ρ' s k) * B P (Function.update ρ' s k))) ρ := by
        intro k _
        unfold contracted
        rw [sumOver_update _ _ _ hsl, ← sumOver_mul]
        refine sumOver_congr hρ fun ρ' _ h2 => ?_
        rw [h2 a has, h2 s hsl]
      rw [sum_congr rfl this, sumOver_sum]
  have eA : ∀ s, s ∈ lA → s ∉ lB → sumOver G.n ss (fun ρ' => ∑ k ∈ range G.n, conn E G (ρ' a) (pos s) (ρ' s) k *
        (A pos (Function.update ρ' s k) * B P (Function.update ρ' s k))) ρ =
      sumOver G.n ss (fun ρ' => tA s ρ' * B P ρ') ρ := by
    intro s _ hsB
    congr 1
    funext ρ'
    simp only [htA, sum_mul]
    refine sum_congr rfl fun k _ => ?_
    rw [hB P P (Function.update ρ' s k) ρ' fun t ht =>
      ⟨rfl, Function.update_of_ne (by rintro rfl; exact hsB ht) _ _⟩]
    ring
  have eB : ∀ s, s ∈ lB → s ∉ lA → sumOver G.n ss (fun ρ' => ∑ k ∈ range G.n, conn E G (ρ' a) (pos s) (ρ' s) k *
        (A pos (Function.update ρ' s k) * B P (Function.update ρ' s k))) ρ =
      sumOver G.n ss (fun ρ' => A pos ρ' * tB s ρ') ρ := by
    intro s _ hsA
    have h1 : P s = pos s := by
      rw [hP]; unfold turned
      rw [if_neg fun h => hsA ((hss s).1 h).1]
    congr 1
    funext ρ'
    simp only [htB, mul_sum, h1]
    refine sum_congr rfl fun k _ => ?_
    rw [hA pos pos (Function.update ρ' s k) ρ' fun t ht =>
      ⟨rfl, Function.update_of_ne (by rintro rfl; exact hsA ht) _ _⟩]
    ring
  have hlF : l.toFinset = (lA.toFinset \ lB.toFinset) ∪ (lB.toFinset \ lA.toFinset) := by
    ext s
    simp only [List.mem_toFinset, mem_union, mem_sdiff]
    exact hl s
  have hsF : lA.toFinset ∩ lB.toFinset = ss.toFinset := by
    ext s
    simp only [List.mem_toFinset, mem_inter]
    exact (hss s).symm
  rw [eL, eR1, eR2, hlF, sum_union (by
    rw [Finset.disjoint_left]
    intro s h1 h2
    exact (mem_sdiff.1 h2).2 (mem_sdiff.1 h1).1)]
  rw [sum_congr rfl fun s hs => eA s (by simpa using (mem_sdiff.1 hs).1) (by simpa using (mem_sdiff.1 hs).2),
    sum_congr rfl fun s hs => eB s (by simpa using (mem_sdiff.1 hs).1) (by simpa using (mem_sdiff.1 hs).2)]
  have sA := Finset.sum_inter_add_sum_sdiff lA.toFinset lB.toFinset fun s => sumOver G.n ss (fun ρ' => tA s ρ' * B P ρ') ρ
  have sB := Finset.sum_inter_add_sum_sdiff lB.toFinset lA.toFinset fun s => sumOver G.n ss (fun ρ' => A pos ρ' * tB s ρ') ρ
  rw [hsF] at sA
  rw [inter_comm, hsF] at sB
  have s0 : ∑ s ∈ ss.toFinset, sumOver G.n ss (fun ρ' => tA s ρ' * B P ρ') ρ +
      ∑ s ∈ ss.toFinset, sumOver G.n ss (fun ρ' => A pos ρ' * tB s ρ') ρ = 0 := by
    rw [← sum_add_distrib]
    exact sum_eq_zero fun s hs => e0 s (by simpa using hs)
  linear_combination sA + sB - s0


/-- Values that follow the metric at one label and agree when it is lower agree always. -/
theorem lawful_one {a : Sym} {T T' : (Sym → Int) → (Sym → Nat) → K} (h : Lawful G [a] T) (h' : Lawful G [a] T')
    (heq : ∀ pos ρ, Positions pos → Values G.n ρ → pos a = -1 → T pos ρ = T' pos ρ) {pos : Sym → Int}
    (hp : Positions pos) {ρ : Sym → Nat} (hρ : Values G.n ρ) : T pos ρ = T' pos ρ := by
  have e : pos = Function.update (Function.update pos a (-1)) a (pos a) := by simp
  have hq := positions_update hp a (Or.inr rfl : (-1 : Int) = 1 ∨ (-1 : Int) = -1)
  rw [e, h a (by simp) _ ρ (pos a) hq hρ (hp a), h' a (by simp) _ ρ (pos a) hq hρ (hp a)]
  refine Finset.sum_congr rfl fun k hk => ?_
  rw [heq _ _ hq (values_update hρ a (by simpa using hk)) (by simp)]

theorem nabla_lawful (hi : Inverse G.n G.g G.gi) {D : TField K} (hD : Config D.ix.length D.ix) {a : Sym}
    {labels : List Sym} (ha : a ∉ labels) (hn : labels.Nodup) (hl : labels.length = D.ix.length) :
    Lawful G (a :: labels) ((nabla E G D).at G (a :: labels)) := by
  refine lawful_at hi ⟨rfl, fun x hx => ?_⟩ (List.nodup_cons.2 ⟨ha, hn⟩) (by simp [nabla, hl])
  rcases List.mem_cons.1 hx with rfl | h
  · exact Or.inr rfl
  · exact hD.2 x h

end PyOGRe
