import Verif.Spec.Calc
import Verif.Lemmas.Validate

/-! Helper lemmas: labelled tensors, without states. -/

namespace PyOGRe
open Spec Finset
variable {K : Type} [CommRing K]

theorem positions_update {pos : Sym → Int} (h : Positions pos) (s : Sym) {a : Int} (ha : a = 1 ∨ a = -1) :
    Positions (Function.update pos s a) := by
  intro t
  by_cases ht : t = s
  · subst ht; simpa using ha
  · simpa [Function.update_of_ne ht] using h t

theorem values_update {n : Nat} {ρ : Sym → Nat} (h : Values n ρ) (s : Sym) {k : Nat} (hk : k < n) :
    Values n (Function.update ρ s k) := by
  intro t
  by_cases ht : t = s
  · subst ht; simpa using hk
  · simpa [Function.update_of_ne ht] using h t

theorem config_map {pos : Sym → Int} (h : Positions pos) (labels : List Sym) :
    Config labels.length (labels.map pos) := by
  refine ⟨by simp, fun x hx => ?_⟩
  obtain ⟨s, -, rfl⟩ := List.mem_map.1 hx
  exact h s

theorem values_map {n : Nat} {ρ : Sym → Nat} (h : Values n ρ) (labels : List Sym) :
    ∀ x ∈ labels.map ρ, x < n := by
  intro x hx
  obtain ⟨s, -, rfl⟩ := List.mem_map.1 hx
  exact h s

/-- Only one factor is not the identity. -/
theorem applyFactors_one (n : Nat) (Ms : List (Nat → Nat → K)) (T : List Nat → K) (J : List Nat)
    (hJ : ∀ x ∈ J, x < n) (hM : Ms.length = J.length) (p : Nat) (hp : p < J.length)
    (h : ∀ q M, q ≠ p → Ms[q]? = some M → ∀ i j, i < n → j < n → M i j = delta i j) :
    applyFactors n Ms T J = ∑ k ∈ range n, (Ms.getD p delta) (J.getD p 0) k * T (J.set p k) := by
  induction J generalizing Ms T p with
  | nil => simp at hp
  | cons j J ih =>
    cases Ms with
    | nil => simp at hM
    | cons M Ms =>
      rw [applyFactors_cons]
      have hj : j < n := hJ j (by simp)
      have hJ' : ∀ x ∈ J, x < n := fun x hx => hJ x (by simp [hx])
      have hM' : Ms.length = J.length := by simpa using hM
      cases p with
      | zero =>
        simp only [List.getD_cons_zero, List.set_cons_zero]
        refine Finset.sum_congr rfl fun k _ => ?_
        rw [applyFactors_delta n Ms _ J hJ' hM']
        intro N hN
        obtain ⟨q, hq⟩ := List.getElem?_of_mem hN
        exact h (q + 1) N (by omega) (by simpa using hq)
      | succ p =>
        rw [Finset.sum_eq_single_of_mem j (by simpa using hj)]
        · rw [h 0 M (by omega) (by simp) j j hj hj, ih Ms _ hJ' hM' p (by simpa using hp) fun q N hq hN =>
            h (q + 1) N (by omega) (by simpa using hN)]
          simp [delta]
        · intro k hk hkj
          rw [h 0 M (by omega) (by simp) j k hj (by simpa using hk)]
          simp [delta, Ne.symm hkj]

theorem indexFactor_self (g gi : Nat → Nat → K) (a : Int) : indexFactor g gi a a = delta := by
  unfold indexFactor
  rw [if_neg (by omega), if_neg (by omega)]

section
variable {G : Ground K}

theorem comp_self {D : TField K} {J : List Nat} (hJ : ∀ x ∈ J, x < G.n) (hl : J.length = D.ix.length) :
    D.comp G D.ix J = D.val J := applyFactors_self _ _ hJ hl.symm

theorem comp_trans (hi : Inverse G.n G.g G.gi) {D : TField K} (hD : Config D.ix.length D.ix) {cfg cfg' : List Int}
    (h1 : Config D.ix.length cfg) (h2 : Config D.ix.length cfg') {J : List Nat}
    (hJ : ∀ x ∈ J, x < G.n) (hl : J.length = D.ix.length) :
    applyFactors G.n (List.zipWith (indexFactor G.g G.gi) cfg cfg') (D.comp G cfg) J = D.comp G cfg' J :=
  raise_trans hi _ _ _ _ hD h1 h2 J hl hJ

theorem config_set {r : Nat} {cfg : List Int} (h : Config r cfg) (p : Nat) {a : Int} (ha : a = 1 ∨ a = -1) :
    Config r (cfg.set p a) := by
  refine ⟨by simpa using h.1, fun x hx => ?_⟩
  rcases List.mem_or_eq_of_mem_set hx with hx | rfl
  · exact h.2 x hx
  · exact ha

/-- Changing the position of one index. -/
theorem comp_set (hi : Inverse G.n G.g G.gi) {D : TField K} (hD : Config D.ix.length D.ix) {cfg : List Int}
    (h1 : Config D.ix.length cfg) {p : Nat} (hp : p < D.ix.length) {a : Int} (ha : a = 1 ∨ a = -1) {J : List Nat}
    (hJ : ∀ x ∈ J, x < G.n) (hl : J.length = D.ix.length) :
    D.comp G (cfg.set p a) J = ∑ k ∈ range G.n,
      indexFactor G.g G.gi (cfg.getD p 0) a (J.getD p 0) k * D.comp G cfg (J.set p k) := by
  have hc := h1.1
  rw [← comp_trans hi hD h1 (config_set h1 p ha) hJ hl, applyFactors_one _ _ _ J hJ (by simp [hl, hc]) p
    (by omega)]
  · refine Finset.sum_congr rfl fun k _ => ?_
    congr 2
    rw [List.getD_eq_getElem?_getD, List.getElem?_zipWith, List.getD_eq_getElem?_getD]
    have hp' : p < cfg.length := by omega
    simp [hp']
  · intro q M hq hM i j _ _
    rw [List.getElem?_zipWith] at hM
    have : (cfg.set p a)[q]? = cfg[q]? := by rw [List.getElem?_set_ne (Ne.symm hq)]
    rw [this] at hM
    cases hcq : cfg[q]? with
    | none => rw [hcq] at hM; simp at hM
    | some x =>
      rw [hcq] at hM
      simp only [Option.some.injEq] at hM
      rw [← hM, indexFactor_self]

/-- A labelled value follows the metric at each of the labels. -/
def Lawful (G : Ground K) (labels : List Sym) (T : (Sym → Int) → (Sym → Nat) → K) : Prop :=
  ∀ s ∈ labels, ∀ pos ρ a, Positions pos → Values G.n ρ → (a = 1 ∨ a = -1) →
    T (Function.update pos s a) ρ = ∑ k ∈ range G.n,
      indexFactor G.g G.gi (pos s) a (ρ s) k * T pos (Function.update ρ s k)

/-- Labels outside the list do not matter. -/
def OnlyOn (labels : List Sym) (T : (Sym → Int) → (Sym → Nat) → K) : Prop :=
  ∀ pos pos' ρ ρ', (∀ s ∈ labels, pos s = pos' s ∧ ρ s = ρ' s) → T pos ρ = T pos' ρ'

theorem onlyOn_at (D : TField K) (labels : List Sym) : OnlyOn labels (D.at G labels) := by
  intro pos pos' ρ ρ' h
  unfold TField.at
  rw [List.map_congr_left fun s hs => (h s hs).1, List.map_congr_left fun s hs => (h s hs).2]

theorem map_update_nodup {α : Type} (f : Sym → α) (labels : List Sym) (hn : labels.Nodup) (s : Sym) (hs : s ∈ labels)
    (a : α) : labels.map (Function.update f s a) = (labels.map f).set (labels.idxOf s) a := by
  induction labels with
  | nil => cases hs
  | cons t l ih =>
    rw [List.nodup_cons] at hn
    by_cases ht : t = s
    · subst ht
      simp only [List.map_cons, Function.update_self, List.idxOf_cons_self, List.set_cons_zero, List.cons.injEq,
        true_and]
      apply List.map_congr_left
      intro x hx
      rw [Function.update_of_ne]
      rintro rfl
      exact hn.1 hx
    · have hs' : s ∈ l := by
        rcases List.mem_cons.1 hs with h | h
        · exact absurd h.symm ht
        · exact h
      rw [List.map_cons, Function.update_of_ne ht, ih hn.2 hs', List.idxOf_cons_ne _ ht, List.map_cons]
      rfl

theorem getD_map_idxOf {α : Type} (f : Sym → α) (labels : List Sym) (s : Sym) (hs : s ∈ labels) (d : α) :
    (labels.map f).getD (labels.idxOf s) d = f s := by
  rw [List.getD_eq_getElem?_getD, List.getElem?_map, List.getElem?_eq_getElem (List.idxOf_lt_length_iff.2 hs)]
  simp

theorem lawful_at (hi : Inverse G.n G.g G.gi) {D : TField K} (hD : Config D.ix.length D.ix) {labels : List Sym}
    (hn : labels.Nodup) (hl : labels.length = D.ix.length) : Lawful G labels (D.at G labels) := by
  intro s hs pos ρ a hpos hρ ha
  unfold TField.at
  have hp : labels.idxOf s < D.ix.length := by rw [← hl]; exact List.idxOf_lt_length_iff.2 hs
  rw [map_update_nodup pos labels hn s hs, comp_set hi hD (hl ▸ config_map hpos labels) hp ha (values_map hρ labels)
    (by simp [hl])]
  refine Finset.sum_congr rfl fun k hk => ?_
  rw [getD_map_idxOf pos labels s hs, getD_map_idxOf ρ labels s hs, map_update_nodup ρ labels hn s hs]

/-- Two labelled values that follow the metric and agree in one configuration agree in all. -/
theorem lawful_ext {labels : List Sym} {T T' : (Sym → Int) → (Sym → Nat) → K} (h : Lawful G labels T)
    (h' : Lawful G labels T') (hO : OnlyOn labels T)
    (hO' : ∀ pos pos' ρ, Positions pos → Positions pos' → Values G.n ρ → (∀ s ∈ labels, pos s = pos' s) →
      T' pos ρ = T' pos' ρ) {pos0 : Sym → Int}
    (hp0 : Positions pos0) (heq : ∀ ρ, Values G.n ρ → T pos0 ρ = T' pos0 ρ) {pos : Sym → Int}
    (hp : Positions pos) {ρ : Sym → Nat} (hρ : Values G.n ρ) : T pos ρ = T' pos ρ := by
  have key : ∀ l : List Sym, (∀ s ∈ l, s ∈ labels) → ∀ pos, Positions pos → (∀ s, s ∉ l → pos s = pos0 s) →
      ∀ ρ, Values G.n ρ → T pos ρ = T' pos ρ := by
    intro l
    induction l with
    | nil =>
      intro _ pos _ hout ρ hρ
      have : pos = pos0 := funext fun s => hout s (by simp)
      rw [this]; exact heq ρ hρ
    | cons s l ih =>
      intro hl pos hpos hout ρ hρ
      have hs : s ∈ labels := hl s (by simp)
      have e : pos = Function.update (Function.update pos s (pos0 s)) s (pos s) := by simp
      have hq := positions_update hpos s (hp0 s)
      rw [e, h s hs _ ρ (pos s) hq hρ (hpos s), h' s hs _ ρ (pos s) hq hρ (hpos s)]
      refine Finset.sum_congr rfl fun k hk => ?_
      rw [ih (fun t ht => hl t (by simp [ht])) _ hq ?_ _ (values_update hρ s (by simpa using hk))]
      intro t ht
      by_cases hts : t = s
      · subst hts; simp
      · rw [Function.update_of_ne hts]
        exact hout t (by simp [ht, hts])
  have e1 := hO pos (fun s => if s ∈ labels then pos s else pos0 s) ρ ρ (fun s hs => by simp [hs])
  have hq : Positions fun s => if s ∈ labels then pos s else pos0 s := by
    intro s
    dsimp only
    split_ifs
    · exact hp s
    · exact hp0 s
  have e2 := hO' pos (fun s => if s ∈ labels then pos s else pos0 s) ρ hp hq hρ (fun s hs => by simp [hs])
  rw [e1, e2]
  refine key labels (fun s hs => hs) _ hq ?_ ρ hρ
  · intro s hs
    simp [hs]

theorem lawful_add {labels : List Sym} {T T' : (Sym → Int) → (Sym → Nat) → K} (h : Lawful G labels T)
    (h' : Lawful G labels T') : Lawful G labels fun pos ρ => T pos ρ + T' pos ρ := by
  intro s hs pos ρ a hp hρ ha
  simp only [h s hs pos ρ a hp hρ ha, h' s hs pos ρ a hp hρ ha, ← Finset.sum_add_distrib, mul_add]

theorem lawful_mul {labels : List Sym} {T : (Sym → Int) → (Sym → Nat) → K} (v : K) (h : Lawful G labels T) :
    Lawful G labels fun pos ρ => v * T pos ρ := by
  intro s hs pos ρ a hp hρ ha
  simp only [h s hs pos ρ a hp hρ ha, Finset.mul_sum]
  exact Finset.sum_congr rfl fun k _ => by ring

theorem lawful_subset {labels l : List Sym} {T : (Sym → Int) → (Sym → Nat) → K} (h : Lawful G labels T)
    (hl : ∀ s ∈ l, s ∈ labels) : Lawful G l T := fun s hs => h s (hl s hs)

/-! Einstein sums -/

theorem sumOver_congr {n : Nat} {ss : List Sym} {f f' : (Sym → Nat) → K} {ρ : Sym → Nat} (hρ : Values n ρ)
    (h : ∀ ρ', Values n ρ' → (∀ s, s ∉ ss → ρ' s = ρ s) → f ρ' = f' ρ') :
    sumOver n ss f ρ = sumOver n ss f' ρ := by
  induction ss generalizing ρ with
  | nil => exact h ρ hρ fun _ _ => rfl
  | cons s ss ih =>
    simp only [sumOver]
    refine Finset.sum_congr rfl fun k hk => ih (values_update hρ s (by simpa using hk)) ?_
    intro ρ' h1 h2
    refine h ρ' h1 fun t ht => ?_
    rw [h2 t (by simp at ht; exact ht.2), Function.update_of_ne (by simp at ht; exact ht.1)]

theorem sumOver_sum {n : Nat} (ss : List Sym) (m : Nat) (f : Nat → (Sym → Nat) → K) (ρ : Sym → Nat) :
    sumOver n ss (fun ρ' => ∑ k ∈ range m, f k ρ') ρ = ∑ k ∈ range m, sumOver n ss (f k) ρ := by
  induction ss generalizing ρ with
  | nil => rfl
  | cons s ss ih =>
    simp only [sumOver, ih]
    rw [Finset.sum_comm]

theorem sumOver_mul {n : Nat} (ss : List Sym) (v : K) (f : (Sym → Nat) → K) (ρ : Sym → Nat) :
    sumOver n ss (fun ρ' => v * f ρ') ρ = v * sumOver n ss f ρ := by
  induction ss generalizing ρ with
  | nil => rfl
  | cons s ss ih => simp only [sumOver, ih, Finset.mul_sum]

theorem sumOver_add {n : Nat} (ss : List Sym) (f f' : (Sym → Nat) → K) (ρ : Sym → Nat) :
    sumOver n ss (fun ρ' => f ρ' + f' ρ') ρ = sumOver n ss f ρ + sumOver n ss f' ρ := by
  induction ss generalizing ρ with
  | nil => rfl
  | cons s ss ih => simp only [sumOver, ih, Finset.sum_add_distrib]

/-- The sum does not depend on the values of the summed labels. -/
theorem sumOver_env {n : Nat} (ss : List Sym) (f : (Sym → Nat) → K) {ρ ρ' : Sym → Nat}
    (h : ∀ s, s ∉ ss → ρ s = ρ' s) : sumOver n ss f ρ = sumOver n ss f ρ' := by
  induction ss generalizing ρ ρ' with
  | nil => rw [show ρ = ρ' from funext fun s => h s (by simp)]
  | cons s ss ih =>
    simp only [sumOver]
    refine Finset.sum_congr rfl fun k _ => ih fun t ht => ?_
    by_cases hts : t = s
    · subst hts; simp
    · rw [Function.update_of_ne hts, Function.update_of_ne hts]
      exact h t (by simp [hts, ht])

/-- Giving a value to a label that is not summed. -/
theorem sumOver_update {n : Nat} (ss : List Sym) (f : (Sym → Nat) → K) (ρ : Sym → Nat) {s : Sym} (hs : s ∉ ss)
    (k : Nat) : sumOver n ss f (Function.update ρ s k) = sumOver n ss (fun ρ' => f (Function.update ρ' s k)) ρ := by
  induction ss generalizing ρ with
  | nil => rfl
  | cons t ss ih =>
    simp only [sumOver]
    simp only [List.mem_cons, not_or] at hs
    refine Finset.sum_congr rfl fun l _ => ?_
    rw [← ih _ hs.2, Function.update_comm hs.1]

theorem sumOver_perm {n : Nat} {ss ss' : List Sym} (h : ss.Perm ss') (f : (Sym → Nat) → K) (ρ : Sym → Nat) :
    sumOver n ss f ρ = sumOver n ss' f ρ := by
  induction h generalizing ρ with
  | nil => rfl
  | cons s _ ih => simp only [sumOver, ih]
  | swap a b l =>
    simp only [sumOver]
    by_cases hab : a = b
    · subst hab; rfl
    · rw [Finset.sum_comm]
      simp only [Function.update_comm hab]
  | trans _ _ ih ih' => rw [ih, ih']

end
end PyOGRe
