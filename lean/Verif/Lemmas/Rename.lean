import Verif.Lemmas.Formula
import Mathlib.Data.List.Count

/-! # Formulae with other labels -/

namespace PyOGRe
open Spec Finset
variable {K : Type} [CommRing K] {E : Engine K} {G : Ground K} {V : View K} {w : World K} {F : Id' → TField K}
variable {σ : Sym → Sym}

theorem idxOf_map_inj (hσ : Function.Injective σ) (l : List Sym) (s : Sym) : (l.map σ).idxOf (σ s) = l.idxOf s := by
  induction l with
  | nil => rfl
  | cons a l ih =>
    rw [List.map_cons, List.idxOf_cons, List.idxOf_cons, ih]
    congr 1
    rw [Bool.eq_iff_iff]
    simp [hσ.eq_iff]

theorem single_map (hσ : Function.Injective σ) (l : List Sym) : single (l.map σ) = (single l).map σ := by
  unfold single
  rw [List.filter_map]
  congr 1
  exact List.filter_congr fun s _ => by simp [List.count_map_of_injective _ _ hσ]

theorem repeated_map (hσ : Function.Injective σ) (l : List Sym) : repeated (l.map σ) = (repeated l).map σ := by
  unfold repeated
  rw [List.filter_map, List.dedup_map_of_injective hσ]
  congr 2
  exact List.filter_congr fun s _ => by simp [List.count_map_of_injective _ _ hσ]

theorem sumOver_map (hσ : Function.Injective σ) {n : Nat} (ss : List Sym) (f f' : (Sym → Nat) → K)
    (h : ∀ ρ, f ρ = f' (ρ ∘ σ)) (ρ : Sym → Nat) : sumOver n (ss.map σ) f ρ = sumOver n ss f' (ρ ∘ σ) := by
  induction ss generalizing ρ with
  | nil => exact h ρ
  | cons s ss ih =>
    simp only [List.map_cons, sumOver]
    refine Finset.sum_congr rfl fun k _ => ?_
    rw [ih, Function.update_comp_eq_of_injective _ hσ]

theorem traceConfig_map (hσ : Function.Injective σ) (l : List Sym) (pos : Sym → Int) :
    traceConfig (l.map σ) pos = traceConfig l (pos ∘ σ) := by
  unfold traceConfig
  rw [List.zipIdx_map, List.map_map]
  refine List.map_congr_left fun p _ => ?_
  simp [List.count_map_of_injective _ _ hσ, idxOf_map_inj hσ]

theorem posOf_rename (hσ : Function.Injective σ) (l : List Sym) (ix : List Int) (s : Sym) :
    posOf (l.map σ) ix (σ s) = posOf l ix s := by
  unfold posOf
  rw [idxOf_map_inj hσ]

theorem filter_rename (hσ : Function.Injective σ) (l l' : List Sym) :
    (l.map σ).filter (fun s => decide (s ∉ l'.map σ)) = (l.filter fun s => decide (s ∉ l')).map σ := by
  rw [List.filter_map]
  congr 1
  refine List.filter_congr fun s _ => ?_
  rw [Bool.eq_iff_iff]
  simp only [Function.comp, decide_eq_true_eq, List.mem_map_of_injective hσ]

theorem shared_rename (hσ : Function.Injective σ) (l l' : List Sym) :
    sharedOf (l.map σ) (l'.map σ) = (sharedOf l l').map σ := by
  unfold sharedOf
  rw [List.filter_map]
  congr 1
  refine List.filter_congr fun s _ => ?_
  simp [hσ.eq_iff]

theorem turned_rename (hσ : Function.Injective σ) (ss : List Sym) (pos : Sym → Int) :
    turned (ss.map σ) pos ∘ σ = turned ss (pos ∘ σ) := by
  funext s
  simp [turned, List.mem_map_of_injective hσ]

theorem at_rename (D : TField K) (l : List Sym) (pos : Sym → Int) (ρ : Sym → Nat) :
    D.at G (l.map σ) pos ρ = D.at G l (pos ∘ σ) (ρ ∘ σ) := by
  unfold TField.at
  rw [List.map_map, List.map_map]

theorem labels_rename (hσ : Function.Injective σ) (f : Formula K) : (f.rename σ).labels = f.labels.map σ := by
  induction f with
  | tensor t labels => exact single_map hσ labels
  | scale v f ih => exact ih
  | neg f ih => exact ih
  | add f g ih _ => exact ih
  | sub f g ih _ => exact ih
  | mul f g ih ih' =>
    simp only [Formula.rename, Formula.labels, ih, ih', List.map_append]
    rw [filter_rename hσ, filter_rename hσ]
  | diff a f ih =>
    simp only [Formula.rename, Formula.labels, ih, List.mem_map_of_injective hσ]
    split_ifs
    · rw [List.filter_map]
      congr 1
      exact List.filter_congr fun s _ => by simp [hσ.eq_iff]
    · rfl

/-- The meaning of the renamed formula. -/
theorem mean_rename (hσ : Function.Injective σ) (f : Formula K) :
    ((f.rename σ).mean E G F).ix = (f.mean E G F).ix ∧
      ∀ pos ρ, ((f.rename σ).mean E G F).value pos ρ = (f.mean E G F).value (pos ∘ σ) (ρ ∘ σ) := by
  induction f with
  | tensor t labels =>
    refine ⟨?_, fun pos ρ => ?_⟩
    · simp only [Formula.rename, Formula.mean, Meaning.trace]
      rw [List.zip_map_left, List.filter_map, List.map_map]
      congr 1
      exact List.filter_congr fun p _ => by simp [List.count_map_of_injective _ _ hσ]
    · simp only [Formula.rename, Formula.mean, Meaning.trace]
      rw [repeated_map hσ]
      refine sumOver_map hσ _ _ _ (fun ρ' => ?_) ρ
      rw [traceConfig_map hσ, List.map_map]
  | scale v f ih => exact ⟨ih.1, fun pos ρ => by simp only [Formula.rename, Formula.mean, ih.2]⟩
  | neg f ih => exact ⟨ih.1, fun pos ρ => by simp only [Formula.rename, Formula.mean, ih.2]⟩
  | add f g ih ih' => exact ⟨ih.1, fun pos ρ => by simp only [Formula.rename, Formula.mean, ih.2, ih'.2]⟩
  | sub f g ih ih' => exact ⟨ih.1, fun pos ρ => by simp only [Formula.rename, Formula.mean, ih.2, ih'.2]⟩
  | mul f g ih ih' =>
    simp only [Formula.rename, Formula.mean, Meaning.mul, mean_labels, labels_rename hσ]
    refine ⟨?_, fun pos ρ => ?_⟩
    · rw [filter_rename hσ, filter_rename hσ, List.map_map, List.map_map, ih.1, ih'.1]
      congr 1 <;> exact List.map_congr_left fun s _ => posOf_rename hσ _ _ _
    · rw [shared_rename hσ]
      unfold contracted
      refine sumOver_map hσ _ _ _ (fun ρ' => ?_) ρ
      rw [ih.2, ih'.2, turned_rename hσ]
  | diff a f ih =>
    simp only [Formula.rename, Formula.mean, Meaning.diff, mean_labels, labels_rename hσ,
      List.mem_map_of_injective hσ]
    by_cases ha : a ∈ f.labels
    · simp only [if_pos ha]
      have hf : (f.labels.map σ).filter (fun s => decide (s ≠ σ a)) = (f.labels.filter fun s => decide (s ≠ a)).map σ := by
        rw [List.filter_map]
        congr 1
        exact List.filter_congr fun s _ => by simp [hσ.eq_iff]
      rw [hf]
      have hp : ((f.labels.filter fun s => decide (s ≠ a)).map σ).map (posOf (f.labels.map σ) ((f.rename σ).mean E G F).ix)
          = (f.labels.filter fun s => decide (s ≠ a)).map (posOf f.labels (f.mean E G F).ix) := by
        rw [List.map_map, ih.1]
        exact List.map_congr_left fun s _ => posOf_rename hσ _ _ _
      rw [hp]
      refine ⟨rfl, fun pos ρ => ?_⟩
      simp only [Meaning.ofComps]
      rw [at_rename]
      congr 2
      funext J
      refine Finset.sum_congr rfl fun k _ => ?_
      congr 1
      rw [ih.2, Function.update_comp_eq_of_injective _ hσ, Function.update_comp_eq_of_injective _ hσ, ih.1]
      congr 2
      · funext s; exact posOf_rename hσ _ _ _
      · funext s; simp only [Function.comp]; rw [idxOf_map_inj hσ]
    · simp only [if_neg ha, ih.1]
      refine ⟨rfl, fun pos ρ => ?_⟩
      simp only [Meaning.ofComps]
      rw [show σ a :: f.labels.map σ = (a :: f.labels).map σ from rfl, at_rename]
      congr 2
      funext J
      congr 1
      unfold Meaning.comps
      rw [ih.2, mean_labels, mean_labels, labels_rename hσ, ih.1]
      congr 1
      · funext s; exact posOf_rename hσ _ _ _
      · funext s; simp only [Function.comp]; rw [idxOf_map_inj hσ]

theorem ok_rename (hσ : Function.Injective σ) {f : Formula K} (h : f.OK G V F) : (f.rename σ).OK G V F := by
  induction f with
  | tensor t labels =>
    obtain ⟨h1, h2, h3, h4, h5⟩ := h
    refine ⟨h1, h2, by simpa using h3, fun s => ?_, h5.imp (fun h => h.map hσ) id⟩
    by_cases hs : s ∈ labels.map σ
    · obtain ⟨s', -, rfl⟩ := List.mem_map.1 hs
      rw [List.count_map_of_injective _ _ hσ]
      exact h4 s'
    · rw [List.count_eq_zero.2 hs]; omega
  | scale v f ih => exact ih h
  | neg f ih => exact ih h
  | add f g ih ih' =>
    exact ⟨ih h.1, ih' h.2.1, by rw [labels_rename hσ, labels_rename hσ]; exact h.2.2.map σ⟩
  | sub f g ih ih' =>
    exact ⟨ih h.1, ih' h.2.1, by rw [labels_rename hσ, labels_rename hσ]; exact h.2.2.map σ⟩
  | mul f g ih ih' => exact ⟨ih h.1, ih' h.2⟩
  | diff a f ih =>
    refine ⟨ih h.1, ?_⟩
    rw [labels_rename hσ, List.mem_map_of_injective hσ, idxOf_map_inj hσ]
    exact h.2

/-- What is known about the meaning of a formula. -/
theorem mean_facts [DecidableEq K] (hE : ∀ x, E.simp x = x) (hS : Scene G V w) {f : Formula K} (h : f.OK G V F) :
    f.labels.Nodup ∧ f.labels.length = (f.mean E G F).ix.length ∧
      Config (f.mean E G F).ix.length (f.mean E G F).ix ∧
      ∀ pos pos' ρ ρ', Positions pos → Positions pos' → Values G.n ρ → Values G.n ρ' →
        (∀ s ∈ f.labels, pos s = pos' s ∧ ρ s = ρ' s) →
        (f.mean E G F).value pos ρ = (f.mean E G F).value pos' ρ' := by
  obtain ⟨z, w', -, V', t, D, hS', -, -, hz, h1, h2, h3⟩ := formula_evaluates hE hS h
  rw [← h1, ← h2]
  refine ⟨hz.nodup, hz.length, scene_config hS' hz.field, fun pos pos' ρ ρ' hp hp' hρ hρ' heq => ?_⟩
  rw [← h3 pos ρ hp hρ, ← h3 pos' ρ' hp' hρ']
  exact onlyOn_at D _ pos pos' ρ ρ' heq

theorem values_getD {n : Nat} (hn : 0 < n) {J : List Nat} (hJ : ∀ x ∈ J, x < n) (i : Sym → Nat) :
    Values n fun s => J.getD (i s) 0 := by
  intro s
  show J.getD (i s) 0 < n
  rw [List.getD_eq_getElem?_getD]
  cases hx : J[i s]? with
  | none => exact hn
  | some y => exact hJ y (List.mem_of_getElem? hx)

/-- Formulae that differ only in summed labels mean the same. -/
theorem renamed_mean [DecidableEq K] (hE : ∀ x, E.simp x = x) (hS : Scene G V w) {f f' : Formula K}
    (hr : Renamed f f') : f.OK G V F → f'.OK G V F ∧ f'.labels = f.labels ∧
      (f'.mean E G F).ix = (f.mean E G F).ix ∧ ∀ pos ρ, Positions pos → Values G.n ρ →
        (f'.mean E G F).value pos ρ = (f.mean E G F).value pos ρ := by
  induction hr with
  | refl f => exact fun h => ⟨h, rfl, rfl, fun _ _ _ _ => rfl⟩
  | dummies f σ hσ hf =>
    intro h
    refine ⟨ok_rename hσ h, ?_, (mean_rename hσ f).1, fun pos ρ hp hρ => ?_⟩
    · rw [labels_rename hσ]
      conv_rhs => rw [← List.map_id f.labels]
      exact List.map_congr_left hf
    · rw [(mean_rename hσ f).2]
      refine (mean_facts hE hS h).2.2.2 _ _ _ _ (fun s => hp _) hp (fun s => hρ _) hρ fun s hs => ?_
      simp [hf s hs]
  | trans _ _ ih ih' =>
    intro h
    obtain ⟨h1, h2, h3, h4⟩ := ih h
    obtain ⟨k1, k2, k3, k4⟩ := ih' h1
    exact ⟨k1, k2.trans h2, k3.trans h3, fun pos ρ hp hρ => (k4 pos ρ hp hρ).trans (h4 pos ρ hp hρ)⟩
  | scale v _ ih =>
    intro h
    obtain ⟨h1, h2, h3, h4⟩ := ih h
    exact ⟨h1, h2, h3, fun pos ρ hp hρ => by simp only [Formula.mean, h4 pos ρ hp hρ]⟩
  | neg _ ih =>
    intro h
    obtain ⟨h1, h2, h3, h4⟩ := ih h
    exact ⟨h1, h2, h3, fun pos ρ hp hρ => by simp only [Formula.mean, h4 pos ρ hp hρ]⟩
  | add _ _ ih ih' =>
    intro h
    obtain ⟨h1, h2, h3, h4⟩ := ih h.1
    obtain ⟨k1, k2, k3, k4⟩ := ih' h.2.1
    exact ⟨⟨h1, k1, by rw [h2, k2]; exact h.2.2⟩, h2, h3, fun pos ρ hp hρ => by
      simp only [Formula.mean, h4 pos ρ hp hρ, k4 pos ρ hp hρ]⟩
  | sub _ _ ih ih' =>
    intro h
    obtain ⟨h1, h2, h3, h4⟩ := ih h.1
    obtain ⟨k1, k2, k3, k4⟩ := ih' h.2.1
    exact ⟨⟨h1, k1, by rw [h2, k2]; exact h.2.2⟩, h2, h3, fun pos ρ hp hρ => by
      simp only [Formula.mean, h4 pos ρ hp hρ, k4 pos ρ hp hρ]⟩
  | mul _ _ ih ih' =>
    intro h
    obtain ⟨h1, h2, h3, h4⟩ := ih h.1
    obtain ⟨k1, k2, k3, k4⟩ := ih' h.2
    refine ⟨⟨h1, k1⟩, by simp only [Formula.labels, h2, k2], ?_, fun pos ρ hp hρ => ?_⟩
    · simp only [Formula.mean, Meaning.mul, mean_labels, h2, k2, h3, k3]
    · simp only [Formula.mean, Meaning.mul, mean_labels, h2, k2]
      unfold contracted
      refine sumOver_congr hρ fun ρ' hρ' _ => ?_
      rw [h4 pos ρ' hp hρ', k4 _ ρ' (positions_turned hp _) hρ']
  | @diff a f f' _ ih =>
    intro h
    obtain ⟨h1, h2, h3, h4⟩ := ih h.1
    obtain ⟨m1, m2, m3, -⟩ := mean_facts hE hS h.1
    refine ⟨⟨h1, by rw [h2]; exact h.2⟩, by simp only [Formula.labels, h2], ?_⟩
    simp only [Formula.mean, Meaning.diff, mean_labels, h2, h3]
    split_ifs with ha
    · refine ⟨rfl, fun pos ρ hp hρ => ?_⟩
      dsimp only [Meaning.ofComps]
      refine at_congr (by rfl) ?_ (fun J hJ hJn => ?_) pos ρ
      · dsimp only; rw [List.length_map]
      dsimp only
      refine Finset.sum_congr rfl fun k hk => ?_
      rw [h4 _ _ (positions_update (positions_posOf _ m3) _ (Or.inl rfl))
        (values_update (values_getD hS.pos hJn _) _ (Finset.mem_range.1 hk))]
    · refine ⟨rfl, fun pos ρ hp hρ => ?_⟩
      dsimp only [Meaning.ofComps]
      refine at_congr (by rfl) ?_ (fun J hJ hJn => ?_) pos ρ
      · dsimp only; rw [List.length_cons, List.length_cons, m2]
      dsimp only
      congr 1
      unfold Meaning.comps
      rw [mean_labels, mean_labels, h2, h3]
      exact h4 _ _ (positions_posOf _ m3) (values_getD hS.pos (fun x hx => hJn x (List.mem_of_mem_tail hx)) _)

end PyOGRe
