import Verif.Lemmas.Rename
import Verif.Spec.Algebra

/-! # Formulae that are equal by the laws of algebra -/

namespace PyOGRe
open Spec Finset
variable {K : Type} [CommRing K] {E : Engine K} {G : Ground K} {V : View K} {w : World K} {F : Id' → TField K}

/-- A factor without the summed labels. -/
theorem sumOver_mul_right {n : Nat} (ss : List Sym) (f c : (Sym → Nat) → K) (ρ : Sym → Nat)
    (h : ∀ ρ', (∀ s, s ∉ ss → ρ' s = ρ s) → c ρ' = c ρ) :
    sumOver n ss (fun ρ' => f ρ' * c ρ') ρ = sumOver n ss f ρ * c ρ := by
  induction ss generalizing ρ with
  | nil => rfl
  | cons s ss ih =>
    simp only [sumOver, Finset.sum_mul]
    refine Finset.sum_congr rfl fun k _ => ?_
    have hk : c (Function.update ρ s k) = c ρ := h _ fun t ht => by
      rw [Function.update_of_ne (by rintro rfl; simp at ht)]
    rw [ih, hk]
    intro ρ' h'
    rw [hk]
    refine h ρ' fun t ht => ?_
    simp only [List.mem_cons, not_or] at ht
    rw [h' t ht.2, Function.update_of_ne ht.1]

theorem turned_congr {ss ss' : List Sym} (h : ∀ s, s ∈ ss ↔ s ∈ ss') (pos : Sym → Int) : turned ss pos = turned ss' pos := by
  funext s
  simp only [turned, h s]

/-- The order of the factors. -/
theorem contracted_swap (hS : Scene G V w) {x y : List Sym} (hx : x.Nodup) (hy : y.Nodup) {A B : (Sym → Int) → (Sym → Nat) → K}
    (hA : Lawful G x A) (hB : Lawful G y B) (hA' : OnlyOn x A) (hB' : OnlyOn y B) {pos : Sym → Int} (hp : Positions pos)
    {ρ : Sym → Nat} (hρ : Values G.n ρ) :
    contracted G (sharedOf y x) B A pos ρ = contracted G (sharedOf x y) A B pos ρ := by
  have hmem : ∀ s, s ∈ sharedOf y x ↔ s ∈ sharedOf x y := fun s => by simp [mem_sharedOf, and_comm]
  have hperm : (sharedOf y x).Perm (sharedOf x y) := (List.perm_ext_iff_of_nodup (hy.filter _) (hx.filter _)).2 hmem
  rw [contracted_congr hS.inverse hS.symm (pos' := turned (sharedOf x y) pos) (lA := y) (lB := x)
    (fun s hs => (mem_sharedOf.1 hs).1) (fun s hs => (mem_sharedOf.1 hs).2) hB hA hB' hA' hp (positions_turned hp _) ?_ hρ]
  · unfold contracted
    rw [sumOver_perm hperm]
    congr 1
    funext ρ'
    rw [turned_congr hmem, mul_comm]
    congr 2
    funext s
    unfold turned
    split_ifs <;> simp
  · intro s _ hs
    unfold turned
    rw [if_neg (fun h => hs ((hmem s).2 h))]

/-- The grouping of the factors. -/
theorem contracted_assoc {x y z : List Sym} (hx : x.Nodup) (hy : y.Nodup) (hz : z.Nodup)
    (hl : ∀ s ∈ x, s ∈ y → s ∉ z) {A B C : (Sym → Int) → (Sym → Nat) → K} (hA : OnlyOn x A) (hB : OnlyOn y B)
    (hC : OnlyOn z C) (pos : Sym → Int) (ρ : Sym → Nat) :
    contracted G (sharedOf (unshared x y) z) (contracted G (sharedOf x y) A B) C pos ρ =
      contracted G (sharedOf x (unshared y z)) A (contracted G (sharedOf y z) B C) pos ρ := by
  let S := sharedOf (unshared x y) z ++ sharedOf x y
  let S' := sharedOf x (unshared y z) ++ sharedOf y z
  have hmem : ∀ s, s ∈ S ↔ s ∈ S' := by
    intro s
    simp only [S, S', List.mem_append, mem_sharedOf, mem_unshared]
    have := hl s
    tauto
  have hn : S.Nodup := by
    refine List.nodup_append.2 ⟨(nodup_unshared hx hy).filter _, hx.filter _, fun a ha b hb => ?_⟩
    rintro rfl
    simp only [mem_sharedOf, mem_unshared] at ha hb
    tauto
  have hn' : S'.Nodup := by
    refine List.nodup_append.2 ⟨hx.filter _, hy.filter _, fun a ha b hb => ?_⟩
    rintro rfl
    simp only [mem_sharedOf, mem_unshared] at ha hb
    tauto
  have hperm : S.Perm S' := (List.perm_ext_iff_of_nodup hn hn').2 hmem
  let P : (Sym → Nat) → K := fun ρ' => A pos ρ' * B (turned (sharedOf x y) pos) ρ' *
    C (turned (sharedOf (unshared x y) z) pos) ρ'
  have hL : contracted G (sharedOf (unshared x y) z) (contracted G (sharedOf x y) A B) C pos ρ = sumOver G.n S P ρ := by
    rw [sumOver_append]
    unfold contracted
    congr 1
    funext ρ'
    rw [← sumOver_mul_right]
    intro ρ'' h
    refine hC _ _ _ _ fun s hs => ⟨rfl, h s ?_⟩
    rw [mem_sharedOf]
    exact fun ⟨h1, h2⟩ => hl s h1 h2 hs
  have hR : contracted G (sharedOf x (unshared y z)) A (contracted G (sharedOf y z) B C) pos ρ = sumOver G.n S' P ρ := by
    rw [sumOver_append]
    unfold contracted
    congr 1
    funext ρ'
    rw [mul_comm, ← sumOver_mul_right]
    · congr 1
      funext ρ''
      show _ = A pos ρ'' * _ * _
      rw [mul_comm, mul_assoc]
      congr 1
      rw [hB _ (turned (sharedOf x y) pos) ρ'' ρ'' fun s hs => ⟨?_, rfl⟩,
        hC _ (turned (sharedOf (unshared x y) z) pos) ρ'' ρ'' fun s hs => ⟨?_, rfl⟩]
      · have := hl s
        by_cases h1 : s ∈ x <;> by_cases h2 : s ∈ y <;> simp_all [turned, mem_sharedOf, mem_unshared]
      · have e : (s ∈ sharedOf x (unshared y z)) ↔ s ∈ sharedOf x y := by
          simp only [mem_sharedOf, mem_unshared]
          have := hl s
          tauto
        simp only [turned, e]
    · intro ρ'' h
      refine hA _ _ _ _ fun s hs => ⟨rfl, h s ?_⟩
      rw [mem_sharedOf]
      exact fun ⟨h1, h2⟩ => hl s hs h1 h2
  rw [hL, hR, sumOver_perm hperm]

/-- The value of a formula is that of a tensor. -/
theorem mean_at [DecidableEq K] (hE : ∀ x, E.simp x = x) (hS : Scene G V w) {f : Formula K} (h : f.OK G V F) :
    f.labels.Nodup ∧ ∃ A : (Sym → Int) → (Sym → Nat) → K, Lawful G f.labels A ∧ OnlyOn f.labels A ∧
      ∀ pos ρ, Positions pos → Values G.n ρ → (f.mean E G F).value pos ρ = A pos ρ := by
  obtain ⟨z, w', -, V', t, D, hS', -, -, hz, h1, h2, h3⟩ := formula_evaluates hE hS h
  rw [← h1]
  exact ⟨hz.nodup, D.at G z.labels, lawful_at hS'.inverse (scene_config hS' hz.field) hz.nodup hz.length, onlyOn_at D _,
    fun pos ρ hp hρ => (h3 pos ρ hp hρ).symm⟩

theorem contracted_values {ss ss' : List Sym} (hs : ss.Perm ss') {A A' B B' : (Sym → Int) → (Sym → Nat) → K}
    (hA : ∀ pos ρ, Positions pos → Values G.n ρ → A pos ρ = A' pos ρ)
    (hB : ∀ pos ρ, Positions pos → Values G.n ρ → B pos ρ = B' pos ρ) {pos : Sym → Int} (hp : Positions pos)
    {ρ : Sym → Nat} (hρ : Values G.n ρ) : contracted G ss A B pos ρ = contracted G ss' A' B' pos ρ := by
  unfold contracted
  rw [sumOver_perm hs, turned_congr fun s => hs.mem_iff]
  exact sumOver_congr hρ fun ρ' hρ' _ => by rw [hA _ _ hp hρ', hB _ _ (positions_turned hp _) hρ']

theorem unshared_perm {x x' y y' : List Sym} (hx : x'.Perm x) (hy : y'.Perm y) : (unshared x' y').Perm (unshared x y) := by
  unfold unshared
  refine List.Perm.append ?_ ?_
  · rw [List.filter_congr (q := fun s => decide (s ∉ y)) fun s _ => by simp [hy.mem_iff]]
    exact hx.filter _
  · rw [List.filter_congr (q := fun s => decide (s ∉ x)) fun s _ => by simp [hx.mem_iff]]
    exact hy.filter _

theorem sharedOf_perm {x x' y y' : List Sym} (hx : x'.Perm x) (hy : y'.Perm y) : (sharedOf x' y').Perm (sharedOf x y) := by
  unfold sharedOf
  rw [List.filter_congr (q := fun s => decide (s ∈ y)) fun s _ => by simp [hy.mem_iff]]
  exact hx.filter _

/-- The labels and values of formulae that are equal by the laws. -/
theorem laws_mean [DecidableEq K] (hE : ∀ x, E.simp x = x) (hS : Scene G V w) {f f' : Formula K} (hr : Laws f f') :
    (f.OK G V F ↔ f'.OK G V F) ∧ (f.OK G V F → f'.labels.Perm f.labels ∧ ∀ pos ρ, Positions pos → Values G.n ρ →
      (f'.mean E G F).value pos ρ = (f.mean E G F).value pos ρ) := by
  induction hr with
  | refl f => exact ⟨Iff.rfl, fun _ => ⟨.refl _, fun _ _ _ _ => rfl⟩⟩
  | symm _ ih =>
    refine ⟨ih.1.symm, fun h => ?_⟩
    obtain ⟨h1, h2⟩ := ih.2 (ih.1.2 h)
    exact ⟨h1.symm, fun pos ρ hp hρ => (h2 pos ρ hp hρ).symm⟩
  | trans _ _ ih ih' =>
    refine ⟨ih.1.trans ih'.1, fun h => ?_⟩
    obtain ⟨h1, h2⟩ := ih.2 h
    obtain ⟨k1, k2⟩ := ih'.2 (ih.1.1 h)
    exact ⟨k1.trans h1, fun pos ρ hp hρ => (k2 pos ρ hp hρ).trans (h2 pos ρ hp hρ)⟩
  | add_comm f g =>
    exact ⟨⟨fun h => ⟨h.2.1, h.1, h.2.2.symm⟩, fun h => ⟨h.2.1, h.1, h.2.2.symm⟩⟩,
      fun h => ⟨h.2.2, fun pos ρ _ _ => add_comm _ _⟩⟩
  | add_assoc f g h =>
    refine ⟨⟨fun h => ?_, fun h => ?_⟩, fun h => ⟨.refl _, fun pos ρ _ _ => (add_assoc _ _ _).symm⟩⟩
    · exact ⟨h.1.1, ⟨h.1.2.1, h.2.1, h.2.2.trans h.1.2.2.symm⟩, h.1.2.2⟩
    · exact ⟨⟨h.1, h.2.1.1, h.2.2⟩, h.2.1.2.1, h.2.1.2.2.trans h.2.2⟩
  | mul_comm f g =>
    refine ⟨⟨fun h => ⟨h.2, h.1⟩, fun h => ⟨h.2, h.1⟩⟩, fun h => ?_⟩
    obtain ⟨f1, A, f2, f3, f4⟩ := mean_at hE hS h.1
    obtain ⟨g1, B, g2, g3, g4⟩ := mean_at hE hS h.2
    refine ⟨List.perm_append_comm, fun pos ρ hp hρ => ?_⟩
    simp only [Formula.mean, Meaning.mul, mean_labels]
    rw [contracted_values (.refl _) g4 f4 hp hρ, contracted_values (.refl _) f4 g4 hp hρ]
    exact contracted_swap hS f1 g1 f2 g2 f3 g3 hp hρ
  | mul_assoc f g h hl =>
    refine ⟨⟨fun h => ⟨h.1.1, h.1.2, h.2⟩, fun h => ⟨⟨h.1, h.2.1⟩, h.2.2⟩⟩, fun hf => ?_⟩
    obtain ⟨f1, A, f2, f3, f4⟩ := mean_at hE hS hf.1.1
    obtain ⟨g1, B, g2, g3, g4⟩ := mean_at hE hS hf.1.2
    obtain ⟨h1, C, h2, h3, h4⟩ := mean_at hE hS hf.2
    refine ⟨?_, fun pos ρ hp hρ => ?_⟩
    · show (unshared f.labels (unshared g.labels h.labels)).Perm (unshared (unshared f.labels g.labels) h.labels)
      refine (List.perm_ext_iff_of_nodup (nodup_unshared f1 (nodup_unshared g1 h1))
        (nodup_unshared (nodup_unshared f1 g1) h1)).2 fun s => ?_
      simp only [mem_unshared]
      tauto
    · have e1 : ((Formula.mul (.mul f g) h).mean E G F).value pos ρ =
          contracted G (sharedOf (unshared f.labels g.labels) h.labels) (contracted G (sharedOf f.labels g.labels) A B) C
            pos ρ := by
        show contracted G (sharedOf ((Formula.mul f g).mean E G F).labels (h.mean E G F).labels) _ _ pos ρ = _
        rw [mean_labels, mean_labels]
        refine contracted_values (.refl _) (fun pos ρ hp hρ => ?_) h4 hp hρ
        show contracted G (sharedOf (f.mean E G F).labels (g.mean E G F).labels) _ _ pos ρ = _
        rw [mean_labels, mean_labels]
        exact contracted_values (.refl _) f4 g4 hp hρ
      have e2 : ((Formula.mul f (.mul g h)).mean E G F).value pos ρ =
          contracted G (sharedOf f.labels (unshared g.labels h.labels)) A (contracted G (sharedOf g.labels h.labels) B C)
            pos ρ := by
        show contracted G (sharedOf (f.mean E G F).labels ((Formula.mul g h).mean E G F).labels) _ _ pos ρ = _
        rw [mean_labels, mean_labels]
        refine contracted_values (.refl _) f4 (fun pos ρ hp hρ => ?_) hp hρ
        show contracted G (sharedOf (g.mean E G F).labels (h.mean E G F).labels) _ _ pos ρ = _
        rw [mean_labels, mean_labels]
        exact contracted_values (.refl _) g4 h4 hp hρ
      rw [e1, e2, contracted_assoc f1 g1 h1 hl f3 g3 h3]
  | mul_add f g h hl =>
    refine ⟨⟨fun hf => ⟨⟨hf.1, hf.2.1⟩, ⟨hf.1, hf.2.2.1⟩, unshared_perm (.refl _) hl⟩,
      fun hf => ⟨hf.1.1, hf.1.2, hf.2.1.2, hl⟩⟩, fun hf => ⟨.refl _, fun pos ρ hp hρ => ?_⟩⟩
    have hs := sharedOf_perm (.refl f.labels) hl
    simp only [Formula.mean, Meaning.mul, mean_labels, contracted]
    rw [sumOver_perm hs, turned_congr fun s => hs.mem_iff, ← sumOver_add]
    simp only [mul_add]
  | mul_scale v f g =>
    refine ⟨Iff.rfl, fun hf => ⟨.refl _, fun pos ρ hp hρ => ?_⟩⟩
    simp only [Formula.mean, Meaning.mul, mean_labels, contracted]
    rw [← sumOver_mul]
    congr 1
    funext ρ'
    ring
  | scale_add v f g => exact ⟨Iff.rfl, fun _ => ⟨.refl _, fun pos ρ _ _ => (mul_add _ _ _).symm⟩⟩
  | add_scale u v f =>
    exact ⟨⟨fun h => ⟨h, h, .refl _⟩, fun h => h.1⟩, fun _ => ⟨.refl _, fun pos ρ _ _ => (add_mul _ _ _).symm⟩⟩
  | scale_scale u v f => exact ⟨Iff.rfl, fun _ => ⟨.refl _, fun pos ρ _ _ => mul_assoc _ _ _⟩⟩
  | scale_one f => exact ⟨Iff.rfl, fun _ => ⟨.refl _, fun pos ρ _ _ => (one_mul _).symm⟩⟩
  | neg_scale f => exact ⟨Iff.rfl, fun _ => ⟨.refl _, fun pos ρ _ _ => neg_one_mul _⟩⟩
  | sub_neg f g => exact ⟨Iff.rfl, fun _ => ⟨.refl _, fun pos ρ _ _ => (sub_eq_add_neg _ _).symm⟩⟩
  | scale v _ ih =>
    exact ⟨ih.1, fun h => ⟨(ih.2 h).1, fun pos ρ hp hρ => by simp only [Formula.mean, (ih.2 h).2 pos ρ hp hρ]⟩⟩
  | neg _ ih =>
    exact ⟨ih.1, fun h => ⟨(ih.2 h).1, fun pos ρ hp hρ => by simp only [Formula.mean, (ih.2 h).2 pos ρ hp hρ]⟩⟩
  | add _ _ ih ih' =>
    refine ⟨⟨fun h => ?_, fun h => ?_⟩, fun h => ⟨(ih.2 h.1).1, fun pos ρ hp hρ => ?_⟩⟩
    · exact ⟨ih.1.1 h.1, ih'.1.1 h.2.1, (ih'.2 h.2.1).1.trans (h.2.2.trans (ih.2 h.1).1.symm)⟩
    · exact ⟨ih.1.2 h.1, ih'.1.2 h.2.1, (ih'.2 (ih'.1.2 h.2.1)).1.symm.trans (h.2.2.trans (ih.2 (ih.1.2 h.1)).1)⟩
    · simp only [Formula.mean, (ih.2 h.1).2 pos ρ hp hρ, (ih'.2 h.2.1).2 pos ρ hp hρ]
  | sub _ _ ih ih' =>
    refine ⟨⟨fun h => ?_, fun h => ?_⟩, fun h => ⟨(ih.2 h.1).1, fun pos ρ hp hρ => ?_⟩⟩
    · exact ⟨ih.1.1 h.1, ih'.1.1 h.2.1, (ih'.2 h.2.1).1.trans (h.2.2.trans (ih.2 h.1).1.symm)⟩
    · exact ⟨ih.1.2 h.1, ih'.1.2 h.2.1, (ih'.2 (ih'.1.2 h.2.1)).1.symm.trans (h.2.2.trans (ih.2 (ih.1.2 h.1)).1)⟩
    · simp only [Formula.mean, (ih.2 h.1).2 pos ρ hp hρ, (ih'.2 h.2.1).2 pos ρ hp hρ]
  | mul _ _ ih ih' =>
    refine ⟨and_congr ih.1 ih'.1, fun h => ?_⟩
    obtain ⟨h1, h2⟩ := ih.2 h.1
    obtain ⟨k1, k2⟩ := ih'.2 h.2
    refine ⟨unshared_perm h1 k1, fun pos ρ hp hρ => ?_⟩
    simp only [Formula.mean, Meaning.mul, mean_labels]
    exact contracted_values (sharedOf_perm h1 k1) h2 k2 hp hρ

end PyOGRe
