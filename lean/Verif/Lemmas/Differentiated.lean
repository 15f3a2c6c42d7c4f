import Verif.Lemmas.Algebra
import Verif.Lemmas.FormulaValue

/-! # Rules of calculus for formulae -/

namespace PyOGRe
open Spec Finset
variable {K : Type} [CommRing K] {E : Engine K} {G : Ground K} {V : View K} {w : World K} {F : Id' → TField K}

/-- Formulae with the same labels that agree in one configuration agree in all. -/
theorem mean_ext [DecidableEq K] (hE : ∀ x, E.simp x = x) (hS : Scene G V w) {f g : Formula K} (hf : f.OK G V F)
    (hg : g.OK G V F) (hl : g.labels.Perm f.labels) {pos0 : Sym → Int} (hp0 : Positions pos0)
    (heq : ∀ ρ, Values G.n ρ → (f.mean E G F).value pos0 ρ = (g.mean E G F).value pos0 ρ) {pos : Sym → Int}
    (hp : Positions pos) {ρ : Sym → Nat} (hρ : Values G.n ρ) : (f.mean E G F).value pos ρ = (g.mean E G F).value pos ρ := by
  obtain ⟨-, A, f2, f3, f4⟩ := mean_at hE hS hf
  obtain ⟨-, B, g2, g3, g4⟩ := mean_at hE hS hg
  rw [f4 _ _ hp hρ, g4 _ _ hp hρ]
  refine lawful_ext f2 (lawful_subset g2 fun s hs => hl.mem_iff.2 hs) f3 (fun pos pos' ρ _ _ _ h => ?_) hp0 (fun ρ hρ => ?_) hp hρ
  · exact g3 _ _ _ _ fun s hs => ⟨h s (hl.mem_iff.1 hs), rfl⟩
  · rw [← f4 _ _ hp0 hρ, ← g4 _ _ hp0 hρ, heq ρ hρ]

theorem diff_sumOver (hC : Calculus E) (s : Sym) {n : Nat} (ss : List Sym) (f : (Sym → Nat) → K) (ρ : Sym → Nat) :
    E.diff s (sumOver n ss f ρ) = sumOver n ss (fun ρ' => E.diff s (f ρ')) ρ := by
  have h0 : E.diff s 0 = 0 := by
    have := hC.add s 0 0
    rw [add_zero] at this
    exact left_eq_add.1 this
  have hsum : ∀ (m : Nat) (f : Nat → K), E.diff s (∑ k ∈ range m, f k) = ∑ k ∈ range m, E.diff s (f k) := by
    intro m f
    induction m with
    | zero => simpa using h0
    | succ m ih => rw [sum_range_succ, sum_range_succ, hC.add, ih]
  induction ss generalizing ρ with
  | nil => rfl
  | cons t ss ih => simp only [sumOver, hsum, ih]

/-- The default positions of the labels, and lower positions for the labels `l`. -/
def defaultPos (l : List Sym) (p : Sym → Int) (s : Sym) : Int := if s ∈ l then -1 else p s

theorem positions_defaultPos (l : List Sym) {p : Sym → Int} (hp : Positions p) : Positions (defaultPos l p) := by
  intro s
  unfold defaultPos
  split_ifs
  · exact Or.inr rfl
  · exact hp s

theorem mean_diff_sum [DecidableEq K] (hE : ∀ x, E.simp x = x) (hC : Calculus E) (hS : Scene G V w) {f g : Formula K} {a : Sym}
    (hf : (Formula.add f g).OK G V F) (ha : a ∉ f.labels)
    (hix : ∀ s ∈ f.labels, posOf g.labels (g.mean E G F).ix s = posOf f.labels (f.mean E G F).ix s) :
    (Formula.diff a (.add f g)).OK G V F ∧ (Formula.add (.diff a f) (.diff a g)).OK G V F ∧
    (Formula.add (.diff a f) (.diff a g)).labels = (Formula.diff a (.add f g)).labels ∧
    ∀ pos ρ, Positions pos → Values G.n ρ → ((Formula.diff a (.add f g)).mean E G F).value pos ρ =
      ((Formula.add (.diff a f) (.diff a g)).mean E G F).value pos ρ := by
  have hag : a ∉ g.labels := fun h => ha (hf.2.2.mem_iff.1 h)
  have o1 : (Formula.diff a (.add f g)).OK G V F := ⟨hf, fun h => absurd h ha⟩
  have hl : (Formula.diff a g).labels.Perm (Formula.diff a f).labels := by
    simp only [Formula.labels, if_neg ha, if_neg hag]
    exact hf.2.2.cons a
  have o2 : (Formula.add (.diff a f) (.diff a g)).OK G V F :=
    ⟨⟨hf.1, fun h => absurd h ha⟩, ⟨hf.2.1, fun h => absurd h hag⟩, hl⟩
  refine ⟨o1, o2, rfl, fun pos ρ hp hρ => ?_⟩
  obtain ⟨m1, m2, m3, -⟩ := mean_facts hE hS hf.1
  obtain ⟨n1, n2, n3, -⟩ := mean_facts hE hS hf.2.1
  let pos0 := defaultPos [a] (posOf f.labels (f.mean E G F).ix)
  have hp0 : Positions pos0 := positions_defaultPos _ (positions_posOf _ m3)
  have hpa : pos0 a = -1 := if_pos (by simp)
  have h1 : f.labels.map pos0 = (f.mean E G F).ix := by
    conv_rhs => rw [← map_posOf m1 m2]
    exact List.map_congr_left fun s hs => if_neg (by rw [List.mem_singleton]; rintro rfl; exact ha hs)
  have h2 : g.labels.map pos0 = (g.mean E G F).ix := by
    conv_rhs => rw [← map_posOf n1 n2]
    refine List.map_congr_left fun s hs => ?_
    rw [hix s (hf.2.2.mem_iff.1 hs)]
    exact if_neg (by rw [List.mem_singleton]; rintro rfl; exact hag hs)
  refine mean_ext hE hS o1 o2 (.refl _) hp0 (fun ρ hρ => ?_) hp hρ
  rw [diff_default hE hS hf ha hp0 hpa hρ h1]
  show _ = ((Formula.diff a f).mean E G F).value pos0 ρ + ((Formula.diff a g).mean E G F).value pos0 ρ
  rw [diff_default hE hS hf.1 ha hp0 hpa hρ h1, diff_default hE hS hf.2.1 hag hp0 hpa hρ h2]
  exact hC.add _ _ _

theorem mean_diff_scale [DecidableEq K] (hE : ∀ x, E.simp x = x) (hC : Calculus E) (hS : Scene G V w) {f : Formula K} {a : Sym} {v : K}
    (hf : f.OK G V F) (ha : a ∉ f.labels) (hv : ∀ s, E.diff s v = 0) :
    (Formula.diff a (.scale v f)).OK G V F ∧ (Formula.scale v (.diff a f)).OK G V F ∧
    (Formula.scale v (.diff a f)).labels = (Formula.diff a (.scale v f)).labels ∧
    ∀ pos ρ, Positions pos → Values G.n ρ → ((Formula.diff a (.scale v f)).mean E G F).value pos ρ =
      ((Formula.scale v (.diff a f)).mean E G F).value pos ρ := by
  have o1 : (Formula.diff a (.scale v f)).OK G V F := ⟨hf, fun h => absurd h ha⟩
  have o2 : (Formula.scale v (.diff a f)).OK G V F := ⟨hf, fun h => absurd h ha⟩
  refine ⟨o1, o2, rfl, fun pos ρ hp hρ => ?_⟩
  obtain ⟨m1, m2, m3, -⟩ := mean_facts hE hS hf
  let pos0 := defaultPos [a] (posOf f.labels (f.mean E G F).ix)
  have hp0 : Positions pos0 := positions_defaultPos _ (positions_posOf _ m3)
  have hpa : pos0 a = -1 := if_pos (by simp)
  have h1 : f.labels.map pos0 = (f.mean E G F).ix := by
    conv_rhs => rw [← map_posOf m1 m2]
    exact List.map_congr_left fun s hs => if_neg (by rw [List.mem_singleton]; rintro rfl; exact ha hs)
  refine mean_ext hE hS o1 o2 (.refl _) hp0 (fun ρ hρ => ?_) hp hρ
  rw [diff_default hE hS (f := .scale v f) hf ha hp0 hpa hρ h1]
  show _ = v * ((Formula.diff a f).mean E G F).value pos0 ρ
  rw [diff_default hE hS hf ha hp0 hpa hρ h1]
  show E.diff _ (v * _) = v * E.diff _ _
  rw [hC.mul, hv, zero_mul, zero_add]

theorem mean_diff_diff [DecidableEq K] (hE : ∀ x, E.simp x = x) (hC : Calculus E) (hS : Scene G V w) {f : Formula K} {a b : Sym}
    (hf : f.OK G V F) (ha : a ∉ f.labels) (hb : b ∉ f.labels) (hab : a ≠ b) :
    (Formula.diff a (.diff b f)).OK G V F ∧ (Formula.diff b (.diff a f)).OK G V F ∧
    (Formula.diff b (.diff a f)).labels.Perm (Formula.diff a (.diff b f)).labels ∧
    ∀ pos ρ, Positions pos → Values G.n ρ → ((Formula.diff a (.diff b f)).mean E G F).value pos ρ =
      ((Formula.diff b (.diff a f)).mean E G F).value pos ρ := by
  have hla : (Formula.diff a f).labels = a :: f.labels := if_neg ha
  have hlb : (Formula.diff b f).labels = b :: f.labels := if_neg hb
  have ha' : a ∉ (Formula.diff b f).labels := by rw [hlb]; simp [hab, ha]
  have hb' : b ∉ (Formula.diff a f).labels := by rw [hla]; simp [Ne.symm hab, hb]
  have oa : (Formula.diff a f).OK G V F := ⟨hf, fun h => absurd h ha⟩
  have ob : (Formula.diff b f).OK G V F := ⟨hf, fun h => absurd h hb⟩
  have o1 : (Formula.diff a (.diff b f)).OK G V F := ⟨ob, fun h => absurd h ha'⟩
  have o2 : (Formula.diff b (.diff a f)).OK G V F := ⟨oa, fun h => absurd h hb'⟩
  have hl : (Formula.diff b (.diff a f)).labels.Perm (Formula.diff a (.diff b f)).labels := by
    rw [show (Formula.diff b (.diff a f)).labels = b :: (Formula.diff a f).labels from if_neg hb',
      show (Formula.diff a (.diff b f)).labels = a :: (Formula.diff b f).labels from if_neg ha', hla, hlb]
    exact .swap _ _ _
  refine ⟨o1, o2, hl, fun pos ρ hp hρ => ?_⟩
  obtain ⟨m1, m2, m3, -⟩ := mean_facts hE hS hf
  let pos0 := defaultPos [a, b] (posOf f.labels (f.mean E G F).ix)
  have hp0 : Positions pos0 := positions_defaultPos _ (positions_posOf _ m3)
  have hpa : pos0 a = -1 := if_pos (by simp)
  have hpb : pos0 b = -1 := if_pos (by simp)
  have h1 : f.labels.map pos0 = (f.mean E G F).ix := by
    conv_rhs => rw [← map_posOf m1 m2]
    refine List.map_congr_left fun s hs => if_neg ?_
    simp only [List.mem_cons, List.not_mem_nil, or_false]
    rintro (rfl | rfl)
    · exact ha hs
    · exact hb hs
  refine mean_ext hE hS o1 o2 hl hp0 (fun ρ hρ => ?_) hp hρ
  rw [diff_default hE hS ob ha' hp0 hpa hρ (by rw [hlb, List.map_cons, h1, hpb, diff_ix hb]),
    diff_default hE hS oa hb' hp0 hpb hρ (by rw [hla, List.map_cons, h1, hpa, diff_ix ha]),
    diff_default hE hS hf hb hp0 hpb hρ h1, diff_default hE hS hf ha hp0 hpa hρ h1]
  exact hC.comm _ _ _

theorem mean_diff_mul [DecidableEq K] (hE : ∀ x, E.simp x = x) (hC : Calculus E) (hS : Scene G V w) {f g : Formula K} {a : Sym}
    (hf : f.OK G V F) (hg : g.OK G V F) (ha : a ∉ f.labels) (hb : a ∉ g.labels)
    (hop : ∀ s ∈ f.labels, s ∈ g.labels → posOf g.labels (g.mean E G F).ix s = -posOf f.labels (f.mean E G F).ix s) :
    (Formula.diff a (.mul f g)).OK G V F ∧ (Formula.add (.mul (.diff a f) g) (.mul f (.diff a g))).OK G V F ∧
    (Formula.add (.mul (.diff a f) g) (.mul f (.diff a g))).labels.Perm (Formula.diff a (.mul f g)).labels ∧
    ∀ pos ρ, Positions pos → Values G.n ρ → ((Formula.diff a (.mul f g)).mean E G F).value pos ρ =
      ((Formula.add (.mul (.diff a f) g) (.mul f (.diff a g))).mean E G F).value pos ρ := by
  obtain ⟨m1, m2, m3, -⟩ := mean_facts hE hS hf
  obtain ⟨n1, n2, n3, -⟩ := mean_facts hE hS hg
  have hla : (Formula.diff a f).labels = a :: f.labels := if_neg ha
  have hlb : (Formula.diff a g).labels = a :: g.labels := if_neg hb
  have hmu : a ∉ unshared f.labels g.labels := by
    rw [mem_unshared]
    tauto
  have hm : a ∉ (Formula.mul f g).labels := hmu
  have hm' : (Formula.diff a (.mul f g)).labels = a :: unshared f.labels g.labels := if_neg hm
  have ofg : (Formula.mul f g).OK G V F := ⟨hf, hg⟩
  have o1 : (Formula.diff a (.mul f g)).OK G V F := ⟨ofg, fun h => absurd h hm⟩
  have oa : (Formula.diff a f).OK G V F := ⟨hf, fun h => absurd h ha⟩
  have ob : (Formula.diff a g).OK G V F := ⟨hg, fun h => absurd h hb⟩
  have na : (a :: f.labels).Nodup := List.nodup_cons.2 ⟨ha, m1⟩
  have nb : (a :: g.labels).Nodup := List.nodup_cons.2 ⟨hb, n1⟩
  have hl : (unshared (a :: f.labels) g.labels).Perm (a :: unshared f.labels g.labels) := by
    refine (List.perm_ext_iff_of_nodup (nodup_unshared na n1) (List.nodup_cons.2 ⟨hmu, nodup_unshared m1 n1⟩)).2 fun s => ?_
    simp only [mem_unshared, List.mem_cons]
    by_cases hs : s = a
    · subst hs; tauto
    · tauto
  have hl' : (unshared f.labels (a :: g.labels)).Perm (a :: unshared f.labels g.labels) := by
    refine (List.perm_ext_iff_of_nodup (nodup_unshared m1 nb) (List.nodup_cons.2 ⟨hmu, nodup_unshared m1 n1⟩)).2 fun s => ?_
    simp only [mem_unshared, List.mem_cons]
    by_cases hs : s = a
    · subst hs; tauto
    · tauto
  have l1 : (Formula.mul (.diff a f) g).labels = unshared (a :: f.labels) g.labels := by
    show unshared (Formula.diff a f).labels g.labels = _
    rw [hla]
  have l2 : (Formula.mul f (.diff a g)).labels = unshared f.labels (a :: g.labels) := by
    show unshared f.labels (Formula.diff a g).labels = _
    rw [hlb]
  have o2 : (Formula.add (.mul (.diff a f) g) (.mul f (.diff a g))).OK G V F :=
    ⟨⟨oa, hg⟩, ⟨hf, ob⟩, by rw [l1, l2]; exact hl'.trans hl.symm⟩
  have hlab : (Formula.add (.mul (.diff a f) g) (.mul f (.diff a g))).labels.Perm (Formula.diff a (.mul f g)).labels := by
    show (Formula.mul (.diff a f) g).labels.Perm _
    rw [l1, hm']
    exact hl
  refine ⟨o1, o2, hlab, fun pos ρ hp hρ => ?_⟩
  let p : Sym → Int := fun s => if s ∈ f.labels then posOf f.labels (f.mean E G F).ix s else posOf g.labels (g.mean E G F).ix s
  let pos0 := defaultPos [a] p
  have hpp : Positions p := by
    intro s
    dsimp only [p]
    split_ifs
    · exact positions_posOf _ m3 s
    · exact positions_posOf _ n3 s
  have hp0 : Positions pos0 := positions_defaultPos _ hpp
  have hpa : pos0 a = -1 := if_pos (by simp)
  have hpf : ∀ s ∈ f.labels, pos0 s = posOf f.labels (f.mean E G F).ix s := fun s hs => by
    have : s ≠ a := by rintro rfl; exact ha hs
    simp [pos0, defaultPos, p, this, hs]
  have hpg : ∀ s ∈ g.labels, s ∉ f.labels → pos0 s = posOf g.labels (g.mean E G F).ix s := fun s hs hs' => by
    have : s ≠ a := by rintro rfl; exact hb hs
    simp [pos0, defaultPos, p, this, hs']
  have h1 : f.labels.map pos0 = (f.mean E G F).ix := by
    conv_rhs => rw [← map_posOf m1 m2]
    exact List.map_congr_left hpf
  have h2 : g.labels.map (turned (sharedOf f.labels g.labels) pos0) = (g.mean E G F).ix := by
    conv_rhs => rw [← map_posOf n1 n2]
    refine List.map_congr_left fun s hs => ?_
    unfold turned
    by_cases hs' : s ∈ f.labels
    · rw [if_pos (mem_sharedOf.2 ⟨hs', hs⟩), hpf s hs', hop s hs' hs]
    · rw [if_neg (fun h => hs' (mem_sharedOf.1 h).1), hpg s hs hs']
  have has : a ∉ sharedOf f.labels g.labels := fun h => ha (mem_sharedOf.1 h).1
  have hta : turned (sharedOf f.labels g.labels) pos0 a = -1 := by
    unfold turned
    rw [if_neg has, hpa]
  have h3 : (Formula.mul f g).labels.map pos0 = ((Formula.mul f g).mean E G F).ix := by
    simp only [Formula.labels, Formula.mean, Meaning.mul, mean_labels, List.map_append]
    congr 1
    · exact List.map_congr_left fun s hs => hpf s (List.mem_filter.1 hs).1
    · refine List.map_congr_left fun s hs => ?_
      simp only [List.mem_filter, decide_eq_true_eq] at hs
      exact hpg s hs.1 hs.2
  refine mean_ext hE hS o1 o2 hlab hp0 (fun ρ hρ => ?_) hp hρ
  have s1 : sharedOf (a :: f.labels) g.labels = sharedOf f.labels g.labels := by simp [sharedOf, hb]
  have s2 : sharedOf f.labels (a :: g.labels) = sharedOf f.labels g.labels := by
    refine List.filter_congr fun s hs => ?_
    have : s ≠ a := by rintro rfl; exact ha hs
    simp [this]
  rw [diff_default hE hS ofg hm hp0 hpa hρ h3]
  show E.diff _ (contracted G (sharedOf (f.mean E G F).labels (g.mean E G F).labels) _ _ pos0 ρ) =
    contracted G (sharedOf ((Formula.diff a f).mean E G F).labels (g.mean E G F).labels) _ _ pos0 ρ +
    contracted G (sharedOf (f.mean E G F).labels ((Formula.diff a g).mean E G F).labels) _ _ pos0 ρ
  simp only [mean_labels, hla, hlb, s1, s2, contracted]
  rw [diff_sumOver hC, ← sumOver_add]
  refine sumOver_congr hρ fun ρ' hρ' hout => ?_
  rw [diff_default hE hS hf ha hp0 hpa hρ' h1, diff_default hE hS hg hb (positions_turned hp0 _) hta hρ' h2, hC.mul, hout a has]
  rfl

end PyOGRe
