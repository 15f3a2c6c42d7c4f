import Verif.Lemmas.Labelled

/-! Helper lemmas: contraction of labelled tensors, without states. -/

namespace PyOGRe
open Spec Finset
variable {K : Type} [CommRing K]

theorem sumOver_append {n : Nat} (l l' : List Sym) (f : (Sym → Nat) → K) (ρ : Sym → Nat) :
    sumOver n (l ++ l') f ρ = sumOver n l (sumOver n l' f) ρ := by
  induction l generalizing ρ with
  | nil => rfl
  | cons s l ih => simp only [List.cons_append, sumOver, ih]

/-- Giving values to several labels. -/
def assign (ρ : Sym → Nat) : List Sym → List Nat → Sym → Nat
  | s :: ss, k :: ks => assign (Function.update ρ s k) ss ks
  | _, _ => ρ

theorem sumOver_tuples {n : Nat} (ss : List Sym) (f : (Sym → Nat) → K) (ρ : Sym → Nat) :
    ((tuples n ss.length).map fun s => f (assign ρ ss s)).sum = sumOver n ss f ρ := by
  induction ss generalizing ρ with
  | nil => simp [tuples, assign, sumOver]
  | cons s ss ih =>
    simp only [List.length_cons, sum_map_tuples_succ, assign, ih, sumOver]

theorem assign_apply (ρ : Sym → Nat) (ss : List Sym) (hn : ss.Nodup) (s : List Nat) (hl : s.length = ss.length)
    (x : Sym) : assign ρ ss s x = if x ∈ ss then s.getD (ss.idxOf x) 0 else ρ x := by
  induction ss generalizing ρ s with
  | nil => simp [assign]
  | cons t ss ih =>
    cases s with
    | nil => simp at hl
    | cons k s =>
      rw [List.nodup_cons] at hn
      rw [assign, ih _ hn.2 _ (by simpa using hl)]
      by_cases hx : x ∈ ss
      · have hxt : t ≠ x := by rintro rfl; exact hn.1 hx
        simp [hx, List.idxOf_cons_ne _ hxt]
      · by_cases hxt : x = t
        · subst hxt; simp [hx]
        · simp [hx, hxt, Function.update_of_ne hxt]

theorem values_assign {n : Nat} {ρ : Sym → Nat} (hρ : Values n ρ) (ss : List Sym) (s : List Nat)
    (hs : ∀ x ∈ s, x < n) : Values n (assign ρ ss s) := by
  induction ss generalizing ρ s with
  | nil => exact hρ
  | cons t ss ih =>
    cases s with
    | nil => exact hρ
    | cons k s =>
      exact ih (values_update hρ t (hs k (by simp))) s fun x hx => hs x (by simp [hx])

theorem idxOf_mem_map {labels ss : List Sym} (hs : ∀ s ∈ ss, s ∈ labels) {x : Sym} (hx : x ∈ labels) :
    labels.idxOf x ∈ ss.map labels.idxOf ↔ x ∈ ss := by
  rw [List.mem_map]
  constructor
  · rintro ⟨y, hy, h⟩
    rw [List.idxOf_inj (hs y hy)] at h
    rwa [← h]
  · exact fun h => ⟨x, h, rfl⟩

theorem idxOf_map_idxOf {labels ss : List Sym} (hs : ∀ s ∈ ss, s ∈ labels) {x : Sym} (hx : x ∈ labels) :
    (ss.map labels.idxOf).idxOf (labels.idxOf x) = ss.idxOf x := by
  induction ss with
  | nil => rfl
  | cons t ss ih =>
    have ht : t ∈ labels := hs t (by simp)
    rw [List.map_cons]
    by_cases htx : t = x
    · subst htx; simp
    · rw [List.idxOf_cons_ne _ htx, List.idxOf_cons_ne, ih fun s h => hs s (by simp [h])]
      rwa [Ne, List.idxOf_inj ht]

theorem mem_zipIdx_idxOf {labels : List Sym} (hn : labels.Nodup) {p : Sym × Nat} (hp : p ∈ labels.zipIdx) :
    p.1 ∈ labels ∧ p.2 = labels.idxOf p.1 := by
  obtain ⟨x, i⟩ := p
  rw [List.mk_mem_zipIdx_iff_getElem?] at hp
  have hm := List.mem_of_getElem? hp
  refine ⟨hm, ?_⟩
  have hi : i < labels.length := by
    by_contra hc
    rw [List.getElem?_eq_none (by omega)] at hp; cases hp
  rw [List.getElem?_eq_getElem hi, Option.some.injEq] at hp
  subst hp
  exact (hn.idxOf_getElem i hi).symm

theorem dropAxes_labels {α : Type} {labels ss : List Sym} (hn : labels.Nodup) (hs : ∀ s ∈ ss, s ∈ labels)
    (f : Sym → α) :
    dropAxes (ss.map labels.idxOf) (labels.map f) = (labels.filter fun s => decide (s ∉ ss)).map f := by
  unfold dropAxes
  rw [List.zipIdx_map, List.filter_map, List.map_map]
  have h1 : (labels.zipIdx.filter ((fun p : α × Nat => decide (p.2 ∉ ss.map labels.idxOf)) ∘ Prod.map f id)) =
      labels.zipIdx.filter ((fun s => decide (s ∉ ss)) ∘ Prod.fst) := by
    apply List.filter_congr
    intro p hp
    obtain ⟨h1, h2⟩ := mem_zipIdx_idxOf hn hp
    simp only [Function.comp_apply, Prod.map_snd, id_eq, decide_eq_decide, h2, idxOf_mem_map hs h1]
  rw [h1]
  conv_rhs => rw [← List.zipIdx_map_fst 0 labels]
  rw [List.filter_map, List.map_map]
  rfl

theorem withAxes_labels {labels ss : List Sym} (hn : labels.Nodup) (hs : ∀ s ∈ ss, s ∈ labels)
    (hss : ss.Nodup) (ρ : Sym → Nat) (s : List Nat) (hl : s.length = ss.length) :
    withAxes (labels.map ρ) (ss.map labels.idxOf) s = labels.map (assign ρ ss s) := by
  unfold withAxes
  rw [List.zipIdx_map, List.map_map]
  conv_rhs => rw [← List.zipIdx_map_fst 0 labels, List.map_map]
  apply List.map_congr_left
  intro p hp
  obtain ⟨h1, h2⟩ := mem_zipIdx_idxOf hn hp
  simp only [Function.comp_apply, Prod.map_snd, id_eq, Prod.map_fst, h2, idxOf_mem_map hs h1,
    idxOf_map_idxOf hs h1, assign_apply ρ ss hss s hl]

section
variable {G : Ground K}

/-- Turning over both ends of a contraction. -/
theorem flip_delta (hi : Inverse G.n G.g G.gi) (hsym : ∀ i j, i < G.n → j < G.n → G.g i j = G.g j i) {p a : Int}
    (hp : p = 1 ∨ p = -1) (ha : a = 1 ∨ a = -1) {l m : Nat} (hl : l < G.n) (hm : m < G.n) :
    ∑ k ∈ range G.n, indexFactor G.g G.gi p a k l * indexFactor G.g G.gi (-p) (-a) k m = delta l m := by
  by_cases hpa : p = a
  · subst hpa
    simp only [indexFactor_self]
    rw [Finset.sum_eq_single_of_mem l (by simpa using hl)]
    · simp [delta]
    · intro k _ hk; simp [delta, hk]
  · have hs := inverse_symm hi hsym
    rcases hp with rfl | rfl <;> rcases ha with rfl | rfl <;> first | exact absurd rfl hpa | skip
    · have := (hi l m hl hm).1
      rw [← this, matMul]
      refine Finset.sum_congr rfl fun k hk => ?_
      rw [hsym l k hl (by simpa using hk)]
      simp [indexFactor]
    · have := (hi l m hl hm).2
      rw [← this, matMul]
      refine Finset.sum_congr rfl fun k hk => ?_
      rw [hs l k hl (by simpa using hk)]
      simp [indexFactor]

theorem turned_update_mem {ss : List Sym} {s : Sym} (hs : s ∈ ss) (pos : Sym → Int) (a : Int) :
    turned ss (Function.update pos s a) = Function.update (turned ss pos) s (-a) := by
  funext t
  by_cases ht : t = s
  · subst ht; simp [turned, hs]
  · simp [turned, Function.update_of_ne ht]

theorem positions_turned {pos : Sym → Int} (h : Positions pos) (ss : List Sym) : Positions (turned ss pos) := by
  intro s
  unfold turned
  split_ifs
  · rcases h s with h | h <;> simp [h]
  · exact h s

theorem contracted_update (hi : Inverse G.n G.g G.gi) (hsym : ∀ i j, i < G.n → j < G.n → G.g i j = G.g j i)
    {ss lA lB : List Sym} (hA : ∀ s ∈ ss, s ∈ lA) (hB : ∀ s ∈ ss, s ∈ lB)
    {A B : (Sym → Int) → (Sym → Nat) → K} (hLA : Lawful G lA A) (hLB : Lawful G lB B) {s : Sym} (hs : s ∈ ss)
    {pos : Sym → Int} (hp : Positions pos) {a : Int} (ha : a = 1 ∨ a = -1) {ρ : Sym → Nat} (hρ : Values G.n ρ) :
    contracted G ss A B (Function.update pos s a) ρ = contracted G ss A B pos ρ := by
  unfold contracted
  have hperm : ss.Perm (ss.erase s ++ [s]) :=
    (List.perm_cons_erase hs).trans (List.perm_append_singleton s _).symm
  rw [sumOver_perm hperm, sumOver_perm hperm, sumOver_append, sumOver_append]
  refine sumOver_congr hρ fun ρ' hρ' _ => ?_
  simp only [sumOver]
  have hpt := positions_turned hp ss
  have hna : -a = 1 ∨ -a = -1 := by rcases ha with rfl | rfl <;> simp
  have e1 : ∀ k, k < G.n → A (Function.update pos s a) (Function.update ρ' s k) =
      ∑ l ∈ range G.n, indexFactor G.g G.gi (pos s) a k l * A pos (Function.update ρ' s l) := by
    intro k hk
    rw [hLA s (hA s hs) pos _ a hp (values_update hρ' s hk) ha]
    simp
  have e2 : ∀ k, k < G.n → B (turned ss (Function.update pos s a)) (Function.update ρ' s k) =
      ∑ m ∈ range G.n, indexFactor G.g G.gi (-pos s) (-a) k m * B (turned ss pos) (Function.update ρ' s m) := by
    intro k hk
    rw [turned_update_mem hs, hLB s (hB s hs) _ _ (-a) hpt (values_update hρ' s hk) hna]
    simp [turned, hs]
  calc ∑ k ∈ range G.n, A (Function.update pos s a) (Function.update ρ' s k) *
        B (turned ss (Function.update pos s a)) (Function.update ρ' s k)
      = ∑ k ∈ range G.n, ∑ l ∈ range G.n, ∑ m ∈ range G.n,
          (indexFactor G.g G.gi (pos s) a k l * indexFactor G.g G.gi (-pos s) (-a) k m) *
            (A pos (Function.update ρ' s l) * B (turned ss pos) (Function.update ρ' s m)) := by
        refine Finset.sum_congr rfl fun k hk => ?_
        rw [e1 k (by simpa using hk), e2 k (by simpa using hk), Finset.sum_mul_sum]
        exact Finset.sum_congr rfl fun l _ => Finset.sum_congr rfl fun m _ => by ring
    _ = ∑ l ∈ range G.n, ∑ m ∈ range G.n, (∑ k ∈ range G.n,
          indexFactor G.g G.gi (pos s) a k l * indexFactor G.g G.gi (-pos s) (-a) k m) *
            (A pos (Function.update ρ' s l) * B (turned ss pos) (Function.update ρ' s m)) := by
        rw [Finset.sum_comm]
        refine Finset.sum_congr rfl fun l _ => ?_
        rw [Finset.sum_comm]
        refine Finset.sum_congr rfl fun m _ => ?_
        rw [Finset.sum_mul]
    _ = ∑ l ∈ range G.n, A pos (Function.update ρ' s l) * B (turned ss pos) (Function.update ρ' s l) := by
        refine Finset.sum_congr rfl fun l hl => ?_
        rw [Finset.sum_eq_single_of_mem l hl]
        · rw [flip_delta hi hsym (hp s) ha (by simpa using hl) (by simpa using hl)]; simp [delta]
        · intro m hm hml
          rw [flip_delta hi hsym (hp s) ha (by simpa using hl) (by simpa using hm)]
          simp [delta, Ne.symm hml]

/-- A contraction does not depend on which end is up. -/
theorem contracted_congr (hi : Inverse G.n G.g G.gi) (hsym : ∀ i j, i < G.n → j < G.n → G.g i j = G.g j i)
    {ss lA lB : List Sym} (hA : ∀ s ∈ ss, s ∈ lA) (hB : ∀ s ∈ ss, s ∈ lB)
    {A B : (Sym → Int) → (Sym → Nat) → K} (hLA : Lawful G lA A) (hLB : Lawful G lB B)
    (hOA : OnlyOn lA A) (hOB : OnlyOn lB B)
    {pos pos' : Sym → Int} (hp : Positions pos) (hp' : Positions pos')
    (heq : ∀ s, s ∈ lA ∨ s ∈ lB → s ∉ ss → pos s = pos' s) {ρ : Sym → Nat} (hρ : Values G.n ρ) :
    contracted G ss A B pos ρ = contracted G ss A B pos' ρ := by
  have key : ∀ l : List Sym, (∀ s ∈ l, s ∈ ss) → ∀ pos, Positions pos →
      (∀ s, s ∈ lA ∨ s ∈ lB → s ∉ l → pos s = pos' s) → contracted G ss A B pos ρ = contracted G ss A B pos' ρ := by
    intro l
    induction l with
    | nil =>
      intro _ pos hp h
      refine sumOver_congr hρ fun ρ' _ _ => ?_
      rw [hOA pos pos' ρ' ρ' fun s hs => ⟨h s (Or.inl hs) (by simp), rfl⟩,
        hOB (turned ss pos) (turned ss pos') ρ' ρ' fun s hs => ⟨by simp [turned, h s (Or.inr hs) (by simp)], rfl⟩]
    | cons s l ih =>
      intro hl pos hp h
      rw [← contracted_update hi hsym hA hB hLA hLB (hl s (by simp)) hp (hp' s) hρ]
      refine ih (fun t ht => hl t (by simp [ht])) _ (positions_update hp s (hp' s)) fun t ht htl => ?_
      by_cases hts : t = s
      · subst hts; simp
      · rw [Function.update_of_ne hts]; exact h t ht (by simp [hts, htl])
  exact key ss (fun _ h => h) pos hp heq

theorem turned_update_notMem {ss : List Sym} {s : Sym} (hs : s ∉ ss) (pos : Sym → Int) (a : Int) :
    turned ss (Function.update pos s a) = Function.update (turned ss pos) s a := by
  funext t
  by_cases ht : t = s
  · subst ht; simp [turned, hs]
  · simp [turned, Function.update_of_ne ht]

theorem lawful_contracted {ss lA lB l : List Sym} {A B : (Sym → Int) → (Sym → Nat) → K} (hLA : Lawful G lA A)
    (hLB : Lawful G lB B) (hOA : OnlyOn lA A) (hOB : OnlyOn lB B)
    (hl : ∀ s ∈ l, s ∉ ss ∧ ((s ∈ lA ∧ s ∉ lB) ∨ (s ∈ lB ∧ s ∉ lA))) :
    Lawful G l (contracted G ss A B) := by
  intro s hs pos ρ a hp hρ ha
  obtain ⟨h1, h2⟩ := hl s hs
  have hne : ∀ t ∈ lA, s ∉ lA → t ≠ s := fun t ht h e => h (e ▸ ht)
  have hne' : ∀ t ∈ lB, s ∉ lB → t ≠ s := fun t ht h e => h (e ▸ ht)
  simp only [contracted, turned_update_notMem h1, sumOver_update ss _ _ h1, ← sumOver_mul]
  rw [← sumOver_sum]
  refine sumOver_congr hρ fun ρ' hρ' hout => ?_
  have hs' : ρ' s = ρ s := hout s h1
  rcases h2 with ⟨h2, h3⟩ | ⟨h2, h3⟩
  · rw [hLA s h2 pos ρ' a hp hρ' ha, Finset.sum_mul, hs']
    refine Finset.sum_congr rfl fun k _ => ?_
    rw [hOB (Function.update (turned ss pos) s a) (turned ss pos) ρ' (Function.update ρ' s k) fun t ht => by
      simp [Function.update_of_ne (hne' t ht h3)]]
    ring
  · rw [hLB s h2 _ ρ' a (positions_turned hp ss) hρ' ha, Finset.mul_sum, hs']
    refine Finset.sum_congr rfl fun k _ => ?_
    rw [hOA (Function.update pos s a) pos ρ' (Function.update ρ' s k) fun t ht => by
      simp [Function.update_of_ne (hne t ht h3)]]
    simp only [turned, if_neg h1]
    ring

theorem onlyOn_contracted {ss lA lB l : List Sym} {A B : (Sym → Int) → (Sym → Nat) → K}
    (hi : Inverse G.n G.g G.gi) (hsym : ∀ i j, i < G.n → j < G.n → G.g i j = G.g j i)
    (hA : ∀ s ∈ ss, s ∈ lA) (hB : ∀ s ∈ ss, s ∈ lB) (hLA : Lawful G lA A)
    (hLB : Lawful G lB B) (hOA : OnlyOn lA A) (hOB : OnlyOn lB B)
    (hl : ∀ s, s ∈ lA ∨ s ∈ lB → s ∉ ss → s ∈ l) {pos pos' : Sym → Int} (hp : Positions pos) (hp' : Positions pos')
    {ρ ρ' : Sym → Nat} (hρ : Values G.n ρ) (hρ' : Values G.n ρ') (h : ∀ s ∈ l, pos s = pos' s ∧ ρ s = ρ' s) :
    contracted G ss A B pos ρ = contracted G ss A B pos' ρ' := by
  rw [contracted_congr hi hsym hA hB hLA hLB hOA hOB hp hp' (fun s hs hss => (h s (hl s hs hss)).1) hρ]
  unfold contracted
  rw [sumOver_env (n := G.n) ss _ (ρ := ρ) (ρ' := fun s => if s ∈ ss then ρ' s else ρ s)]
  · rw [← sumOver_tuples, ← sumOver_tuples]
    congr 1
    apply List.map_congr_left
    intro s _
    have key : ∀ x, x ∈ lA ∨ x ∈ lB → assign (fun s => if s ∈ ss then ρ' s else ρ s) ss s x = assign ρ' ss s x := by
      intro x hx
      have : ∀ (ss0 : List Sym) (s : List Nat) (σ σ' : Sym → Nat), σ x = σ' x → assign σ ss0 s x = assign σ' ss0 s x := by
        intro ss0
        induction ss0 with
        | nil => intro s σ σ' h; exact h
        | cons t ss0 ih =>
          intro s σ σ' h
          cases s with
          | nil => exact h
          | cons k s =>
            refine ih s _ _ ?_
            by_cases hxt : x = t
            · subst hxt; simp
            · simp [Function.update_of_ne hxt, h]
      apply this
      split_ifs with hxs
      · rfl
      · exact (h x (hl x hx hxs)).2
    rw [hOA pos' pos' _ (assign ρ' ss s) fun x hx => ⟨rfl, key x (Or.inl hx)⟩,
      hOB (turned ss pos') (turned ss pos') _ (assign ρ' ss s) fun x hx => ⟨rfl, key x (Or.inr hx)⟩]
  · intro s hs; simp [hs]

end
end PyOGRe
