import Verif.Lemmas.Spares

/-! Helper lemmas: loops that delete while they iterate. -/

namespace PyOGRe
open Spec
variable {K : Type} {w w' : World K}

/-- What one loop leaves of a list: after each deleted entry, the next one is skipped. -/
def skipping {α : Type} (p : α → Bool) : List α → List α
  | [] => []
  | [x] => if p x then [] else [x]
  | x :: y :: l => if p x then y :: skipping p l else x :: skipping p (y :: l)

section
variable {α : Type} {p : α → Bool}

theorem skipping_neg {x : α} (h : p x = false) (l : List α) : skipping p (x :: l) = x :: skipping p l := by
  cases l with
  | nil => simp [skipping, h]
  | cons y l => simp [skipping, h]

theorem skipping_pos {x : α} (h : p x = true) (y : α) (l : List α) : skipping p (x :: y :: l) = y :: skipping p l := by
  simp [skipping, h]

theorem skipping_one {x : α} (h : p x = true) : skipping p [x] = [] := by simp [skipping, h]

/-- Induction along the loop. -/
theorem skipping_induction {P : List α → Prop} (nil : P []) (neg : ∀ x l, p x = false → P l → P (x :: l))
    (one : ∀ x, p x = true → P [x]) (pos : ∀ x y l, p x = true → P l → P (x :: y :: l)) (l : List α) : P l := by
  induction hn : l.length using Nat.strong_induction_on generalizing l with
  | _ n ih =>
    match l, hn with
    | [], _ => exact nil
    | x :: l, hn =>
      cases hx : p x with
      | false => exact neg x l hx (ih l.length (by simp at hn; omega) l rfl)
      | true =>
        match l, hn with
        | [], _ => exact one x hx
        | y :: l, hn => exact pos x y l hx (ih l.length (by simp at hn; omega) l rfl)

theorem skipping_sublist (l : List α) : (skipping p l).Sublist l := by
  induction l using skipping_induction (p := p) with
  | nil => exact List.Sublist.refl _
  | neg x l h ih => rw [skipping_neg h]; exact ih.cons_cons x
  | one x h => rw [skipping_one h]; exact List.nil_sublist _
  | pos x y l h ih => rw [skipping_pos h]; exact (ih.cons_cons y).cons x

theorem mem_skipping {x : α} (hx : p x = false) (l : List α) : x ∈ skipping p l ↔ x ∈ l := by
  refine ⟨fun h => (skipping_sublist l).subset h, ?_⟩
  induction l using skipping_induction (p := p) with
  | nil => exact id
  | neg y l h ih =>
    rw [skipping_neg h, List.mem_cons, List.mem_cons]
    exact Or.imp_right ih
  | one y h =>
    intro h'
    rw [List.mem_singleton.1 h', h] at hx
    cases hx
  | pos y z l h ih =>
    rw [skipping_pos h, List.mem_cons, List.mem_cons, List.mem_cons]
    rintro (rfl | rfl | h')
    · rw [h] at hx; cases hx
    · exact Or.inl rfl
    · exact Or.inr (ih h')

/-- Fewer than `k` adjacent entries satisfy `p`. -/
def RunsBelow (p : α → Bool) (k : Nat) (l : List α) : Prop :=
  ∀ a b c, l = a ++ b ++ c → (∀ x ∈ b, p x = true) → b.length < k

theorem skipping_prefix (l : List α) : ∀ b c, skipping p l = b ++ c → (∀ x ∈ b, p x = true) →
    ∃ b' c', l = b' ++ c' ∧ (∀ x ∈ b', p x = true) ∧ b'.length = 2 * b.length := by
  induction l using skipping_induction (p := p) with
  | nil =>
    intro b c h hb
    have : b = [] := (List.append_eq_nil_iff.1 h.symm).1
    subst this
    exact ⟨[], [], rfl, by simp, rfl⟩
  | neg x l h ih =>
    intro b c hs hb
    rw [skipping_neg h] at hs
    cases b with
    | nil => exact ⟨[], x :: l, rfl, by simp, rfl⟩
    | cons y b =>
      rw [List.cons_append] at hs
      injection hs with h1 h2
      have := hb y (by simp)
      rw [← h1, h] at this
      cases this
  | one x h =>
    intro b c hs hb
    rw [skipping_one h] at hs
    have : b = [] := (List.append_eq_nil_iff.1 hs.symm).1
    subst this
    exact ⟨[], [x], rfl, by simp, rfl⟩
  | pos x y l h ih =>
    intro b c hs hb
    rw [skipping_pos h] at hs
    cases b with
    | nil => exact ⟨[], x :: y :: l, rfl, by simp, rfl⟩
    | cons z b =>
      rw [List.cons_append] at hs
      injection hs with h1 h2
      obtain ⟨b', c', e1, e2, e3⟩ := ih b c h2 fun x hx => hb x (by simp [hx])
      refine ⟨x :: y :: b', c', by rw [e1]; rfl, ?_, by simp [e3]; omega⟩
      intro u hu
      rcases List.mem_cons.1 hu with rfl | hu
      · exact h
      · rcases List.mem_cons.1 hu with rfl | hu
        · rw [h1]; exact hb z (by simp)
        · exact e2 u hu

theorem skipping_runs {k : Nat} (l : List α) (h : RunsBelow p (2 * k) l) : RunsBelow p k (skipping p l) := by
  have key : ∀ l : List α, ∀ a b c, skipping p l = a ++ b ++ c → (∀ x ∈ b, p x = true) →
      ∃ a' b' c', l = a' ++ b' ++ c' ∧ (∀ x ∈ b', p x = true) ∧ b'.length = 2 * b.length := by
    intro l
    induction l using skipping_induction (p := p) with
    | nil =>
      intro a b c hs hb
      rw [show skipping p [] = [] from rfl, List.append_assoc] at hs
      have : b = [] := (List.append_eq_nil_iff.1 (List.append_eq_nil_iff.1 hs.symm).2).1
      subst this
      exact ⟨[], [], [], rfl, by simp, rfl⟩
    | neg x l hx ih =>
      intro a b c hs hb
      cases a with
      | nil =>
        obtain ⟨b', c', e1, e2, e3⟩ := skipping_prefix _ b c (by simpa using hs) hb
        exact ⟨[], b', c', by simpa using e1, e2, e3⟩
      | cons y a =>
        rw [skipping_neg hx, List.cons_append, List.cons_append] at hs
        injection hs with h1 h2
        obtain ⟨a', b', c', e1, e2, e3⟩ := ih a b c h2 hb
        exact ⟨x :: a', b', c', by rw [e1]; rfl, e2, e3⟩
    | one x hx =>
      intro a b c hs hb
      rw [skipping_one hx, List.append_assoc] at hs
      have : b = [] := (List.append_eq_nil_iff.1 (List.append_eq_nil_iff.1 hs.symm).2).1
      subst this
      exact ⟨[], [], [x], rfl, by simp, rfl⟩
    | pos x y l hx ih =>
      intro a b c hs hb
      cases a with
      | nil =>
        obtain ⟨b', c', e1, e2, e3⟩ := skipping_prefix _ b c (by simpa using hs) hb
        exact ⟨[], b', c', by simpa using e1, e2, e3⟩
      | cons z a =>
        rw [skipping_pos hx, List.cons_append, List.cons_append] at hs
        injection hs with h1 h2
        obtain ⟨a', b', c', e1, e2, e3⟩ := ih a b c h2 hb
        exact ⟨x :: y :: a', b', c', by rw [e1]; rfl, e2, e3⟩
  intro a b c hs hb
  obtain ⟨a', b', c', e1, e2, e3⟩ := key l a b c hs hb
  have := h a' b' c' e1 e2
  omega

theorem runsBelow_one {l : List α} (h : RunsBelow p 1 l) : ∀ x ∈ l, p x = false := by
  intro x hx
  obtain ⟨a, c, rfl⟩ := List.append_of_mem hx
  by_contra hp
  have := h a [x] c (by simp) (by simpa using hp)
  simp at this

/-- A run of entries that are selected, after entries that are not. -/
theorem skipping_count (pre l : List α) (r : α) (hpre : ∀ x ∈ pre, p x = false) (hl : ∀ x ∈ l, p x = true)
    (hr : p r = false) : ∃ l', skipping p (pre ++ l ++ [r]) = pre ++ l' ++ [r] ∧ l'.Sublist l ∧
      l'.length = l.length / 2 := by
  induction pre with
  | cons x pre ih =>
    obtain ⟨l', h1, h2, h3⟩ := ih fun y hy => hpre y (by simp [hy])
    refine ⟨l', ?_, h2, h3⟩
    rw [List.cons_append, List.cons_append, skipping_neg (hpre x (by simp)), h1]
    rfl
  | nil =>
    simp only [List.nil_append]
    induction hn : l.length using Nat.strong_induction_on generalizing l with
    | _ n ih =>
      match l, hn with
      | [], hn => exact ⟨[], by simp [skipping, hr], List.Sublist.refl _, by simp at hn; simp [← hn]⟩
      | [x], hn =>
        refine ⟨[], ?_, List.nil_sublist _, by simp at hn; simp [← hn]⟩
        show skipping p (x :: r :: []) = _
        rw [skipping_pos (hl x (by simp))]
        rfl
      | x :: y :: l, hn =>
        obtain ⟨l', h1, h2, h3⟩ := ih l.length (by simp at hn; omega) l (fun z hz => hl z (by simp [hz])) rfl
        refine ⟨y :: l', ?_, (h2.cons_cons y).cons x, ?_⟩
        · show skipping p (x :: y :: (l ++ [r])) = _
          rw [skipping_pos (hl x (by simp)), h1]
          rfl
        · simp at hn ⊢
          omega

/-- The first selected entry goes. -/
theorem skipping_first (pre l : List α) (x : α) (hpre : ∀ y ∈ pre, p y = false) (hx : p x = true)
    (hn : (pre ++ x :: l).Nodup) : x ∉ skipping p (pre ++ x :: l) := by
  induction pre with
  | cons y pre ih =>
    rw [List.cons_append, List.nodup_cons] at hn
    rw [List.cons_append, skipping_neg (hpre y (by simp)), List.mem_cons, not_or]
    refine ⟨?_, ih (fun z hz => hpre z (by simp [hz])) hn.2⟩
    rintro rfl
    exact hn.1 (by simp)
  | nil =>
    rw [List.nil_append, List.nodup_cons] at hn
    cases l with
    | nil => simp [skipping_one hx]
    | cons y l =>
      rw [List.nil_append, skipping_pos hx]
      intro h
      rcases List.mem_cons.1 h with rfl | h
      · exact hn.1 (by simp)
      · exact hn.1 (by simp [(skipping_sublist l).subset h])

end

/-- The entries that a loop looks for. -/
def selected (sel : Obj K → Bool) (w : World K) (i : Id') : Bool := (w.objs[i]?).any sel

/-- The state after deleting an object. -/
def removed (t : Id') (w : World K) : World K :=
  { objs := w.objs.modify t (fun o => { o with alive := false }), instances := w.instances.erase t }

theorem removed_ne {t i : Id'} (h : i ≠ t) : (removed t w).objs[i]? = w.objs[i]? := modify_ne (fun hc => h hc.symm) _

/-- A loop deletes the entries with `p` that it visits, and no others. -/
structure Deletes (sel : Obj K → Bool) (del : Id' → PyM K Unit) (p : Id' → Bool) (Inv : World K → Prop) : Prop where
  sound : ∀ w, Inv w → Sound w
  yes : ∀ w, Inv w → ∀ t ∈ w.instances, p t = true → ∀ o, w.objs[t]? = some o →
    sel o = true ∧ del t w = (.ok (), removed t w) ∧ Inv (removed t w)
  no : ∀ w, Inv w → ∀ t ∈ w.instances, p t = false → ∀ o, w.objs[t]? = some o → sel o = true → del t w = (.ok (), w)

/-- The state after a loop. -/
structure Swept (p : Id' → Bool) (w w' : World K) : Prop where
  instances : w'.instances = skipping p w.instances
  kept : ∀ i, (i ∈ w'.instances ∨ i ∉ w.instances) → w'.objs[i]? = w.objs[i]?
  gone : ∀ i ∈ w.instances, i ∉ w'.instances → ∀ o, w.objs[i]? = some o →
    w'.objs[i]? = some { o with alive := false }

theorem sweepFrom {sel : Obj K → Bool} {del : Id' → PyM K Unit} {p : Id' → Bool} {Inv : World K → Prop}
    (hd : Deletes sel del p Inv) (fuel : Nat) :
    ∀ (w : World K) (pre rest : List Id'), Inv w → w.instances = pre ++ rest → rest.length ≤ fuel →
      ∃ w', deleteFrom sel del fuel pre.length w = (.ok (), w') ∧ Inv w' ∧ w'.instances = pre ++ skipping p rest ∧
        (∀ i, (i ∈ w'.instances ∨ i ∉ w.instances) → w'.objs[i]? = w.objs[i]?) ∧
        ∀ i ∈ w.instances, i ∉ w'.instances → ∀ o, w.objs[i]? = some o → w'.objs[i]? = some { o with alive := false } := by
  induction fuel with
  | zero =>
    intro w pre rest hs hi hf
    have : rest = [] := List.length_eq_zero_iff.1 (by omega)
    subst this
    exact ⟨w, rfl, hs, hi, fun _ _ => rfl, fun i h1 h2 => absurd h1 h2⟩
  | succ fuel ih =>
    intro w pre rest hI hi hf
    cases rest with
    | nil =>
      refine ⟨w, ?_, hI, hi, fun _ _ => rfl, fun i h1 h2 => absurd h1 h2⟩
      unfold deleteFrom
      rw [PyM.bind_apply, PyM.world_apply]
      dsimp only
      rw [List.getElem?_eq_none (by rw [hi]; simp)]
      rfl
    | cons t rest =>
      have hs := hd.sound w hI
      have ht : t ∈ w.instances := by rw [hi]; simp
      obtain ⟨o, ho, ha⟩ := hs.inUse t ht
      have hget : w.instances[pre.length]? = some t := by rw [hi]; simp
      have hnd := hs.nodup
      rw [hi] at hnd
      have hrun : ∀ w2, PyM.onlyIf (sel o) (del t) w = (.ok (), w2) →
          deleteFrom sel del (fuel + 1) pre.length w = deleteFrom sel del fuel (pre.length + 1) w2 := by
        intro w2 h2
        conv_lhs => unfold deleteFrom
        rw [PyM.bind_apply, PyM.world_apply]
        dsimp only
        rw [hget]
        dsimp only
        rw [PyM.bind_apply, getObj_ok ho ha]
        dsimp only
        rw [PyM.bind_apply, h2]
      cases hp : p t with
      | false =>
        have hno : PyM.onlyIf (sel o) (del t) w = (.ok (), w) := by
          unfold PyM.onlyIf
          split_ifs with hso
          · exact hd.no w hI t ht hp o ho hso
          · rfl
        rw [hrun w hno]
        obtain ⟨w', h1, h2, h3, h4, h5⟩ := ih w (pre ++ [t]) rest hI (by rw [hi]; simp) (by simp at hf; omega)
        rw [List.length_append] at h1
        refine ⟨w', h1, h2, ?_, h4, h5⟩
        rw [h3, skipping_neg hp]
        simp
      | true =>
        obtain ⟨hso, hdt, hI1⟩ := hd.yes w hI t ht hp o ho
        rw [hrun (removed t w) (by unfold PyM.onlyIf; rw [if_pos hso, hdt])]
        have htp : t ∉ pre := fun h => (List.disjoint_of_nodup_append hnd) h (by simp)
        have htr : t ∉ rest := by
          have := (List.nodup_append.1 hnd).2.1
          exact (List.nodup_cons.1 this).1
        have hi1 : (removed t w).instances = pre ++ rest := by
          show w.instances.erase t = _
          rw [hi, List.erase_append_right _ htp, List.erase_cons_head]
        have finish : ∀ w' : World K, (∀ i ∈ w'.instances, i ∈ (removed t w).instances) →
            (∀ i, (i ∈ w'.instances ∨ i ∉ (removed t w).instances) → w'.objs[i]? = (removed t w).objs[i]?) →
            (∀ i ∈ (removed t w).instances, i ∉ w'.instances → ∀ o, (removed t w).objs[i]? = some o →
              w'.objs[i]? = some { o with alive := false }) →
            (∀ i, (i ∈ w'.instances ∨ i ∉ w.instances) → w'.objs[i]? = w.objs[i]?) ∧
            ∀ i ∈ w.instances, i ∉ w'.instances → ∀ o, w.objs[i]? = some o →
              w'.objs[i]? = some { o with alive := false } := by
          intro w' h2 h3 h4
          have hmem : ∀ i, i ∈ (removed t w).instances ↔ i ≠ t ∧ i ∈ w.instances := fun i =>
            List.Nodup.mem_erase_iff hs.nodup
          constructor
          · rintro i (hi' | hi')
            · rw [h3 i (Or.inl hi'), removed_ne ((hmem i).1 (h2 i hi')).1]
            · rw [h3 i (Or.inr fun h => hi' ((hmem i).1 h).2), removed_ne (by rintro rfl; exact hi' ht)]
          · intro i hi' hn oi hoi
            by_cases hit : i = t
            · subst hit
              rw [h3 i (Or.inr fun h => ((hmem i).1 h).1 rfl)]
              exact modify_same hoi _
            · exact h4 i ((hmem i).2 ⟨hit, hi'⟩) hn oi (by rw [removed_ne hit]; exact hoi)
        cases rest with
        | nil =>
          refine ⟨removed t w, ?_, hI1, ?_, ?_⟩
          · cases fuel with
            | zero => rfl
            | succ fuel =>
              unfold deleteFrom
              rw [PyM.bind_apply, PyM.world_apply]
              dsimp only
              rw [List.getElem?_eq_none (by rw [hi1]; simp)]
              rfl
          · rw [hi1, skipping_one hp]
          · exact finish _ (fun i h => h) (fun _ _ => rfl) fun i h1 h2 => absurd h1 h2
        | cons y rest =>
          obtain ⟨w', h1, h2, h3, h4, h5⟩ := ih (removed t w) (pre ++ [y]) rest hI1 (by rw [hi1]; simp)
            (by simp at hf; omega)
          rw [List.length_append] at h1
          refine ⟨w', h1, h2, ?_, finish w' (fun i h => ?_) h4 h5⟩
          · rw [h3, skipping_pos hp]
            simp
          · rw [h3] at h
            rw [hi1]
            rcases List.mem_append.1 h with h | h
            · rcases List.mem_append.1 h with h | h
              · simp [h]
              · rw [List.mem_singleton] at h; simp [h]
            · simp [(skipping_sublist rest).subset h]

/-- One loop. -/
theorem sweep {sel : Obj K → Bool} {del : Id' → PyM K Unit} {p : Id' → Bool} {Inv : World K → Prop}
    (hd : Deletes sel del p Inv) (hI : Inv w) :
    ∃ w', deletePass sel del w = (.ok (), w') ∧ Inv w' ∧ Swept p w w' := by
  obtain ⟨w', h1, h2, h3, h4, h5⟩ := sweepFrom hd w.instances.length w [] w.instances hI rfl le_rfl
  exact ⟨w', h1, h2, by simpa using h3, h4, h5⟩

theorem delete_unused (w : World K) (t : Id') (hs : Sound w) (ht : t ∈ w.instances) (hu : ¬ Used w t) :
    deleteObj t w = (.ok (), removed t w) := by
  rcases deleteObj_cases hs ht with ⟨h, -⟩ | ⟨-, h⟩
  · exact absurd h hu
  · exact h

theorem tryDelete_unused (w : World K) (t : Id') (hs : Sound w) (ht : t ∈ w.instances) (hu : ¬ Used w t) :
    tryDelete t w = (.ok (), removed t w) := by
  unfold tryDelete
  rw [delete_unused w t hs ht hu]

theorem tryDelete_used (w : World K) (t : Id') (hs : Sound w) (ht : t ∈ w.instances) (hu : Used w t) :
    tryDelete t w = (.ok (), w) := by
  unfold tryDelete
  rcases deleteObj_cases hs ht with ⟨-, h⟩ | ⟨h, -⟩
  · rw [h]
  · exact absurd hu h

theorem used_removed (hs : Sound w) {t s : Id'} (h : Used (removed t w) s) : Used w s := by
  obtain ⟨i, hi, h1, o, ho, h2⟩ := h
  obtain ⟨k1, k2⟩ := (List.Nodup.mem_erase_iff hs.nodup).1 hi
  rw [removed_ne k1] at ho
  exact ⟨i, k2, h1, o, ho, h2⟩

/-- Objects that are looked for are either used by no other object, or by one that is not looked for. -/
structure Deletable (sel : Obj K → Bool) (p : Id' → Bool) (w : World K) : Prop where
  sound : Sound w
  yes : ∀ i ∈ w.instances, p i = true → selected sel w i = true ∧ ¬ Used w i
  no : ∀ i ∈ w.instances, p i = false → selected sel w i = true →
    ∃ j ∈ w.instances, j ≠ i ∧ p j = false ∧ ∃ o, w.objs[j]? = some o ∧ Refers o i

theorem apart_removed {sel : Obj K → Bool} {p : Id' → Bool} (h : Deletable sel p w) {t : Id'} (hp : p t = true) :
    Deletable sel p (removed t w) := by
  have hmem : ∀ i, i ∈ (removed t w).instances ↔ i ≠ t ∧ i ∈ w.instances := fun i =>
    List.Nodup.mem_erase_iff h.sound.nodup
  refine ⟨sound_delete h.sound t, fun i hi hpi => ?_, fun i hi hpi hsel => ?_⟩
  · obtain ⟨h1, h2⟩ := (hmem i).1 hi
    obtain ⟨h3, h4⟩ := h.yes i h2 hpi
    refine ⟨?_, fun hu => h4 (used_removed h.sound hu)⟩
    unfold selected
    rw [removed_ne h1]
    exact h3
  · obtain ⟨h1, h2⟩ := (hmem i).1 hi
    unfold selected at hsel
    rw [removed_ne h1] at hsel
    obtain ⟨j, h3, h4, h5, o, h6, h7⟩ := h.no i h2 hpi hsel
    have hjt : j ≠ t := by
      rintro rfl
      rw [hp] at h5
      cases h5
    exact ⟨j, (hmem j).2 ⟨hjt, h3⟩, h4, h5, o, by rw [removed_ne hjt]; exact h6, h7⟩

theorem deletes_try {sel : Obj K → Bool} {p : Id' → Bool} : Deletes sel tryDelete p (Deletable sel p) where
  sound w h := h.sound
  yes w h t ht hp o ho := by
    obtain ⟨h1, h2⟩ := h.yes t ht hp
    refine ⟨?_, tryDelete_unused w t h.sound ht h2, apart_removed h hp⟩
    unfold selected at h1
    rw [ho] at h1
    exact h1
  no w h t ht hp o ho hsel := by
    obtain ⟨j, h1, h2, -, o', h4, h5⟩ := h.no t ht hp (by unfold selected; rw [ho]; exact hsel)
    exact tryDelete_used w t h.sound ht ⟨j, h1, h2, o', h4, h5⟩

/-- The same when no object that is looked for is used. -/
structure Loose (sel : Obj K → Bool) (p : Id' → Bool) (w : World K) : Prop where
  sound : Sound w
  iff : ∀ i ∈ w.instances, p i = selected sel w i
  unused : ∀ i ∈ w.instances, p i = true → ¬ Used w i

theorem deletes_delete {sel : Obj K → Bool} {p : Id' → Bool} : Deletes sel deleteObj p (Loose sel p) where
  sound w h := h.sound
  yes w h t ht hp o ho := by
    refine ⟨?_, delete_unused w t h.sound ht (h.unused t ht hp), ?_⟩
    · have := (h.iff t ht).symm.trans hp
      unfold selected at this
      rw [ho] at this
      exact this
    · have hmem : ∀ i, i ∈ (removed t w).instances ↔ i ≠ t ∧ i ∈ w.instances := fun i =>
        List.Nodup.mem_erase_iff h.sound.nodup
      refine ⟨sound_delete h.sound t, fun i hi => ?_, fun i hi hpi hu => ?_⟩
      · obtain ⟨h1, h2⟩ := (hmem i).1 hi
        rw [h.iff i h2]
        unfold selected
        rw [removed_ne h1]
      · exact h.unused i ((hmem i).1 hi).2 hpi (used_removed h.sound hu)
  no w h t ht hp o ho hsel := by
    have := (h.iff t ht).symm.trans hp
    unfold selected at this
    rw [ho] at this
    exact absurd (hsel.symm.trans this) (by decide)

end PyOGRe
