import Verif.Props.Registry

/-!
# What is left of the objects after `clear_instances`: C112
-/

namespace PyOGRe
open Spec
variable {K : Type} {w w' : World K}

/-- The objects can be numbered such that each refers only to itself and to objects with smaller numbers. -/
def Spec.Layered (w : World K) : Prop :=
  ∃ rank : Id' → Nat, ∀ i ∈ w.instances, ∀ o, w.objs[i]? = some o → ∀ t, Refers o t → t = i ∨ rank t < rank i

/-- `w'` is `w` after the deletion of some objects, none of which was used when it was deleted. -/
inductive Pruned : World K → World K → Prop
  | refl (w : World K) : Pruned w w
  | step {w w' : World K} (t : Id') (ht : t ∈ w.instances) (hu : ¬ Used w t) (h : Pruned (removed t w) w') : Pruned w w'

theorem Pruned.trans {w'' : World K} (h : Pruned w w') (h' : Pruned w' w'') : Pruned w w'' := by
  induction h with
  | refl => exact h'
  | step t ht hu _ ih => exact .step t ht hu (ih h')

theorem mem_removed (hs : Sound w) {t i : Id'} : i ∈ (removed t w).instances ↔ i ≠ t ∧ i ∈ w.instances :=
  List.Nodup.mem_erase_iff hs.nodup

theorem pruned_dead (h : Pruned w w') : ∀ t, ¬ InUse w t → ¬ InUse w' t := by
  induction h with
  | refl => exact fun _ h => h
  | @step w w' s hs hu _ ih =>
    refine fun t ht => ih t ?_
    rintro ⟨o, h1, h2⟩
    by_cases hts : t = s
    · subst hts
      cases h0 : w.objs[t]? with
      | none =>
        have : (removed t w).objs[t]? = none := by
          show (w.objs.modify t _)[t]? = none
          rw [List.getElem?_eq_none_iff] at h0 ⊢
          simpa using h0
        rw [this] at h1
        cases h1
      | some o' =>
        rw [show (removed t w).objs[t]? = some _ from modify_same h0 _] at h1
        cases h1
        cases h2
    · rw [removed_ne hts] at h1
      exact ht ⟨o, h1, h2⟩

/-- What is left is registered and unchanged, the rest is deleted. -/
theorem pruned_each (hs : Sound w) (h : Pruned w w') : Sound w' ∧ (∀ i ∈ w'.instances, i ∈ w.instances) ∧
    ∀ i ∈ w.instances, (i ∈ w'.instances ∧ w'.objs[i]? = w.objs[i]?) ∨ (i ∉ w'.instances ∧ ¬ InUse w' i) := by
  induction h with
  | refl => exact ⟨hs, fun _ h => h, fun i hi => Or.inl ⟨hi, rfl⟩⟩
  | @step w w' t ht hu h ih =>
    obtain ⟨h1, h2, h3⟩ := ih (sound_delete hs t)
    refine ⟨h1, fun i hi => ((mem_removed hs).1 (h2 i hi)).2, fun i hi => ?_⟩
    by_cases hit : i = t
    · subst hit
      refine Or.inr ⟨fun hc => ((mem_removed hs).1 (h2 i hc)).1 rfl, pruned_dead h i ?_⟩
      rintro ⟨o, k1, k2⟩
      obtain ⟨o', k3, -⟩ := hs.inUse i hi
      rw [show (removed i w).objs[i]? = some _ from modify_same k3 _] at k1
      cases k1
      cases k2
    · rcases h3 i ((mem_removed hs).2 ⟨hit, hi⟩) with ⟨k1, k2⟩ | k
      · exact Or.inl ⟨k1, k2.trans (removed_ne hit)⟩
      · exact Or.inr k

/-- What is left does not refer to what has been deleted. -/
theorem pruned_closed (hs : Sound w) (h : Pruned w w') : ∀ i ∈ w'.instances, ∀ o, w.objs[i]? = some o → ∀ t, Refers o t →
    t ∈ w.instances → t ∈ w'.instances := by
  induction h with
  | refl => exact fun _ _ _ _ _ _ h => h
  | @step w w' s hs' hu h ih =>
    intro i hi o ho t ht htw
    obtain ⟨-, h2, -⟩ := pruned_each (sound_delete hs s) h
    obtain ⟨k1, k2⟩ := (mem_removed hs).1 (h2 i hi)
    refine ih (sound_delete hs s) i hi o (by rw [removed_ne k1]; exact ho) t ht ((mem_removed hs).2 ⟨?_, htw⟩)
    rintro rfl
    exact hu ⟨i, k2, k1, o, ho, ht⟩

theorem pruned_layered (hs : Sound w) (h : Pruned w w') (hl : Layered w) : Layered w' := by
  obtain ⟨rank, hr⟩ := hl
  obtain ⟨-, h2, h3⟩ := pruned_each hs h
  refine ⟨rank, fun i hi o ho t ht => ?_⟩
  rcases h3 i (h2 i hi) with ⟨-, k⟩ | ⟨k, -⟩
  · exact hr i (h2 i hi) o (by rw [← k]; exact ho) t ht
  · exact absurd hi k

/-- Among objects without circles, one is not used. -/
theorem layered_free (hl : Layered w) (hne : w.instances ≠ []) : ∃ t ∈ w.instances, ¬ Used w t := by
  obtain ⟨rank, hr⟩ := hl
  obtain ⟨t, ht, hmax⟩ : ∃ t ∈ w.instances, ∀ i ∈ w.instances, rank i ≤ rank t := by
    obtain ⟨t, h1, h2⟩ := w.instances.toFinset.exists_max_image rank (by
      obtain ⟨i, hi⟩ := List.exists_mem_of_ne_nil _ hne
      exact ⟨i, List.mem_toFinset.2 hi⟩)
    exact ⟨t, List.mem_toFinset.1 h1, fun i hi => h2 i (List.mem_toFinset.2 hi)⟩
  refine ⟨t, ht, ?_⟩
  rintro ⟨i, hi, hit, o, ho, hR⟩
  rcases hr i hi o ho t hR with h | h
  · exact hit h.symm
  · exact absurd (hmax i hi) (by omega)

/-- The loop deletes something, or everything that it has seen is used. -/
theorem loop_pruned (sel : Obj K → Bool) (fuel : Nat) : ∀ (i : Nat) (w : World K), Sound w →
    ∃ w', deleteFrom sel tryDelete fuel i w = (.ok (), w') ∧ Pruned w w' ∧ w'.instances.length ≤ w.instances.length ∧
      (w'.instances.length < w.instances.length ∨ ∀ j t o, i ≤ j → j < i + fuel → w.instances[j]? = some t →
        w.objs[t]? = some o → sel o = true → Used w t) := by
  induction fuel with
  | zero => exact fun i w hs => ⟨w, rfl, .refl w, le_rfl, Or.inr fun j _ _ h1 h2 => by omega⟩
  | succ fuel ih =>
    intro i w hs
    unfold deleteFrom
    rw [PyM.bind_apply, PyM.world_apply]
    dsimp only
    cases hi : w.instances[i]? with
    | none =>
      refine ⟨w, rfl, .refl w, le_rfl, Or.inr fun j t o h1 _ h3 => ?_⟩
      rw [List.getElem?_eq_none_iff] at hi
      rw [List.getElem?_eq_none (by omega)] at h3
      cases h3
    | some t =>
      have ht : t ∈ w.instances := List.mem_of_getElem? hi
      obtain ⟨o, ho, ha⟩ := hs.inUse t ht
      dsimp only
      rw [PyM.bind_apply, getObj_ok ho ha]
      dsimp only
      rw [PyM.bind_apply]
      by_cases hd : sel o = true ∧ ¬ Used w t
      · have h1 : PyM.onlyIf (sel o) (tryDelete t) w = (.ok (), removed t w) := by
          unfold PyM.onlyIf
          rw [if_pos hd.1, tryDelete_unused w t hs ht hd.2]
        rw [h1]
        obtain ⟨w', k1, k2, k3, -⟩ := ih (i + 1) (removed t w) (sound_delete hs t)
        have hlt : (removed t w).instances.length < w.instances.length := by
          show (w.instances.erase t).length < _
          rw [List.length_erase_of_mem ht]
          have := List.length_pos_of_mem ht
          omega
        exact ⟨w', k1, .step t ht hd.2 k2, by omega, Or.inl (by omega)⟩
      · have h1 : PyM.onlyIf (sel o) (tryDelete t) w = (.ok (), w) := by
          unfold PyM.onlyIf
          split_ifs with hsel
          · exact tryDelete_used w t hs ht (by_contra fun h => hd ⟨hsel, h⟩)
          · rfl
        rw [h1]
        obtain ⟨w', k1, k2, k3, k4⟩ := ih (i + 1) w hs
        refine ⟨w', k1, k2, k3, k4.imp_right fun k4 j t' o' h1 h2 h3 h4 h5 => ?_⟩
        rcases Nat.eq_or_lt_of_le h1 with rfl | h1
        · rw [hi] at h3
          cases h3
          rw [ho] at h4
          cases h4
          exact by_contra fun h => hd ⟨h5, h⟩
        · exact k4 j t' o' h1 (by omega) h3 h4 h5

theorem loops_pruned (sel : Obj K → Bool) (k : Nat) : ∀ w : World K, Sound w →
    ∃ w', timesDo (deletePass sel tryDelete) k w = (.ok (), w') ∧ Pruned w w' ∧ w'.instances.length ≤ w.instances.length ∧
      (Layered w → (∀ o, sel o = true) → w'.instances.length ≤ w.instances.length - k) := by
  induction k with
  | zero => exact fun w hs => ⟨w, rfl, .refl w, le_rfl, fun _ _ => le_rfl⟩
  | succ k ih =>
    intro w hs
    obtain ⟨w1, h1, h2, h3, h4⟩ := loop_pruned sel w.instances.length 0 w hs
    obtain ⟨hs1, -, -⟩ := pruned_each hs h2
    obtain ⟨w2, k1, k2, k3, k4⟩ := ih w1 hs1
    refine ⟨w2, ?_, h2.trans k2, by omega, fun hl hsel => ?_⟩
    · unfold timesDo
      rw [PyM.bind_apply]
      unfold deletePass
      rw [h1]
      exact k1
    · have := k4 (pruned_layered hs h2 hl) hsel
      rcases h4 with h4 | h4
      · omega
      · by_cases hne : w.instances = []
        · rw [hne] at h3
          simp only [List.length_nil] at h3
          omega
        · obtain ⟨t, ht, hu⟩ := layered_free hl hne
          obtain ⟨j, hj⟩ := List.getElem?_of_mem ht
          obtain ⟨o, ho, -⟩ := hs.inUse t ht
          have hjl : j < w.instances.length := by
            by_contra hc
            rw [List.getElem?_eq_none (by omega)] at hj
            cases hj
          exact absurd (h4 j t o (Nat.zero_le _) (by omega) hj ho (hsel o)) hu

/-- `clear_instances` before the registry is replaced. -/
theorem clear_pruned (hs : Sound w) : ∃ w2, clearInstances w = (.ok (), { w2 with instances := [] }) ∧ Pruned w w2 ∧
    (Layered w → w2.instances.length ≤ w.instances.length - 4) := by
  obtain ⟨w1, h1, h2, h3, -⟩ := loops_pruned (hasName "Result") 4 w hs
  obtain ⟨hs1, -, -⟩ := pruned_each hs h2
  obtain ⟨w2, k1, k2, -, k4⟩ := loops_pruned (fun _ => true) 4 w1 hs1
  refine ⟨w2, ?_, h2.trans k2, fun hl => ?_⟩
  · unfold clearInstances deleteResults
    rw [PyM.bind_apply, h1]
    refine (PyM.bind_apply _ _ _).trans ?_
    rw [k1]
  · have := k4 (pruned_layered hs h2 hl) fun _ => rfl
    omega

variable [CommRing K] [DecidableEq K] [Algebra ℚ K]

/-- **C112** (for at most four objects that do not refer to each other in a circle) After any sequence of calls,
`clear_instances` deletes all objects. -/
theorem C112_four_partial (E : Engine K) (letters : List Sym) (calls : List (Call K))
    (hl : Layered (history E letters calls fresh)) (hn : (history E letters calls fresh).instances.length ≤ 4) :
    ∃ w', clearInstances (history E letters calls fresh) = (.ok (), w') ∧
      ∀ i ∈ (history E letters calls fresh).instances, ¬ InUse w' i := by
  have hs := sound_history (E := E) letters calls fresh sound_fresh
  generalize history E letters calls fresh = w at *
  obtain ⟨w2, h1, h2, h3⟩ := clear_pruned hs
  have h0 : w2.instances = [] := by
    have := h3 hl
    exact List.eq_nil_of_length_eq_zero (by omega)
  refine ⟨_, h1, fun i hi => ?_⟩
  rcases (pruned_each hs h2).2.2 i hi with ⟨h, -⟩ | ⟨-, h⟩
  · rw [h0] at h
    cases h
  · exact h

/-- **C112** After any sequence of calls, the objects that `clear_instances` does not delete are as they were, although they
are no longer registered, and do not refer to objects that it deletes. -/
theorem C112_rest (E : Engine K) (letters : List Sym) (calls : List (Call K)) :
    ∃ w', clearInstances (history E letters calls fresh) = (.ok (), w') ∧ w'.instances = [] ∧
      ∀ i ∈ (history E letters calls fresh).instances, InUse w' i → w'.objs[i]? = (history E letters calls fresh).objs[i]? ∧
        ∀ o, w'.objs[i]? = some o → ∀ t ∈ (history E letters calls fresh).instances, Refers o t → InUse w' t := by
  have hs := sound_history (E := E) letters calls fresh sound_fresh
  generalize history E letters calls fresh = w at *
  obtain ⟨w2, h1, h2, -⟩ := clear_pruned hs
  obtain ⟨k1, -, k3⟩ := pruned_each hs h2
  refine ⟨_, h1, rfl, fun i hi hu => ?_⟩
  rcases k3 i hi with ⟨h3, h4⟩ | ⟨-, h⟩
  · refine ⟨h4, fun o ho t ht hR => ?_⟩
    exact k1.inUse t (pruned_closed hs h2 i h3 o (by rw [← h4]; exact ho) t hR ht)
  · exact absurd hu h

/-- Lines `A`, `B` and so on, each (but the first) with rules to the one before. -/
def rulesInARow : List (Call ℚ) :=
  [.coordinates (.val "A") (.val [1]) ["a"] (.tuple [1]) (.val "x"), .coordinates (.val "B") (.val [1]) ["b"] (.tuple [1]) (.val "x"),
   .coordinates (.val "C") (.val [1]) ["c"] (.tuple [1]) (.val "x"), .coordinates (.val "D") (.val [1]) ["d"] (.tuple [1]) (.val "x"),
   .coordinates (.val "E") (.val [1]) ["e"] (.tuple [1]) (.val "x"), .transformation 1 0 (some []), .transformation 2 1 (some []),
   .transformation 3 2 (some []), .transformation 4 3 (some [])]

/-- Two lines with rules to each other. -/
def rulesInACircle : List (Call ℚ) :=
  [.coordinates (.val "A") (.val [1]) ["a"] (.tuple [1]) (.val "x"), .coordinates (.val "B") (.val [1]) ["b"] (.tuple [1]) (.val "x"),
   .transformation 0 1 (some []), .transformation 1 0 (some [])]

/-- A line with a metric and four tensors. -/
def fourTensors : List (Call ℚ) :=
  lineCalls "U" "V" ++ [.tensor (.val "W") (.val ⟨[1], [1]⟩) 1 0 (.tuple [1]) (.val "v"),
    .tensor (.val "X") (.val ⟨[1], [1]⟩) 1 0 (.tuple [1]) (.val "v")]

/-- Checking that all rules lead to objects with smaller numbers. -/
theorem layered_of {w : World ℚ} (h : ∀ i ∈ w.instances, ∀ o ∈ w.objs[i]?, if o.kind = .coordinates then
    ∀ p ∈ o.trans, p.1 < i else (o.metric ≤ i ∧ o.coords < i ∧ ∀ p ∈ o.comps, p.1 < i)) : Layered w := by
  refine ⟨id, fun i hi o ho t ht => ?_⟩
  have h := h i hi o ho
  rcases ht with ⟨hk, r, hr⟩ | ⟨hk, hr⟩
  · rw [if_pos hk] at h
    exact Or.inr (h _ hr)
  · rw [if_neg hk] at h
    rcases hr with rfl | rfl | ⟨d, hd⟩
    · rcases Nat.lt_or_eq_of_le h.1 with h | h
      · exact Or.inr h
      · exact Or.inl h
    · exact Or.inr h.2.1
    · exact Or.inr (h.2.2 _ hd)

/-- C112: a line, a metric and two tensors are all deleted. -/
example : Layered (history lineEngine [] (lineCalls "U" "V") fresh) ∧
    (history lineEngine [] (lineCalls "U" "V") fresh).instances.length = 4 :=
  ⟨layered_of (by decide +kernel), by decide +kernel⟩

/-- **C112** is false for objects that refer to each other in a circle (two coordinate systems with rules to each other), for
five objects without circles, and for a coordinate system and a metric with four tensors: `clear_instances` leaves coordinates
that are not deleted. -/
theorem C112_false :
    (∃ calls : List (Call ℚ), Proper lineEngine [] calls fresh ∧ (history lineEngine [] calls fresh).instances = [0, 1] ∧
      InUse (clearInstances (history lineEngine [] calls fresh)).2 0 ∧
      InUse (clearInstances (history lineEngine [] calls fresh)).2 1) ∧
    (∃ calls : List (Call ℚ), Proper lineEngine [] calls fresh ∧ Layered (history lineEngine [] calls fresh) ∧
      (history lineEngine [] calls fresh).instances = [0, 1, 2, 3, 4] ∧
      InUse (clearInstances (history lineEngine [] calls fresh)).2 0) ∧
    ∃ calls : List (Call ℚ), Proper lineEngine [] calls fresh ∧ Layered (history lineEngine [] calls fresh) ∧
      (∀ i ∈ (history lineEngine [] calls fresh).instances, 2 ≤ i → ∀ o ∈ (history lineEngine [] calls fresh).objs[i]?,
        o.kind = .tensor) ∧ (history lineEngine [] calls fresh).instances = [0, 1, 2, 3, 4, 5] ∧
      InUse (clearInstances (history lineEngine [] calls fresh)).2 0 := by
  have use : ∀ {w : World ℚ} {i : Id'}, (∃ o ∈ w.objs[i]?, o.alive = true) → InUse w i := fun ⟨o, h1, h2⟩ => ⟨o, h1, h2⟩
  refine ⟨⟨rulesInACircle, ?_, by decide +kernel, use (by decide +kernel), use (by decide +kernel)⟩,
    ⟨rulesInARow, ?_, layered_of (by decide +kernel), by decide +kernel, use (by decide +kernel)⟩,
    fourTensors, ?_, layered_of (by decide +kernel), by decide +kernel, by decide +kernel, use (by decide +kernel)⟩
  · exact ⟨by decide +kernel, by decide +kernel, by decide +kernel, by decide +kernel, trivial⟩
  · exact ⟨by decide +kernel, by decide +kernel, by decide +kernel, by decide +kernel, by decide +kernel, by decide +kernel,
      by decide +kernel, by decide +kernel, by decide +kernel, trivial⟩
  · exact ⟨by decide +kernel, by decide +kernel, by decide +kernel, by decide +kernel, by decide +kernel, by decide +kernel,
      trivial⟩

end PyOGRe
