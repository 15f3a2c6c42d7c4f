import Verif.Model.Messages
import Verif.Lemmas.Passes
import Verif.Props.Registry

/-!
# What `delete_results` reports: C105
-/

namespace PyOGRe
open Spec
variable {K : Type} {w : World K}

/-- What happened between two sessions if only objects called `Result` were deleted, `k` of them: they are no longer registered nor
usable, and everything else is as before, in the same order. -/
structure Spec.Lost (k : Nat) (w w' : World K) : Prop where
  count : w'.instances.length + k = w.instances.length
  order : w'.instances.Sublist w.instances
  kept : ∀ i, i ∈ w'.instances ∨ i ∉ w.instances → w'.objs[i]? = w.objs[i]?
  named : ∀ i ∈ w.instances, i ∉ w'.instances → Named w "Result" i ∧ ¬ InUse w' i

theorem PyM.next {α β : Type} {m : PyM K α} {f : α → PyM K β} {w w' : World K} {a : α} (h : m w = (.ok a, w')) :
    (m >>= f) w = f a w' := PyM.then_ok h rfl

theorem lost_refl (w : World K) : Lost 0 w w := ⟨rfl, List.Sublist.refl _, fun _ _ => rfl, fun _ h h' => absurd h h'⟩

theorem Spec.Lost.trans {k l : Nat} {w w1 w2 : World K} (h : Lost k w w1) (h' : Lost l w1 w2) : Lost (k + l) w w2 where
  count := by have := h.count; have := h'.count; omega
  order := h'.order.trans h.order
  kept i hi := by
    rcases hi with hi | hi
    · rw [h'.kept i (Or.inl hi), h.kept i (Or.inl (h'.order.subset hi))]
    · rw [h'.kept i (Or.inr fun hc => hi (h.order.subset hc)), h.kept i (Or.inr hi)]
  named i hi hn := by
    by_cases h1 : i ∈ w1.instances
    · obtain ⟨⟨o, ho, hr⟩, h2⟩ := h'.named i h1 hn
      exact ⟨⟨o, by rw [← h.kept i (Or.inl h1)]; exact ho, hr⟩, h2⟩
    · obtain ⟨h2, h3⟩ := h.named i hi h1
      refine ⟨h2, ?_⟩
      rintro ⟨o, ho, ha⟩
      exact h3 ⟨o, by rw [← h'.kept i (Or.inr h1)]; exact ho, ha⟩

/-- The messages for `k` deleted objects. -/
def Spec.farewells (opt : Options) (silent : Bool) (k : Nat) : List (Out K) :=
  if silent then [] else List.replicate k (deletedText opt "Result")

theorem farewells_add (opt : Options) (silent : Bool) (k l : Nat) :
    farewells opt silent k ++ farewells opt silent l = (farewells opt silent (k + l) : List (Out K)) := by
  unfold farewells
  split_ifs
  · rfl
  · rw [List.replicate_add]

theorem removed_lost (hs : Sound w) {t : Id'} (ht : t ∈ w.instances) (hn : Named w "Result" t) : Lost 1 w (removed t w) where
  count := by
    show (w.instances.erase t).length + 1 = _
    rw [List.length_erase_of_mem ht]
    have := List.length_pos_of_mem ht
    omega
  order := List.erase_sublist
  kept i hi := by
    refine removed_ne ?_
    rintro rfl
    rcases hi with hi | hi
    · exact ((List.Nodup.mem_erase_iff hs.nodup).1 hi).1 rfl
    · exact hi ht
  named i hi hi' := by
    have : i = t := by
      by_contra hc
      exact hi' ((List.Nodup.mem_erase_iff hs.nodup).2 ⟨hc, hi⟩)
    subst this
    refine ⟨hn, ?_⟩
    rintro ⟨o, ho, ha⟩
    obtain ⟨o', ho', -⟩ := hn
    have : (removed i w).objs[i]? = some { o' with alive := false } := by
      show (w.objs.modify i _)[i]? = _
      rw [List.getElem?_modify, ho']
      simp
    rw [this] at ho
    cases ho
    cases ha

theorem tryDeleteTold_ok (opt : Options) (silent : Bool) (hs : Sound w) {t : Id'} {o : Obj K} (ht : t ∈ w.instances)
    (ho : w.objs[t]? = some o) (hn : o.name = "Result") :
    ∃ k w', tryDeleteTold opt silent t w = (.ok (k, farewells opt silent k), w') ∧ tryDelete t w = (.ok (), w') ∧ Sound w' ∧
      Lost k w w' := by
  obtain ⟨o', ho', ha⟩ := hs.inUse t ht
  rw [ho] at ho'; cases ho'
  rcases deleteObj_cases hs ht with ⟨h1, h2⟩ | ⟨h1, h2⟩
  · refine ⟨0, w, ?_, ?_, hs, lost_refl w⟩
    · unfold tryDeleteTold deleteTold
      rw [if_pos ((any_uses hs).2 h1)]
      unfold farewells
      split_ifs <;> rfl
    · unfold tryDelete
      rw [h2]
  · refine ⟨1, removed t w, ?_, ?_, sound_delete hs t, removed_lost hs ht ⟨o, ho, hn⟩⟩
    · unfold tryDeleteTold deleteTold
      rw [if_neg fun h => h1 ((any_uses hs).1 h)]
      unfold farewells
      by_cases hc : silent = true
      · rw [if_pos hc, if_pos hc]
        rw [PyM.next h2]
        rfl
      · rw [if_neg hc, if_neg hc]
        have hg : getObj t w = (.ok o, w) := getObj_ok ho ha
        rw [PyM.next hg, PyM.next h2, hn]
        rfl
    · unfold tryDelete
      rw [h2]
      rfl

theorem deleteFromTold_ok (opt : Options) (silent : Bool) (fuel i : Nat) (hs : Sound w) :
    ∃ k w', deleteFromTold opt silent fuel i w = (.ok (k, farewells opt silent k), w') ∧
      deleteFrom (hasName "Result") tryDelete fuel i w = (.ok (), w') ∧ Sound w' ∧ Lost k w w' := by
  have hz : farewells opt silent 0 = ([] : List (Out K)) := by unfold farewells; split_ifs <;> rfl
  induction fuel generalizing i w with
  | zero => exact ⟨0, w, by rw [hz]; rfl, rfl, hs, lost_refl w⟩
  | succ fuel ih =>
    unfold deleteFromTold deleteFrom
    rw [PyM.next (PyM.world_apply w), PyM.next (PyM.world_apply w)]
    cases hi : w.instances[i]? with
    | none => exact ⟨0, w, by rw [hz]; rfl, rfl, hs, lost_refl w⟩
    | some t =>
      have ht : t ∈ w.instances := List.mem_of_getElem? hi
      obtain ⟨o, ho, ha⟩ := hs.inUse t ht
      have hg : getObj t w = (.ok o, w) := getObj_ok ho ha
      show ∃ k w', (getObj t >>= _) w = _ ∧ (getObj t >>= _) w = _ ∧ _
      rw [PyM.next hg, PyM.next hg]
      by_cases hn : o.name = "Result"
      · obtain ⟨k, w1, h1, h2, h3, h4⟩ := tryDeleteTold_ok opt silent hs ht ho hn
        obtain ⟨l, w2, k1, k2, k3, k4⟩ := ih (i + 1) h3
        have hb : hasName "Result" o = true := by simp [hasName, hn]
        refine ⟨k + l, w2, ?_, ?_, k3, h4.trans k4⟩
        · rw [if_pos hb, PyM.next h1]
          refine PyM.then_ok k1 ?_
          rw [← farewells_add]
          rfl
        · rw [hb, PyM.next (show PyM.onlyIf true (tryDelete t) w = _ from h2)]
          exact k2
      · obtain ⟨l, w2, k1, k2, k3, k4⟩ := ih (i + 1) hs
        have hb : hasName "Result" o = false := by simp [hasName, hn]
        refine ⟨l, w2, ?_, ?_, k3, k4⟩
        · rw [if_neg (by rw [hb]; decide), PyM.next (PyM.pure_apply _ w)]
          refine PyM.then_ok k1 ?_
          show (Except.ok (0 + l, _), w2) = _
          rw [Nat.zero_add]
          rfl
        · rw [hb, PyM.next (show PyM.onlyIf false (tryDelete t) w = _ from rfl)]
          exact k2

theorem passesTold_ok (opt : Options) (silent : Bool) (n : Nat) (hs : Sound w) :
    ∃ k w', passesTold opt silent n w = (.ok (k, farewells opt silent k), w') ∧
      timesDo (deletePass (hasName "Result") tryDelete) n w = (.ok (), w') ∧ Sound w' ∧ Lost k w w' := by
  induction n generalizing w with
  | zero => exact ⟨0, w, by unfold farewells; split_ifs <;> rfl, rfl, hs, lost_refl w⟩
  | succ n ih =>
    obtain ⟨k, w1, h1, h2, h3, h4⟩ := deleteFromTold_ok opt silent w.instances.length 0 hs
    obtain ⟨l, w2, k1, k2, k3, k4⟩ := ih h3
    refine ⟨k + l, w2, ?_, ?_, k3, h4.trans k4⟩
    · unfold passesTold
      rw [PyM.next (PyM.world_apply w), PyM.next h1, PyM.next k1, ← farewells_add]
      rfl
    · unfold timesDo
      rw [PyM.next (show deletePass (hasName "Result") tryDelete w = _ from h2)]
      exact k2

variable [CommRing K] [DecidableEq K] [Algebra ℚ K]

theorem history_append (E : Engine K) (letters : List Sym) (a b : List (Call K)) (w : World K) :
    history E letters (a ++ b) w = history E letters b (history E letters a w) := by
  induction a generalizing w with
  | nil => rfl
  | cons c a ih => exact ih _

/-- **C105** After any sequence of calls, `delete_results` returns; it reports the number of objects that it deleted, after one
message for each of them (nothing with `silent=True`); all of them were called `Result`, and all other objects are as before. -/
theorem C105_report (E : Engine K) (letters : List Sym) (calls : List (Call K)) (opt : Options) (silent : Bool) :
    ∃ k w', deleteResultsTold opt silent (history E letters calls fresh) =
        (.ok (if silent then [] else List.replicate k (deletedText opt "Result") ++ [countText opt k]), w') ∧
      Lost k (history E letters calls fresh) w' ∧ w' = history E letters (calls ++ [.deleteResults]) fresh := by
  obtain ⟨k, w', h1, h2, -, h4⟩ := passesTold_ok opt silent 4 (sound_history (E := E) letters calls fresh sound_fresh)
  refine ⟨k, w', ?_, h4, ?_⟩
  · unfold deleteResultsTold
    rw [PyM.next h1]
    unfold farewells
    cases silent <;> rfl
  · rw [history_append]
    show w' = (deleteResults _).2
    unfold deleteResults
    rw [h2]

/-- The text of the last message. -/
example : countText (K := ℚ) { latex := false } 12 = .line "Deleted 12 tensor(s) named 'Result'.".toList := by decide +kernel

/-- A session with two objects called `Result`, of which one is used as coordinates. -/
example : (deleteResultsTold { latex := false } false (history lineEngine []
    [.coordinates (.val "Result") (.val [1]) ["x"] (.tuple [1]) (.val "x"),
      .coordinates (.val "Result") (.val [1]) ["y"] (.tuple [1]) (.val "y"),
      .metric (.val "g") (.val ⟨[1, 1], [1]⟩) 0 (.tuple [-1, -1]) (.val "g")] fresh)).1 =
    .ok [.line "Result: Successfully Deleted.".toList, .line "Deleted 1 tensor(s) named 'Result'.".toList] := by
  decide +kernel

end PyOGRe
