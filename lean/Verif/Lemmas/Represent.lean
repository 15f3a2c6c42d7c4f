import Verif.Lemmas.Ready
import Verif.Spec.Represent

/-! Helper lemmas for the properties about representations. -/

namespace PyOGRe
open Spec
variable {K : Type} [CommRing K]

theorem getElem?_append_old {α : Type} {l : List α} {x o : α} {k : Nat} (h : l[k]? = some o) :
    (l ++ [x])[k]? = some o := by
  have : k < l.length := by
    by_contra hc
    rw [List.getElem?_eq_none (Nat.le_of_not_lt hc)] at h; cases h
  rw [List.getElem?_append_left this, h]

/-- A tensor that was just declared. -/
theorem own_new (E : Engine K) {w w' : World K} {name symbol : Arg String} {a g gi : Arr K} {m c t : Id'}
    {ix : IndicesArg} (hg : MetricStored w m c g gi)
    (h : newTensor .tensor name (.val a) m c ix symbol w = (.ok t, w')) :
    Own E t m c (ix.getD a.rank) (ix.getD a.rank) a g gi w' := by
  rcases newTensor_cases .tensor name a m c ix symbol w with ⟨e, he⟩ | ⟨oc, om, h1, h2, h3, h4, h5, h6, h7⟩
  · rw [h] at he; cases he
  · rw [h] at h7
    cases h7
    obtain ⟨o, d, g1, g2, g3, g4, g5, g6⟩ := hg
    refine ⟨⟨oc, getElem?_append_old h1, h2⟩, ⟨_, [], getElem?_append_length _ _, rfl, ?_, rfl, rfl, rfl, ?_, ?_⟩,
      ⟨o, d, getElem?_append_old g1, g2, g3, g4, g5, g6⟩⟩
    · intro hk; cases hk
    · simp [freshObj, Dict.get?_cons, Arr.rank]
    · intro jx b hb
      rw [Dict.get?_cons, Dict.get?_nil] at hb
      split_ifs at hb with hc
      cases hb
      exact Or.inl ⟨hc.symm, rfl⟩

theorem newTensor_shape {w w' : World K} {name symbol : Arg String} {a : Arr K} {m c t : Id'}
    {ix : IndicesArg} (h : newTensor .tensor name (.val a) m c ix symbol w = (.ok t, w')) :
    ∃ oc, w.objs[c]? = some oc ∧ oc.kind = .coordinates ∧ a.shape = List.replicate a.rank oc.syms.length ∧
      Config a.rank (ix.getD a.rank) := by
  rcases newTensor_cases .tensor name a m c ix symbol w with ⟨e, he⟩ | ⟨oc, om, h1, h2, h3, h4, h5, h6, h7⟩
  · rw [h] at he; cases he
  · exact ⟨oc, h1, h2, h5, h6⟩

theorem own_requests {E : Engine K} {t m c : Id'} {ix0 src : List Int} {a g gi : Arr K}
    (hist : List (Id' × Option Id' × Option (List Int))) : ∀ {w : World K}, Own E t m c ix0 src a g gi w →
    Own E t m c ix0 src a g gi (requests E hist w) := by
  induction hist with
  | nil => exact fun h => h
  | cons q rest ih =>
    intro w h
    obtain ⟨i, c', ix⟩ := q
    exact ih (getComponents_own i c' ix w h trivial).1

theorem getComponents_ownValue {E : Engine K} {t m c : Id'} {ix0 src : List Int} {a g gi : Arr K} {w : World K}
    (h : Own E t m c ix0 src a g gi w) (ix : Option (List Int)) (c' : Option Id') (hc : c' = none ∨ c' = some c) :
    Own E t m c ix0 src a g gi (getComponents E t c' ix w).2 ∧
      (getComponents E t c' ix w).1 = ownValue E ix0 src a g gi (ix.getD ix0) := by
  obtain ⟨o, d, h1, h2, h3, h4, h5, h6, h7, h8⟩ := h.tensor
  have e : getComponents E t c' ix w = getRepresentation E t c (ix.getD ix0) w := by
    unfold getComponents
    rw [PyM.bind_apply, getObj_ok h1 h2]
    dsimp only
    rw [h5, h6]
    rcases hc with rfl | rfl <;> rfl
  rw [e]
  exact getRepresentation_own h _

/-- The value in closed form. -/
theorem ownValue_spec {E : Engine K} (hE : ∀ x, E.simp x = x) {n : Nat} (hn : 0 < n) {ix0 src ix : List Int}
    {a g gi : Arr K} (ha : a.WF) (hs : a.shape = List.replicate src.length n) (hg : g.shape = [n, n])
    (hgi : gi.shape = [n, n]) (hsrc : Config src.length src) (h0 : ix0.length = src.length)
    (hix : Config src.length ix) :
    ∃ b, ownValue E ix0 src a g gi ix = .ok b ∧ Agree n src.length b
      (applyFactors n (List.zipWith (indexFactor (entry g) (entry gi)) src ix) a.get) := by
  unfold ownValue
  rw [validateIndices_pass hix h0, py_ok_bind]
  split_ifs with he
  · subst he
    refine ⟨a, rfl, ha, hs, ?_⟩
    intro J hl hJ
    refine (applyFactors_delta n _ _ J hJ (by simp [hl]) ?_).symm
    intro M hM
    rw [zipWith_map_left_right] at hM
    obtain ⟨p, hp, rfl⟩ := List.mem_map.1 hM
    have hpp : p.1 = p.2 := zip_self_eq _ p hp
    have h1 : ¬ (p.1 = -1 ∧ p.2 = 1) := by rw [hpp]; omega
    have h2 : ¬ (p.1 = 1 ∧ p.2 = -1) := by rw [hpp]; omega
    simp only [indexFactor, if_neg h1, if_neg h2]
    exact fun _ _ _ _ => trivial
  · obtain ⟨b, h1, h2, h3, h4⟩ := raiseLower_spec E hE hn g gi a src ix hg hgi hsrc.2 hix.2 hix.1 hs ha
    refine ⟨b, h1, h2, h3.trans hs, ?_⟩
    intro J hl hJ
    exact h4 J (by rw [hs, valid_replicate]; exact ⟨hl, hJ⟩)

end PyOGRe
