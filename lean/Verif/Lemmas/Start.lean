import Verif.Lemmas.Delete

/-! Helper lemmas: scenes from constructors. -/

namespace PyOGRe
open Spec
variable {K : Type} [CommRing K] [DecidableEq K] {E : Engine K} {w w' : World K}

omit [CommRing K] [DecidableEq K] in
/-- One more registered object. -/
theorem registry_append (hR : RegistryOK w) {o : Obj K} (ha : o.alive = true)
    (hn : o.name = "TEMP" → o.kind ≠ .coordinates ∧ o.kind ≠ .metric)
    (hu : ∀ t, o.uses t = true → ∃ o', (w.objs ++ [o])[t]? = some o' ∧ (o'.kind = .coordinates ∨ o'.kind = .metric)) :
    RegistryOK { objs := w.objs ++ [o], instances := w.instances ++ [w.objs.length] } := by
  have hlt : ∀ i ∈ w.instances, i < w.objs.length := fun i hi => by
    obtain ⟨oi, h1, -⟩ := hR.inUse i hi
    exact lt_of_getElem? h1
  have hget : ∀ (i : Nat) oi, i ∈ w.instances → (w.objs ++ [o])[i]? = some oi → w.objs[i]? = some oi := by
    intro i oi hi hoi
    rwa [List.getElem?_append_left (hlt i hi)] at hoi
  have hlast : ∀ (i : Nat) oi, i ∈ [w.objs.length] → (w.objs ++ [o])[i]? = some oi → oi = o := by
    intro i oi hi hoi
    rw [List.mem_singleton.1 hi, getElem?_append_length] at hoi
    cases hoi; rfl
  refine ⟨?_, fun i hi => ?_, fun i hi oi hoi r hr => ?_, fun i hi oi hoi hn' => ?_⟩
  · show (w.instances ++ [w.objs.length]).Nodup
    rw [List.nodup_append]
    refine ⟨hR.nodup, by simp, fun i hi j hj => ?_⟩
    rw [List.mem_singleton] at hj
    intro hc
    have := hlt i hi
    rw [hc, hj] at this
    exact absurd this (lt_irrefl _)
  · rcases List.mem_append.1 hi with hi | hi
    · obtain ⟨oi, h1, h2⟩ := hR.inUse i hi
      exact ⟨oi, getElem?_append_old h1, h2⟩
    · rw [List.mem_singleton.1 hi]
      exact ⟨o, getElem?_append_length _ _, ha⟩
  · rcases List.mem_append.1 hi with hi | hi
    · obtain ⟨o', k1, k2⟩ := hR.refs i hi oi (hget i oi hi hoi) r hr
      exact ⟨o', getElem?_append_old k1, k2⟩
    · rw [hlast i oi hi hoi] at hr
      exact hu r hr
  · rcases List.mem_append.1 hi with hi | hi
    · exact hR.temp i hi oi (hget i oi hi hoi) hn'
    · rw [hlast i oi hi hoi] at hn' ⊢
      exact hn hn'

/-- The ground of a metric that was declared with components `a` and has the inverse components `b`. -/
def groundOf (c m : Id') (syms : List Sym) (ix : List Int) (a b : Arr K) : Ground K where
  n := syms.length
  c := c
  m := m
  syms := syms
  g := if ix = [-1, -1] then entry a else entry b
  gi := if ix = [-1, -1] then entry b else entry a

theorem scene_start (hE : EngineOK E) (hR : RegistryOK w) {name symbol : String} {a : Arr K} {m c : Id'} {ix : List Int}
    (ha : a.WF) (hname : name ≠ "TEMP") {oc : Obj K} (hoc : w.objs[c]? = some oc) (hal : oc.alive = true)
    (hne : oc.syms ≠ [])
    (h : newMetric E (.val name) (.val a) c (.tuple ix) (.val symbol) w = (.ok m, w')) :
    ∃ b, E.inv a = .ok b ∧ Scene (groundOf c m oc.syms ix a b)
      (fun i => if i = m then some ⟨name, c, ix, a.get⟩ else none) w' := by
  rcases newMetric_cases E (.val name) a c (.tuple ix) (.val symbol) w with ⟨e, he⟩ |
    ⟨oc', h1, h2, h3, h4, h5, h6, h7⟩
  · rw [h] at he; cases he
  rw [hoc] at h1; cases h1
  rcases h7 with ⟨e, -, h7⟩ | ⟨b, h7, h8⟩
  · rw [h] at h7; cases h7
  rw [h] at h8
  obtain ⟨hm, hw⟩ := Prod.mk.inj h8
  cases hm
  have hix : (IndicesArg.tuple ix).getD 2 = ix := rfl
  have hnm : (Arg.val name).getD "" = name := rfl
  rw [hix] at h6 hw
  rw [hnm] at hw
  obtain ⟨b1, b2, b3⟩ := hE.inv_ok oc.syms.length a b h3 h7
  have hpos : 0 < oc.syms.length := List.length_pos_iff.2 hne
  have hsymA : ∀ i j, i < oc.syms.length → j < oc.syms.length → entry a i j = entry a j i :=
    (isSymmetric_entries h3).1 h5
  have hinvA : Inverse oc.syms.length (entry a) (entry b) := b3
  have hinvB : Inverse oc.syms.length (entry b) (entry a) := fun i j hi hj => (hinvA i j hi hj).symm
  have hsymB : ∀ i j, i < oc.syms.length → j < oc.syms.length → entry b i j = entry b j i :=
    inverse_symm hinvA hsymA
  refine ⟨b, h7, ?_⟩
  set G := groundOf c w.objs.length oc.syms ix a b with hG
  set D : TField K := ⟨name, c, ix, a.get⟩ with hD
  have hinv : Inverse G.n G.g G.gi := by
    rw [hG]; unfold groundOf; dsimp only
    split_ifs
    · exact hinvA
    · exact hinvB
  have hsym : ∀ i j, i < G.n → j < G.n → G.g i j = G.g j i := by
    rw [hG]; unfold groundOf; dsimp only
    split_ifs
    · exact hsymA
    · exact hsymB
  have hlen : D.ix.length = 2 := by
    show ix.length = 2
    rcases h6 with rfl | rfl <;> rfl
  have hcfg : Config D.ix.length D.ix := by
    refine ⟨rfl, ?_⟩
    show ∀ x ∈ ix, _
    rcases h6 with rfl | rfl <;> decide
  have hval : ∀ J : List Nat, J.length = 2 → (∀ x ∈ J, x < G.n) → D.comp G ix J = a.get J := by
    intro J h1 h2
    exact comp_self (D := D) h2 (h1.trans hlen.symm)
  have hlow : ∀ i j, i < G.n → j < G.n → D.comp G [-1, -1] [i, j] = G.g i j := by
    intro i j hi hj
    rcases h6 with h6 | h6
    · rw [← h6, hval _ rfl (by simp [hi, hj])]
      rw [hG]; unfold groundOf; dsimp only
      rw [if_pos h6]
      rfl
    · have hg : G.g = entry b := by
        rw [hG]; unfold groundOf; dsimp only
        rw [if_neg (by rw [h6]; decide)]
      have hgi : G.gi = entry a := by
        rw [hG]; unfold groundOf; dsimp only
        rw [if_neg (by rw [h6]; decide)]
      have hsw := metric_comp (G := { G with g := G.gi, gi := G.g }) (D := ⟨name, c, [-1, -1], a.get⟩)
        (fun i j hi hj => (hinv i j hi hj).symm) (by
          show ∀ i j, i < G.n → j < G.n → G.gi i j = G.gi j i
          exact inverse_symm hinv hsym) rfl (⟨rfl, by simp⟩) (by
          intro i j hi hj
          rw [show G.gi = entry a from hgi]
          exact comp_self (D := ⟨name, c, [-1, -1], a.get⟩) (by simpa using ⟨hi, hj⟩) rfl) i j hi hj
      have h2 := hsw.2.1
      dsimp only at h2
      rw [← h2]
      unfold TField.comp
      dsimp only
      rw [show D.ix = [1, 1] from h6]
      rfl
  have hcomp := metric_comp hinv hsym hlen hcfg hlow
  have hcm : ∀ i, (if i = w.objs.length then some D else none) = some D ↔ i = w.objs.length := by
    intro i; split_ifs with h <;> simp [h]
  have hN : G.n = oc.syms.length := rfl
  have heye : ∀ J : List Nat, J.length = 2 → (∀ x ∈ J, x < G.n) → ∀ cfg, (cfg = [1, -1] ∨ cfg = [-1, 1]) →
      (eye oc.syms.length : Arr K).get J = D.comp G cfg J := by
    intro J hJ1 hJ2 cfg hc
    match J, hJ1 with
    | [i, j], _ =>
      have hi : i < G.n := hJ2 i (by simp)
      have hj : j < G.n := hJ2 j (by simp)
      have := entry_eye (K := K) (n := oc.syms.length) hi hj
      unfold entry at this
      rw [this]
      rcases hc with rfl | rfl
      · exact (hcomp i j hi hj).2.2.1.symm
      · exact (hcomp i j hi hj).2.2.2.symm
  have hbget : ∀ J : List Nat, J.length = 2 → (∀ x ∈ J, x < G.n) → b.get J = D.comp G (negIndices ix) J := by
    intro J hJ1 hJ2
    match J, hJ1 with
    | [i, j], _ =>
      have hi : i < G.n := hJ2 i (by simp)
      have hj : j < G.n := hJ2 j (by simp)
      rcases h6 with h6 | h6
      · rw [h6, show negIndices [-1, -1] = [1, 1] from rfl, (hcomp i j hi hj).2.1, hG]
        unfold groundOf; dsimp only
        rw [if_pos h6]; rfl
      · rw [h6, show negIndices [1, 1] = [-1, -1] from rfl, (hcomp i j hi hj).1, hG]
        unfold groundOf; dsimp only
        rw [if_neg (by rw [h6]; decide)]; rfl
  subst hw
  have hclt : c ≠ w.objs.length := fun h => by
    have := lt_of_getElem? hoc
    rw [h] at this
    exact absurd this (lt_irrefl _)
  have heyeS : (eye oc.syms.length : Arr K).shape = [oc.syms.length, oc.syms.length] := rfl
  have hshow : Shows G D (freshObj .metric name ((Arg.val symbol).getD "") ix c w.objs.length
      [(ix, a), ([1, -1], eye oc.syms.length), ([-1, 1], eye oc.syms.length), (negIndices ix, b)]) := by
    refine ⟨rfl, Or.inl rfl, rfl, rfl, rfl, rfl, hcfg, fun _ => rfl, [(ix, a), ([1, -1], eye oc.syms.length),
      ([-1, 1], eye oc.syms.length), (negIndices ix, b)], ?_, ?_, ?_, ?_, ?_⟩
    · show Dict.get? [(c, _)] c = _
      rw [Dict.get?_cons, if_pos rfl]
    · simp
    · intro cfg x hx
      rw [hlen]
      simp only [Dict.get?_cons, Dict.get?_nil] at hx
      split_ifs at hx with e1 e2 e3 e4
      · cases hx; subst e1
        exact ⟨hlen ▸ hcfg, ha, h3, fun J h1 h2 => (hval J h1 h2).symm⟩
      · cases hx; subst e2
        exact ⟨config_two (Or.inl rfl) (Or.inr rfl), Arr.wf_ofFn _ _, rfl, fun J h1 h2 => heye J h1 h2 _ (Or.inl rfl)⟩
      · cases hx; subst e3
        exact ⟨config_two (Or.inr rfl) (Or.inl rfl), Arr.wf_ofFn _ _, rfl, fun J h1 h2 => heye J h1 h2 _ (Or.inr rfl)⟩
      · cases hx; subst e4
        refine ⟨?_, b1, b2, fun J h1 h2 => hbget J h1 h2⟩
        rcases h6 with h6 | h6 <;> rw [h6] <;> exact config_two (by decide) (by decide)
    · intro _
      exact ⟨a, by rw [Dict.get?_cons, if_pos rfl]⟩
    · intro _
      refine ⟨hlen, fun cfg hc => ?_⟩
      simp only [Dict.get?_cons, Dict.get?_nil]
      rcases h6 with h6 | h6 <;> rw [h6] <;> rcases config2_cases hc with rfl | rfl | rfl | rfl <;>
        simp [negIndices]
  refine ⟨hpos, ⟨oc, getElem?_append_old hoc, h2, hal, rfl⟩, rfl, hinv, hsym,
    ⟨D, _, (hcm _).2 rfl, getElem?_append_length _ _, rfl, hlow⟩, ?_, ?_⟩
  · intro t D' ht
    split_ifs at ht with htm
    cases ht; subst htm
    exact ⟨_, getElem?_append_length _ _, hshow⟩
  · refine registry_append hR rfl (fun h => absurd h hname) fun t ht => ?_
    unfold Obj.uses freshObj at ht
    dsimp only at ht
    rw [if_neg (by simp)] at ht
    simp only [Bool.or_eq_true, beq_iff_eq, Dict.has_iff, Dict.get?_cons, Dict.get?_nil] at ht
    have hc : ∃ o', (w.objs ++ [freshObj .metric name ((Arg.val symbol).getD "") ix c w.objs.length
        [(ix, a), ([1, -1], eye oc.syms.length), ([-1, 1], eye oc.syms.length), (negIndices ix, b)]])[c]? = some o' ∧
        (o'.kind = .coordinates ∨ o'.kind = .metric) := ⟨oc, getElem?_append_old hoc, Or.inl h2⟩
    rcases ht with (⟨v, hv⟩ | ht) | ht
    · split_ifs at hv with h1
      exact h1 ▸ hc
    · rw [← ht]
      exact ⟨_, getElem?_append_length _ _, Or.inr rfl⟩
    · exact ht ▸ hc

end PyOGRe
