import Verif.Lemmas.World
import Verif.Spec.Geometry

/-! Helper lemmas: requests keep a session state coherent. -/

namespace PyOGRe
open Spec Finset
variable {K : Type}

theorem orderedRules_eq (old : List Sym) (rules : List (Option (Sym × K))) (h : GoodRules rules) :
    orderedRules old rules = old.map fun s => (ruleFor rules s).map fun v => (s, v) := by
  have key : ∀ s, rules.filter (ruleIsFor s) =
      match ruleFor rules s with
      | none => []
      | some v => [some (s, v)] := by
    intro s
    unfold GoodRules at h
    unfold ruleFor
    induction rules with
    | nil => rfl
    | cons r rules ih =>
      cases r with
      | none =>
        rw [List.filter_cons_of_neg (by simp [ruleIsFor])]
        exact ih (by simpa using h)
      | some r =>
        simp only [List.filterMap_cons, id_eq, List.map_cons, List.nodup_cons] at h
        have ih := ih h.2
        by_cases hr : r.1 = s
        · rw [List.filter_cons_of_pos (by simp [ruleIsFor, hr]), ih]
          have hnone : ((rules.filterMap id).find? fun r => r.1 == s) = none := by
            rw [List.find?_eq_none]
            intro q hq
            simp only [beq_iff_eq]
            intro hqs
            exact h.1 (by rw [hr, ← hqs]; exact List.mem_map_of_mem hq)
          rw [hnone]
          simp only [List.filterMap_cons, id_eq, List.find?_cons, hr, beq_self_eq_true, Option.map_none,
            Option.map_some]
          rw [← hr]
        · rw [List.filter_cons_of_neg (by simp [ruleIsFor, hr]), ih]
          simp [List.filterMap_cons, List.find?_cons, hr]
  unfold orderedRules
  induction old with
  | nil => rfl
  | cons s old ih =>
    rw [List.flatMap_cons, ih, List.map_cons]
    dsimp only
    rw [key s]
    cases ruleFor rules s <;> simp

theorem calculateJacobian_sound [CommRing K] (E : Engine K) (hE : EngineOK E) (old new : List Sym)
    (n : Nat) (ho : old.length = n) (rules : List (Option (Sym × K)))
    (hg : GoodRules rules) (j : Jacobians K) (h : calculateJacobian E old new rules = .ok j) :
    j.J.WF ∧ j.J.shape = [n, n] ∧ j.Jinv.WF ∧ j.Jinv.shape = [n, n] ∧ j.JJ.WF ∧
    j.JJ.shape = [n, n, n] ∧
    (∀ i k, i < n → k < n → j.J.mat i k = chartJacobian E old new rules i k) ∧
    Inverse n j.J.mat j.Jinv.mat ∧
    (∀ i k l, i < n → k < n → l < n →
      j.JJ.get [i, k, l] = chartJacobian2 E old new rules i k l) := by
  unfold calculateJacobian at h
  rw [orderedRules_eq old rules hg] at h
  simp only [List.length_map, ho] at h
  cases hz : zeroTensor (K := K) (n : Int) 2 with
  | error e => rw [hz] at h; simp at h
  | ok z =>
    rw [hz, py_ok_bind] at h
    split_ifs at h with hc
    · set J : Arr K := Arr.map E.simp (Arr.ofFn [n, n] (jacobianEntry E new
        (old.map fun s => (ruleFor rules s).map fun v => (s, v)))) with hJ
      cases hi : E.inv J with
      | error e => rw [hi] at h; simp at h
      | ok Ji =>
        rw [hi, py_ok_bind] at h
        simp only [py_pure, Except.ok.injEq] at h
        have hgd : ∀ i, i < n →
            (old.map fun s => (ruleFor rules s).map fun v => (s, v)).getD i none =
              (ruleFor rules (old.getD i "")).map fun v => (old.getD i "", v) := by
          intro i hi
          rw [List.getD_eq_getElem?_getD, List.getElem?_map, List.getD_eq_getElem?_getD,
            List.getElem?_eq_getElem (by omega)]
          rfl
        obtain ⟨hiw, his, hii⟩ := hE.inv_ok n J Ji rfl hi
        subst h
        have hJi : Arr.map E.simp Ji = Ji := Arr.map_id' hiw hE.simp_eq
        refine ⟨Arr.wf_map _ _, rfl, Arr.wf_map _ _, by rw [Arr.shape_map, his], Arr.wf_map _ _, rfl,
          ?_, ?_, ?_⟩
        · intro i k hi hk
          unfold Arr.mat
          show J.get [i, k] = _
          rw [hJ, Arr.get_map (by show Valid [n, n] _; rw [valid_cons, valid_cons, valid_nil]; exact ⟨hi, hk, rfl⟩),
            Arr.get_ofFn (by rw [valid_cons, valid_cons, valid_nil]; exact ⟨hi, hk, rfl⟩), hE.simp_eq]
          simp only [jacobianEntry, hgd i hi, chartJacobian]
          cases ruleFor rules (old.getD i "") with
          | none => simp [delta, eq_comm]
          | some v => rfl
        · dsimp only
          rw [hJi]
          exact hii
        · intro i k l hi hk hl
          have hv : Valid [n, n, n] [i, k, l] := by
            rw [valid_cons, valid_cons, valid_cons, valid_nil]; exact ⟨hi, hk, hl, rfl⟩
          rw [Arr.get_map (by exact hv), Arr.get_ofFn hv, hE.simp_eq]
          simp only [jacobianEntry2, hgd i hi, chartJacobian2]
          cases ruleFor rules (old.getD i "") with
          | none => rfl
          | some v => rfl

theorem agree_valid [Zero K] {n r : Nat} {a : Arr K} {f : List Nat → K} (h : Agree n r a f) (J : List Nat)
    (hJ : Valid (List.replicate r n) J) : a.get J = f J := by
  rw [valid_replicate] at hJ
  exact h.2.2 J hJ.1 hJ.2

theorem agree_eq [Zero K] {n r : Nat} {a b : Arr K} {f : List Nat → K} (ha : Agree n r a f)
    (hb : Agree n r b f) : a = b := by
  refine Arr.ext_get ha.1 hb.1 (ha.2.1.trans hb.2.1.symm) ?_
  intro J hJ
  rw [ha.2.1] at hJ
  rw [agree_valid ha J hJ, agree_valid hb J hJ]

/-- Inverse matrices are unique. -/
theorem inverse_unique [CommRing K] {n : Nat} {M N N' : Nat → Nat → K} (h : Inverse n M N)
    (h' : Inverse n M N') (i j : Nat) (hi : i < n) (hj : j < n) : N i j = N' i j := by
  have e1 : N i j = ∑ k ∈ range n, N i k * delta k j := by
    rw [Finset.sum_eq_single_of_mem j (by simpa using hj)]
    · simp [delta]
    · intro k _ hk; simp [delta, hk]
  have e2 : N' i j = ∑ k ∈ range n, delta i k * N' k j := by
    rw [Finset.sum_eq_single_of_mem i (by simpa using hi)]
    · simp [delta]
    · intro k _ hk; simp [delta, Ne.symm hk]
  rw [e1, e2]
  have s1 : ∀ k ∈ range n, N i k * delta k j = ∑ l ∈ range n, N i k * (M k l * N' l j) := by
    intro k hk
    rw [← (h' k j (by simpa using hk) hj).1, matMul, Finset.mul_sum]
  have s2 : ∀ k ∈ range n, delta i k * N' k j = ∑ l ∈ range n, N i l * (M l k * N' k j) := by
    intro k hk
    rw [← (h i k hi (by simpa using hk)).2, matMul, Finset.sum_mul]
    refine Finset.sum_congr rfl fun l _ => by ring
  rw [Finset.sum_congr rfl s1, Finset.sum_congr rfl s2, Finset.sum_comm]

theorem inverse_swap [CommRing K] {n : Nat} {M N : Nat → Nat → K} (h : Inverse n M N) : Inverse n N M :=
  fun i j hi hj => ⟨(h i j hi hj).2, (h i j hi hj).1⟩

theorem inverse_congr [CommRing K] {n : Nat} {M M' N N' : Nat → Nat → K} (h : Inverse n M N)
    (hM : ∀ i j, i < n → j < n → M i j = M' i j) (hN : ∀ i j, i < n → j < n → N i j = N' i j) :
    Inverse n M' N' := by
  intro i j hi hj
  have := h i j hi hj
  unfold matMul at this ⊢
  constructor
  · rw [← this.1]
    refine Finset.sum_congr rfl fun k hk => ?_
    have hk' : k < n := by simpa using hk
    rw [hM i k hi hk', hN k j hk' hj]
  · rw [← this.2]
    refine Finset.sum_congr rfl fun k hk => ?_
    have hk' : k < n := by simpa using hk
    rw [hM k j hk' hj, hN i k hi hk']

section
variable [CommRing K] {E : Engine K} {A : Atlas K} {G : Geometry K}

/-- Changing one object so that the conditions on it still hold keeps the state coherent. -/
theorem coherent_modify {w : World K} (h : Coherent E A G w) (i : Id') (f : Obj K → Obj K)
    (hk : ∀ o, w.objs[i]? = some o → (f o).kind = o.kind ∧ (f o).metric = o.metric)
    (hcoord : ∀ o, w.objs[i]? = some o → o.kind = .metric ∨ o.kind = .tensor →
      ∃ oc, w.objs[(f o).coords]? = some oc ∧ oc.kind = .coordinates)
    (hc : ∀ o, w.objs[i]? = some o → o.kind = .coordinates →
      (f o).syms = o.syms ∧ (∀ c', (f o).trans.get? c' = o.trans.get? c') ∧
      ∀ c' j, (f o).jac.get? c' = some j → JacobianOK E A i c' j)
    (ht : ∀ o, w.objs[i]? = some o → o.kind = .metric ∨ o.kind = .tensor →
      Config (G.rank i) (f o).indices ∧
      ∀ c d ix a, (f o).comps.get? c = some d → d.get? ix = some a →
        Config (G.rank i) ix ∧ Agree A.n (G.rank i) a (G.comp i c ix))
    (hm : ∀ o, w.objs[i]? = some o → o.kind = .metric →
      (f o).indices = [-1, -1] ∨ (f o).indices = [1, 1]) :
    Coherent E A G { w with objs := w.objs.modify i f } := by
  have hget : ∀ k : Nat, (w.objs.modify i f)[k]? = if i = k then w.objs[k]?.map f else w.objs[k]? := by
    intro k
    rw [List.getElem?_modify]
    split_ifs <;> simp
  have hkind : ∀ (k : Nat) (kd : Kind), (∃ o, w.objs[k]? = some o ∧ o.kind = kd) →
      ∃ o, (w.objs.modify i f)[k]? = some o ∧ o.kind = kd := by
    rintro k kd ⟨o, ho, hkd⟩
    rw [hget, ho]
    split_ifs with he
    · subst he; exact ⟨f o, rfl, by rw [(hk o ho).1, hkd]⟩
    · exact ⟨o, rfl, hkd⟩
  constructor
  · intro c o ho hko
    dsimp only at ho
    rw [hget] at ho
    split_ifs at ho with he
    · subst he
      obtain ⟨o', ho', rfl⟩ := Option.map_eq_some_iff.1 ho
      rw [(hk o' ho').1] at hko
      obtain ⟨h1, h2, h3⟩ := hc o' ho' hko
      obtain ⟨g1, g2, -⟩ := h.charts i o' ho' hko
      exact ⟨h1.trans g1, fun c' => (h2 c').trans (g2 c'), h3⟩
    · exact h.charts c o ho hko
  · intro t o ho hko
    dsimp only at ho ⊢
    rw [hget] at ho
    split_ifs at ho with he
    · subst he
      obtain ⟨o', ho', rfl⟩ := Option.map_eq_some_iff.1 ho
      rw [(hk o' ho').1] at hko
      obtain ⟨g1, g2, g3, g4, g5, g6⟩ := h.tensors i o' ho' hko
      obtain ⟨h1, h2⟩ := ht o' ho' hko
      refine ⟨by rw [(hk o' ho').2, g1], g2, h1, ?_, ?_, h2⟩
      · rw [(hk o' ho').2]; exact hkind _ _ g4
      · exact hkind _ _ (hcoord o' ho' hko)
    · obtain ⟨g1, g2, g3, g4, g5, g6⟩ := h.tensors t o ho hko
      exact ⟨g1, g2, g3, hkind _ _ g4, hkind _ _ g5, g6⟩
  · intro t o ho hko
    dsimp only at ho
    rw [hget] at ho
    split_ifs at ho with he
    · subst he
      obtain ⟨o', ho', rfl⟩ := Option.map_eq_some_iff.1 ho
      rw [(hk o' ho').1] at hko
      obtain ⟨g1, g2, -⟩ := h.metrics i o' ho' hko
      exact ⟨g1, g2, hm o' ho' hko⟩
    · exact h.metrics t o ho hko

/-- Coherent, and every object is of the given class. -/
def CohK (E : Engine K) (A : Atlas K) (G : Geometry K) (κ : Nat → Option Kind) (w : World K) : Prop :=
  Coherent E A G w ∧ ∀ i : Nat, w.objs[i]?.map (·.kind) = κ i

theorem CohK.kind {κ : Nat → Option Kind} {w : World K} (h : CohK E A G κ w) {i : Nat} {o : Obj K}
    (ho : w.objs[i]? = some o) : κ i = some o.kind := by
  rw [← h.2 i, ho]; rfl

theorem CohK.get {κ : Nat → Option Kind} {w : World K} (h : CohK E A G κ w) {i : Nat} {k : Kind}
    (hk : κ i = some k) : ∃ o, w.objs[i]? = some o ∧ o.kind = k := by
  have := h.2 i
  rw [hk] at this
  exact Option.map_eq_some_iff.1 this

theorem Keeps.modifyObj {P R : World K → Prop} (i : Id') (f : Obj K → Obj K) {Q : Unit → World K → Prop}
    (h : ∀ w, P w → R w → P { w with objs := w.objs.modify i f } ∧
      Q () { w with objs := w.objs.modify i f }) :
    Keeps P R (PyOGRe.modifyObj i f) Q := by
  intro w hP hR
  exact ⟨(h w hP hR).1, fun a _ => (h w hP hR).2⟩

theorem kinds_modify {w : World K} {κ : Nat → Option Kind} (h : ∀ i : Nat, w.objs[i]?.map (·.kind) = κ i)
    (i : Id') (f : Obj K → Obj K) (hf : ∀ o, (f o).kind = o.kind) (k : Nat) :
    (w.objs.modify i f)[k]?.map (·.kind) = κ k := by
  rw [List.getElem?_modify, ← h k]
  split_ifs
  · cases w.objs[k]? <;> simp [hf]
  · simp

/-- Changing only cached components, to correct ones. -/
theorem CohK.setComps {κ : Nat → Option Kind} {w : World K} (h : CohK E A G κ w) (i : Id')
    (f : Obj K → Obj K)
    (hf : ∀ o, ∃ c, f o = { o with comps := c })
    (hk : κ i ≠ some .coordinates)
    (ht : ∀ o, w.objs[i]? = some o →
      ∀ c d ix a, (f o).comps.get? c = some d → d.get? ix = some a →
        Config (G.rank i) ix ∧ Agree A.n (G.rank i) a (G.comp i c ix)) :
    CohK E A G κ { w with objs := w.objs.modify i f } := by
  have e1 : ∀ o, (f o).kind = o.kind := fun o => by obtain ⟨c, hc⟩ := hf o; rw [hc]
  have e2 : ∀ o, (f o).metric = o.metric := fun o => by obtain ⟨c, hc⟩ := hf o; rw [hc]
  have e3 : ∀ o, (f o).coords = o.coords := fun o => by obtain ⟨c, hc⟩ := hf o; rw [hc]
  have e4 : ∀ o, (f o).indices = o.indices := fun o => by obtain ⟨c, hc⟩ := hf o; rw [hc]
  refine ⟨coherent_modify h.1 i f (fun o _ => ⟨e1 o, e2 o⟩) ?_ ?_ ?_ ?_, kinds_modify h.2 i f e1⟩
  · intro o ho hko
    rw [e3]
    exact (h.1.tensors i o ho hko).2.2.2.2.1
  · intro o ho hko
    exact absurd (by rw [h.kind ho, hko]) hk
  · intro o ho hko
    rw [e4]
    exact ⟨(h.1.tensors i o ho hko).2.2.1, ht o ho⟩
  · intro o ho hko
    rw [e4]
    exact (h.1.metrics i o ho hko).2.2

end
end PyOGRe
