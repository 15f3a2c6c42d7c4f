import Verif.Lemmas.Requests
import Verif.Lemmas.Atlas
import Verif.Spec.Session
import Mathlib.LinearAlgebra.Matrix.Adjugate

/-! Helper lemmas: constructors, and the invariant of sessions. -/

namespace PyOGRe
open Spec Finset
variable {K : Type} [CommRing K]

theorem modify_append_length {α : Type} (l : List α) (o : α) (f : α → α) :
    (l ++ [o]).modify l.length f = l ++ [f o] := by
  induction l with
  | nil => rfl
  | cons x l ih => simp [ih]

theorem getElem?_append_length {α : Type} (l : List α) (o : α) : (l ++ [o])[l.length]? = some o := by simp

theorem writeComps_ok {self c : Id'} {ix : List Int} {a : Arr K} {w : World K} {o : Obj K}
    {d : Dict (List Int) (Arr K)} (h : w.objs[self]? = some o) (ha : o.alive = true)
    (hd : o.comps.get? c = some d) :
    writeComps self c ix a w = (.ok (), { w with objs := w.objs.modify self fun o =>
      { o with comps := o.comps.set c (d.set ix a) } }) := by
  unfold writeComps
  simp [getObj_ok h ha, lookup_ok hd, modifyObj]

/-- What a tensor looks like right after its constructor. -/
def freshObj (kind : Kind) (name symbol : String) (ix : List Int) (coords metric : Id')
    (d : Dict (List Int) (Arr K)) : Obj K :=
  { kind := kind, name := name, symbol := symbol, indices := ix, coords := coords, metric := metric,
    comps := [(coords, d)], syms := [], trans := [], jac := [], alive := true }

theorem shape_of_checks {s : List Nat} {n : Nat} (h : ¬ (s.any fun d => d != n) = true) :
    s = List.replicate s.length n := by
  rw [List.eq_replicate_iff]
  refine ⟨rfl, fun x hx => ?_⟩
  by_contra hne
  exact h (List.any_eq_true.2 ⟨x, hx, by simpa using hne⟩)

theorem any_config {l : List Int} (h : ¬ (l.any fun i => !(i == 1 || i == -1)) = true) :
    ∀ x ∈ l, x = 1 ∨ x = -1 := by
  intro x hx
  by_contra hc
  rw [not_or] at hc
  exact h (List.any_eq_true.2 ⟨x, hx, by simp [hc.1, hc.2]⟩)

theorem config_replicate (r : Nat) : Config r (List.replicate r (-1)) := by
  refine ⟨by simp, fun x hx => ?_⟩
  rw [List.mem_replicate] at hx
  exact Or.inr hx.2

/-- Validation of tensors, when it passes. -/
theorem validateBaseTensor_ok {name : Arg String} {s : List Nat} {n : Nat} {ix : IndicesArg}
    {symbol : Arg String} (h : validateBaseTensor name (.val s) n ix symbol = .ok ()) :
    s = List.replicate s.length n ∧ Config s.length (ix.getD s.length) ∧
      (∃ nm, name = .val nm) ∧ ∃ sy, symbol = .val sy := by
  unfold validateBaseTensor validateOGReObject at h
  cases name with
  | other => simp at h
  | val nm =>
    cases symbol with
    | other => simp at h
    | val sy =>
      have key : ∀ hx : validateIndicesRank ix s.length = .ok (), Config s.length (ix.getD s.length) := by
        intro hx
        cases ix with
        | none => exact config_replicate _
        | other => simp [validateIndicesRank] at hx
        | tuple l =>
          simp only [validateIndicesRank] at hx
          split_ifs at hx with h2 h3
          exact ⟨(not_not.1 h3).symm, any_config h2⟩
      dsimp only at h
      by_cases h1 : (s.any fun d => d != headDim s) = true
      · rw [if_pos h1] at h; simp at h
      · rw [if_neg h1] at h
        by_cases h4 : (s.any fun d => d != n) = true
        · rw [if_pos h4] at h
          cases ix with
          | other => simp at h
          | none => simp [validateIndicesRank] at h
          | tuple l =>
            dsimp only at h
            cases hv : validateIndicesRank (.tuple l) s.length with
            | error e => rw [hv] at h; simp at h
            | ok u => rw [hv] at h; simp at h
        · refine ⟨shape_of_checks h4, key ?_, ⟨nm, rfl⟩, sy, rfl⟩
          cases ix with
          | other => simp at h
          | none => rfl
          | tuple l =>
            dsimp only at h
            cases hv : validateIndicesRank (.tuple l) s.length with
            | error e => rw [hv] at h; simp at h
            | ok u => rfl

theorem isCoordinates_apply (c : Id') (w : World K) :
    isCoordinates c w = (.ok ((w.objs[c]?).any fun o => o.kind == .coordinates), w) := rfl

theorem isMetric_apply (c : Id') (w : World K) :
    isMetric c w = (.ok ((w.objs[c]?).any fun o => o.kind == .metric), w) := rfl

/-- The common part of the constructors: refused without effect, or a new object is appended. -/
theorem newBaseTensor_cases (kind : Kind) (name : Arg String) (a : Arr K) (m : Option Id') (c : Id')
    (ix : IndicesArg) (symbol : Arg String) (w : World K) :
    (∃ e, newBaseTensor kind name (.val a) m c ix symbol w = (.error e, w)) ∨
    ∃ oc, w.objs[c]? = some oc ∧ oc.kind = .coordinates ∧
      a.shape = List.replicate a.shape.length oc.syms.length ∧
      Config a.shape.length (ix.getD a.shape.length) ∧
      newBaseTensor kind name (.val a) m c ix symbol w = (.ok w.objs.length,
        { objs := w.objs ++ [freshObj kind (name.getD "") (symbol.getD "") (ix.getD a.shape.length) c
            (m.getD w.objs.length) [(ix.getD a.shape.length, a)]],
          instances := w.instances ++ [w.objs.length] }) := by
  unfold newBaseTensor
  simp only [PyM.bind_apply, isCoordinates_apply]
  cases hc : w.objs[c]? with
  | none => left; exact ⟨.typeError, by simp⟩
  | some oc =>
    by_cases hk : oc.kind = .coordinates
    · simp only [Option.any_some, hk, beq_self_eq_true, Bool.not_true, Bool.false_eq_true, if_false,
        PyM.bind_apply]
      rcases getObj_cases c w with ⟨o, h1, h2, h3⟩ | h
      · rw [hc] at h1; cases h1
        rw [h3]
        dsimp only
        rw [PyM.lift_apply]
        rw [show argShape (Arg.val a) = .val a.shape from rfl]
        cases hv : validateBaseTensor name (.val a.shape) oc.syms.length ix symbol with
        | error e => left; exact ⟨e, rfl⟩
        | ok u =>
          right
          obtain ⟨v1, v2, -, -⟩ := validateBaseTensor_ok hv
          refine ⟨oc, rfl, hk, v1, v2, rfl⟩
      · rw [h]; left; exact ⟨_, rfl⟩
    · left
      exact ⟨.typeError, by simp [hk]⟩

theorem newTensor_cases (kind : Kind) (name : Arg String) (a : Arr K) (m c : Id')
    (ix : IndicesArg) (symbol : Arg String) (w : World K) :
    (∃ e, newTensor kind name (.val a) m c ix symbol w = (.error e, w)) ∨
    ∃ oc om, w.objs[c]? = some oc ∧ oc.kind = .coordinates ∧ w.objs[m]? = some om ∧ om.kind = .metric ∧
      a.shape = List.replicate a.shape.length oc.syms.length ∧
      Config a.shape.length (ix.getD a.shape.length) ∧
      newTensor kind name (.val a) m c ix symbol w = (.ok w.objs.length,
        { objs := w.objs ++ [freshObj kind (name.getD "") (symbol.getD "") (ix.getD a.shape.length) c m
            [(ix.getD a.shape.length, a)]],
          instances := w.instances ++ [w.objs.length] }) := by
  unfold newTensor
  simp only [PyM.bind_apply, isMetric_apply]
  cases hm : w.objs[m]? with
  | none => left; exact ⟨.typeError, by simp⟩
  | some om =>
    by_cases hk : om.kind = .metric
    · simp only [Option.any_some, hk, beq_self_eq_true, Bool.not_true, Bool.false_eq_true, if_false]
      rcases newBaseTensor_cases kind name a (some m) c ix symbol w with h | ⟨oc, h1, h2, h3, h4, h5⟩
      · left; exact h
      · right; exact ⟨oc, om, h1, h2, rfl, hk, h3, h4, h5⟩
    · left
      exact ⟨.typeError, by simp [hk]⟩

/-- Validation of metrics, when it passes. -/
theorem validateMetric_ok [DecidableEq K] {E : Engine K} {name : Arg String} {a : Arr K} {ix : IndicesArg}
    {symbol : Arg String} (h : validateMetric E name (.val a) ix symbol = .ok ()) :
    a.shape.length = 2 ∧ E.det a ≠ 0 ∧ isSymmetric a = true ∧
      (ix.getD 2 = [-1, -1] ∨ ix.getD 2 = [1, 1]) ∧ ix ≠ .other ∧
      a.shape = List.replicate 2 (headDim a.shape) := by
  unfold validateMetric at h
  dsimp only at h
  cases hv : validateOGReObject name (.val a.shape) symbol ix with
  | error e => rw [hv] at h; simp at h
  | ok u =>
    rw [hv, py_ok_bind] at h
    split_ifs at h with h1 h2 h3
    have hl : a.shape.length = 2 := not_not.1 h1
    rw [not_or] at h2
    have h2' : isSymmetric a = true := by
      cases hs : isSymmetric a
      · exact absurd hs h2.2
      · rfl
    have hsh : a.shape = List.replicate 2 (headDim a.shape) := by
      unfold validateOGReObject at hv
      cases name <;> cases symbol <;> simp only [py_throw, reduceCtorEq] at hv
      split_ifs at hv with h5
      have := shape_of_checks h5
      rwa [hl] at this
    have hix : ix ≠ .other := by
      rintro rfl
      unfold validateOGReObject at hv
      cases name <;> cases symbol <;> simp only [py_throw, reduceCtorEq] at hv
      split_ifs at hv
    refine ⟨hl, h2.1, h2', ?_, hix, hsh⟩
    cases ix with
    | none => left; rfl
    | other => exact absurd rfl hix
    | tuple l =>
      simp only [IndicesArg.getD]
      have hcl : ∀ x ∈ l, x = 1 ∨ x = -1 := by
        unfold validateOGReObject at hv
        cases name <;> cases symbol <;> simp only [py_throw, reduceCtorEq] at hv
        split_ifs at hv with h5
        simp only [validateIndicesRank] at hv
        split_ifs at hv with h6 h7
        exact any_config h6
      dsimp only at h
      split_ifs at h with h8
      match l, not_not.1 h8 with
      | [x, y], _ =>
        rw [not_or] at h3
        rcases hcl x (by simp) with rfl | rfl <;> rcases hcl y (by simp) with rfl | rfl
        · right; rfl
        · exact absurd rfl h3.1
        · exact absurd rfl h3.2
        · left; rfl

/-- The metric constructor: refused without effect, or a metric is appended (with or without the inverse,
according to whether the constructor returned). -/
theorem newMetric_cases [DecidableEq K] (E : Engine K) (name : Arg String) (a : Arr K) (c : Id')
    (ix : IndicesArg) (symbol : Arg String) (w : World K) :
    (∃ e, newMetric E name (.val a) c ix symbol w = (.error e, w)) ∨
    ∃ oc, w.objs[c]? = some oc ∧ oc.kind = .coordinates ∧ a.shape = [oc.syms.length, oc.syms.length] ∧
      E.det a ≠ 0 ∧ isSymmetric a = true ∧ (ix.getD 2 = [-1, -1] ∨ ix.getD 2 = [1, 1]) ∧
      ((∃ e, (ix = .none ∨ E.inv a = .error e) ∧ newMetric E name (.val a) c ix symbol w = (.error e,
        { objs := w.objs ++ [freshObj .metric (name.getD "") (symbol.getD "") (ix.getD 2) c w.objs.length
            [(ix.getD 2, a), ([1, -1], eye oc.syms.length), ([-1, 1], eye oc.syms.length)]],
          instances := w.instances ++ [w.objs.length] })) ∨
      ∃ b, E.inv a = .ok b ∧ newMetric E name (.val a) c ix symbol w = (.ok w.objs.length,
        { objs := w.objs ++ [freshObj .metric (name.getD "") (symbol.getD "") (ix.getD 2) c w.objs.length
            [(ix.getD 2, a), ([1, -1], eye oc.syms.length), ([-1, 1], eye oc.syms.length),
              (negIndices (ix.getD 2), b)]],
          instances := w.instances ++ [w.objs.length] })) := by
  unfold newMetric
  rw [PyM.bind_apply, PyM.lift_apply]
  cases hv : validateMetric E name (.val a) ix symbol with
  | error e => left; exact ⟨e, rfl⟩
  | ok u =>
    obtain ⟨v1, v2, v3, v4, v5, v6⟩ := validateMetric_ok hv
    dsimp only
    rw [PyM.bind_apply]
    rcases newBaseTensor_cases .metric name a none c ix symbol w with ⟨e, h⟩ | ⟨oc, h1, h2, h3, h4, h5⟩
    · left; rw [h]; exact ⟨e, rfl⟩
    · right
      rw [v1] at h3 h4 h5
      have hhd : headDim a.shape = oc.syms.length := by rw [h3]; rfl
      refine ⟨oc, h1, h2, h3, v2, v3, v4, ?_⟩
      rw [h5]
      dsimp only
      set nm := name.getD ""
      set sy := symbol.getD ""
      set cfg := ix.getD 2
      have hne1 : cfg ≠ [1, -1] := by rcases v4 with h | h <;> rw [h] <;> decide
      have hne2 : cfg ≠ [-1, 1] := by rcases v4 with h | h <;> rw [h] <;> decide
      have hg : ∀ (d : Dict (List Int) (Arr K)) inst, getObj w.objs.length
          { objs := w.objs ++ [freshObj .metric nm sy cfg c w.objs.length d], instances := inst } =
          (.ok (freshObj .metric nm sy cfg c w.objs.length d),
            { objs := w.objs ++ [freshObj .metric nm sy cfg c w.objs.length d], instances := inst }) :=
        fun d inst => getObj_ok (getElem?_append_length _ _) rfl
      have hr : ∀ (d : Dict (List Int) (Arr K)) inst x, readComps w.objs.length c cfg
          { objs := w.objs ++ [freshObj .metric nm sy cfg c w.objs.length ((cfg, x) :: d)], instances := inst } =
          (.ok x,
            { objs := w.objs ++ [freshObj .metric nm sy cfg c w.objs.length ((cfg, x) :: d)],
              instances := inst }) := by
        intro d inst x
        refine readComps_ok (getElem?_append_length _ _) rfl (d := (cfg, x) :: d) ?_ ?_
        · simp [freshObj, Dict.get?_cons]
        · rw [Dict.get?_cons, if_pos rfl]
      have hw : ∀ (d : Dict (List Int) (Arr K)) inst x jx, writeComps w.objs.length c jx x
          { objs := w.objs ++ [freshObj .metric nm sy cfg c w.objs.length d], instances := inst } =
          (.ok (),
            { objs := w.objs ++ [freshObj .metric nm sy cfg c w.objs.length (d.set jx x)],
              instances := inst }) := by
        intro d inst x jx
        rw [writeComps_ok (getElem?_append_length _ _) rfl (d := d) (by simp [freshObj, Dict.get?_cons]),
          modify_append_length]
        simp [freshObj, Dict.set]
      simp only [Option.getD_none, PyM.bind_apply]
      rw [hg]
      dsimp only
      have hfi : (freshObj (K := K) .metric nm sy cfg c w.objs.length [(cfg, a)]).indices = cfg := rfl
      simp only [hfi]
      rw [hr]
      dsimp only
      rw [hw]
      dsimp only
      rw [Dict.set_cons_head _ _ _ _ hne1, hr]
      dsimp only
      rw [hw, Dict.set_cons_head _ _ _ _ hne2]
      simp only [Dict.set, hhd]
      cases hix : ix with
      | other => exact absurd hix v5
      | none => left; exact ⟨.typeError, Or.inl rfl, by simp [cfg, hix]⟩
      | tuple l =>
        have hcl : cfg = l := by simp [cfg, hix, IndicesArg.getD]
        simp only [PyM.bind_apply]
        rw [if_neg (by decide), hr]
        dsimp only
        rw [PyM.lift_apply]
        cases hinv : E.inv a with
        | error e => left; exact ⟨e, Or.inr rfl, rfl⟩
        | ok b =>
          right
          refine ⟨b, rfl, ?_⟩
          dsimp only
          rw [hw, Dict.set_cons_head]
          · rw [← hcl]
            have e1 : negIndices cfg ≠ [1, -1] := by rcases v4 with h | h <;> rw [h] <;> decide
            have e2 : negIndices cfg ≠ [-1, 1] := by rcases v4 with h | h <;> rw [h] <;> decide
            simp [Dict.set, Ne.symm e1, Ne.symm e2]
          · show cfg ≠ negIndices l
            rw [← hcl]
            rcases v4 with h | h <;> rw [h] <;> decide

section
variable {E : Engine K} {A : Atlas K} {h : Id'} {F : Frames K} {H : Home K}

/-- In the home system the geometry shows what was declared. -/
theorem geometry_home (hC : Consistent E A h F) (hH : H.OK A.n F.fns) (t : Id') (ix J : List _) (hl : ix.length = J.length)
    (hJ : ∀ x ∈ J, x < A.n) : (H.geometry A.n F).comp t h ix J = H.comp A.n t ix J := by
  show applyFactors A.n (ix.map (coordFactor (F.J h) (F.Jinv h))) (fun I => F.sub h (H.comp A.n t ix I)) J = _
  rw [applyFactors_delta A.n _ _ J hJ (by simpa using hl), hC.sub_home _ (home_comp_mem hH t ix J hJ)]
  have hJ' : toMat A.n (F.J h) = 1 := by
    rw [← toMat_delta, toMat_eq]; exact hC.J_home
  have hi := (inverse_iff.1 (hC.inverse h)).1
  rw [hJ', one_mul] at hi
  intro M hM
  rw [← toMat_eq, toMat_delta]
  obtain ⟨a, -, rfl⟩ := List.mem_map.1 hM
  rw [toMat_coordFactor, hi, hJ']
  simp

theorem zip_self_eq {α : Type} (l : List α) : ∀ p ∈ l.zip l, p.1 = p.2 := by
  induction l with
  | nil => simp
  | cons x l ih =>
    intro p hp
    rw [List.zip_cons_cons, List.mem_cons] at hp
    rcases hp with rfl | hp
    · rfl
    · exact ih p hp

theorem home_src {n : Nat} (t : Id') (hc : Config (H.rank t) (H.src t)) (J : List Nat)
    (hl : J.length = H.rank t) (hJ : ∀ x ∈ J, x < n) : H.comp n t (H.src t) J = H.base t J := by
  unfold Home.comp
  refine applyFactors_delta n _ _ J hJ (by simp [hc.1, hl]) ?_
  intro M hM
  rw [zipWith_map_left_right] at hM
  obtain ⟨p, hp, rfl⟩ := List.mem_map.1 hM
  have hpp : p.1 = p.2 := zip_self_eq _ p hp
  have h1 : ¬ (p.1 = -1 ∧ p.2 = 1) := by rw [hpp]; omega
  have h2 : ¬ (p.1 = 1 ∧ p.2 = -1) := by rw [hpp]; omega
  intro i j _ _
  rw [indexFactor, if_neg h1, if_neg h2]

/-- One more declaration. -/
def addHome (H : Home K) (i : Id') (r : Nat) (src : List Int) (base : List Nat → K) (m : Id')
    (g ginv : Nat → Nat → K) : Home K where
  rank := Function.update H.rank i r
  src := Function.update H.src i src
  base := Function.update H.base i base
  metricOf := Function.update H.metricOf i m
  g := Function.update H.g i g
  ginv := Function.update H.ginv i ginv

theorem addHome_ok {n : Nat} {S : Subring K} (hH : H.OK n S) (i : Id') (hm : ∀ t, t ≠ i → H.metricOf t ≠ i)
    {r : Nat} {src : List Int} {base : List Nat → K} {m : Id'} {g ginv : Nat → Nat → K}
    (hc : Config r src) (hb : ∀ J, base J ∈ S)
    (hk : (m ≠ i ∧ H.metricOf m = m) ∨ (m = i ∧ r = 2 ∧ (∀ i j, i < n → j < n → g i j ∈ S) ∧
      (∀ i j, i < n → j < n → ginv i j ∈ S) ∧ (∀ i j, i < n → j < n → g i j = g j i) ∧
      Inverse n g ginv ∧ ((src = [-1, -1] ∧ ∀ i j, i < n → j < n → base [i, j] = g i j) ∨
        (src = [1, 1] ∧ ∀ i j, i < n → j < n → base [i, j] = ginv i j)))) :
    (addHome H i r src base m g ginv).OK n S := by
  have hmi : ∀ t, t ≠ i → (addHome H i r src base m g ginv).metricOf t = H.metricOf t :=
    fun t ht => Function.update_of_ne ht _ _
  have hmi' : (addHome H i r src base m g ginv).metricOf i = m := Function.update_self ..
  have red : ∀ t, (addHome H i r src base m g ginv).metricOf t = i ∨
      (addHome H i r src base m g ginv).metricOf t ≠ i ∧
      ∃ t', (addHome H i r src base m g ginv).metricOf t = H.metricOf t' := by
    intro t
    by_cases ht : t = i
    · subst ht
      rw [hmi']
      rcases hk with ⟨h1, h2⟩ | ⟨h1, -⟩
      · exact Or.inr ⟨h1, m, h2.symm⟩
      · exact Or.inl h1
    · rw [hmi t ht]
      exact Or.inr ⟨hm t ht, t, rfl⟩
  have inew : ∀ t, (addHome H i r src base m g ginv).metricOf t = i →
      m = i ∧ r = 2 ∧ (∀ i j, i < n → j < n → g i j ∈ S) ∧
      (∀ i j, i < n → j < n → ginv i j ∈ S) ∧ (∀ i j, i < n → j < n → g i j = g j i) ∧
      Inverse n g ginv ∧ ((src = [-1, -1] ∧ ∀ i j, i < n → j < n → base [i, j] = g i j) ∨
        (src = [1, 1] ∧ ∀ i j, i < n → j < n → base [i, j] = ginv i j)) := by
    intro t ht
    by_cases hti : t = i
    · subst hti
      rw [hmi'] at ht
      rcases hk with ⟨h1, -⟩ | h2
      · exact absurd ht h1
      · exact h2
    · rw [hmi t hti] at ht
      exact absurd ht (hm t hti)
  refine ⟨?_, ?_, ?_, ?_, ?_, ?_, ?_, ?_, ?_⟩
  · intro t
    by_cases ht : t = i
    · subst ht; simpa [addHome] using hb
    · simpa [addHome, ht] using hH.base_mem t
  · intro t
    rcases red t with h1 | ⟨h1, t', h2⟩
    · rw [h1]; simpa [addHome] using (inew t h1).2.2.1
    · rw [h2] at h1 ⊢
      simpa [addHome, h1] using hH.g_mem t'
  · intro t
    rcases red t with h1 | ⟨h1, t', h2⟩
    · rw [h1]; simpa [addHome] using (inew t h1).2.2.2.1
    · rw [h2] at h1 ⊢
      simpa [addHome, h1] using hH.ginv_mem t'
  · intro t
    by_cases ht : t = i
    · subst ht; simpa [addHome] using hc
    · simpa [addHome, ht] using hH.config t
  · intro t
    rcases red t with h1 | ⟨h1, t', h2⟩
    · rw [h1, hmi', (inew t h1).1]
    · rw [hmi _ h1, h2]; exact hH.metric t'
  · intro t
    rcases red t with h1 | ⟨h1, t', h2⟩
    · rw [h1]; simpa [addHome] using (inew t h1).2.1
    · rw [h2] at h1 ⊢
      simpa [addHome, h1] using hH.rank_metric t'
  · intro t
    rcases red t with h1 | ⟨h1, t', h2⟩
    · rw [h1]; simpa [addHome] using (inew t h1).2.2.2.2.1
    · rw [h2] at h1 ⊢
      simpa [addHome, h1] using hH.symm t'
  · intro t
    rcases red t with h1 | ⟨h1, t', h2⟩
    · rw [h1]; simpa [addHome] using (inew t h1).2.2.2.2.2.1
    · rw [h2] at h1 ⊢
      simpa [addHome, h1] using hH.inverse t'
  · intro t
    rcases red t with h1 | ⟨h1, t', h2⟩
    · rw [h1]; simpa [addHome] using (inew t h1).2.2.2.2.2.2
    · rw [h2] at h1 ⊢
      simpa [addHome, h1] using hH.declared t'

theorem addHome_comp {n : Nat} (i : Id') (hm : ∀ t, t ≠ i → H.metricOf t ≠ i)
    (r : Nat) (src : List Int) (base : List Nat → K) (m : Id') (g ginv : Nat → Nat → K) (t : Id')
    (ht : t ≠ i) :
    ((addHome H i r src base m g ginv).geometry n F).comp t = (H.geometry n F).comp t := by
  have := hm t ht
  simp [Home.geometry, Home.comp, addHome, ht, this]

/-- What holds between the calls of a session. -/
structure Inv (E : Engine K) (A : Atlas K) (h : Id') (F : Frames K) (H : Home K) (w : World K) : Prop where
  coherent : Coherent E A (H.geometry A.n F) w
  ok : H.OK A.n F.fns
  fresh : ∀ t, w.objs.length ≤ t → H.metricOf t = t
  old : ∀ t, t < w.objs.length → H.metricOf t < w.objs.length
  home : ∃ o, w.objs[h]? = some o ∧ o.kind = .coordinates

theorem Inv.ne {w : World K} (hI : Inv E A h F H w) (t : Id') (ht : t ≠ w.objs.length) :
    H.metricOf t ≠ w.objs.length := by
  intro he
  rcases Nat.lt_or_ge t w.objs.length with h1 | h1
  · exact absurd he (Nat.ne_of_lt (hI.old t h1))
  · exact ht ((hI.fresh t h1).symm.trans he)

/-- Appending a declared object. -/
theorem Inv.append {w : World K} (hI : Inv E A h F H w) {kind : Kind} {name symbol : String}
    {r : Nat} {src : List Int} {base : List Nat → K} {m : Id'} {g ginv : Nat → Nat → K}
    {d : Dict (List Int) (Arr K)} {inst : List Id'} {c0 : Id'}
    (hc0 : ∃ oc, w.objs[c0]? = some oc ∧ oc.kind = .coordinates)
    (hH : (addHome H w.objs.length r src base m g ginv).OK A.n F.fns)
    (hk : (kind = .tensor ∧ ∃ om, w.objs[m]? = some om ∧ om.kind = .metric) ∨
      (kind = .metric ∧ m = w.objs.length ∧ r = 2 ∧ (src = [-1, -1] ∨ src = [1, 1])))
    (hd : ∀ ix a, d.get? ix = some a → Config r ix ∧ Agree A.n r a
      (((addHome H w.objs.length r src base m g ginv).geometry A.n F).comp w.objs.length c0 ix)) :
    Inv E A h F (addHome H w.objs.length r src base m g ginv)
      { objs := w.objs ++ [freshObj kind name symbol src c0 m d], instances := inst } := by
  set i := w.objs.length with hi
  set H' := addHome H i r src base m g ginv with hH'
  have hold : ∀ t, t ≠ i → H'.metricOf t = H.metricOf t := fun t ht => Function.update_of_ne ht _ _
  have hnew : H'.metricOf i = m := Function.update_self ..
  have hrold : ∀ t, t ≠ i → H'.rank t = H.rank t := fun t ht => Function.update_of_ne ht _ _
  have hrnew : H'.rank i = r := Function.update_self ..
  have hsnew : H'.src i = src := Function.update_self ..
  have hcold : ∀ t, t ≠ i → (H'.geometry A.n F).comp t = (H.geometry A.n F).comp t :=
    fun t ht => addHome_comp i hI.ne r src base m g ginv t ht
  have hget : ∀ (t : Nat) o, (w.objs ++ [freshObj kind name symbol src c0 m d])[t]? = some o →
      (t < i ∧ w.objs[t]? = some o) ∨ (t = i ∧ o = freshObj kind name symbol src c0 m d) := by
    intro t o hto
    rcases Nat.lt_trichotomy t i with h1 | h1 | h1
    · left; rw [List.getElem?_append_left h1] at hto; exact ⟨h1, hto⟩
    · right; subst h1; rw [getElem?_append_length] at hto; exact ⟨rfl, (Option.some.inj hto).symm⟩
    · rw [List.getElem?_eq_none (by simp; omega)] at hto; cases hto
  have hlt : ∀ (t : Nat) o, w.objs[t]? = some o → (w.objs ++ [freshObj kind name symbol src c0 m d])[t]? = some o := by
    intro t o ht
    have : t < w.objs.length := by
      by_contra hc
      rw [List.getElem?_eq_none (by omega)] at ht; cases ht
    rw [List.getElem?_append_left this, ht]
  have hmi : m < i ∨ (kind = .metric ∧ m = i) := by
    rcases hk with ⟨-, om, h1, -⟩ | ⟨h1, h2, -⟩
    · left
      by_contra hc
      rw [List.getElem?_eq_none (Nat.le_of_not_lt hc)] at h1; cases h1
    · exact Or.inr ⟨h1, h2⟩
  refine ⟨⟨?_, ?_, ?_⟩, hH, ?_, ?_, ?_⟩
  · intro c o ho hko
    rcases hget c o ho with ⟨-, h1⟩ | ⟨-, rfl⟩
    · exact hI.coherent.charts c o h1 hko
    · rcases hk with ⟨rfl, -⟩ | ⟨rfl, -⟩ <;> cases hko
  · intro t o ho hko
    rcases hget t o ho with ⟨h0, h1⟩ | ⟨rfl, rfl⟩
    · have hti : t ≠ i := Nat.ne_of_lt h0
      obtain ⟨a1, a2, a3, ⟨om, a4, a4'⟩, ⟨oc, a5, a5'⟩, a6⟩ := hI.coherent.tensors t o h1 hko
      refine ⟨?_, hH.metric t, ?_, ⟨om, hlt _ _ a4, a4'⟩, ⟨oc, hlt _ _ a5, a5'⟩, ?_⟩
      · show _ = H'.metricOf t
        rw [hold t hti]; exact a1
      · show Config (H'.rank t) _
        rw [hrold t hti]; exact a3
      · intro c d' ix a hc ha
        show Config (H'.rank t) ix ∧ Agree A.n (H'.rank t) a _
        rw [hrold t hti, hcold t hti]
        exact a6 c d' ix a hc ha
    · refine ⟨hnew.symm, hH.metric _, ?_, ?_, ?_, ?_⟩
      · have := hH.config i
        rwa [hsnew] at this
      · rcases hk with ⟨-, om, h1, h2⟩ | ⟨h1, h2, -⟩
        · exact ⟨om, hlt _ _ h1, h2⟩
        · refine ⟨freshObj kind name symbol src c0 m d, ?_, h1⟩
          show (w.objs ++ [freshObj kind name symbol src c0 m d])[m]? = _
          subst h2
          exact getElem?_append_length _ _
      · obtain ⟨oc, h1, h2⟩ := hc0
        exact ⟨oc, hlt _ _ h1, h2⟩
      · intro c d' ix a hc ha
        show Config (H'.rank i) ix ∧ Agree A.n (H'.rank i) a _
        rw [hrnew]
        simp only [freshObj, Dict.get?_cons, Dict.get?_nil] at hc
        split_ifs at hc with hch
        cases hc; subst hch
        exact hd ix a ha
  · intro t o ho hko
    rcases hget t o ho with ⟨h0, h1⟩ | ⟨rfl, rfl⟩
    · have hti : t ≠ i := Nat.ne_of_lt h0
      obtain ⟨a1, a2, a3⟩ := hI.coherent.metrics t o h1 hko
      exact ⟨(hrold t hti).trans a1, (hold t hti).trans a2, a3⟩
    · rcases hk with ⟨rfl, -⟩ | ⟨rfl, h2, h3, h4⟩
      · cases hko
      · exact ⟨hrnew.trans h3, hnew.trans h2, h4⟩
  · intro t ht
    have ht' : i + 1 ≤ t := by simpa using ht
    rw [hold t (by omega)]
    exact hI.fresh t (by omega)
  · intro t ht
    have ht' : t < i + 1 := by simpa using ht
    show H'.metricOf t < (w.objs ++ [freshObj kind name symbol src c0 m d]).length
    rw [List.length_append, List.length_singleton]
    by_cases hti : t = i
    · subst hti
      rw [hnew]
      rcases hmi with h1 | ⟨-, h1⟩
      · exact Nat.lt_succ_of_lt h1
      · exact h1 ▸ Nat.lt_succ_self _
    · rw [hold t hti]
      exact Nat.lt_succ_of_lt (hI.old t (Nat.lt_of_le_of_ne (Nat.le_of_lt_succ ht') hti))
  · obtain ⟨oc, h1, h2⟩ := hI.home
    exact ⟨oc, hlt _ _ h1, h2⟩

/-- Requests keep the invariant. -/
theorem Inv.keeps {α : Type} {w : World K} (hI : Inv E A h F H w) {m : PyM K α} {R : World K → Prop}
    {Q : α → World K → Prop}
    (hm : Keeps (CohK E A (H.geometry A.n F) fun i => w.objs[i]?.map (·.kind)) R m Q) (hR : R w) :
    Inv E A h F H (m w).2 ∧ ∀ a, (m w).1 = .ok a → Q a (m w).2 := by
  obtain ⟨⟨h1, h2⟩, h3⟩ := hm w ⟨hI.coherent, fun _ => rfl⟩ hR
  dsimp only at h2
  have hlen : (m w).2.objs.length = w.objs.length := by
    apply Nat.le_antisymm
    · by_contra hc
      have := h2 w.objs.length
      rw [List.getElem?_eq_none (l := w.objs) (Nat.le_refl _), List.getElem?_eq_getElem (by omega)] at this
      cases this
    · by_contra hc
      have := h2 (m w).2.objs.length
      rw [List.getElem?_eq_none (l := (m w).2.objs) (Nat.le_refl _), List.getElem?_eq_getElem (l := w.objs) (by omega)] at this
      cases this
  refine ⟨⟨h1, hI.ok, ?_, ?_, ?_⟩, h3⟩
  · rw [hlen]; exact hI.fresh
  · rw [hlen]; exact hI.old
  · obtain ⟨o, ho, hk⟩ := hI.home
    have := h2 h
    rw [ho] at this
    obtain ⟨o', ho', hk'⟩ := Option.map_eq_some_iff.1 this
    exact ⟨o', ho', hk'.trans hk⟩

theorem isSymmetric_iff [DecidableEq K] (a : Arr K) : isSymmetric a = true ↔
    ∀ i j, i < headDim a.shape → j < headDim a.shape → a.get [i, j] = a.get [j, i] := by
  simp only [isSymmetric, List.all_eq_true, List.mem_range, beq_iff_eq]
  exact ⟨fun h i j hi hj => h i hi j hj, fun h i hi j hj => h i j hi hj⟩

theorem inverse_symm {n : Nat} {M N : Nat → Nat → K} (h : Inverse n M N)
    (hM : ∀ i j, i < n → j < n → M i j = M j i) : ∀ i j, i < n → j < n → N i j = N j i := by
  obtain ⟨h1, h2⟩ := inverse_iff.1 h
  have hT : (toMat n M).transpose = toMat n M := by
    rw [← toMat_transpose, toMat_eq]; exact fun i j hi hj => hM j i hj hi
  rw [← toMat_eq (N := fun i j => N j i), toMat_transpose]
  have h3 : (toMat n N).transpose * toMat n M = 1 := by
    have := congrArg Matrix.transpose h1
    rwa [Matrix.transpose_mul, hT, Matrix.transpose_one] at this
  calc toMat n N = (toMat n N).transpose * toMat n M * toMat n N := by rw [h3, one_mul]
    _ = _ := by rw [mul_assoc, h1, mul_one]; rfl

theorem agree_toMat {n : Nat} {a : Arr K} {f : List Nat → K} (ha : a.WF) (hs : a.shape = [n, n])
    (h : toMat n (fun i j => a.get [i, j]) = toMat n (fun i j => f [i, j])) : Agree n 2 a f := by
  refine ⟨ha, hs, ?_⟩
  intro J hl hJ
  match J, hl with
  | [i, j], _ => exact toMat_eq.1 h i j (hJ i (by simp)) (hJ j (by simp))

theorem agree_congr {n r : Nat} {a : Arr K} {f f' : List Nat → K} (h : Agree n r a f)
    (hf : ∀ J : List Nat, J.length = r → (∀ x ∈ J, x < n) → f J = f' J) : Agree n r a f' :=
  ⟨h.1, h.2.1, fun J hl hJ => (h.2.2 J hl hJ).trans (hf J hl hJ)⟩

/-- Later declarations do not touch earlier ones. -/
def Extends (n : Nat) (F : Frames K) (N : Nat) (H H' : Home K) : Prop :=
  ∀ t, t < N → H'.rank t = H.rank t ∧ H'.src t = H.src t ∧ H'.base t = H.base t ∧
    H'.metricOf t = H.metricOf t ∧ (H'.geometry n F).comp t = (H.geometry n F).comp t

/-- The object that an event is about. -/
def eventId : Event K → Id'
  | .metric i _ _ _ => i
  | .tensor i _ _ _ _ => i
  | .got t _ _ _ => t

theorem Extends.refl (n : Nat) (F : Frames K) (N : Nat) (H : Home K) : Extends n F N H H :=
  fun _ _ => ⟨rfl, rfl, rfl, rfl, rfl⟩

theorem Extends.trans {n : Nat} {F : Frames K} {N N' : Nat} {H H' H'' : Home K} (hN : N ≤ N')
    (h : Extends n F N H H') (h' : Extends n F N' H' H'') : Extends n F N H H'' := by
  intro t ht
  obtain ⟨a1, a2, a3, a4, a5⟩ := h t ht
  obtain ⟨b1, b2, b3, b4, b5⟩ := h' t (Nat.lt_of_lt_of_le ht hN)
  exact ⟨b1.trans a1, b2.trans a2, b3.trans a3, b4.trans a4, b5.trans a5⟩

theorem Extends.explained {F : Frames K} {N : Nat} {H H' : Home K} (h : Extends A.n F N H H')
    (e : Event K) (he : eventId e < N) (hx : e.ExplainedBy A F H) : e.ExplainedBy A F H' := by
  obtain ⟨a1, a2, a3, a4, a5⟩ := h _ he
  cases e with
  | metric i c ix a =>
    refine ⟨a4.trans hx.1, ?_⟩
    simp only [eventId] at a1 a5
    rw [a1, a5]
    exact hx.2
  | tensor i m c ix a =>
    refine ⟨a4.trans hx.1, ?_⟩
    simp only [eventId] at a1 a5
    rw [a1, a5]
    exact hx.2
  | got t c ix b =>
    show Config (H'.rank t) ix ∧ Agree A.n (H'.rank t) b ((H'.geometry A.n F).comp t c ix)
    simp only [eventId] at a1 a5
    rw [a1, a5]
    exact hx

theorem extends_addHome {w : World K} (hI : Inv E A h F H w) (r : Nat) (src : List Int)
    (base : List Nat → K) (m : Id') (g ginv : Nat → Nat → K) :
    Extends A.n F w.objs.length H (addHome H w.objs.length r src base m g ginv) := by
  intro t ht
  have hne : t ≠ w.objs.length := Nat.ne_of_lt ht
  exact ⟨Function.update_of_ne hne _ _, Function.update_of_ne hne _ _, Function.update_of_ne hne _ _,
    Function.update_of_ne hne _ _, addHome_comp _ hI.ne _ _ _ _ _ _ t hne⟩

theorem get_mem {S : Subring K} {a : Arr K} (h : ∀ x ∈ a.data, x ∈ S) (J : List Nat) : a.get J ∈ S := by
  unfold Arr.get
  rw [List.getD_eq_getElem?_getD]
  cases hx : a.data[ravel a.shape J]? with
  | none => simpa using S.zero_mem
  | some x => exact h x (List.mem_of_getElem? hx)

theorem inverse_mem {S : Subring K} (hS : ∀ x y, x ∈ S → x * y = 1 → y ∈ S) {n : Nat}
    {M N : Nat → Nat → K} (h : Inverse n M N) (hM : ∀ i j, i < n → j < n → M i j ∈ S) :
    ∀ i j, i < n → j < n → N i j ∈ S := by
  obtain ⟨h1, h2⟩ := inverse_iff.1 h
  let M' : Matrix (Fin n) (Fin n) S := fun i j => ⟨M i j, hM i j i.2 j.2⟩
  have hMM : S.subtype.mapMatrix M' = toMat n M := by funext i j; rfl
  have hdet : (toMat n M).det = S.subtype M'.det := by rw [← hMM, ← RingHom.map_det]
  have hdd : (toMat n M).det * (toMat n N).det = 1 := by rw [← Matrix.det_mul, h1, Matrix.det_one]
  have hdN : (toMat n N).det ∈ S := by
    refine hS _ _ ?_ hdd
    rw [hdet]
    exact M'.det.2
  have hN : toMat n N = (toMat n N).det • (toMat n M).adjugate := by
    have h3 : (toMat n M).adjugate = (toMat n M).det • toMat n N := by
      calc (toMat n M).adjugate = (toMat n M).adjugate * (toMat n M * toMat n N) := by rw [h1, mul_one]
        _ = _ := by rw [← mul_assoc, Matrix.adjugate_mul, Matrix.smul_mul, one_mul]
    rw [h3, smul_smul, mul_comm, hdd, one_smul]
  intro i j hi hj
  have := congrFun (congrFun hN ⟨i, hi⟩) ⟨j, hj⟩
  rw [Matrix.smul_apply, ← hMM, ← RingHom.map_adjugate] at this
  show toMat n N ⟨i, hi⟩ ⟨j, hj⟩ ∈ S
  rw [this]
  exact S.mul_mem hdN (M'.adjugate _ _).2

/-- Declaring a tensor. -/
theorem Inv.newTensor {w : World K} (hA : A.OK) (hI : Inv E A h F H w)
    (name : Arg String) (a : Arr K) (m c0 : Id') (ix : IndicesArg) (symbol : Arg String)
    (ha0 : a.WF ∧ ∃ base : List Nat → K, (∀ J, base J ∈ F.fns) ∧
      ∀ J : List Nat, J.length = a.rank → (∀ x ∈ J, x < A.n) →
        a.get J = SeenFrom A.n F c0 (ix.getD a.rank) base J) :
    ∃ H', Inv E A h F H' (PyOGRe.newTensor .tensor name (.val a) m c0 ix symbol w).2 ∧
      Extends A.n F w.objs.length H H' ∧
      w.objs.length ≤ (PyOGRe.newTensor .tensor name (.val a) m c0 ix symbol w).2.objs.length ∧
      ∀ i, (PyOGRe.newTensor .tensor name (.val a) m c0 ix symbol w).1 = .ok i →
        i < (PyOGRe.newTensor .tensor name (.val a) m c0 ix symbol w).2.objs.length ∧
        (Event.tensor i m c0 (ix.getD a.rank) a).ExplainedBy A F H' := by
  obtain ⟨ha, base, hS, hseen⟩ := ha0
  rcases newTensor_cases .tensor name a m c0 ix symbol w with ⟨e, he⟩ | ⟨oc, om, h1, h2, h3, h4, h5, h6, h7⟩
  · rw [he]
    exact ⟨H, hI, Extends.refl _ _ _ _, Nat.le_refl _, fun i hi => by cases hi⟩
  · rw [h7]
    have hn : oc.syms.length = A.n := by
      rw [(hI.coherent.charts c0 oc h1 h2).1, hA.length]
    rw [hn] at h5
    have hmlt : m < w.objs.length := by
      by_contra hc
      rw [List.getElem?_eq_none (Nat.le_of_not_lt hc)] at h3; cases h3
    set H' := addHome H w.objs.length a.shape.length (ix.getD a.shape.length) base m (H.g m) (H.ginv m)
      with hH'
    have hok : H'.OK A.n F.fns := addHome_ok hI.ok _ hI.ne h6 hS
      (Or.inl ⟨Nat.ne_of_lt hmlt, (hI.coherent.metrics m om h3 h4).2.1⟩)
    have hr : H'.rank w.objs.length = a.shape.length := Function.update_self ..
    have hs : H'.src w.objs.length = ix.getD a.shape.length := Function.update_self ..
    have hb : H'.base w.objs.length = base := Function.update_self ..
    have hmo : H'.metricOf w.objs.length = m := Function.update_self ..
    have hag : Agree A.n a.shape.length a
        ((H'.geometry A.n F).comp w.objs.length c0 (ix.getD a.shape.length)) := by
      refine ⟨ha, h5, ?_⟩
      intro J hl hJ
      rw [hseen J hl hJ]
      refine applyFactors_congr _ _ _ ?_
      intro s hs1 hs2
      have := home_src (H := H') (n := A.n) w.objs.length (hok.config _) s (hs1.trans (hl.trans hr.symm)) hs2
      rw [hs, hb] at this
      rw [this]
    refine ⟨H', ?_, extends_addHome hI _ _ _ _ _ _, by simp, ?_⟩
    · refine hI.append ⟨oc, h1, h2⟩ hok (Or.inl ⟨rfl, om, h3, h4⟩) ?_
      intro jx b hjb
      simp only [Dict.get?_cons, Dict.get?_nil] at hjb
      split_ifs at hjb with hc
      cases hjb; subst hc
      exact ⟨h6, hag⟩
    · intro i hi
      cases hi
      refine ⟨by simp, hmo, ?_⟩
      rw [hr]
      exact ⟨h6, hag⟩

/-- Declaring a metric. -/
theorem Inv.newMetric [DecidableEq K] {w : World K} (hA : A.OK) (hE : EngineOK E) (hT : EngineTotal E)
    (hC : Consistent E A h F) (hI : Inv E A h F H w)
    (name : Arg String) (a : Arr K) (ha0 : a.WF ∧ ∀ x ∈ a.data, x ∈ F.fns) (ix : IndicesArg) (symbol : Arg String) :
    ∃ H', Inv E A h F H' (PyOGRe.newMetric E name (.val a) h ix symbol w).2 ∧
      Extends A.n F w.objs.length H H' ∧
      w.objs.length ≤ (PyOGRe.newMetric E name (.val a) h ix symbol w).2.objs.length ∧
      ∀ i, (PyOGRe.newMetric E name (.val a) h ix symbol w).1 = .ok i →
        i < (PyOGRe.newMetric E name (.val a) h ix symbol w).2.objs.length ∧
        (Event.metric i h (ix.getD 2) a).ExplainedBy A F H' := by
  obtain ⟨ha, hS⟩ := ha0
  rcases newMetric_cases E name a h ix symbol w with ⟨e, he⟩ | ⟨oc, h1, h2, h3, h4, h5, h6, h7⟩
  · rw [he]
    exact ⟨H, hI, Extends.refl _ _ _ _, Nat.le_refl _, fun i hi => by cases hi⟩
  · have hn : oc.syms.length = A.n := by
      rw [(hI.coherent.charts h oc h1 h2).1, hA.length]
    rw [hn] at h3 h7
    obtain ⟨N, hN⟩ := hT.det_ok A.n a h3 h4
    have hsym : ∀ i j, i < A.n → j < A.n → a.get [i, j] = a.get [j, i] := by
      have := (isSymmetric_iff a).1 h5
      rw [h3] at this
      exact this
    have hNS : ∀ i j, i < A.n → j < A.n → N i j ∈ F.fns :=
      inverse_mem hC.fns_inv hN fun i j _ _ => get_mem hS _
    have hcfg : Config 2 (ix.getD 2) := by
      rcases h6 with h | h <;> rw [h] <;> exact ⟨rfl, by decide⟩
    set i := w.objs.length with hi
    set H' := addHome H i 2 (ix.getD 2) a.get i
      (if ix.getD 2 = [-1, -1] then fun i j => a.get [i, j] else N)
      (if ix.getD 2 = [-1, -1] then N else fun i j => a.get [i, j]) with hH'
    have hok : H'.OK A.n F.fns := by
      refine addHome_ok hI.ok _ hI.ne hcfg (get_mem hS) (Or.inr ⟨rfl, rfl, ?_⟩)
      rcases h6 with h6 | h6
      · rw [if_pos h6, if_pos h6]
        exact ⟨fun i j _ _ => get_mem hS _, hNS, hsym, hN, Or.inl ⟨h6, fun _ _ _ _ => rfl⟩⟩
      · have hne : ¬ ix.getD 2 = [-1, -1] := by rw [h6]; decide
        rw [if_neg hne, if_neg hne]
        exact ⟨hNS, fun i j _ _ => get_mem hS _, inverse_symm hN hsym, inverse_swap hN, Or.inr ⟨h6, fun _ _ _ _ => rfl⟩⟩
    have hr : H'.rank i = 2 := Function.update_self ..
    have hs : H'.src i = ix.getD 2 := Function.update_self ..
    have hb : H'.base i = a.get := Function.update_self ..
    have hmo : H'.metricOf i = i := Function.update_self ..
    have hg : H'.g i = if ix.getD 2 = [-1, -1] then fun i j => a.get [i, j] else N := Function.update_self ..
    have hgi : H'.ginv i = if ix.getD 2 = [-1, -1] then N else fun i j => a.get [i, j] :=
      Function.update_self ..
    obtain ⟨q1, q2, q3, q4⟩ := home_g (n := A.n) hok i
    rw [hmo] at q1 q2 q3 q4
    have cfg11 : ∀ x y : Int, (x = 1 ∨ x = -1) → (y = 1 ∨ y = -1) → Config 2 [x, y] := by
      intro x y hx hy
      refine ⟨rfl, ?_⟩
      intro z hz
      simp only [List.mem_cons, List.not_mem_nil, or_false] at hz
      rcases hz with rfl | rfl
      · exact hx
      · exact hy
    have toHome : ∀ jx b, Config 2 jx → Agree A.n 2 b (H'.comp A.n i jx) →
        Agree A.n 2 b ((H'.geometry A.n F).comp i h jx) := by
      intro jx b hjx hb
      exact agree_congr hb fun J hl hJ => (geometry_home hC hok _ _ _ (by rw [hjx.1, hl]) hJ).symm
    have rep0 : Config 2 (ix.getD 2) ∧
        Agree A.n 2 a ((H'.geometry A.n F).comp i h (ix.getD 2)) := by
      refine ⟨hcfg, toHome _ _ hcfg ⟨ha, h3, ?_⟩⟩
      intro J hl hJ
      have := home_src (H := H') (n := A.n) i (hok.config _) J (hl.trans hr.symm) hJ
      rw [hs, hb] at this
      exact this.symm
    have hwf : (eye A.n : Arr K).WF := Arr.wf_ofFn _ _
    have heye : toMat A.n (fun i j => (eye A.n : Arr K).get [i, j]) = 1 := by
      rw [← toMat_delta, toMat_eq]
      exact fun i j hi hj => eye_mat A.n i j hi hj
    have rep1 : Config 2 [1, -1] ∧ Agree A.n 2 (eye A.n) ((H'.geometry A.n F).comp i h [1, -1]) := by
      have hc := cfg11 1 (-1) (by decide) (by decide)
      exact ⟨hc, toHome _ _ hc (agree_toMat hwf (shape_eye _) (heye.trans q3.symm))⟩
    have rep2 : Config 2 [-1, 1] ∧ Agree A.n 2 (eye A.n) ((H'.geometry A.n F).comp i h [-1, 1]) := by
      have hc := cfg11 (-1) 1 (by decide) (by decide)
      exact ⟨hc, toHome _ _ hc (agree_toMat hwf (shape_eye _) (heye.trans q4.symm))⟩
    have rep3 : ∀ b, E.inv a = .ok b → Config 2 (negIndices (ix.getD 2)) ∧
        Agree A.n 2 b ((H'.geometry A.n F).comp i h (negIndices (ix.getD 2))) := by
      intro b hinv
      obtain ⟨b1, b2, b3⟩ := hE.inv_ok A.n a b h3 hinv
      have hbN : toMat A.n (fun i j => b.get [i, j]) = toMat A.n N := by
        rw [toMat_eq]; exact fun i j hi hj => inverse_unique b3 hN i j hi hj
      rcases h6 with h6 | h6
      · rw [h6]
        have hc := cfg11 1 1 (by decide) (by decide)
        rw [hgi, if_pos h6] at q2
        exact ⟨hc, toHome _ _ hc (agree_toMat b1 b2 (hbN.trans q2.symm))⟩
      · have hne : ¬ ix.getD 2 = [-1, -1] := by rw [h6]; decide
        rw [hg, if_neg hne] at q1
        rw [h6]
        have hc := cfg11 (-1) (-1) (by decide) (by decide)
        exact ⟨hc, toHome _ _ hc (agree_toMat b1 b2 (hbN.trans q1.symm))⟩
    rcases h7 with ⟨e, -, he⟩ | ⟨b, hb1, hb2⟩
    · rw [he]
      refine ⟨H', ?_, extends_addHome hI _ _ _ _ _ _, by simp [← hi], fun j hj => by cases hj⟩
      refine hI.append hI.home hok (Or.inr ⟨rfl, rfl, rfl, h6⟩) ?_
      intro jx b hjb
      simp only [Dict.get?_cons, Dict.get?_nil] at hjb
      split_ifs at hjb with c1 c2 c3
      · cases hjb; subst c1; exact rep0
      · cases hjb; subst c2; exact rep1
      · cases hjb; subst c3; exact rep2
    · rw [hb2]
      refine ⟨H', ?_, extends_addHome hI _ _ _ _ _ _, by simp [← hi], ?_⟩
      · refine hI.append hI.home hok (Or.inr ⟨rfl, rfl, rfl, h6⟩) ?_
        intro jx b hjb
        simp only [Dict.get?_cons, Dict.get?_nil] at hjb
        split_ifs at hjb with c1 c2 c3 c4
        · cases hjb; subst c1; exact rep0
        · cases hjb; subst c2; exact rep1
        · cases hjb; subst c3; exact rep2
        · cases hjb; subst c4; exact rep3 _ hb1
      · intro j hj
        cases hj
        exact ⟨by simp [← hi], hmo, by rw [hr]; exact rep0⟩

/-- One call of a session. -/
theorem Inv.run [DecidableEq K] {w : World K} (hA : A.OK) (hE : EngineOK E) (hT : EngineTotal E)
    (hC : Consistent E A h F) (hI : Inv E A h F H w) (op : Op K) (hop : op.Allowed A.n F w) :
    ∃ H', Inv E A h F H' (op.run E h w).2 ∧ Extends A.n F w.objs.length H H' ∧
      w.objs.length ≤ (op.run E h w).2.objs.length ∧
      ∀ e ∈ (op.run E h w).1, eventId e < (op.run E h w).2.objs.length ∧ e.ExplainedBy A F H' := by
  have hL := geometry_lawful hC hI.ok
  have hlen : ∀ {w' : World K}, Inv E A h F H w' → (∀ i : Nat, w'.objs[i]?.map (·.kind) = w.objs[i]?.map (·.kind)) →
      w.objs.length = w'.objs.length := by
    intro w' _ hk
    apply Nat.le_antisymm
    · by_contra hc
      have := hk w'.objs.length
      rw [List.getElem?_eq_none (l := w'.objs) (Nat.le_refl _),
        List.getElem?_eq_getElem (l := w.objs) (by omega)] at this
      cases this
    · by_contra hc
      have := hk w.objs.length
      rw [List.getElem?_eq_none (l := w.objs) (Nat.le_refl _),
        List.getElem?_eq_getElem (l := w'.objs) (by omega)] at this
      cases this
  cases op with
  | metric name a ix symbol =>
    obtain ⟨H', h1, h2, h3, h4⟩ := hI.newMetric hA hE hT hC name a hop ix symbol
    refine ⟨H', ?_⟩
    simp only [Op.run]
    revert h1 h3 h4
    rcases PyOGRe.newMetric E name (.val a) h ix symbol w with ⟨e | i, w'⟩
    · intro h1 h3 _
      exact ⟨h1, h2, h3, by simp⟩
    · intro h1 h3 h4
      refine ⟨h1, h2, h3, ?_⟩
      intro e he
      rw [List.mem_singleton] at he
      subst he
      exact h4 i rfl
  | tensor name a m c0 ix symbol =>
    obtain ⟨H', h1, h2, h3, h4⟩ := hI.newTensor hA name a m c0 ix symbol hop
    refine ⟨H', ?_⟩
    simp only [Op.run]
    revert h1 h3 h4
    rcases PyOGRe.newTensor .tensor name (.val a) m c0 ix symbol w with ⟨e | i, w'⟩
    · intro h1 h3 _
      exact ⟨h1, h2, h3, by simp⟩
    · intro h1 h3 h4
      refine ⟨h1, h2, h3, ?_⟩
      intro e he
      rw [List.mem_singleton] at he
      subst he
      exact h4 i rfl
  | get t c ix =>
    refine ⟨H, ?_⟩
    cases ho : w.objs[t]? with
    | none =>
      have hg : getComponents E t c ix w = (.error .attributeError, w) := by
        unfold getComponents
        rw [PyM.bind_apply]
        rcases getObj_cases t w with ⟨o, h1, -⟩ | h1
        · rw [ho] at h1; cases h1
        · rw [h1]
      simp only [Op.run, hg]
      exact ⟨hI, Extends.refl _ _ _ _, Nat.le_refl _, by simp⟩
    | some o =>
      have hk : ∃ k, w.objs[t]?.map (·.kind) = some k ∧ (k = .metric ∨ k = .tensor) :=
        ⟨o.kind, by rw [ho]; rfl, hop o ho⟩
      have hk' : w.objs[t]?.map (·.kind) = some .metric ∨ w.objs[t]?.map (·.kind) = some .tensor := by
        obtain ⟨k, h1, rfl | rfl⟩ := hk
        · exact Or.inl h1
        · exact Or.inr h1
      have hK := getComponents_keeps (κ := fun i : Nat => w.objs[i]?.map (·.kind)) hA hE hL t c ix o hk'
      obtain ⟨h1, h2⟩ := hI.keeps hK ho
      have hl := hlen h1 (hK w ⟨hI.coherent, fun _ => rfl⟩ ho).1.2
      simp only [Op.run]
      revert h1 h2 hl
      rcases getComponents E t c ix w with ⟨e | b, w'⟩
      · intro h1 h2 hl
        exact ⟨h1, Extends.refl _ _ _ _, Nat.le_of_eq hl, by simp⟩
      · intro h1 h2 hl
        refine ⟨h1, Extends.refl _ _ _ _, Nat.le_of_eq hl, ?_⟩
        intro e he
        simp only [ho, Option.map_some, Option.toList_some, List.mem_singleton] at he
        subst he
        refine ⟨?_, h2 b rfl⟩
        show t < w'.objs.length
        rw [← hl]
        by_contra hc
        rw [List.getElem?_eq_none (Nat.le_of_not_lt hc)] at ho; cases ho
  | setIndices t ix =>
    refine ⟨H, ?_⟩
    simp only [Op.run]
    cases ho : w.objs[t]? with
    | none =>
      have hg : changeDefaultIndices E t ix w = (.error .attributeError, w) := by
        unfold changeDefaultIndices
        rw [PyM.bind_apply]
        rcases getObj_cases t w with ⟨o, h1, -⟩ | h1
        · rw [ho] at h1; cases h1
        · rw [h1]
      rw [hg]
      exact ⟨hI, Extends.refl _ _ _ _, Nat.le_refl _, by simp⟩
    | some o =>
      have hk' : w.objs[t]?.map (·.kind) = some .metric ∨ w.objs[t]?.map (·.kind) = some .tensor := by
        rw [ho]
        rcases hop o ho with ⟨h1, -⟩ | h1
        · left; simp [h1]
        · right; simp [h1]
      have hm : w.objs[t]?.map (·.kind) = some .metric → ix = [-1, -1] ∨ ix = [1, 1] := by
        rw [ho]
        intro hm
        rcases hop o ho with ⟨-, h1⟩ | h1
        · exact h1
        · rw [Option.map_some, h1] at hm; cases hm
      have hK := changeDefaultIndices_keeps (κ := fun i : Nat => w.objs[i]?.map (·.kind)) hA hE hL t ix hk' hm
      obtain ⟨h1, h2⟩ := hI.keeps hK trivial
      have hl := hlen h1 (hK w ⟨hI.coherent, fun _ => rfl⟩ trivial).1.2
      exact ⟨h1, Extends.refl _ _ _ _, Nat.le_of_eq hl, by simp⟩
  | setCoords t c =>
    refine ⟨H, ?_⟩
    simp only [Op.run]
    cases ho : w.objs[t]? with
    | none =>
      have hg : (changeDefaultCoords E t c w).2 = w := by
        unfold changeDefaultCoords
        rw [PyM.bind_apply, isCoordinates_apply]
        dsimp only
        split_ifs
        · rfl
        · rw [PyM.bind_apply]
          rcases getObj_cases t w with ⟨o, h1, -⟩ | h1
          · rw [ho] at h1; cases h1
          · rw [h1]
      rw [hg]
      exact ⟨hI, Extends.refl _ _ _ _, Nat.le_refl _, by simp⟩
    | some o =>
      have hk' : w.objs[t]?.map (·.kind) = some .metric ∨ w.objs[t]?.map (·.kind) = some .tensor := by
        rw [ho]
        rcases hop o ho with h1 | h1
        · left; simp [h1]
        · right; simp [h1]
      have hK := changeDefaultCoords_keeps (κ := fun i : Nat => w.objs[i]?.map (·.kind)) hA hE hL t c hk'
      obtain ⟨h1, h2⟩ := hI.keeps hK trivial
      have hl := hlen h1 (hK w ⟨hI.coherent, fun _ => rfl⟩ trivial).1.2
      exact ⟨h1, Extends.refl _ _ _ _, Nat.le_of_eq hl, by simp⟩

theorem Inv.session [DecidableEq K] (hA : A.OK) (hE : EngineOK E) (hT : EngineTotal E)
    (hC : Consistent E A h F) (ops : List (Op K)) : ∀ {H : Home K} {w : World K}, Inv E A h F H w →
    AllAllowed E h A.n F ops w →
    ∃ H', Inv E A h F H' (Spec.session E h ops w).2 ∧ Extends A.n F w.objs.length H H' ∧
      ∀ e ∈ (Spec.session E h ops w).1, e.ExplainedBy A F H' := by
  induction ops with
  | nil =>
    intro H w hI _
    exact ⟨H, hI, Extends.refl _ _ _ _, by simp [Spec.session]⟩
  | cons op ops ih =>
    intro H w hI hall
    obtain ⟨H1, a1, a2, a3, a4⟩ := hI.run hA hE hT hC op hall.1
    obtain ⟨H2, b1, b2, b3⟩ := ih a1 hall.2
    refine ⟨H2, b1, a2.trans a3 b2, ?_⟩
    intro e he
    rcases List.mem_append.1 he with he | he
    · exact b2.explained e (a4 e he).1 (a4 e he).2
    · exact b3 e he

/-- No declarations yet. -/
def homeNil : Home K where
  rank _ := 2
  src _ := [-1, -1]
  base _ J := delta (J.getD 0 0) (J.getD 1 0)
  metricOf t := t
  g _ := delta
  ginv _ := delta

theorem homeNil_ok (n : Nat) (S : Subring K) : (homeNil : Home K).OK n S := by
  have hd : ∀ i j, (delta i j : K) ∈ S := by
    intro i j
    unfold delta
    split_ifs
    · exact S.one_mem
    · exact S.zero_mem
  refine ⟨fun _ _ => hd _ _, fun _ _ _ _ _ => hd _ _, fun _ _ _ _ _ => hd _ _, ?_, fun _ => rfl,
    fun _ => rfl, ?_, ?_, ?_⟩
  · intro t; exact ⟨rfl, by simp [homeNil]⟩
  · intro t i j _ _
    simp [homeNil, delta, eq_comm]
  · intro t
    rw [inverse_iff]
    simp [homeNil, toMat_delta]
  · intro t
    exact Or.inl ⟨rfl, fun i j _ _ => rfl⟩

theorem Inv.start {w : World K} (h0 : ChartsOnly A h w) : Inv E A h F homeNil w := by
  obtain ⟨⟨oh, hoh⟩, hc⟩ := h0
  refine ⟨⟨?_, ?_, ?_⟩, homeNil_ok _ _, fun _ _ => rfl, fun t ht => ht, ⟨oh, hoh, (hc h oh hoh).1⟩⟩
  · intro c o ho _
    obtain ⟨-, h1, h2, h3⟩ := hc c o ho
    refine ⟨h1, h2, ?_⟩
    intro c' j hj
    rw [h3, Dict.get?_nil] at hj
    cases hj
  · intro t o ho hk
    rw [(hc t o ho).1] at hk
    rcases hk with hk | hk <;> cases hk
  · intro t o ho hk
    rw [(hc t o ho).1] at hk
    cases hk

end

end PyOGRe
