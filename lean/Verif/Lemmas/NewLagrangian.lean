import Verif.Lemmas.CurveChart
import Verif.Lemmas.EulerLagrange
import Verif.Lemmas.Atlas

/-! Helper lemmas: the Lagrangian in new coordinates. -/

namespace PyOGRe
open Spec Finset
variable {K : Type} [CommRing K] {E : Engine K} {C : Curves K}

/-- A substitution as a homomorphism. -/
def substHom (h : SubstOK E C) (s : Sym) (v : K) : K →+* K where
  toFun := E.subst s v
  map_one' := h.one s v
  map_mul' := h.mul s v
  map_zero' := by
    have := h.add s v 0 0
    rw [add_zero] at this
    exact left_eq_add.1 this
  map_add' := h.add s v

theorem subst_zero (h : SubstOK E C) (s : Sym) (v : K) : E.subst s v 0 = 0 := map_zero (substHom h s v)

theorem substFold_hom (h : SubstOK E C) (rs : List (Sym × K)) :
    ∃ φ : K →+* K, ∀ x, rs.foldl (fun x r => E.subst r.1 r.2 x) x = φ x := by
  induction rs with
  | nil => exact ⟨RingHom.id K, fun _ => rfl⟩
  | cons r rs ih =>
    obtain ⟨φ, hφ⟩ := ih
    exact ⟨φ.comp (substHom h r.1 r.2), fun x => hφ _⟩

theorem substCurve_hom (h : SubstOK E C) (new : List Sym) (rs : List (Sym × K)) :
    ∃ φ : K →+* K, ∀ x, substCurve E C new rs x = φ x := by
  induction rs with
  | nil => exact ⟨RingHom.id K, fun _ => rfl⟩
  | cons r rs ih =>
    obtain ⟨φ, hφ⟩ := ih
    exact ⟨φ.comp ((substHom h (dot r.1) (C.velocity new r.2)).comp (substHom h r.1 r.2)), fun x => hφ _⟩

theorem substFold_const (h : SubstOK E C) (rs : List (Sym × K)) {x : K} (hx : ∀ r ∈ rs, E.diff r.1 x = 0) :
    rs.foldl (fun x r => E.subst r.1 r.2 x) x = x := by
  induction rs with
  | nil => rfl
  | cons r rs ih =>
    rw [List.foldl_cons, h.const _ _ _ (hx r (by simp))]
    exact ih fun r' hr' => hx r' (by simp [hr'])

theorem substCurve_const (h : SubstOK E C) (new : List Sym) (rs : List (Sym × K)) {x : K}
    (hx : ∀ r ∈ rs, E.diff r.1 x = 0 ∧ E.diff (dot r.1) x = 0) : substCurve E C new rs x = x := by
  induction rs with
  | nil => rfl
  | cons r rs ih =>
    unfold substCurve
    rw [List.foldl_cons, h.const _ _ _ (hx r (by simp)).1, h.const _ _ _ (hx r (by simp)).2]
    exact ih fun r' hr' => hx r' (by simp [hr'])

/-- An expression without velocities. -/
theorem substCurve_static (h : SubstOK E C) (new : List Sym) {old : List Sym} (hd : ∀ s ∈ old, ∀ t ∈ old, s ≠ dot t)
    (rs : List (Sym × K)) {x : K} (hold : ∀ r ∈ rs, r.1 ∈ old) (hr : ∀ r ∈ rs, ∀ s ∈ old, E.diff (dot s) r.2 = 0)
    (hx : ∀ s ∈ old, E.diff (dot s) x = 0) :
    substCurve E C new rs x = rs.foldl (fun x r => E.subst r.1 r.2 x) x := by
  induction rs generalizing x with
  | nil => rfl
  | cons r rs ih =>
    have hy : ∀ s ∈ old, E.diff (dot s) (E.subst r.1 r.2 x) = 0 := fun s hs => by
      rw [h.chain _ _ _ _ (hd _ (hold r (by simp)) s hs), hx s hs, hr r (by simp) s hs, subst_zero h]
      ring
    unfold substCurve
    rw [List.foldl_cons, List.foldl_cons, h.const _ _ _ (hy _ (hold r (by simp)))]
    exact ih (fun r' hr' => hold r' (by simp [hr'])) (fun r' hr' => hr r' (by simp [hr'])) hy

theorem dot_inj {s t : Sym} (h : dot s = dot t) : s = t := by
  unfold dot at h
  exact (String.append_left_inj _).1 h

/-- A velocity. -/
theorem substCurve_velocity (h : SubstOK E C) (new : List Sym) {old : List Sym} (hd : ∀ s ∈ old, ∀ t ∈ old, s ≠ dot t)
    (rs : List (Sym × K)) (hold : ∀ r ∈ rs, r.1 ∈ old) (hn : (rs.map Prod.fst).Nodup)
    (hv : ∀ r ∈ rs, ∀ s ∈ old, E.diff s (C.velocity new r.2) = 0 ∧ E.diff (dot s) (C.velocity new r.2) = 0)
    {r : Sym × K} (hr : r ∈ rs) : substCurve E C new rs (C.var (dot r.1)) = C.velocity new r.2 := by
  induction rs with
  | nil => cases hr
  | cons a rs ih =>
    have ho := hold a (by simp)
    unfold substCurve
    rw [List.foldl_cons, h.var, if_neg (hd _ ho _ (hold r hr)), h.var]
    rcases List.mem_cons.1 hr with rfl | hr'
    · rw [if_pos rfl]
      exact substCurve_const h new rs fun r' hr' => hv r (by simp) r'.1 (hold r' (by simp [hr']))
    · have hne : a.1 ≠ r.1 := by
        rw [List.map_cons, List.nodup_cons] at hn
        exact fun he => hn.1 (he ▸ List.mem_map_of_mem hr')
      rw [if_neg fun he => hne (dot_inj he)]
      exact ih (fun r' h' => hold r' (by simp [h'])) (List.nodup_cons.1 hn).2 (fun r' h' => hv r' (by simp [h'])) hr'

theorem ruleFor_some {rules : List (Option (Sym × K))} (hg : GoodRules rules) {s : Sym} {v : K} (h : some (s, v) ∈ rules) :
    ruleFor rules s = some v := by
  unfold ruleFor
  unfold GoodRules at hg
  have hm : (s, v) ∈ rules.filterMap id := List.mem_filterMap.2 ⟨_, h, rfl⟩
  generalize rules.filterMap id = rs at hg hm
  induction rs with
  | nil => cases hm
  | cons a rs ih =>
    rw [List.find?_cons]
    by_cases ha : a.1 = s
    · rw [beq_iff_eq.2 ha]
      rcases List.mem_cons.1 hm with rfl | h'
      · rfl
      · rw [List.map_cons, List.nodup_cons] at hg
        exact absurd (ha ▸ List.mem_map_of_mem (f := Prod.fst) h') hg.1
    · rw [beq_eq_false_iff_ne.2 ha]
      rcases List.mem_cons.1 hm with rfl | h'
      · exact absurd rfl ha
      · exact ih (List.nodup_cons.1 hg).2 h'

theorem mem_eqRules {rules : List (Option (Sym × K))} {r : Sym × K} : r ∈ eqRules rules ↔ some r ∈ rules := by
  unfold eqRules
  rw [List.mem_filterMap]
  exact ⟨fun ⟨a, h1, h2⟩ => by rw [← show a = some r from h2]; exact h1, fun h => ⟨_, h, rfl⟩⟩

theorem ruleFor_mem {rules : List (Option (Sym × K))} {s : Sym} {v : K} (h : ruleFor rules s = some v) :
    some (s, v) ∈ rules := by
  unfold ruleFor at h
  obtain ⟨r, h1, h2⟩ := Option.map_eq_some_iff.1 h
  have h3 := List.find?_some h1
  have h4 := List.mem_of_find?_eq_some h1
  have : r = (s, v) := Prod.ext (by simpa using h3) h2
  rw [← this]
  exact mem_eqRules.1 h4

theorem ruleFor_none {rules : List (Option (Sym × K))} (hg : GoodRules rules) {s : Sym} (h : ruleFor rules s = none) :
    ¬∃ v, some (s, v) ∈ rules := by
  rintro ⟨v, hv⟩
  rw [ruleFor_some hg hv] at h
  cases h

/-- Rules for all old coordinates. -/
theorem chartRules_full {old new : List Sym} {rules : List (Option (Sym × K))} (hR : FullRules E old new rules)
    (hn : ∀ s ∈ old, s ∉ new) : ChartRules E old new rules := by
  refine ⟨hR.1, fun s v h => ⟨(hR.2.1 s).2 ⟨v, h⟩, hn s ((hR.2.1 s).2 ⟨v, h⟩)⟩, hR.2.2, fun i j hi _ h => absurd ?_ h⟩
  refine (hR.2.1 _).1 ?_
  rw [List.getD_eq_getElem?_getD, List.getElem?_eq_getElem hi]
  exact List.getElem_mem _

theorem sum_list (l : List Sym) (f : Sym → K) : (l.map f).sum = ∑ a ∈ range l.length, f (l.getD a "") := by
  induction l with
  | nil => rfl
  | cons s l ih =>
    rw [List.map_cons, List.sum_cons, ih, List.length_cons, sum_range_succ']
    exact add_comm _ _

/-- The velocity of a coordinate that is kept. -/
theorem substCurve_kept (h : SubstOK E C) (new : List Sym) (rs : List (Sym × K)) {t : Sym}
    (ht : ∀ r ∈ rs, r.1 ≠ t ∧ dot r.1 ≠ t) : substCurve E C new rs (C.var t) = C.var t := by
  induction rs with
  | nil => rfl
  | cons a rs ih =>
    unfold substCurve
    rw [List.foldl_cons, h.var, if_neg (ht a (by simp)).1, h.var, if_neg (ht a (by simp)).2]
    exact ih fun r hr => ht r (by simp [hr])

/-- The value of the Lagrangian after the substitutions. -/
theorem newLagrangian_value [Algebra ℚ K] (h : SubstOK E C) (hC : Calculus E) (hvar : ∀ s t, E.diff s (C.var t) = if s = t then 1 else 0)
    {old new : List Sym} (hN : NewNames old new) {n : Nat} (hold : old.length = n) (hnew : new.length = n)
    (hV : VelocityOK E C new) {rules : List (Option (Sym × K))} (hR : ChartRules E old new rules) (g : List Nat → K)
    (hg : ∀ i j, i < n → j < n → ∀ s ∈ old, E.diff (dot s) (g [i, j]) = 0) (Jinv : Nat → Nat → K) :
    substCurve E C new (eqRules rules) (∑ i ∈ range n, ∑ j ∈ range n,
      g [i, j] * C.var (dot (old.getD i "")) * C.var (dot (old.getD j ""))) =
    ∑ a ∈ range n, ∑ b ∈ range n, transformed E n (chartJacobian E old new rules) Jinv rules [-1, -1] g [a, b] *
      C.var (dot (new.getD a "")) * C.var (dot (new.getD b "")) := by
  have hgood := hR.once
  have hrhs := hR.values
  have mem : ∀ r : Sym × K, r ∈ eqRules rules ↔ some r ∈ rules := fun r => mem_eqRules
  have k1 : ∀ r ∈ eqRules rules, r.1 ∈ old := fun r hr => (hR.names r.1 r.2 ((mem r).1 hr)).1
  have hd : ∀ s ∈ old, ∀ t ∈ old, s ≠ dot t := fun s hs t ht => hN s (by simp [hs]) t (by simp [ht])
  have o1 : ∀ r ∈ eqRules rules, r.1 ∉ new := fun r hr => (hR.names r.1 r.2 ((mem r).1 hr)).2
  have o2 : ∀ s ∈ old, dot s ∉ new := fun s hs hs' => hN (dot s) (by simp [hs']) s (by simp [hs]) rfl
  have o3 : ∀ s ∈ old, ∀ t ∈ new, s ≠ dot t := fun s hs t ht => hN s (by simp [hs]) t (by simp [ht])
  have o4 : ∀ r ∈ eqRules rules, ∀ t ∈ new, dot r.1 ≠ dot t := fun r hr t ht he => o1 r hr (dot_inj he ▸ ht)
  have vel : ∀ r ∈ eqRules rules, C.velocity new r.2 = (new.map fun s => E.diff s r.2 * C.var (dot s)).sum :=
    fun r hr => hV _ (hrhs r ((mem r).1 hr))
  have hz : ∀ s, E.diff s 0 = 0 := fun s => diff_zero hC s
  have hdelta : ∀ s (i j : Nat), E.diff s (delta i j : K) = 0 := fun s i j => by
    unfold delta
    split_ifs
    · have := hC.mul s 1 1
      simpa using this
    · exact hz s
  have dvel : ∀ r ∈ eqRules rules, ∀ s, s ∉ new → (∀ t ∈ new, s ≠ dot t) → E.diff s (C.velocity new r.2) = 0 := by
    intro r hr s hs hs'
    rw [vel r hr]
    have : ∀ l : List Sym, (∀ t ∈ l, t ∈ new) → E.diff s (l.map fun s => E.diff s r.2 * C.var (dot s)).sum = 0 := by
      intro l
      induction l with
      | nil => intro _; exact hz s
      | cons t l ih =>
        intro hl
        rw [List.map_cons, List.sum_cons, hC.add, ih fun t ht => hl t (by simp [ht]), hC.mul, hC.comm,
          hrhs r ((mem r).1 hr) s hs, hz, hvar, if_neg (hs' t (hl t (by simp)))]
        ring
    exact this new fun _ h => h
  obtain ⟨φ, hφ⟩ := substCurve_hom h new (eqRules rules)
  obtain ⟨ψ, hψ⟩ := substFold_hom h (eqRules rules)
  have e1 : ∀ i, i < n → φ (C.var (dot (old.getD i ""))) =
      ∑ a ∈ range n, chartJacobian E old new rules i a * C.var (dot (new.getD a "")) := by
    intro i hi
    unfold chartJacobian
    cases hv : ruleFor rules (old.getD i "") with
    | none =>
      have hno := ruleFor_none hgood hv
      have hio : old.getD i "" ∈ old := by
        rw [List.getD_eq_getElem?_getD, List.getElem?_eq_getElem (by omega)]
        exact List.getElem_mem _
      rw [← hφ, substCurve_kept h new _ fun r hr => ⟨hd _ (k1 r hr) _ hio, fun he =>
        hno ⟨r.2, by rw [← dot_inj he]; exact (mem r).1 hr⟩⟩, sum_eq_single i]
      · dsimp only
        rw [(hR.kept i i (by omega) (by omega) hno).2 rfl, delta, if_pos rfl, one_mul]
      · intro a _ ha
        dsimp only
        rw [delta, if_neg (Ne.symm ha), zero_mul]
      · intro hi'
        exact absurd (mem_range.2 hi) hi'
    | some v =>
      have hm := (mem _).2 (ruleFor_mem hv)
      rw [← hφ, show old.getD i "" = (old.getD i "", v).1 from rfl,
        substCurve_velocity h new (old := (eqRules rules).map Prod.fst) ?_ _
          (fun r hr => List.mem_map_of_mem hr) hgood ?_ hm, vel _ hm]
      · dsimp only
        rw [← hnew]
        exact sum_list new fun s => E.diff s v * C.var (dot s)
      · intro s hs t ht
        obtain ⟨r, hr, rfl⟩ := List.mem_map.1 hs
        obtain ⟨r', hr', rfl⟩ := List.mem_map.1 ht
        exact hd _ (k1 r hr) _ (k1 r' hr')
      · intro r hr s hs
        obtain ⟨r', hr', rfl⟩ := List.mem_map.1 hs
        exact ⟨dvel r hr _ (o1 r' hr') (o3 _ (k1 r' hr')), dvel r hr (dot r'.1) (o2 _ (k1 r' hr')) (o4 r' hr')⟩
  have e2 : ∀ i j, i < n → j < n → φ (g [i, j]) = ψ (g [i, j]) := fun i j hi hj => by
    rw [← hφ, ← hψ]
    exact substCurve_static h new hd _ k1 (fun r hr s hs => hrhs r ((mem r).1 hr) _ (o2 s hs)) (hg i j hi hj)
  have e3 : ∀ i a, i < n → ψ (chartJacobian E old new rules i a) = chartJacobian E old new rules i a := by
    intro i a hi
    rw [← hψ]
    refine substFold_const h _ fun r hr => ?_
    unfold chartJacobian
    cases hv : ruleFor rules (old.getD i "") with
    | none => exact hdelta _ _ _
    | some v =>
      dsimp only
      rw [hC.comm, hrhs _ (ruleFor_mem hv) _ (o1 r hr), hz]
  have e4 : ∀ a b, transformed E n (chartJacobian E old new rules) Jinv rules [-1, -1] g [a, b] =
      ∑ i ∈ range n, ∑ j ∈ range n, chartJacobian E old new rules i a *
        (chartJacobian E old new rules j b * φ (g [i, j])) := by
    intro a b
    show substAll E rules (applyFactors n _ g [a, b]) = _
    rw [show substAll E rules (applyFactors n (List.map (coordFactor (chartJacobian E old new rules) Jinv) [-1, -1]) g
      [a, b]) = ψ _ from hψ _]
    rw [List.map_cons, List.map_cons, List.map_nil, applyFactors_two, map_sum]
    refine sum_congr rfl fun i hi => ?_
    rw [map_sum]
    refine sum_congr rfl fun j hj => ?_
    rw [map_mul, map_mul, e2 i j (mem_range.1 hi) (mem_range.1 hj)]
    rw [show coordFactor (chartJacobian E old new rules) Jinv (-1) = fun j i => chartJacobian E old new rules i j from
      if_neg (by decide)]
    dsimp only
    rw [e3 i a (mem_range.1 hi), e3 j b (mem_range.1 hj)]
  rw [hφ, map_sum]
  simp only [e4, map_sum, map_mul]
  have e5 : ∀ i ∈ range n, ∀ j ∈ range n, φ (g [i, j]) * φ (C.var (dot (old.getD i ""))) * φ (C.var (dot (old.getD j ""))) =
      ∑ a ∈ range n, ∑ b ∈ range n, (chartJacobian E old new rules i a * (chartJacobian E old new rules j b *
        φ (g [i, j]))) * C.var (dot (new.getD a "")) * C.var (dot (new.getD b "")) := by
    intro i hi j hj
    rw [e1 i (mem_range.1 hi), e1 j (mem_range.1 hj), mul_assoc, sum_mul_sum, mul_sum]
    refine sum_congr rfl fun a _ => ?_
    rw [mul_sum]
    refine sum_congr rfl fun b _ => ?_
    ring
  rw [sum_congr rfl fun i hi => sum_congr rfl fun j hj => e5 i hi j hj]
  simp only [sum_mul]
  rw [sum_congr rfl fun i _ => sum_comm, sum_comm]
  refine sum_congr rfl fun a _ => ?_
  rw [sum_congr rfl fun i _ => sum_comm, sum_comm]

/-- Contracting nothing. -/
theorem contraction_scalar_nil {a : Arr K} (ha : a.shape = []) :
    ∃ e, a.tensorcontraction [] = .ok e ∧ e.shape = [] ∧ e.WF ∧ e.get [] = a.get [] := by
  unfold Arr.tensorcontraction
  refine ⟨_, if_pos (by simp), ?_, Arr.wf_ofFn _ _, ?_⟩
  · simp [Arr.ofFn, Arr.rank, ha, Arr.setAll, Arr.freePart]
  · have h1 : Arr.freePart (Arr.setAll (List.replicate a.rank (none : Option Nat)) (List.map (fun k => (k, some 0)) [])) a.shape = [] := by
      simp [Arr.rank, ha, Arr.setAll, Arr.freePart]
    simp only [List.flatMap_nil]
    rw [h1, Arr.get_ofFn (valid_nil.2 rfl)]
    simp [Arr.rank, ha, Arr.setAll, Arr.fill, allIdx]

variable {G : Ground K} {V : View K} {w : World K}

/-- A new Lagrangian in new coordinates. -/
theorem lagrangian_new_chart [DecidableEq K] [Algebra ℚ K] (hE : EngineOK E) (hT : EngineTotal E) (hS : Scene G V w)
    (h : SubstOK E C) (hC : Calculus E) (hvar : ∀ s t, E.diff s (C.var t) = if s = t then 1 else 0)
    {c' : Id'} {new : List Sym} {rules : List (Option (Sym × K))} (hch : Charts w G.c c' G.syms new (some rules))
    (hcc : c' ≠ G.c) (hN : NewNames G.syms new) (hV : VelocityOK E C new) (hR : ChartRules E G.syms new rules)
    (hnew : new.length = G.n) {Jinv : Nat → Nat → K}
    (hI : Inverse G.n (chartJacobian E G.syms new rules) Jinv)
    (hg : ∀ i j, i < G.n → j < G.n → ∀ s ∈ G.syms, E.diff (dot s) (G.g i j) = 0)
    {r : Id'} {name : String} (hH : Holds G w r .lagrangian name [] fun _ => lagrangian C G) (hO : OnlyIn G w r) :
    ∃ a w', curveComponents E C r (some c') none w = (.ok a, w') ∧ a.shape = [] ∧ a.get [] =
      C.asFunctions C.parameter new (∑ a ∈ range G.n, ∑ b ∈ range G.n,
        transformed E G.n (chartJacobian E G.syms new rules) Jinv rules [-1, -1] (fun I => G.g (I.getD 0 0) (I.getD 1 0)) [a, b] *
          C.var (dot (new.getD a "")) * C.var (dot (new.getD b ""))) := by
  obtain ⟨⟨oc, c1, c2, c3, c4, c5⟩, oc', c1', c2', c3', c4'⟩ := hch
  obtain ⟨o, h1, h2, h3, h4, h5, h6, h7, h8, d, b, h9, h10, h11⟩ := hH
  obtain ⟨o', k1, k2⟩ := hO
  rw [h1] at k1; cases k1
  have hj : ∃ j, UsedJacobians E oc oc' c' rules j := by
    cases hj : oc.jac.get? c' with
    | some j => exact ⟨j, Or.inl hj⟩
    | none =>
      obtain ⟨j, e⟩ := calculateJacobian_total hE hT hS.pos hS.dim hnew hR.once hI
      exact ⟨j, Or.inr ⟨hj, by rw [c4, c4']; exact e⟩⟩
  obtain ⟨j, hj⟩ := hj
  obtain ⟨e, e1, e2, e3, e4⟩ := contraction_scalar_nil (a := b) h11.2.1
  have hv : validateIndices [] o.indices = .ok () := by rw [h7]; rfl
  obtain ⟨w', hw'⟩ := curveComponents_direct (C := C) h1 h2 (by rw [h3]; decide) h6 h9 h10 (k2 c' hcc) hv c1 c3 c2 c1' c3' c2'
    c5 hj (isArray_only h9 k2) (show (List.foldl Arr.tensorproduct b (jacobianFactors j.J j.Jinv [])).tensorcontraction _ = _ from e1)
  have hreq : curveComponents E C r (some c') none w = curveComponents E C r (some c') (some []) w := by
    unfold curveComponents
    rw [PyM.bind_apply, PyM.bind_apply, getObj_ok h1 h2]
    dsimp only
    rw [Option.getD_none, Option.getD_some, Option.getD_some, h7]
  rw [hreq]
  refine ⟨_, _, hw', ?_, ?_⟩
  · rw [newCurve, if_pos h3]
    exact e2
  · rw [newCurve, if_pos h3, c4', h3]
    have hv0 : Valid e.shape [] := by rw [e2]; exact valid_nil.2 rfl
    have hval := newLagrangian_value h hC hvar hN hS.dim hnew hV hR (fun I => G.g (I.getD 0 0) (I.getD 1 0)) hg Jinv
    rw [Arr.get_map (a := Arr.map _ (Arr.map _ e)) hv0, Arr.get_map (a := Arr.map _ e) hv0, Arr.get_map hv0, e4, h11.2.2 [] rfl (by simp), hE.simp_eq, ← hval]
    rfl

end PyOGRe
