import Verif.Lemmas.Charts
import Verif.Lemmas.Ready
import Verif.Props.Represent

/-!
# C12 - C18, C67: coordinate systems

The theorems about single transformations are about any session state; those about sessions are about any
sequence of declarations, requests and changes of defaults, starting from some coordinate systems with rules
that fit together (`Consistent`).
-/

namespace PyOGRe
open Spec Finset
variable {K : Type} [CommRing K]

theorem transformed_congr {E : Engine K} {n : Nat} {J J' Jinv Jinv' : Nat → Nat → K}
    (h : ∀ i j, i < n → j < n → J i j = J' i j) (h' : ∀ i j, i < n → j < n → Jinv i j = Jinv' i j)
    (rules : List (Option (Sym × K))) (ix : List Int) (T : List Nat → K) (I : List Nat) (hI : ∀ x ∈ I, x < n) :
    transformed E n J Jinv rules ix T I = transformed E n J' Jinv' rules ix T I := by
  unfold transformed
  congr 1
  refine applyFactors_axiswise n ix _ _ T I hI ?_
  intro a _
  rw [toMat_coordFactor, toMat_coordFactor, toMat_eq.2 h, toMat_eq.2 h']

/-! ## C13: the transformation law -/

/-- **C13** Let tensor `t` have the components `b` in its coordinates, with any configuration `ix`.  When it is
asked for its components in another system for the first time, the answer is: one Jacobian factor per lower
index and one inverse-Jacobian factor per upper index contracted with the components, followed by substitution
of the rules. -/
theorem C13_transformation_law_partial (E : Engine K) (hE : EngineOK E) (hT : EngineTotal E) {w : World K}
    {t c c' : Id'} {ix : List Int} {b : Arr K} {n : Nat} (hn : 0 < n) {old new : List Sym}
    {rules : List (Option (Sym × K))} (hk : Known E w .tensor t c ix b) (hu : Unseen w t c')
    (hnat : Native w t c) (hb : b.shape = List.replicate ix.length n) (hch : Charts w c c' old new (some rules))
    (ho : old.length = n) (hnew : new.length = n) (hg : GoodRules rules) (hj : cachedJacobian w c c' = none)
    {Jinv : Nat → Nat → K} (hI : Inverse n (chartJacobian E old new rules) Jinv) :
    ∃ b' w', getComponents E t (some c') (some ix) w = (.ok b', w') ∧
      Agree n ix.length b' (transformed E n (chartJacobian E old new rules) Jinv rules ix b.get) := by
  obtain ⟨j, e⟩ := calculateJacobian_total hE hT hn ho hnew hg hI
  obtain ⟨-, s1, -, s2, -, -, s3, s4, -⟩ := calculateJacobian_sound E hE old new n ho rules hg j e
  obtain ⟨b', w', r1, ⟨r2, r3, r4⟩, -⟩ := transform_used hE hn hk hu hnat hb hch s1 s2 (Or.inr ⟨hj, e⟩)
  refine ⟨b', w', r1, r2, r3, fun I hl hx => ?_⟩
  rw [r4 I hl hx]
  exact transformed_congr s3 (fun i k hi hk => inverse_unique (inverse_congr s4 s3 fun _ _ _ _ => rfl) hI i k hi hk)
    rules ix b.get I hx

/-! ## C67: one geometry explains a whole session -/

theorem session_geometry [DecidableEq K] (E : Engine K) (hE : EngineOK E) (hT : EngineTotal E) (A : Atlas K)
    (hA : A.OK) (home : Id') (F : Frames K) (hC : Consistent E A home F) (w : World K) (h0 : ChartsOnly A home w)
    (ops : List (Op K)) (hall : AllAllowed E home A.n F ops w) :
    ∃ G : Geometry K, G.Lawful E A ∧ (∀ e ∈ (Spec.session E home ops w).1, e.Shows A.n G) ∧
      Coherent E A G (Spec.session E home ops w).2 := by
  obtain ⟨H, h1, -, h2⟩ := Inv.session hA hE hT hC ops (Inv.start (E := E) (F := F) h0) hall
  refine ⟨H.geometry A.n F, geometry_lawful hC h1.ok, ?_, h1.coherent⟩
  intro e he
  have := h2 e he
  cases e <;> exact this

/-- **C67** Everything that a user ever sees in a session is explained by one lawful geometry: there are
components of every metric and tensor in every coordinate system and configuration that are related by raising
and lowering and by the transformation law, and every declaration and every answer in the whole session, in
whatever order and after whatever exceptions, is what this geometry says. -/
theorem C67_session_sound [DecidableEq K] (E : Engine K) (hE : EngineOK E) (hT : EngineTotal E) (A : Atlas K)
    (hA : A.OK) (home : Id') (F : Frames K) (hC : Consistent E A home F) (w : World K) (h0 : ChartsOnly A home w)
    (ops : List (Op K)) (hall : AllAllowed E home A.n F ops w) :
    ∃ G : Geometry K, G.Lawful E A ∧ ∀ e ∈ (Spec.session E home ops w).1, e.Shows A.n G := by
  obtain ⟨G, h1, h2, -⟩ := session_geometry E hE hT A hA home F hC w h0 ops hall
  exact ⟨G, h1, h2⟩

/-- In particular the same question always gets the same answer. -/
theorem C67_same_answer [DecidableEq K] (E : Engine K) (hE : EngineOK E) (hT : EngineTotal E) (A : Atlas K)
    (hA : A.OK) (home : Id') (F : Frames K) (hC : Consistent E A home F) (w : World K) (h0 : ChartsOnly A home w)
    (ops : List (Op K)) (hall : AllAllowed E home A.n F ops w) {t c : Id'} {ix : List Int} {a b : Arr K}
    (ha : Event.got t c ix a ∈ (Spec.session E home ops w).1)
    (hb : Event.got t c ix b ∈ (Spec.session E home ops w).1) : a = b := by
  obtain ⟨G, -, h⟩ := C67_session_sound E hE hT A hA home F hC w h0 ops hall
  exact agree_eq (h _ ha).2 (h _ hb).2

/-- **C13** for sessions: whatever happened in between, the answers in two systems with rules between them are
related by the transformation law. -/
theorem C13_transformation_law_sessions [DecidableEq K] (E : Engine K) (hE : EngineOK E) (hT : EngineTotal E)
    (A : Atlas K) (hA : A.OK) (home : Id') (F : Frames K) (hC : Consistent E A home F) (w : World K)
    (h0 : ChartsOnly A home w) (ops : List (Op K)) (hall : AllAllowed E home A.n F ops w) {t c c' : Id'}
    {ix : List Int} {b b' : Arr K} (hb : Event.got t c ix b ∈ (Spec.session E home ops w).1)
    (hb' : Event.got t c' ix b' ∈ (Spec.session E home ops w).1) {rules : List (Option (Sym × K))}
    (hr : A.rules c c' = some rules) {Jinv : Nat → Nat → K}
    (hI : Inverse A.n (chartJacobian E (A.syms c) (A.syms c') rules) Jinv) :
    Agree A.n ix.length b'
      (transformed E A.n (chartJacobian E (A.syms c) (A.syms c') rules) Jinv rules ix b.get) := by
  obtain ⟨G, hG, h⟩ := C67_session_sound E hE hT A hA home F hC w h0 ops hall
  obtain ⟨q1, q2, q3, q4⟩ := h _ hb'
  obtain ⟨-, -, -, p4⟩ := h _ hb
  rw [q1.1]
  refine ⟨q2, q3, fun I hl hx => ?_⟩
  rw [q4 I hl hx, hG.chart t c c' rules Jinv ix I hr hI q1 hl hx]
  unfold transformed
  congr 1
  refine applyFactors_congr _ _ _ fun s hs hs' => ?_
  exact (p4 s (hs.trans hl) hs').symm

/-! ## C14: changing coordinates commutes with raising and lowering -/

theorem shifted_congr {n : Nat} {G : Geometry K} {E : Engine K} {A : Atlas K} (hG : G.Lawful E A) (hn : A.n = n)
    {t m c : Id'} {g gi : Arr K} (hm : G.metricOf t = m)
    (hg : Event.Shows n G (.got m c [-1, -1] g)) (hgi : Event.Shows n G (.got m c [1, 1] gi))
    {src tgt : List Int} (hs : Config (G.rank t) src) (ht : Config (G.rank t) tgt) (I : List Nat)
    (hl : I.length = G.rank t) (hI : ∀ x ∈ I, x < n) :
    G.comp t c tgt I = shifted n g gi src tgt (G.comp t c src) I := by
  subst hn hm
  rw [hG.index t c src tgt I hs ht hl hI]
  unfold shifted
  rw [zipWith_map_left_right, zipWith_map_left_right]
  refine applyFactors_axiswise A.n _ _ _ _ I hI ?_
  rintro ⟨a, b⟩ _
  have r2 : G.rank (G.metricOf t) = 2 := hg.1.1.symm
  have e1 : ∀ i j, i < A.n → j < A.n → G.g t c i j = entry g i j := fun i j hi hj =>
    (hg.2.2.2 [i, j] (by rw [r2]; rfl) (by simp [hi, hj])).symm
  have e2 : ∀ i j, i < A.n → j < A.n → G.ginv t c i j = entry gi i j := fun i j hi hj =>
    (hgi.2.2.2 [i, j] (by rw [r2]; rfl) (by simp [hi, hj])).symm
  simp only [toMat_indexFactor, toMat_eq.2 e1, toMat_eq.2 e2]

/-- **C14** Let `g`, `gi` and `g'`, `gi'` be the answers for the metric (lower and upper) in two coordinate
systems, and `b` the answer for a tensor in the old system with configuration `src`.  Then the answer in the new
system with configuration `tgt` is obtained in either order: raising and lowering in the old system and then
transforming, or transforming first and then raising and lowering with the metric of the new system. -/
theorem C14_transform_commutes [DecidableEq K] (E : Engine K) (hE : EngineOK E) (hT : EngineTotal E) (A : Atlas K)
    (hA : A.OK) (home : Id') (F : Frames K) (hC : Consistent E A home F) (w : World K) (h0 : ChartsOnly A home w)
    (ops : List (Op K)) (hall : AllAllowed E home A.n F ops w) {t m c c' c0 : Id'} {ix0 src tgt : List Int}
    {a b b' g gi g' gi' : Arr K}
    (hm : Event.tensor t m c0 ix0 a ∈ (Spec.session E home ops w).1)
    (hg : Event.got m c [-1, -1] g ∈ (Spec.session E home ops w).1)
    (hgi : Event.got m c [1, 1] gi ∈ (Spec.session E home ops w).1)
    (hg' : Event.got m c' [-1, -1] g' ∈ (Spec.session E home ops w).1)
    (hgi' : Event.got m c' [1, 1] gi' ∈ (Spec.session E home ops w).1)
    (hb : Event.got t c src b ∈ (Spec.session E home ops w).1)
    (hb' : Event.got t c' tgt b' ∈ (Spec.session E home ops w).1)
    {rules : List (Option (Sym × K))} (hr : A.rules c c' = some rules) {Jinv : Nat → Nat → K}
    (hI : Inverse A.n (chartJacobian E (A.syms c) (A.syms c') rules) Jinv) :
    Agree A.n tgt.length b' (transformed E A.n (chartJacobian E (A.syms c) (A.syms c') rules) Jinv rules tgt
      (shifted A.n g gi src tgt b.get)) ∧
    Agree A.n tgt.length b' (shifted A.n g' gi' src tgt
      (transformed E A.n (chartJacobian E (A.syms c) (A.syms c') rules) Jinv rules src b.get)) := by
  obtain ⟨G, hG, h⟩ := C67_session_sound E hE hT A hA home F hC w h0 ops hall
  obtain ⟨q1, q2, q3, q4⟩ := h _ hb'
  obtain ⟨p1, -, -, p4⟩ := h _ hb
  obtain ⟨m1, -⟩ := h _ hm
  rw [q1.1]
  refine ⟨⟨q2, q3, fun I hl hx => ?_⟩, q2, q3, fun I hl hx => ?_⟩
  · rw [q4 I hl hx, hG.chart t c c' rules Jinv tgt I hr hI q1 hl hx]
    unfold transformed
    congr 1
    refine applyFactors_congr _ _ _ fun s hs hs' => ?_
    rw [shifted_congr hG rfl m1 (h _ hg) (h _ hgi) p1 q1 s (hs.trans hl) hs']
    unfold shifted
    refine applyFactors_congr _ _ _ fun s' hs1 hs1' => ?_
    exact (p4 s' (hs1.trans (hs.trans hl)) hs1').symm
  · rw [q4 I hl hx, shifted_congr hG rfl m1 (h _ hg') (h _ hgi') p1 q1 I hl hx]
    unfold shifted
    refine applyFactors_congr _ _ _ fun s hs hs' => ?_
    rw [hG.chart t c c' rules Jinv src s hr hI p1 (hs.trans hl) hs']
    unfold transformed
    congr 1
    refine applyFactors_congr _ _ _ fun s' hs1 hs1' => ?_
    exact (p4 s' (hs1.trans (hs.trans hl)) hs1').symm

theorem fullContraction_congr {n r : Nat} {a b : Arr K} {S T : List Nat → K} (ha : Agree n r a S)
    (hb : Agree n r b T) : fullContraction n r a b = ((tuples n r).map fun I => S I * T I).sum := by
  unfold fullContraction
  congr 1
  apply List.map_congr_left
  intro I hI
  obtain ⟨h1, h2⟩ := mem_tuples.1 hI
  rw [ha.2.2 I h1 h2, hb.2.2 I h1 h2]

/-- **C14**, second part: the contraction of all indices of two tensors with opposite configurations is a scalar:
in the new system it is what it was in the old one, with the rules substituted. -/
theorem C14_full_contractions_are_scalars [DecidableEq K] (E : Engine K) (hE : EngineOK E) (hT : EngineTotal E)
    (A : Atlas K) (hA : A.OK) (home : Id') (F : Frames K) (hC : Consistent E A home F) (w : World K)
    (h0 : ChartsOnly A home w) (ops : List (Op K)) (hall : AllAllowed E home A.n F ops w) {s t c c' : Id'}
    {ix : List Int} {a b a' b' : Arr K}
    (ha : Event.got s c ix a ∈ (Spec.session E home ops w).1)
    (hb : Event.got t c (opposite ix) b ∈ (Spec.session E home ops w).1)
    (ha' : Event.got s c' ix a' ∈ (Spec.session E home ops w).1)
    (hb' : Event.got t c' (opposite ix) b' ∈ (Spec.session E home ops w).1)
    {rules : List (Option (Sym × K))} (hr : A.rules c c' = some rules) {Jinv : Nat → Nat → K}
    (hI : Inverse A.n (chartJacobian E (A.syms c) (A.syms c') rules) Jinv) :
    fullContraction A.n ix.length a' b' = substAll E rules (fullContraction A.n ix.length a b) := by
  have l1 := C13_transformation_law_sessions E hE hT A hA home F hC w h0 ops hall ha ha' hr hI
  have l2 := C13_transformation_law_sessions E hE hT A hA home F hC w h0 ops hall hb hb' hr hI
  obtain ⟨G, hG, h⟩ := C67_session_sound E hE hT A hA home F hC w h0 ops hall
  have hix := (h _ ha).1.2
  obtain ⟨τ, t1, -⟩ := hC.step c c' rules hr
  rw [show (opposite ix).length = ix.length by simp [opposite]] at l2
  rw [fullContraction_congr l1 l2, t1]
  unfold fullContraction
  rw [← contraction_scalar hI ix hix a.get b.get, map_list_sum, List.map_map]
  congr 1
  apply List.map_congr_left
  intro I _
  simp only [Function.comp, transformed, t1, map_mul]

/-! ## C15: there and back -/

/-- **C15** Let `a` and `b` be the answers for a tensor in two coordinate systems, in the same configuration.
Whoever declares a new tensor with the components `b` in the second system and asks for its components in the
first one gets `a` back.  (`Consistent` says that the rules between the systems fit together, and hence that
following them there and back is the identity.) -/
theorem C15_there_and_back [DecidableEq K] (E : Engine K) (hE : EngineOK E) (hT : EngineTotal E) (A : Atlas K)
    (hA : A.OK) (home : Id') (F : Frames K) (hC : Consistent E A home F) (w : World K) (h0 : ChartsOnly A home w)
    (ops : List (Op K)) (hall : AllAllowed E home A.n F ops w) {t c c' : Id'} {ix : List Int} {a b : Arr K}
    (ha : Event.got t c ix a ∈ (Spec.session E home ops w).1)
    (hb : Event.got t c' ix b ∈ (Spec.session E home ops w).1)
    {rules' : List (Option (Sym × K))} (hr : A.rules c' c = some rules') {Jinv : Nat → Nat → K}
    (hI : Inverse A.n (chartJacobian E (A.syms c') (A.syms c) rules') Jinv)
    {name symbol : Arg String} {m i : Id'} {w1 w2 : World K} {a' : Arr K}
    (hnew : newTensor .tensor name (.val b) m c' (.tuple ix) symbol (Spec.session E home ops w).2 = (.ok i, w1))
    (hget : getComponents E i (some c) (some ix) w1 = (.ok a', w2)) : a' = a := by
  set op1 : Op K := .tensor name b m c' (.tuple ix) symbol with hop1
  set op2 : Op K := .get i (some c) (some ix) with hop2
  have r1 : op1.run E home (Spec.session E home ops w).2 = ([.tensor i m c' ix b], w1) := by
    simp only [hop1, Op.run, hnew]
    rfl
  obtain ⟨oi, hi⟩ : ∃ o, w1.objs[i]? = some o ∧ o.kind = .tensor := by
    rcases newTensor_cases .tensor name b m c' (.tuple ix) symbol (Spec.session E home ops w).2 with
      ⟨e, he⟩ | ⟨oc, om, -, -, -, -, -, -, h7⟩
    · rw [hnew] at he; cases he
    · rw [hnew] at h7
      cases h7
      exact ⟨_, getElem?_append_length _ _, rfl⟩
  have r2 : op2.run E home w1 = ([.got i c ix a'], w2) := by
    simp only [hop2, Op.run, hget, hi.1]
    rfl
  have hallow : AllAllowed E home A.n F (ops ++ [op1, op2]) w := by
    rw [allAllowed_append]
    obtain ⟨H, h1, -, h2⟩ := Inv.session hA hE hT hC ops (Inv.start (E := E) (F := F) h0) hall
    obtain ⟨hcfg, hbW, hbs, hbv⟩ := h2 _ hb
    refine ⟨hall, ?_, ?_, trivial⟩
    · refine ⟨hbW, fun J => if ∀ x ∈ J, x < A.n then H.comp A.n t ix J else 0, ?_, ?_⟩
      · intro J
        dsimp only
        split_ifs with hJ
        · exact home_comp_mem h1.ok t ix J hJ
        · exact F.fns.zero_mem
      · intro J hl hJ
        have hrank : b.rank = H.rank t := by unfold Arr.rank; rw [hbs]; simp
        rw [hbv J (hl.trans hrank) hJ]
        refine applyFactors_congr _ _ _ fun s hs hs' => ?_
        show _ = F.sub c' (if ∀ x ∈ s, x < A.n then H.comp A.n t ix s else 0)
        rw [if_pos hs']
    · intro o ho
      rw [r1] at ho
      rw [hi.1] at ho
      cases ho
      exact Or.inr hi.2
  obtain ⟨G, hG, h⟩ := C67_session_sound E hE hT A hA home F hC w h0 _ hallow
  have hev : (Spec.session E home (ops ++ [op1, op2]) w).1 =
      (Spec.session E home ops w).1 ++ [.tensor i m c' ix b, .got i c ix a'] := by
    rw [session_append]
    simp only [Spec.session, r1, r2]
    rfl
  rw [hev] at h
  obtain ⟨t1, t2⟩ := h _ (List.mem_append_left _ ha)
  obtain ⟨-, t3⟩ := h _ (List.mem_append_left _ hb)
  obtain ⟨-, i1, i2⟩ := h _ (List.mem_append_right _ (List.mem_cons_self))
  obtain ⟨-, i3⟩ := h (.got i c ix a') (List.mem_append_right _ (by simp))
  have hrank : G.rank i = G.rank t := i1.1.symm.trans t1.1
  rw [hrank] at i2 i3
  refine agree_eq i3 ⟨t2.1, t2.2.1, fun J hl hJ => ?_⟩
  rw [t2.2.2 J hl hJ, hG.chart t c' c rules' Jinv ix J hr hI t1 hl hJ,
    hG.chart i c' c rules' Jinv ix J hr hI i1 (hl.trans hrank.symm) hJ]
  congr 1
  refine applyFactors_congr _ _ _ fun s hs hs' => ?_
  rw [← t3.2.2 s (hs.trans hl) hs', ← i2.2.2 s (hs.trans hl) hs']

/-! ## C12: metrics in new coordinates -/

/-- **C12** is false: a metric that is asked in a new system for any other configuration than its default one
raises `KeyError`, and from then on it raises `KeyError` for every other configuration in that system, even the
default one. -/
theorem C12_false (E : Engine K) (hE : EngineOK E) (hT : EngineTotal E) {w : World K} {m c c' : Id'}
    {ix : List Int} {b : Arr K} {o : Obj K} {n : Nat} (hn : 0 < n) {old new : List Sym}
    {rules : List (Option (Sym × K))} (hk : Known E w .metric m c ix b) (hu : Unseen w m c')
    (hb : b.shape = [n, n]) (ho : w.objs[m]? = some o) (h2 : o.indices.length = 2) (hix : o.indices ≠ ix)
    (hch : Charts w c c' old new (some rules))
    (hold : old.length = n) (hnew : new.length = n) (hg : GoodRules rules) (hj : cachedJacobian w c c' = none)
    {Jinv : Nat → Nat → K} (hI : Inverse n (chartJacobian E old new rules) Jinv) :
    ∃ w', getComponents E m (some c') (some ix) w = (.error .keyError, w') ∧
      ∀ ix', ix' ≠ ix → Config 2 ix' →
        getComponents E m (some c') (some ix') w' = (.error .keyError, w') := by
  obtain ⟨j, e⟩ := calculateJacobian_total hE hT hn hold hnew hg hI
  obtain ⟨-, s1, -, s2, -⟩ := calculateJacobian_sound E hE old new n hold rules hg j e
  obtain ⟨o', d, h1, -, -, -, -, -, h7⟩ := known_stored hk
  rw [ho] at h1; cases h1
  have hl : ix.length = 2 := (validateIndices_ok h7).1.trans h2
  obtain ⟨w', q1, q2⟩ := metric_poisoned hE hn hk hu (by rw [hl]; exact hb) ho hix
    (by intro h; rw [h] at h2; cases h2) hch s1 s2 (Or.inr ⟨hj, e⟩)
  exact ⟨w', q1, fun ix' h h' => q2 ix' h (h'.1.trans hl.symm) h'.2⟩

theorem ready_start {A : Atlas K} {home : Id'} {w : World K} (h0 : ChartsOnly A home w)
    (hal : ∀ (i : Id') o, w.objs[i]? = some o → o.alive = true) : Ready w := by
  refine ⟨hal, ?_, ?_, ?_⟩ <;>
  · intro t o ho hk
    rw [(h0.2 t o ho).1] at hk
    cases hk

/-- After a plain session every metric can be asked for its lower components in any system, and then for any
configuration. -/
theorem metric_answers [DecidableEq K] {E : Engine K} (hE : EngineOK E) (hT : EngineTotal E) {A : Atlas K}
    (hA : A.OK) {home : Id'} {F : Frames K} (hC : Consistent E A home F) {w : World K} (h0 : ChartsOnly A home w)
    (hal : ∀ (i : Id') o, w.objs[i]? = some o → o.alive = true) (hcn : Connected E A w) {ops : List (Op K)}
    (hall : AllAllowed E home A.n F ops w) (hpl : AllPlain E home ops w) {m c' : Id'} {om oc : Obj K}
    (hm : (Spec.session E home ops w).2.objs[m]? = some om) (hk : om.kind = .metric)
    (hc : (Spec.session E home ops w).2.objs[c']? = some oc) (hkc : oc.kind = .coordinates) :
    ∃ g w1, getComponents E m (some c') (some [-1, -1]) (Spec.session E home ops w).2 = (.ok g, w1) ∧
      (∃ o, w1.objs[m]? = some o ∧ o.kind = .metric) ∧
      ∀ ix, Config 2 ix → ∃ b w2, getComponents E m (some c') (some ix) w1 = (.ok b, w2) := by
  obtain ⟨H, hI, -, -⟩ := Inv.session hA hE hT hC ops (Inv.start (E := E) (F := F) h0) hall
  obtain ⟨hr, hcn'⟩ := ready_session hA hE hT hC ops (Inv.start (E := E) (F := F) h0) (ready_start h0 hal) hcn hall hpl
  set wN := (Spec.session E home ops w).2
  have hG := geometry_lawful hC hI.ok
  have hP : CohK E A (H.geometry A.n F) (fun i : Nat => wN.objs[i]?.map (·.kind)) wN := ⟨hI.coherent, fun _ => rfl⟩
  have k1 : (fun i : Nat => wN.objs[i]?.map (·.kind)) m = some .metric := by
    show wN.objs[m]?.map (·.kind) = _
    rw [hm, Option.map_some, hk]
  have k2 : (fun i : Nat => wN.objs[i]?.map (·.kind)) c' = some .coordinates := by
    show wN.objs[c']?.map (·.kind) = _
    rw [hc, Option.map_some, hkc]
  obtain ⟨o', e1, e2, e3⟩ := connected_metric hr hcn' hP k1 k2
  rw [hm] at e1; cases e1
  have hgc : ∀ {w : World K} {o : Obj K} (ix : List Int), w.objs[m]? = some o → o.alive = true →
      getComponents E m (some c') (some ix) w = getRepresentation E m c' ix w := by
    intro w o ix h1 h2
    unfold getComponents
    rw [PyM.bind_apply, getObj_ok h1 h2]
    rfl
  obtain ⟨w1, g, r1, r2, r3, r4⟩ := getRepresentation_metric_eval hA hE hT hG hP hr hm k1 k2
    (ix := [-1, -1]) ⟨rfl, by simp⟩ (e3.imp_right fun h => ⟨rfl, h⟩)
  rw [← hgc _ hm (hr.alive m om hm)] at r1
  obtain ⟨o1, f1, f2, -⟩ := r4 m om hm
  refine ⟨g, w1, r1, ⟨o1, f1, f2.trans hk⟩, fun ix hix => ?_⟩
  obtain ⟨-, -, o1', d, p1, p2, p3, -⟩ := getComponents_stored r1
  rw [f1] at p1; cases p1
  obtain ⟨w2, b, q1, -⟩ := getRepresentation_metric_eval hA hE hT hG r2 r3 f1 k1 k2 hix
    (Or.inl ((Dict.has_iff _ _).2 ⟨d, p3⟩))
  exact ⟨b, w2, by rw [hgc _ f1 p2]; exact q1⟩

/-- **C12**, what is true: consider a session in which metrics are declared and kept with lower indices, and are
asked for their lower components first in every system.  Then every metric, in every system, can be asked for
its lower components, and after that for any configuration: the lower components `g` are the declared ones
transformed, the upper ones are the inverse of `g`, and the mixed ones are the identity. -/
theorem C12_metric_in_new_coordinates_partial [DecidableEq K] (E : Engine K) (hE : EngineOK E)
    (hT : EngineTotal E) (A : Atlas K) (hA : A.OK) (home : Id') (F : Frames K) (hC : Consistent E A home F)
    (w : World K) (h0 : ChartsOnly A home w) (hal : ∀ (i : Id') o, w.objs[i]? = some o → o.alive = true)
    (hcn : Connected E A w) (ops : List (Op K)) (hall : AllAllowed E home A.n F ops w)
    (hpl : AllPlain E home ops w) {m c' : Id'} {om oc : Obj K}
    (hm : (Spec.session E home ops w).2.objs[m]? = some om) (hk : om.kind = .metric)
    (hc : (Spec.session E home ops w).2.objs[c']? = some oc) (hkc : oc.kind = .coordinates) :
    ∃ g w1 gi wi, getComponents E m (some c') (some [-1, -1]) (Spec.session E home ops w).2 = (.ok g, w1) ∧
      getComponents E m (some c') (some [1, 1]) w1 = (.ok gi, wi) ∧ Inverse A.n (entry g) (entry gi) ∧
      (∀ ix, ix = [1, -1] ∨ ix = [-1, 1] → ∃ e we, getComponents E m (some c') (some ix) w1 = (.ok e, we) ∧
        ∀ i j, i < A.n → j < A.n → entry e i j = delta i j) ∧
      ∀ c g0 rules Jinv, (Event.metric m c [-1, -1] g0 ∈ (Spec.session E home ops w).1 ∨
          Event.got m c [-1, -1] g0 ∈ (Spec.session E home ops w).1) → A.rules c c' = some rules →
        Inverse A.n (chartJacobian E (A.syms c) (A.syms c') rules) Jinv →
        Agree A.n 2 g (transformed E A.n (chartJacobian E (A.syms c) (A.syms c') rules) Jinv rules [-1, -1]
          g0.get) := by
  obtain ⟨g, w1, r1, ⟨o1, f1, f2⟩, r2⟩ := metric_answers hE hT hA hC h0 hal hcn hall hpl hm hk hc hkc
  have key : ∀ ix b w2, getComponents E m (some c') (some ix) w1 = (.ok b, w2) →
      ∃ G : Geometry K, G.Lawful E A ∧ G.metricOf m = m ∧ (∀ e ∈ (Spec.session E home ops w).1, e.Shows A.n G) ∧
        Event.Shows A.n G (.got m c' [-1, -1] g) ∧ Event.Shows A.n G (.got m c' ix b) := by
    intro ix b w2 hb
    have hallow : AllAllowed E home A.n F (ops ++ [.get m (some c') (some [-1, -1]), .get m (some c') (some ix)]) w := by
      rw [allAllowed_append]
      refine ⟨hall, ?_, ?_, trivial⟩
      · intro o ho
        rw [hm] at ho; cases ho
        exact Or.inl hk
      · intro o ho
        simp only [Op.run, r1] at ho
        rw [f1] at ho; cases ho
        exact Or.inl f2
    obtain ⟨G, hG, h, hcoh⟩ := session_geometry E hE hT A hA home F hC w h0 _ hallow
    have hmm : G.metricOf m = m := by
      have hfin : (Spec.session E home (ops ++ [.get m (some c') (some [-1, -1]), .get m (some c') (some ix)]) w).2 =
          w2 := by
        rw [session_append]
        simp only [Spec.session, Op.run, r1, hb]
      rw [hfin] at hcoh
      have hs := getComponents_steady (E := E) m (some c') (some ix) w1
      rw [hb] at hs
      obtain ⟨o2, g1, g2⟩ := hs.get f1
      exact (hcoh.metrics m o2 g1 ((congrArg (·.1) g2).trans f2)).2.1
    have hev : (Spec.session E home (ops ++ [.get m (some c') (some [-1, -1]), .get m (some c') (some ix)]) w).1 =
        (Spec.session E home ops w).1 ++ [.got m c' [-1, -1] g, .got m c' ix b] := by
      rw [session_append]
      simp only [Spec.session, Op.run, r1, hb, hm, f1]
      rfl
    rw [hev] at h
    exact ⟨G, hG, hmm, fun e he => h e (List.mem_append_left _ he), h _ (List.mem_append_right _ (by simp)),
      h _ (List.mem_append_right _ (by simp))⟩
  obtain ⟨gi, wi, hgi⟩ := r2 [1, 1] ⟨rfl, by simp⟩
  refine ⟨g, w1, gi, wi, r1, hgi, ?_, ?_, ?_⟩
  · obtain ⟨G, hG, hmm, -, s1, s2⟩ := key _ _ _ hgi
    have r : G.rank m = 2 := s1.1.1.symm
    refine inverse_congr (hG.inverse m c') ?_ ?_
    · intro i j hi hj
      unfold Geometry.g
      rw [hmm, ← s1.2.2.2 [i, j] (by rw [r]; rfl) (by simp [hi, hj])]
      rfl
    · intro i j hi hj
      unfold Geometry.ginv
      rw [hmm, ← s2.2.2.2 [i, j] (by rw [r]; rfl) (by simp [hi, hj])]
      rfl
  · intro ix hix
    obtain ⟨e, we, he⟩ := r2 ix (by rcases hix with rfl | rfl <;> exact ⟨rfl, by simp⟩)
    refine ⟨e, we, he, fun i j hi hj => ?_⟩
    obtain ⟨G, hG, hmm, -, s1, s2⟩ := key _ _ _ he
    have r : G.rank m = 2 := s1.1.1.symm
    have := hG.mixed m c' i j hi hj
    rw [hmm] at this
    unfold entry
    rw [s2.2.2.2 [i, j] (by rw [r]; rfl) (by simp [hi, hj])]
    rcases hix with rfl | rfl
    · exact this.1
    · exact this.2
  · intro c g0 rules Jinv hev hr hJ
    obtain ⟨G, hG, hmm, h, s1, s2⟩ := key _ _ _ hgi
    have r : G.rank m = 2 := s1.1.1.symm
    have hg0 : Agree A.n 2 g0 (G.comp m c [-1, -1]) := by
      rcases hev with hev | hev
      · have := (h _ hev).2.2; rwa [r] at this
      · have := (h _ hev).2; rwa [r] at this
    have s1' := s1.2
    rw [r] at s1'
    refine ⟨s1'.1, s1'.2.1, fun I hl hx => ?_⟩
    rw [s1'.2.2 I hl hx, hG.chart m c c' rules Jinv [-1, -1] I hr hJ s1.1 (hl.trans r.symm) hx]
    unfold transformed
    congr 1
    refine applyFactors_congr _ _ _ fun s hs hs' => ?_
    exact (hg0.2.2 s (hs.trans hl) hs').symm

/-- In such sessions every tensor can be asked for its components in every system and configuration. -/
theorem C67_requests_succeed [DecidableEq K] (E : Engine K) (hE : EngineOK E) (hT : EngineTotal E) (A : Atlas K)
    (hA : A.OK) (home : Id') (F : Frames K) (hC : Consistent E A home F) (w : World K) (h0 : ChartsOnly A home w)
    (hal : ∀ (i : Id') o, w.objs[i]? = some o → o.alive = true) (hcn : Connected E A w) (ops : List (Op K))
    (hall : AllAllowed E home A.n F ops w) (hpl : AllPlain E home ops w) {t c : Id'} {o oc : Obj K}
    (ho : (Spec.session E home ops w).2.objs[t]? = some o) (hk : o.kind = .tensor)
    (hc : (Spec.session E home ops w).2.objs[c]? = some oc) (hkc : oc.kind = .coordinates) (ix : List Int)
    (hix : Config o.indices.length ix) :
    ∃ b w', getComponents E t (some c) (some ix) (Spec.session E home ops w).2 = (.ok b, w') := by
  obtain ⟨H, hI, -, -⟩ := Inv.session hA hE hT hC ops (Inv.start (E := E) (F := F) h0) hall
  obtain ⟨hr, hcn'⟩ := ready_session hA hE hT hC ops (Inv.start (E := E) (F := F) h0) (ready_start h0 hal) hcn hall hpl
  set wN := (Spec.session E home ops w).2
  have hP : CohK E A (H.geometry A.n F) (fun i : Nat => wN.objs[i]?.map (·.kind)) wN := ⟨hI.coherent, fun _ => rfl⟩
  have hcfg := (hI.coherent.tensors t o ho (Or.inr hk)).2.2.1
  obtain ⟨w', a, r1, -⟩ := getRepresentation_tensor_total hA hE hT (geometry_lawful hC hI.ok) hP hr hcn'
    (t := t) (c := c) (ix := ix)
    (by show wN.objs[t]?.map (·.kind) = _; rw [ho, Option.map_some, hk])
    (by show wN.objs[c]?.map (·.kind) = _; rw [hc, Option.map_some, hkc])
    ⟨hix.1.trans hcfg.1, hix.2⟩
  refine ⟨a, w', ?_⟩
  unfold getComponents
  rw [PyM.bind_apply, getObj_ok ho (hr.alive t o ho)]
  exact r1

/-! ## C16: changing the rules -/

theorem addRules_ok {w : World K} {c c' : Id'} {old new : List Sym} {r : Option (List (Option (Sym × K)))}
    (hch : Charts w c c' old new r) (hne : c ≠ c') (rules : List (Option (Sym × K))) :
    ∃ w', addCoordTransformation c c' (some rules) w = (.ok (), w') ∧ Charts w' c c' old new (some rules) ∧
      cachedJacobian w' c c' = cachedJacobian w c c' ∧ (∀ t, t ≠ c → w'.objs[t]? = w.objs[t]?) := by
  obtain ⟨⟨oc, c1, c2, c3, c4, c5⟩, oc', c1', c2', c3', c4'⟩ := hch
  refine ⟨upd w c fun o => { o with trans := o.trans.set c' rules }, ?_, ⟨⟨_, upd_self c1, c2, c3, c4, ?_⟩,
    oc', ?_, c2', c3', c4'⟩, ?_, fun t ht => upd_ne (Ne.symm ht)⟩
  · unfold addCoordTransformation
    rw [PyM.bind_apply, isCoordinates_apply, c1']
    dsimp only
    rw [if_neg (by simp [c2']), if_neg hne, PyM.bind_apply, getObj_ok c1 c3]
    rfl
  · exact Dict.get?_set_self _ _ _
  · rw [upd_ne hne]; exact c1'
  · unfold cachedJacobian
    rw [upd_self c1, c1]
    rfl

theorem known_of_stored {E : Engine K} {w' : World K} {k : Kind} {t c : Id'} {ix : List Int} {b : Arr K}
    {o oc : Obj K} {d : Dict (List Int) (Arr K)} (h1' : w'.objs[t]? = some o) (h2 : o.alive = true)
    (h3 : o.kind = k) (h4 : o.coords = c) (h5 : o.comps.get? c = some d) (h6 : d.get? ix = some b)
    (h7 : validateIndices ix o.indices = .ok ()) (hc : w'.objs[c]? = some oc) (hkc : oc.kind = .coordinates) :
    Known E w' k t c ix b := by
  refine ⟨⟨o, h1', h3, h4⟩, ?_⟩
  unfold getComponents
  rw [PyM.bind_apply, getObj_ok h1' h2]
  dsimp only
  rw [Option.getD_some, Option.getD_some]
  unfold getRepresentation
  rw [PyM.bind_apply, isCoordinates_apply, hc]
  dsimp only
  rw [if_neg (by simp [hkc]), PyM.bind_apply, getObj_ok h1' h2]
  dsimp only
  rw [PyM.bind_apply, PyM.lift_apply, h7]
  dsimp only
  have hchk : checkRepresentation E t c ix w' = (.ok true, w') := by
    by_cases hm : k = .metric
    · subst hm
      unfold checkRepresentation
      rw [PyM.bind_apply, getObj_ok h1' h2]
      dsimp only
      rw [h3]
      unfold metricCheck
      dsimp only
      rw [PyM.bind_apply, getObj_ok h1' h2]
      dsimp only
      rw [(Dict.has_iff _ _).2 ⟨_, h5⟩]
      rfl
    · rw [checkRepresentation_tensor t c ix h1' h2 (by rw [h3]; exact hm)]
      unfold tensorCheck
      rw [PyM.bind_apply, getObj_ok h1' h2]
      dsimp only
      rw [h5]
      dsimp only
      rw [(Dict.has_iff _ _).2 ⟨b, h6⟩]
      rfl
  rw [PyM.bind_apply, hchk]
  dsimp only
  rw [PyM.bind_apply, show PyM.onlyIf (!true) (transformCoordinates E t c ix) w' = (.ok (), w') from rfl]
  exact readComps_ok h1' h2 h5 h6

theorem known_other {E : Engine K} {w w' : World K} {k : Kind} {t c : Id'} {ix : List Int} {b : Arr K}
    (h : Known E w k t c ix b) (hk : k ≠ .coordinates) (hw : ∀ t, t ≠ c → w'.objs[t]? = w.objs[t]?) {oc : Obj K}
    (hc : w'.objs[c]? = some oc) (hkc : oc.kind = .coordinates)
    (hc0 : ∃ oc, w.objs[c]? = some oc ∧ oc.kind = .coordinates) :
    Known E w' k t c ix b := by
  obtain ⟨o, d, h1, h2, h3, h4, h5, h6, h7⟩ := known_stored h
  have hne : t ≠ c := by
    intro he
    obtain ⟨oc, q1, q2⟩ := hc0
    rw [← he, h1] at q1; cases q1
    exact hk (h3.symm.trans q2)
  have h1' : w'.objs[t]? = some o := (hw t hne).trans h1
  exact known_of_stored h1' h2 h3 h4 h5 h6 h7 hc hkc

/-- **C16**, what is true: as long as no transformation from `c` to `c'` has been used, new rules take effect.
Missing: after one has been used its Jacobian is kept, see `C16_old_jacobian_is_kept`. -/
theorem C16_new_rules_take_effect_partial (E : Engine K) (hE : EngineOK E) (hT : EngineTotal E) {w : World K}
    {t c c' : Id'} {ix : List Int} {b : Arr K} {n : Nat} (hn : 0 < n) {old new : List Sym}
    {oldRules : Option (List (Option (Sym × K)))} {rules : List (Option (Sym × K))} (hk : Known E w .tensor t c ix b)
    (hu : Unseen w t c') (hnat : Native w t c) (hne : c ≠ c')
    (hb : b.shape = List.replicate ix.length n) (hch : Charts w c c' old new oldRules)
    (ho : old.length = n) (hnew : new.length = n) (hg : GoodRules rules) (hj : cachedJacobian w c c' = none)
    {Jinv : Nat → Nat → K} (hI : Inverse n (chartJacobian E old new rules) Jinv) :
    ∃ w', addCoordTransformation c c' (some rules) w = (.ok (), w') ∧
      ∃ b' w'', getComponents E t (some c') (some ix) w' = (.ok b', w'') ∧
        Agree n ix.length b' (transformed E n (chartJacobian E old new rules) Jinv rules ix b.get) := by
  obtain ⟨w', a1, a2, a3, a4⟩ := addRules_ok hch hne rules
  obtain ⟨⟨oc, c1, c2, -⟩, -⟩ := hch
  have hne' : t ≠ c := by
    intro he
    obtain ⟨o, q1, q2, -⟩ := hk.object
    rw [he, c1] at q1; cases q1
    rw [c2] at q2; cases q2
  have hk' : Known E w' .tensor t c ix b := by
    obtain ⟨⟨oc', c1', c2', -⟩, -⟩ := a2
    exact known_other hk (fun h => by cases h) a4 c1' c2' ⟨oc, c1, c2⟩
  have hu' : Unseen w' t c' := by
    intro o ho
    rw [a4 t hne'] at ho
    exact hu o ho
  exact ⟨w', a1, C13_transformation_law_partial E hE hT hn hk' hu' (native_same hnat (a4 t hne')) hb a2 ho hnew hg (a3.trans hj) hI⟩

/-- **C16** is false: once a transformation from `c` to `c'` has been used, its Jacobian `j` is kept.  After the
rules have been replaced, later transformations still multiply with the old Jacobian and substitute the new
rules. -/
theorem C16_old_jacobian_is_kept (E : Engine K) (hE : EngineOK E) {w : World K} {t c c' : Id'} {ix : List Int}
    {b : Arr K} {n : Nat} (hn : 0 < n) {old new : List Sym} {oldRules : Option (List (Option (Sym × K)))}
    {rules : List (Option (Sym × K))} (hk : Known E w .tensor t c ix b) (hu : Unseen w t c')
    (hnat : Native w t c) (hne : c ≠ c')
    (hb : b.shape = List.replicate ix.length n) (hch : Charts w c c' old new oldRules) {j : Jacobians K}
    (hj : cachedJacobian w c c' = some j) (hJ : j.J.shape = [n, n]) (hJi : j.Jinv.shape = [n, n]) :
    ∃ w', addCoordTransformation c c' (some rules) w = (.ok (), w') ∧
      ∃ b' w'', getComponents E t (some c') (some ix) w' = (.ok b', w'') ∧
        Agree n ix.length b' (transformed E n (entry j.J) (entry j.Jinv) rules ix b.get) := by
  obtain ⟨w', a1, a2, a3, a4⟩ := addRules_ok hch hne rules
  obtain ⟨⟨oc, c1, c2, -⟩, -⟩ := hch
  have hne' : t ≠ c := by
    intro he
    obtain ⟨o, q1, q2, -⟩ := hk.object
    rw [he, c1] at q1; cases q1
    rw [c2] at q2; cases q2
  have hk' : Known E w' .tensor t c ix b := by
    obtain ⟨⟨oc', c1', c2', -⟩, -⟩ := a2
    exact known_other hk (fun h => by cases h) a4 c1' c2' ⟨oc, c1, c2⟩
  have hu' : Unseen w' t c' := by
    intro o ho
    rw [a4 t hne'] at ho
    exact hu o ho
  obtain ⟨b', w'', r1, r2, -⟩ := transform_used hE hn hk' hu' (native_same hnat (a4 t hne')) hb a2 hJ hJi (Or.inl (a3.trans hj))
  exact ⟨w', a1, b', w'', r1, r2⟩

/-- The chart of the object's default coordinates has no rules to `c'`. -/
def NoRules (t c' : Id') (w : World K) : Prop :=
  ∃ o oc, w.objs[t]? = some o ∧ w.objs[o.coords]? = some oc ∧ oc.trans.get? c' = none

theorem NoRules.frame {t c' : Id'} {w w' : World K} (h : NoRules t c' w) (hf : Frame w w') : NoRules t c' w' := by
  obtain ⟨o, oc, h1, h2, h3⟩ := h
  obtain ⟨o', e1, e2⟩ := hf.get h1
  obtain ⟨oc', f1, f2⟩ := hf.get h2
  have hco : o'.coords = o.coords := congrArg (·.2.2.2.2.1) e2
  have htr : oc'.trans = oc.trans := congrArg (·.2.2.2.2.2.2.2.1) f2
  exact ⟨o', oc', e1, by rw [hco]; exact f1, by rw [htr]; exact h3⟩

theorem baseTransform_no_rules {E : Engine K} {t c' : Id'} {ix : List Int} {w w' : World K}
    (h : NoRules t c' w) : baseTransform E t c' ix w ≠ (.ok (), w') := by
  intro hh
  unfold baseTransform at hh
  obtain ⟨o, w1, k1, h1⟩ := bind_ok hh
  obtain ⟨rfl, k2, -⟩ := getObj_inv k1
  obtain ⟨u, w2, k3, h2⟩ := bind_ok h1
  have f1 := checkJacobians_steady (E := E) o.coords c' w1
  rw [k3] at f1
  obtain ⟨a, w3, k4, h3⟩ := bind_ok h2
  obtain ⟨rfl, -⟩ := readComps_inv k4
  obtain ⟨oc, w4, k5, h4⟩ := bind_ok h3
  obtain ⟨rfl, k6, -⟩ := getObj_inv k5
  obtain ⟨j, w5, k7, h5⟩ := bind_ok h4
  obtain ⟨rfl, -⟩ := lookup_inv k7
  obtain ⟨r, w6, k8, -⟩ := bind_ok h5
  obtain ⟨rfl, k9⟩ := lookup_inv k8
  obtain ⟨o', oc', q1, q2, q3⟩ := h
  rw [k2] at q1; cases q1
  obtain ⟨oc2, g1, g2⟩ := f1.get q2
  rw [k6] at g1; cases g1
  have htr : oc.trans = oc'.trans := congrArg (·.2.2.2.2.2.2.2.1) g2
  rw [htr, q3] at k9
  cases k9

/-- **C16**, second part: a tensor or metric that has not been seen in `c'` cannot be asked for its components
there while its default coordinates have no rules to `c'`, whatever was computed before. -/
theorem C16_refused_without_rules (E : Engine K) {w : World K} {t c c' : Id'} {o : Obj K} {old new : List Sym}
    (ho : w.objs[t]? = some o) (hk : o.kind = .tensor ∨ o.kind = .metric) (hoc : o.coords = c)
    (hu : Unseen w t c') (hch : Charts w c c' old new none) (ix : Option (List Int)) :
    ∃ e w', getComponents E t (some c') ix w = (.error e, w') := by
  rcases hres : getComponents E t (some c') ix w with ⟨e | b, w'⟩
  · exact ⟨e, w', rfl⟩
  · exfalso
    subst hoc
    have hno : NoRules t c' w := by
      obtain ⟨⟨oc, c1, -, -, -, c5⟩, -⟩ := hch
      exact ⟨o, oc, ho, c1, c5⟩
    unfold getComponents at hres
    obtain ⟨o1, w1, k1, h1⟩ := bind_ok hres
    obtain ⟨rfl, k2, k3⟩ := getObj_inv k1
    rw [ho] at k2; cases k2
    rw [Option.getD_some] at h1
    unfold getRepresentation at h1
    obtain ⟨⟨oc, c1, -⟩, oc', c1', c2', -⟩ := hch
    rw [PyM.bind_apply, isCoordinates_apply, c1'] at h1
    dsimp only at h1
    rw [if_neg (by simp [c2'])] at h1
    obtain ⟨o2, w2, k4, h2⟩ := bind_ok h1
    obtain ⟨rfl, k5, -⟩ := getObj_inv k4
    obtain ⟨u, w3, k6, h3⟩ := bind_ok h2
    rw [PyM.lift_apply] at k6
    obtain rfl : w2 = w3 := congrArg Prod.snd k6
    have hchk : checkRepresentation E t c' (ix.getD o.indices) w2 = (.ok false, w2) := by
      rcases hk with hk | hk
      · rw [checkRepresentation_tensor t c' _ ho k3 (by rw [hk]; decide)]
        unfold tensorCheck
        rw [PyM.bind_apply, getObj_ok ho k3]
        dsimp only
        rw [hu o ho]
        rfl
      · unfold checkRepresentation
        rw [PyM.bind_apply, getObj_ok ho k3]
        dsimp only
        rw [hk]
        unfold metricCheck
        dsimp only
        rw [PyM.bind_apply, getObj_ok ho k3]
        dsimp only
        rw [(Dict.has_eq_false _ _).2 (hu o ho)]
        rfl
    rw [PyM.bind_apply, hchk] at h3
    dsimp only at h3
    obtain ⟨u', w4, k7, -⟩ := bind_ok h3
    rw [show PyM.onlyIf (!false) (transformCoordinates E t c' (ix.getD o.indices)) w2 =
      transformCoordinates E t c' (ix.getD o.indices) w2 from rfl] at k7
    unfold transformCoordinates at k7
    rw [PyM.bind_apply, getObj_ok ho k3] at k7
    dsimp only at k7
    rcases hk with hk | hk
    · rw [hk] at k7
      unfold tensorTransform at k7
      dsimp only at k7
      rw [PyM.bind_apply, getObj_ok ho k3] at k7
      dsimp only at k7
      obtain ⟨b1, w5, j1, h4⟩ := bind_ok k7
      have f1 := tensorCheck_steady (E := E) t o.coords (ix.getD o.indices) w2
      rw [j1] at f1
      obtain ⟨u5, w6, j2, h5⟩ := bind_ok h4
      have f2 := Steady.onlyIf (b := !b1) (tensorRaiseLower_steady (E := E) t o.coords (ix.getD o.indices)) w5
      rw [j2] at f2
      exact baseTransform_no_rules ((hno.frame f1).frame f2) h5
    · rw [hk] at k7
      unfold metricTransform at k7
      dsimp only at k7
      obtain ⟨u5, w5, j1, -⟩ := bind_ok k7
      exact baseTransform_no_rules hno j1

/-- Removing the rules leads to such a state. -/
theorem C16_removed_rules_are_gone {w : World K} {c c' : Id'} {old new : List Sym}
    {rules : List (Option (Sym × K))} (hch : Charts w c c' old new (some rules)) (hne : c ≠ c') :
    ∃ w', addCoordTransformation c c' none w = (.ok (), w') ∧ Charts w' c c' old new none ∧
      ∀ t, t ≠ c → w'.objs[t]? = w.objs[t]? := by
  obtain ⟨⟨oc, c1, c2, c3, c4, c5⟩, oc', c1', c2', c3', c4'⟩ := hch
  refine ⟨upd w c fun o => { o with trans := o.trans.del c' }, ?_, ⟨⟨_, upd_self c1, c2, c3, c4, ?_⟩,
    oc', ?_, c2', c3', c4'⟩, fun t ht => upd_ne (Ne.symm ht)⟩
  · unfold addCoordTransformation
    rw [PyM.bind_apply, isCoordinates_apply, c1']
    dsimp only
    rw [if_neg (by simp [c2']), if_neg hne, PyM.bind_apply, getObj_ok c1 c3]
    dsimp only
    rw [PyM.bind_apply, lookup_ok c5]
    rfl
  · show Dict.get? (Dict.del oc.trans c') c' = none
    rw [Dict.get?_del, if_pos rfl]
  · rw [upd_ne hne]; exact c1'

/-! ## C17: the Jacobian -/

theorem getD_eq_getElem' (l : List Sym) {k : Nat} (h : k < l.length) : l.getD k "" = l[k] := by
  rw [List.getD_eq_getElem?_getD, List.getElem?_eq_getElem h, Option.getD_some]

/-- **C17**, what is true: the Jacobian that transforms tensors (seen here through the transformation of the
covector `dx_i`) is the matrix of derivatives of the old coordinates with respect to the new ones, provided that
every old coordinate without rule has the same position in the new system.  Missing: `C17_false`. -/
theorem C17_jacobian_partial (E : Engine K) (hE : EngineOK E) (hT : EngineTotal E) {w : World K}
    {t c c' : Id'} {b : Arr K} {n i : Nat} {old new : List Sym}
    {rules : List (Option (Sym × K))} (hk : Known E w .tensor t c [-1] b) (hu : Unseen w t c')
    (hb : b.shape = [n]) (hi : i < n) (hbi : ∀ k, k < n → b.get [k] = delta i k)
    (hch : Charts w c c' old new (some rules))
    (ho : old.length = n) (hnew : new.length = n) (hg : GoodRules rules) (hj : cachedJacobian w c c' = none)
    {Jinv : Nat → Nat → K} (hI : Inverse n (chartJacobian E old new rules) Jinv)
    (var : Sym → K) (hvar : ∀ s s', E.diff s (var s') = if s = s' then 1 else 0) (hnd : new.Nodup)
    (hpos : ∀ k, k < n → ruleFor rules (old.getD k "") = none → new.getD k "" = old.getD k "") :
    ∃ b' w', getComponents E t (some c') (some [-1]) w = (.ok b', w') ∧ b'.shape = [n] ∧
      ∀ k, k < n → b'.get [k] =
        substAll E rules (E.diff (new.getD k "") (oldCoordinate var rules (old.getD i ""))) := by
  obtain ⟨b', w', r1, r2, r3, r4⟩ := C13_transformation_law_partial E hE hT (Nat.lt_of_le_of_lt (Nat.zero_le i) hi) hk hu
    (native_known hk (by simp) c) hb hch
    ho hnew hg hj hI
  refine ⟨b', w', r1, r3, fun k hkn => ?_⟩
  rw [r4 [k] rfl (by simpa using hkn)]
  unfold transformed
  congr 1
  simp only [List.map_cons, List.map_nil, applyFactors_cons, applyFactors_nil]
  rw [Finset.sum_congr rfl fun m hm => by rw [hbi m (by simpa using hm)]]
  simp only [delta, mul_ite, mul_one, mul_zero]
  rw [Finset.sum_ite_eq, if_pos (by simpa using hi)]
  simp only [coordFactor, show ¬ ((-1 : Int) = 1) by decide, if_false]
  unfold chartJacobian oldCoordinate
  cases hr : ruleFor rules (old.getD i "") with
  | some v => rfl
  | none =>
    simp only [Option.getD_none]
    rw [hvar, ← hpos i hi hr]
    unfold delta
    congr 1
    rw [eq_iff_iff, getD_eq_getElem' _ (by omega), getD_eq_getElem' _ (by omega),
      List.Nodup.getElem_inj_iff hnd]
    exact eq_comm

theorem validateIndices_src {ix src : List Int} (h : Config src.length ix) : validateIndices ix src = .ok () := by
  unfold validateIndices
  rw [if_neg, if_neg]
  · rfl
  · rw [h.1]; simp
  · simp only [List.any_eq_true, not_exists, not_and]
    intro x hx'
    rcases h.2 x hx' with rfl | rfl <;> decide

/-- A tensor that has just been declared. -/
theorem known_new {E : Engine K} {name symbol : Arg String} {a : Arr K} {m c t : Id'} {ix : List Int}
    {w w' : World K} (h : newTensor .tensor name (.val a) m c (.tuple ix) symbol w = (.ok t, w')) :
    Known E w' .tensor t c ix a ∧ (∀ c', c' ≠ c → Unseen w' t c') ∧ (∃ o, w'.objs = w.objs ++ [o]) ∧
      t = w.objs.length := by
  rcases newTensor_cases .tensor name a m c (.tuple ix) symbol w with
      ⟨e, he⟩ | ⟨oc, om, h1, h2, -, -, h5, h6, h7⟩
  · rw [h] at he; cases he
  · rw [h] at h7
    cases h7
    refine ⟨known_of_stored (oc := oc) (getElem?_append_length _ _) rfl rfl rfl
      (show Dict.get? [(c, [(ix, a)])] c = some [(ix, a)] by rw [Dict.get?_cons, if_pos rfl])
      (by rw [Dict.get?_cons, if_pos rfl]) ?_ (getElem?_append_old h1) h2, ?_, ⟨_, rfl⟩, rfl⟩
    · exact validateIndices_src ⟨rfl, h6.2⟩
    · intro c' hc' o ho
      rw [getElem?_append_length] at ho
      cases ho
      show Dict.get? [(c, [(ix, a)])] c' = none
      rw [Dict.get?_cons, if_neg (Ne.symm hc'), Dict.get?_nil]

theorem native_new {name symbol : Arg String} {a : Arr K} {m c t : Id'} {ix : IndicesArg}
    {w w' : World K} (h : newTensor .tensor name (.val a) m c ix symbol w = (.ok t, w')) : Native w' t c := by
  rcases newTensor_cases .tensor name a m c ix symbol w with
      ⟨e, he⟩ | ⟨oc, om, h1, h2, -, -, h5, h6, h7⟩
  · rw [h] at he; cases he
  · rw [h] at h7
    cases h7
    intro o ho _
    rw [getElem?_append_length] at ho
    cases ho
    rfl

theorem charts_append {w w' : World K} {c c' : Id'} {old new : List Sym} {r : Option (List (Option (Sym × K)))}
    (h : Charts w c c' old new r) (hw : ∃ o, w'.objs = w.objs ++ [o]) :
    Charts w' c c' old new r ∧ cachedJacobian w' c c' = cachedJacobian w c c' := by
  obtain ⟨o, ho⟩ := hw
  obtain ⟨⟨oc, c1, c2⟩, oc', c1', c2'⟩ := h
  refine ⟨⟨⟨oc, ?_, c2⟩, oc', ?_, c2'⟩, ?_⟩
  · rw [ho]; exact getElem?_append_old c1
  · rw [ho]; exact getElem?_append_old c1'
  · unfold cachedJacobian
    rw [ho, getElem?_append_old c1, c1]

/-- For the examples: two systems of the plane, the flat metric and a tensor, all declared by the user. -/
theorem Spec.plane_tensor (old new : List Sym) (ho : old.length = 2) (rules : List (Option (Sym × Poly)))
    (a : Arr Poly) (ix : List Int) (ha : a.shape = List.replicate ix.length 2) (hix : ∀ x ∈ ix, x = 1 ∨ x = -1) :
    ∃ w1 w', newMetric polyEngine (.val "Flat") (.val flat) 0 (.tuple [-1, -1]) (.val "eta") (twoCharts old new rules) =
        (.ok 2, w1) ∧ newTensor .tensor (.val "T") (.val a) 2 0 (.tuple ix) (.val "T") w1 = (.ok 3, w') ∧
      Known polyEngine w' .tensor 3 0 ix a ∧ Unseen w' 3 1 ∧ Charts w' 0 1 old new (some rules) ∧
      cachedJacobian w' 0 1 = none := by
  have hargs : MetricArgsOK polyEngine (twoCharts old new rules) (.val "Flat") (.val flat) 0 (.tuple [-1, -1])
      (.val "eta") := by
    refine ⟨⟨_, rfl⟩, ⟨_, rfl⟩, Or.inl rfl, _, flat, rfl, rfl, rfl, rfl, by rw [ho]; rfl, ?_,
      polyEngine_det rfl flat_inverse⟩
    intro i j hi hj
    rw [ho] at hi hj
    rw [flat_entry i j hi hj, flat_entry j i hj hi]
    simp [delta, eq_comm]
  obtain ⟨m, w1, h1, -, o, h2, h3, h4, h5, -⟩ :=
    (C20_metric_constructor polyEngine polyEngine_total _ _ _ _ _ _).1 hargs
  have hm : m = 2 := by
    rcases newMetric_cases polyEngine (.val "Flat") flat 0 (.tuple [-1, -1]) (.val "eta") (twoCharts old new rules) with
      ⟨e, h⟩ | ⟨oc, -, -, -, -, -, -, ⟨e, -, h⟩ | ⟨b, -, h⟩⟩
    · rw [h1] at h; cases h
    · rw [h1] at h; cases h
    · rw [h1] at h; cases h; rfl
  subst hm
  have targs : TensorArgsOK w1 (.val "T") (.val a) 2 0 (.tuple ix) (.val "T") := by
    refine ⟨⟨_, rfl⟩, ⟨_, rfl⟩, ⟨o, by rw [h2]; rfl, h4⟩, _, a, by rw [h2]; rfl, rfl, rfl, rfl, ?_,
      Or.inr ⟨_, rfl, by rw [ha]; simp, hix⟩⟩
    intro d hd
    rw [ha] at hd
    rw [ho]
    exact List.eq_of_mem_replicate hd
  obtain ⟨t, w', h6, -⟩ := (C19_tensor_constructor _ _ _ _ _ _ _).1 targs
  obtain ⟨k1, k2, k3, k4⟩ := known_new (E := polyEngine) h6
  have ht : t = 3 := by rw [k4, h2]; rfl
  subst ht
  have hch : Charts (twoCharts old new rules) 0 1 old new (some rules) :=
    ⟨⟨_, rfl, rfl, rfl, rfl, rfl⟩, _, rfl, rfl, rfl, rfl⟩
  obtain ⟨q1, q2⟩ := charts_append hch ⟨o, h2⟩
  obtain ⟨q3, q4⟩ := charts_append q1 k3
  exact ⟨w1, w', h1, h6, k1, k2 1 (by decide), q3, q4.trans q2⟩

/-- C13, C16: a vector field in the two systems of the plane. -/
example : ∃ (w : World Poly) (Jinv : Nat → Nat → Poly), Known polyEngine w .tensor 3 0 [1] aVector ∧ Unseen w 3 1 ∧
    aVector.shape = List.replicate 1 2 ∧ Charts w 0 1 ["x", "y"] ["u", "v"] (some rules01) ∧ GoodRules rules01 ∧
    cachedJacobian w 0 1 = none ∧ Inverse 2 (chartJacobian polyEngine ["x", "y"] ["u", "v"] rules01) Jinv := by
  obtain ⟨w1, w, -, -, h1, h2, h3, h4⟩ := plane_tensor ["x", "y"] ["u", "v"] rfl rules01 aVector [1] rfl (by simp)
  refine ⟨w, _, h1, h2, rfl, h3, uvAtlas_ok.good 0 1 rules01 rfl, h4,
    inverse_congr (inverse_shear (2 * MvPolynomial.X "v")) (fun i j hi hj => (jac01 i j hi hj).symm) fun _ _ _ _ => rfl⟩

/-- The second set of rules of the example: x = 2 u, y = v. -/
noncomputable def Spec.rulesTwice : List (Option (Sym × Poly)) :=
  [some ("x", 2 * MvPolynomial.X "u"), some ("y", MvPolynomial.X "v")]

noncomputable def Spec.jinvTwice (i j : Nat) : Poly :=
  if i = j then (if i = 0 then MvPolynomial.C (1 / 2) else 1) else 0

theorem Spec.inverse_twice : Inverse 2 (chartJacobian polyEngine ["x", "y"] ["u", "v"] rulesTwice) jinvTwice := by
  have d1 : MvPolynomial.pderiv "u" (MvPolynomial.X "v" : Poly) = 0 := pderiv_X_ne (by decide)
  have d2 : MvPolynomial.pderiv "v" (MvPolynomial.X "u" : Poly) = 0 := pderiv_X_ne (by decide)
  have h2 : ∀ s, MvPolynomial.pderiv s (2 : Poly) = 0 := fun s => by
    rw [show (2 : Poly) = MvPolynomial.C 2 from rfl, MvPolynomial.pderiv_C]
  have hh : (2 : Poly) * MvPolynomial.C (1 / 2) = 1 := by
    rw [show (2 : Poly) = MvPolynomial.C 2 from rfl, ← MvPolynomial.C_mul]; norm_num
  have hh' : MvPolynomial.C (1 / 2) * (2 : Poly) = 1 := by rw [mul_comm]; exact hh
  have hh2 : (2 : Poly) * MvPolynomial.C 2⁻¹ = 1 := by rw [← hh]; norm_num
  have hh3 : MvPolynomial.C 2⁻¹ * (2 : Poly) = 1 := by rw [mul_comm]; exact hh2
  intro i j hi hj
  constructor <;>
  · match i, hi, j, hj with
    | 0, _, 0, _ => simp [matMul, Finset.sum_range_succ, delta, chartJacobian, ruleFor, rulesTwice, jinvTwice, polyEngine, d1, d2, h2, hh2, hh3]
    | 0, _, 1, _ => simp [matMul, Finset.sum_range_succ, delta, chartJacobian, ruleFor, rulesTwice, jinvTwice, polyEngine, d1, d2, h2]
    | 1, _, 0, _ => simp [matMul, Finset.sum_range_succ, delta, chartJacobian, ruleFor, rulesTwice, jinvTwice, polyEngine, d1, d2, h2]
    | 1, _, 1, _ => simp [matMul, Finset.sum_range_succ, delta, chartJacobian, ruleFor, rulesTwice, jinvTwice, polyEngine, d1, d2, h2]

/-- **C16** is false: a concrete history.  Two vectors are declared in the plane and the first one is asked for
its components in the system (u, v).  Then the rules are replaced.  The answer for the second vector is not what
the new rules say. -/
theorem C16_false : ∃ (w w1 w2 w3 : World Poly) (a a' b' : Arr Poly),
    Known polyEngine w .tensor 3 0 [1] aVector ∧ Known polyEngine w .tensor 4 0 [1] a ∧ a = ⟨[2], [1, 0]⟩ ∧
    Unseen w 3 1 ∧ Unseen w 4 1 ∧ Charts w 0 1 ["x", "y"] ["u", "v"] (some rules01) ∧
    getComponents polyEngine 3 (some 1) (some [1]) w = (.ok a', w1) ∧
    addCoordTransformation 0 1 (some rulesTwice) w1 = (.ok (), w2) ∧
    getComponents polyEngine 4 (some 1) (some [1]) w2 = (.ok b', w3) ∧
    ¬ Agree 2 1 b' (transformed polyEngine 2 (chartJacobian polyEngine ["x", "y"] ["u", "v"] rulesTwice)
      jinvTwice rulesTwice [1] a.get) := by
  obtain ⟨v0, v, hv0, hv, k1, k2, k3, k4⟩ := plane_tensor ["x", "y"] ["u", "v"] rfl rules01 aVector [1] rfl (by simp)
  -- a second vector
  obtain ⟨o3, d3, t1, t2, t3, t4, t5, t6, t7⟩ := known_stored k1
  have hmet : ∃ o, v.objs[2]? = some o ∧ o.kind = .metric := by
    rcases newMetric_cases polyEngine (.val "Flat") flat 0 (.tuple [-1, -1]) (.val "eta")
        (twoCharts ["x", "y"] ["u", "v"] rules01) with
      ⟨e, h⟩ | ⟨oc, -, -, -, -, -, -, ⟨e, -, h⟩ | ⟨b, -, h⟩⟩
    · rw [hv0] at h; cases h
    · rw [hv0] at h; cases h
    · rw [hv0] at h
      obtain ⟨-, -, ⟨o, ho⟩, -⟩ := known_new (E := polyEngine) hv
      have hv2 : v0 = _ := congrArg Prod.snd h
      obtain ⟨x, hx, hk⟩ : ∃ x, v0.objs[2]? = some x ∧ x.kind = .metric := by
        rw [hv2]
        exact ⟨_, getElem?_append_length _ _, rfl⟩
      exact ⟨x, by rw [ho]; exact getElem?_append_old hx, hk⟩
  have targs : TensorArgsOK v (.val "W") (.val ⟨[2], [1, 0]⟩) 2 0 (.tuple [1]) (.val "W") := by
    obtain ⟨⟨oc, c1, c2, c3, c4, -⟩, -⟩ := k3
    refine ⟨⟨_, rfl⟩, ⟨_, rfl⟩, hmet, oc, ⟨[2], [1, 0]⟩, c1, c2, c3, rfl, ?_, Or.inr ⟨_, rfl, rfl, by simp⟩⟩
    intro d hd
    rw [c4]
    simpa using hd
  obtain ⟨t, w, h6, -⟩ := (C19_tensor_constructor _ _ _ _ _ _ _).1 targs
  obtain ⟨q1, q2, q3, q4⟩ := known_new (E := polyEngine) h6
  have hlen : v.objs.length = 4 := by
    obtain ⟨-, -, ⟨o, ho⟩, h3⟩ := known_new (E := polyEngine) hv
    rw [ho, List.length_append, ← h3]; rfl
  have ht : t = 4 := q4.trans hlen
  subst ht
  obtain ⟨p1, p2⟩ := charts_append k3 q3
  have hk3 : Known polyEngine w .tensor 3 0 [1] aVector := by
    obtain ⟨o, ho⟩ := q3
    obtain ⟨⟨oc, c1, c2, -⟩, -⟩ := p1
    exact known_of_stored (by rw [ho]; exact getElem?_append_old t1) t2 t3 t4 t5 t6 t7 c1 c2
  have hu3 : Unseen w 3 1 := by
    obtain ⟨o, ho⟩ := q3
    intro o' ho'
    rw [ho, getElem?_append_old t1] at ho'
    cases ho'
    exact k2 o3 t1
  obtain ⟨j, e⟩ := calculateJacobian_total polyEngine_ok polyEngine_total (n := 2) (by decide)
    (show ["x", "y"].length = 2 from rfl) (show ["u", "v"].length = 2 from rfl) (uvAtlas_ok.good 0 1 rules01 rfl)
    (inverse_congr (inverse_shear (2 * MvPolynomial.X "v")) (fun i j hi hj => (jac01 i j hi hj).symm)
      fun _ _ _ _ => rfl)
  obtain ⟨-, s1, -, s2, -, -, s3, s4, -⟩ := calculateJacobian_sound polyEngine polyEngine_ok _ _ 2 rfl rules01
    (uvAtlas_ok.good 0 1 rules01 rfl) j e
  obtain ⟨a', w1, r1, -, r3, r4⟩ := transform_used polyEngine_ok (n := 2) (by decide) hk3 hu3 (native_known hk3 (by simp) 0) rfl p1 s1 s2
    (Or.inr ⟨p2.trans k4, e⟩)
  have hch1 : Charts w1 0 1 ["x", "y"] ["u", "v"] (some rules01) := by
    have hs := getComponents_steady (E := polyEngine) 3 (some 1) (some [1]) w
    rw [r1] at hs
    obtain ⟨⟨oc, c1, c2, c3, c4, c5⟩, oc', c1', c2', c3', c4'⟩ := p1
    obtain ⟨x, x1, x2⟩ := hs.get c1
    obtain ⟨y, y1, y2⟩ := hs.get c1'
    refine ⟨⟨x, x1, (congrArg (·.1) x2).trans c2, (congrArg (·.2.2.2.2.2.2.2.2) x2).trans c3,
      (congrArg (·.2.2.2.2.2.2.1) x2).trans c4, ?_⟩, y, y1, (congrArg (·.1) y2).trans c2',
      (congrArg (·.2.2.2.2.2.2.2.2) y2).trans c3', (congrArg (·.2.2.2.2.2.2.1) y2).trans c4'⟩
    rw [show x.trans = oc.trans from congrArg (·.2.2.2.2.2.2.2.1) x2]
    exact c5
  obtain ⟨o4, d4, z1, z2, z3, z4, z5, z6, z7⟩ := known_stored q1
  have hk4 : Known polyEngine w1 .tensor 4 0 [1] ⟨[2], [1, 0]⟩ := by
    obtain ⟨⟨oc, c1, c2, -⟩, -⟩ := hch1
    exact known_of_stored ((r4 4 (by decide) (by decide)).trans z1) z2 z3 z4 z5 z6 z7 c1 c2
  have hu4 : Unseen w1 4 1 := by
    intro o ho
    rw [r4 4 (by decide) (by decide)] at ho
    exact q2 1 (by decide) o ho
  obtain ⟨w2, m1, b', w3, m2, -, -, m3⟩ := C16_old_jacobian_is_kept polyEngine polyEngine_ok (n := 2) (by decide)
    (rules := rulesTwice) hk4 hu4 (native_known hk4 (by simp) 0) (by decide) rfl hch1 r3 s1 s2
  refine ⟨w, w1, w2, w3, _, a', b', hk3, q1, rfl, hu3, q2 1 (by decide), p1, r1, m1, m2, ?_⟩
  rintro ⟨-, -, hbad⟩
  have e1 := m3 [0] rfl (by simp)
  have e2 := hbad [0] rfl (by simp)
  have hji : entry j.Jinv 0 0 = 1 := by
    have := inverse_unique (inverse_congr s4 s3 fun _ _ _ _ => rfl)
      (inverse_congr (inverse_shear (2 * MvPolynomial.X "v")) (fun i j hi hj => (jac01 i j hi hj).symm)
        fun _ _ _ _ => rfl) 0 0 (by decide) (by decide)
    refine Eq.trans (b := j.Jinv.mat 0 0) rfl (this.trans ?_)
    simp [delta]
  have g : ∀ k, Arr.get (⟨[2], [1, 0]⟩ : Arr Poly) [k] = if k = 0 then 1 else 0 := by
    intro k
    match k with
    | 0 => rfl
    | 1 => rfl
    | k + 2 => simp [Arr.get, ravel]
  have f1 : ∀ J Ji : Nat → Nat → Poly, transformed polyEngine 2 J Ji rulesTwice [1] (Arr.get ⟨[2], [1, 0]⟩) [0] =
      substAll polyEngine rulesTwice (Ji 0 0) := by
    intro J Ji
    unfold transformed
    simp only [List.map_cons, List.map_nil, applyFactors_cons, applyFactors_nil]
    simp only [coordFactor, Finset.sum_range_succ, g]
    simp
  rw [f1] at e1 e2
  rw [hji] at e1
  rw [e1] at e2
  simp [substAll, rulesTwice, polyEngine, jinvTwice] at e2
  have : (MvPolynomial.C (1 : ℚ) : MvPolynomial String ℚ) = MvPolynomial.C 2⁻¹ := by rw [← e2]; simp
  rw [MvPolynomial.C_inj] at this
  norm_num at this

/-- **C17** is false in general: with the old coordinates (a, b), the new coordinates (b, a) and no rules, the
covector da has the components (1, 0) in the new system, as if the first new coordinate were a; the derivative
of a with respect to b is not 1. -/
theorem C17_false : ∃ (w : World Poly) (b : Arr Poly), Known polyEngine w .tensor 3 0 [-1] b ∧ Unseen w 3 1 ∧
    b = ⟨[2], [1, 0]⟩ ∧ Charts w 0 1 ["a", "b"] ["b", "a"] (some []) ∧
    ∃ b' w', getComponents polyEngine 3 (some 1) (some [-1]) w = (.ok b', w') ∧
      b'.get [0] ≠ substAll polyEngine [] (polyEngine.diff "b" (oldCoordinate MvPolynomial.X [] "a")) := by
  obtain ⟨w1, w, -, -, h1, h2, h3, h4⟩ := plane_tensor ["a", "b"] ["b", "a"] rfl [] ⟨[2], [1, 0]⟩ [-1] rfl (by simp)
  obtain ⟨b', w', r1, r2, r3, r4⟩ := C13_transformation_law_partial polyEngine polyEngine_ok polyEngine_total (n := 2)
    (by decide) h1 h2 (native_known h1 (by simp) 0) rfl h3 rfl rfl (show GoodRules ([] : List (Option (Sym × Poly))) from List.nodup_nil) h4
    (Jinv := delta) (inverse_delta 2)
  refine ⟨w, _, h1, h2, rfl, h3, b', w', r1, ?_⟩
  rw [r4 [0] rfl (by simp)]
  have e1 : polyEngine.diff "b" (oldCoordinate MvPolynomial.X [] "a") = (0 : Poly) := by
    show MvPolynomial.pderiv "b" (MvPolynomial.X "a" : Poly) = 0
    exact pderiv_X_ne (by decide)
  rw [e1]
  have e2 : transformed polyEngine 2 (chartJacobian polyEngine ["a", "b"] ["b", "a"] []) delta [] [-1]
      (Arr.get ⟨[2], [1, 0]⟩) [0] = (1 : Poly) := by
    unfold transformed
    simp only [List.map_cons, List.map_nil, applyFactors_cons, applyFactors_nil]
    simp only [substAll, coordFactor, chartJacobian, ruleFor, delta, Finset.sum_range_succ]
    simp [Arr.get, ravel]
  rw [show transformed polyEngine 2 (chartJacobian polyEngine ["a", "b"] ["b", "a"] []) delta [] [-1]
      (Arr.get ⟨[2], [1, 0]⟩) [0] = (1 : Poly) from e2]
  show (1 : Poly) ≠ 0
  exact one_ne_zero

/-! ## C18: simultaneous substitution -/

theorem foldl_simultaneous (L : List (Sym × Poly)) (hnd : (L.map (·.1)).Nodup)
    (hdis : ∀ r ∈ L, ∀ r' ∈ L, r'.1 ∉ r.2.vars) (p : Poly) :
    L.foldl (fun x r => polyEngine.subst r.1 r.2 x) p =
      MvPolynomial.aeval (fun s => ((L.find? fun r => r.1 == s).map (·.2)).getD (MvPolynomial.X s)) p := by
  induction L generalizing p with
  | nil =>
    simp only [List.foldl_nil, List.find?_nil, Option.map_none, Option.getD_none]
    exact (MvPolynomial.aeval_X_left_apply p).symm
  | cons r L ih =>
    rw [List.foldl_cons, ih (List.nodup_cons.1 (by simpa using hnd)).2
      fun a ha b hb => hdis a (List.mem_cons_of_mem _ ha) b (List.mem_cons_of_mem _ hb)]
    show MvPolynomial.aeval _ (MvPolynomial.aeval (Function.update MvPolynomial.X r.1 r.2) p) = _
    rw [← AlgHom.comp_apply, MvPolynomial.comp_aeval]
    congr 2
    funext s
    by_cases hs : r.1 = s
    · subst hs
      rw [Function.update_self, List.find?_cons_of_pos (by simp), Option.map_some, Option.getD_some]
      have : ∀ s ∈ r.2.vars, ((L.find? fun r => r.1 == s).map (·.2)).getD (MvPolynomial.X s) =
          (MvPolynomial.X s : Poly) := by
        intro s hs
        rw [List.find?_eq_none.2, Option.map_none, Option.getD_none]
        intro r' hr'
        simp only [beq_iff_eq]
        rintro rfl
        exact hdis r (by simp) r' (List.mem_cons_of_mem _ hr') hs
      refine (MvPolynomial.eval₂Hom_congr' rfl (fun i hi _ => this i hi) rfl).trans ?_
      exact MvPolynomial.aeval_X_left_apply r.2
    · rw [Function.update_of_ne (Ne.symm hs), MvPolynomial.aeval_X, List.find?_cons_of_neg (by simpa using hs)]

/-- **C18**, what is true (for polynomial components, rules and all dimensions, ranks and configurations): when
no right-hand side contains an old coordinate, the rules are substituted simultaneously.  Missing: shared
symbols, see `C18_false`. -/
theorem C18_simultaneous_partial {w : World Poly}
    {t c c' : Id'} {ix : List Int} {b : Arr Poly} {n : Nat} (hn : 0 < n) {old new : List Sym}
    {rules : List (Option (Sym × Poly))} (hk : Known polyEngine w .tensor t c ix b) (hu : Unseen w t c')
    (hnat : Native w t c) (hb : b.shape = List.replicate ix.length n) (hch : Charts w c c' old new (some rules))
    (ho : old.length = n) (hnew : new.length = n) (hg : GoodRules rules) (hj : cachedJacobian w c c' = none)
    {Jinv : Nat → Nat → Poly} (hI : Inverse n (chartJacobian polyEngine old new rules) Jinv)
    (hdis : ∀ s v s' v', some (s, v) ∈ rules → some (s', v') ∈ rules → s' ∉ v.vars) :
    ∃ b' w', getComponents polyEngine t (some c') (some ix) w = (.ok b', w') ∧
      Agree n ix.length b' fun I => simultaneous rules
        (applyFactors n (ix.map (coordFactor (chartJacobian polyEngine old new rules) Jinv)) b.get I) := by
  obtain ⟨b', w', r1, r2, r3, r4⟩ := C13_transformation_law_partial polyEngine polyEngine_ok polyEngine_total hn hk hu hnat hb
    hch ho hnew hg hj hI
  refine ⟨b', w', r1, r2, r3, fun I hl hx => ?_⟩
  rw [r4 I hl hx]
  unfold transformed substAll simultaneous ruleFor
  refine foldl_simultaneous _ hg ?_ _
  rintro ⟨s, v⟩ hr ⟨s', v'⟩ hr'
  simp only [List.mem_filterMap, id_eq, exists_eq_right] at hr hr'
  exact hdis s v s' v' hr hr'

/-- C18: the rules of the plane meet this condition. -/
example : ∀ s v s' v', some (s, v) ∈ rules01 → some (s', v') ∈ rules01 → s' ∉ MvPolynomial.vars v := by
  have key : ∀ s v, some (s, v) ∈ rules01 → (s = "x" ∨ s = "y") ∧ MvPolynomial.vars v ⊆ {"u", "v"} := by
    intro s v h
    simp only [rules01, List.mem_cons, Option.some.injEq, Prod.mk.injEq, List.not_mem_nil, or_false] at h
    rcases h with ⟨rfl, rfl⟩ | ⟨rfl, rfl⟩
    · refine ⟨Or.inl rfl, (MvPolynomial.vars_add_subset _ _).trans ?_⟩
      refine Finset.union_subset ?_ ((MvPolynomial.vars_pow _ _).trans ?_) <;>
      · rw [MvPolynomial.vars_X]; simp
    · refine ⟨Or.inr rfl, ?_⟩
      rw [MvPolynomial.vars_X]; simp
  intro s v s' v' h h' hm
  have := (key s v h).2 hm
  rcases (key s' v' h').1 with rfl | rfl <;> simp at this

/-- **C18** is false in general: with the rules x = y, y = x (exchanging the names of the coordinates), the
scalar x, which is y in the new system, is left as x. -/
theorem C18_false : ∃ (w : World Poly) (b : Arr Poly) (rules : List (Option (Sym × Poly))),
    rules = [some ("x", MvPolynomial.X "y"), some ("y", MvPolynomial.X "x")] ∧
    Known polyEngine w .tensor 3 0 [] b ∧ Unseen w 3 1 ∧ b.get [] = MvPolynomial.X "x" ∧
    Charts w 0 1 ["x", "y"] ["x", "y"] (some rules) ∧
    ∃ b' w', getComponents polyEngine 3 (some 1) (some []) w = (.ok b', w') ∧ b'.get [] = MvPolynomial.X "x" ∧
      simultaneous rules (b.get []) = MvPolynomial.X "y" := by
  set rules : List (Option (Sym × Poly)) := [some ("x", MvPolynomial.X "y"), some ("y", MvPolynomial.X "x")] with hr
  obtain ⟨w1, w, -, hv, h1, h2, h3, h4⟩ := plane_tensor ["x", "y"] ["x", "y"] rfl rules ⟨[], [MvPolynomial.X "x"]⟩ []
    rfl (by simp)
  have d1 : MvPolynomial.pderiv "x" (MvPolynomial.X "y" : Poly) = 0 := pderiv_X_ne (by decide)
  have d2 : MvPolynomial.pderiv "y" (MvPolynomial.X "x" : Poly) = 0 := pderiv_X_ne (by decide)
  have hI : Inverse 2 (chartJacobian polyEngine ["x", "y"] ["x", "y"] rules) fun i j => if i + j = 1 then 1 else 0 := by
    intro i j hi hj
    constructor <;>
    · match i, hi, j, hj with
      | 0, _, 0, _ => simp [matMul, Finset.sum_range_succ, delta, chartJacobian, ruleFor, hr, polyEngine, d1, d2]
      | 0, _, 1, _ => simp [matMul, Finset.sum_range_succ, delta, chartJacobian, ruleFor, hr, polyEngine, d1, d2]
      | 1, _, 0, _ => simp [matMul, Finset.sum_range_succ, delta, chartJacobian, ruleFor, hr, polyEngine, d1, d2]
      | 1, _, 1, _ => simp [matMul, Finset.sum_range_succ, delta, chartJacobian, ruleFor, hr, polyEngine, d1, d2]
  obtain ⟨b', w', r1, r2, r3, r4⟩ := C13_transformation_law_partial polyEngine polyEngine_ok polyEngine_total (n := 2)
    (by decide) h1 h2 (native_new hv) rfl h3 rfl rfl (by simp [GoodRules, hr]) h4 hI
  refine ⟨w, _, rules, rfl, h1, h2, rfl, h3, b', w', r1, ?_, ?_⟩
  · rw [r4 [] rfl (by simp)]
    unfold transformed
    rw [applyFactors_nil]
    show substAll polyEngine rules (MvPolynomial.X "x") = _
    simp [substAll, hr, polyEngine, MvPolynomial.aeval_X, Function.update]
  · show simultaneous rules (MvPolynomial.X "x") = _
    simp [simultaneous, hr, MvPolynomial.aeval_X, ruleFor]

end PyOGRe
