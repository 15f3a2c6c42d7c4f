import Verif.Spec.Replace
import Verif.Lemmas.NewLagrangian
import Verif.Lemmas.Exported

/-! # Lemmas about replacements alongCurve curves -/

namespace PyOGRe
open Spec
variable {K : Type} [CommRing K] {E : Engine K} {C : Curves K} {R : Rewriter K} {p : Sym} {syms : List Sym}

theorem ddot_inj {s t : Sym} (h : ddot s = ddot t) : s = t := by
  have := congrArg String.toList h
  unfold ddot at this
  rw [String.toList_append, String.toList_append] at this
  exact String.toList_injective (List.append_cancel_right this)

theorem diff_one (hX : Calculus E) (s : Sym) : E.diff s 1 = 0 := by
  have := hX.mul s 1 1
  rw [mul_one, mul_one, one_mul] at this
  exact left_eq_add.1 this

theorem diff_list_sum (hX : Calculus E) (u : Sym) (f : Sym → K) (l : List Sym) :
    E.diff u (l.map f).sum = (l.map fun s => E.diff u (f s)).sum := by
  induction l with
  | nil => exact diff_zero hX u
  | cons s l ih => rw [List.map_cons, List.sum_cons, hX.add, ih, List.map_cons, List.sum_cons]

theorem along_zero (hX : Calculus E) : alongCurve E C p syms 0 = 0 := by
  unfold alongCurve
  simp [diff_zero hX]

/-- A derivative with respect to a symbol and the derivative along a curve. -/
theorem diff_along (hX : Calculus E) (hV : ∀ s t, E.diff s (C.var t) = if s = t then 1 else 0) (u : Sym) (x : K) :
    E.diff u (alongCurve E C p syms x) = alongCurve E C p syms (E.diff u x) + ((syms.filter (· ≠ p)).map fun t =>
      (if u = dot t then E.diff t x else 0) + if u = ddot t then E.diff (dot t) x else 0).sum := by
  unfold alongCurve
  rw [hX.add, diff_list_sum hX, add_assoc, ← List.sum_map_add, hX.comm u p]
  congr 2
  refine List.map_congr_left fun t _ => ?_
  rw [hX.add, hX.mul, hX.mul, hV, hV, hX.comm u t, hX.comm u (dot t)]
  split_ifs <;> ring

/-- A symbol that is no velocity or acceleration does not appear by differentiation. -/
theorem quiet_other (hX : Calculus E) (hV : ∀ s t, E.diff s (C.var t) = if s = t then 1 else 0) {u : Sym}
    (hu : ∀ t ∈ syms, t ≠ p → u ≠ dot t ∧ u ≠ ddot t) {x : K} (h : E.diff u x = 0) :
    E.diff u (alongCurve E C p syms x) = 0 := by
  rw [diff_along hX hV, h, along_zero hX, zero_add]
  refine List.sum_eq_zero fun y hy => ?_
  obtain ⟨t, ht, rfl⟩ := List.mem_map.1 hy
  obtain ⟨ht, hp⟩ := List.mem_filter.1 ht
  rw [if_neg (hu t ht (by simpa using hp)).1, if_neg (hu t ht (by simpa using hp)).2, add_zero]

/-- Neither the coordinate nor its velocity nor its acceleration occurs. -/
def Quiet (E : Engine K) (s : Sym) (x : K) : Prop := E.diff s x = 0 ∧ E.diff (dot s) x = 0 ∧ E.diff (ddot s) x = 0

theorem Spec.JetNames.coord_ne (h : JetNames p syms) {s t : Sym} (hs : s ∈ syms) (ht : t ∈ syms) :
    s ≠ dot t ∧ s ≠ ddot t ∧ dot s ≠ ddot t := by
  have h1 := List.nodup_append.1 h.nodup
  have h2 := List.nodup_append.1 h1.1
  refine ⟨h2.2.2 s hs _ (List.mem_map.2 ⟨t, ht, rfl⟩),
    h1.2.2 s (List.mem_append_left _ hs) _ (List.mem_map.2 ⟨t, ht, rfl⟩),
    h1.2.2 _ (List.mem_append_right _ (List.mem_map.2 ⟨s, hs, rfl⟩)) _ (List.mem_map.2 ⟨t, ht, rfl⟩)⟩

theorem quiet_along (hX : Calculus E) (hV : ∀ s t, E.diff s (C.var t) = if s = t then 1 else 0)
    (hN : JetNames p syms) {s : Sym} (hs : s ∈ syms) {x : K} (h : Quiet E s x) : Quiet E s (alongCurve E C p syms x) := by
  refine ⟨quiet_other hX hV (fun t ht _ => ⟨(hN.coord_ne hs ht).1, (hN.coord_ne hs ht).2.1⟩) h.1, ?_, ?_⟩
  · rw [diff_along hX hV, h.2.1, along_zero hX, zero_add]
    refine List.sum_eq_zero fun y hy => ?_
    obtain ⟨t, ht, rfl⟩ := List.mem_map.1 hy
    have ht' := (List.mem_filter.1 ht).1
    rw [if_neg (hN.coord_ne hs ht').2.2, add_zero]
    split_ifs with he
    · rw [← dot_inj he]; exact h.1
    · rfl
  · rw [diff_along hX hV, h.2.2, along_zero hX, zero_add]
    refine List.sum_eq_zero fun y hy => ?_
    obtain ⟨t, ht, rfl⟩ := List.mem_map.1 hy
    have ht' := (List.mem_filter.1 ht).1
    rw [if_neg (hN.coord_ne ht' hs).2.2.symm, zero_add]
    split_ifs with he
    · rw [← ddot_inj he]; exact h.2.1
    · rfl

theorem sum_single {l : List Sym} (hl : l.Nodup) {s : Sym} (hs : s ∈ l) (f : Sym → K) :
    (l.map fun t => if t = s then f t else 0).sum = f s := by
  induction l with
  | nil => exact absurd hs List.not_mem_nil
  | cons a l ih =>
    rw [List.map_cons, List.sum_cons]
    by_cases ha : a = s
    · subst ha
      rw [if_pos rfl, List.sum_eq_zero, add_zero]
      intro y hy
      obtain ⟨t, ht, rfl⟩ := List.mem_map.1 hy
      rw [if_neg]
      rintro rfl
      exact (List.nodup_cons.1 hl).1 ht
    · rw [if_neg ha, zero_add]
      exact ih (List.nodup_cons.1 hl).2 ((List.mem_cons.1 hs).resolve_left (Ne.symm ha))

theorem Spec.JetNames.moving (h : JetNames p syms) : (syms.filter (· ≠ p)).Nodup :=
  (List.nodup_append.1 (List.nodup_append.1 h.nodup).1).1.filter _

theorem mem_moving {s : Sym} (hs : s ∈ syms) (hp : s ≠ p) : s ∈ syms.filter (· ≠ p) :=
  List.mem_filter.2 ⟨hs, by simpa using hp⟩

theorem along_coord (hV : ∀ s t, E.diff s (C.var t) = if s = t then 1 else 0)
    (hN : JetNames p syms) {s : Sym} (hs : s ∈ syms) (hp : s ≠ p) :
    alongCurve E C p syms (C.var s) = C.var (dot s) := by
  unfold alongCurve
  rw [hV, if_neg (Ne.symm hp), zero_add, ← sum_single hN.moving (mem_moving hs hp) fun t => C.var (dot t)]
  congr 1
  refine List.map_congr_left fun t ht => ?_
  rw [hV, hV, if_neg (hN.coord_ne hs (List.mem_filter.1 ht).1).1.symm, zero_mul, add_zero, ite_mul, one_mul, zero_mul]

theorem along_dot (hV : ∀ s t, E.diff s (C.var t) = if s = t then 1 else 0)
    (hN : JetNames p syms) {s : Sym} (hs : s ∈ syms) (hp : s ≠ p) :
    alongCurve E C p syms (C.var (dot s)) = C.var (ddot s) := by
  unfold alongCurve
  have hd : p ≠ dot s := fun he => hN.parameter (List.mem_append_left _ (List.mem_map.2 ⟨s, hs, he.symm⟩))
  rw [hV, if_neg hd, zero_add, ← sum_single hN.moving (mem_moving hs hp) fun t => C.var (ddot t)]
  congr 1
  refine List.map_congr_left fun t ht => ?_
  rw [hV, hV, if_neg (hN.coord_ne (List.mem_filter.1 ht).1 hs).1, zero_mul, zero_add]
  by_cases he : t = s
  · rw [he, if_pos rfl, if_pos rfl, one_mul]
  · rw [if_neg he, if_neg fun h => he (dot_inj h), zero_mul]

theorem along_const (hV : ∀ s t, E.diff s (C.var t) = if s = t then 1 else 0) {s : Sym}
    (hs : s ∉ syms ++ syms.map dot ++ syms.map ddot) (hp : s ≠ p) : alongCurve E C p syms (C.var s) = 0 := by
  unfold alongCurve
  rw [hV, if_neg (Ne.symm hp), zero_add]
  refine List.sum_eq_zero fun y hy => ?_
  obtain ⟨t, ht, rfl⟩ := List.mem_map.1 hy
  have ht' := (List.mem_filter.1 ht).1
  rw [hV, hV, if_neg, if_neg, zero_mul, zero_mul, add_zero]
  · rintro rfl
    exact hs (List.mem_append_left _ (List.mem_append_right _ (List.mem_map.2 ⟨t, ht', rfl⟩)))
  · rintro rfl
    exact hs (List.mem_append_left _ (List.mem_append_left _ ht'))

/-- An expression that contains neither the parameter nor coordinates nor velocities is constant. -/
theorem along_free {x : K} (hp : E.diff p x = 0) (hs : ∀ s ∈ syms, E.diff s x = 0)
    (hd : ∀ s ∈ syms, E.diff (dot s) x = 0) : alongCurve E C p syms x = 0 := by
  unfold alongCurve
  rw [hp, zero_add]
  refine List.sum_eq_zero fun y hy => ?_
  obtain ⟨t, ht, rfl⟩ := List.mem_map.1 hy
  have ht' := (List.mem_filter.1 ht).1
  rw [hs t ht', hd t ht', zero_mul, zero_mul, add_zero]

/-- The replaced coordinates. -/
def movingRules (syms : List Sym) (rules : List (Sym × K)) : List (Sym × K) := rules.filter fun r => r.1 ∈ syms

/-- The replacements of symbols, velocities and accelerations. -/
def jetRules (E : Engine K) (C : Curves K) (p : Sym) (syms : List Sym) (rules : List (Sym × K)) : List (Sym × K) :=
  rules ++ (movingRules syms rules).map (fun r => (dot r.1, alongCurve E C p syms r.2)) ++
    (movingRules syms rules).map fun r => (ddot r.1, alongCurve E C p syms (alongCurve E C p syms r.2))

theorem mem_movingRules {rules : List (Sym × K)} {r : Sym × K} :
    r ∈ movingRules syms rules ↔ r ∈ rules ∧ r.1 ∈ syms := by
  unfold movingRules
  rw [List.mem_filter, decide_eq_true_iff]

theorem nodup_map_fst {l : List (Sym × K)} (h : (l.map Prod.fst).Nodup) {f : Sym → Sym} {g : Sym × K → K}
    (hf : ∀ s t, f s = f t → s = t) : ((l.map fun r => (f r.1, g r)).map Prod.fst).Nodup := by
  rw [List.map_map, show (Prod.fst ∘ fun r : Sym × K => (f r.1, g r)) = f ∘ Prod.fst from rfl, ← List.map_map]
  exact h.map fun s t => hf s t

variable {rules : List (Sym × K)}

theorem other_name (hr : Replacement E C R p syms rules) (hN : JetNames p syms) {r : Sym × K} (h : r ∈ rules) {s : Sym}
    (hs : s ∈ syms) : r.1 ≠ dot s ∧ r.1 ≠ ddot s := by
  rcases (hr.kind r h).2 with hm | hm
  · exact ⟨(hN.coord_ne hm hs).1, (hN.coord_ne hm hs).2.1⟩
  · exact ⟨fun he => hm.1 (List.mem_append_left _ (List.mem_append_right _ (List.mem_map.2 ⟨s, hs, he.symm⟩))),
      fun he => hm.1 (List.mem_append_right _ (List.mem_map.2 ⟨s, hs, he.symm⟩))⟩

theorem jetRules_nodup (hN : JetNames p syms) (hr : Replacement E C R p syms rules) :
    ((jetRules E C p syms rules).map Prod.fst).Nodup := by
  have hm : ((movingRules syms rules).map Prod.fst).Nodup := hr.once.sublist (List.filter_sublist.map _)
  unfold jetRules
  rw [List.map_append, List.map_append]
  refine List.nodup_append.2 ⟨List.nodup_append.2 ⟨hr.once, nodup_map_fst hm fun _ _ => dot_inj, ?_⟩,
    nodup_map_fst hm fun _ _ => ddot_inj, ?_⟩
  · rintro a ha b hb rfl
    obtain ⟨r, h1, rfl⟩ := List.mem_map.1 ha
    obtain ⟨_, h2, h3⟩ := List.mem_map.1 hb
    obtain ⟨t, h4, rfl⟩ := List.mem_map.1 h2
    exact (other_name hr hN h1 (mem_movingRules.1 h4).2).1 h3.symm
  · rintro a ha b hb rfl
    obtain ⟨_, h2, h3⟩ := List.mem_map.1 hb
    obtain ⟨t, h4, rfl⟩ := List.mem_map.1 h2
    rcases List.mem_append.1 ha with ha | ha
    · obtain ⟨r, h1, rfl⟩ := List.mem_map.1 ha
      exact (other_name hr hN h1 (mem_movingRules.1 h4).2).2 h3.symm
    · obtain ⟨_, h5, rfl⟩ := List.mem_map.1 ha
      obtain ⟨r, h6, rfl⟩ := List.mem_map.1 h5
      exact (hN.coord_ne (mem_movingRules.1 h6).2 (mem_movingRules.1 h4).2).2.2 h3.symm

theorem jetRules_value {t : Sym × K} (ht : t ∈ jetRules E C p syms rules) : ∃ r ∈ rules, t.2 = r.2 ∨
    t.2 = alongCurve E C p syms r.2 ∨ t.2 = alongCurve E C p syms (alongCurve E C p syms r.2) := by
  unfold jetRules at ht
  rcases List.mem_append.1 ht with ht | ht
  · rcases List.mem_append.1 ht with ht | ht
    · exact ⟨t, ht, .inl rfl⟩
    · obtain ⟨r, h1, rfl⟩ := List.mem_map.1 ht
      exact ⟨r, (mem_movingRules.1 h1).1, .inr (.inl rfl)⟩
  · obtain ⟨r, h1, rfl⟩ := List.mem_map.1 ht
    exact ⟨r, (mem_movingRules.1 h1).1, .inr (.inr rfl)⟩

theorem jetRules_key {t : Sym × K} (ht : t ∈ jetRules E C p syms rules) : ∃ r ∈ rules, t.1 = r.1 ∨
    r.1 ∈ syms ∧ (t.1 = dot r.1 ∨ t.1 = ddot r.1) := by
  unfold jetRules at ht
  rcases List.mem_append.1 ht with ht | ht
  · rcases List.mem_append.1 ht with ht | ht
    · exact ⟨t, ht, .inl rfl⟩
    · obtain ⟨r, h1, rfl⟩ := List.mem_map.1 ht
      exact ⟨r, (mem_movingRules.1 h1).1, .inr ⟨(mem_movingRules.1 h1).2, .inl rfl⟩⟩
  · obtain ⟨r, h1, rfl⟩ := List.mem_map.1 ht
    exact ⟨r, (mem_movingRules.1 h1).1, .inr ⟨(mem_movingRules.1 h1).2, .inr rfl⟩⟩

/-- The values of all these replacements contain none of the symbols that are replaced. -/
theorem jetRules_apart (hX : Calculus E) (hV : ∀ s t, E.diff s (C.var t) = if s = t then 1 else 0)
    (hN : JetNames p syms) (hr : Replacement E C R p syms rules) :
    ∀ r ∈ jetRules E C p syms rules, ∀ t ∈ jetRules E C p syms rules, E.diff r.1 t.2 = 0 := by
  have hv := fun t => jetRules_value (E := E) (C := C) (p := p) (syms := syms) (rules := rules) (t := t)
  have moving : ∀ r ∈ movingRules syms rules, ∀ t ∈ jetRules E C p syms rules, Quiet E r.1 t.2 := by
    intro r h1 t ht
    obtain ⟨h1, h2⟩ := mem_movingRules.1 h1
    obtain ⟨q, hq, he⟩ := hv t ht
    have h0 : Quiet E r.1 q.2 := ⟨hr.apart r h1 q hq, hr.place q hq r.1 h2⟩
    rcases he with he | he | he <;> rw [he]
    · exact h0
    · exact quiet_along hX hV hN h2 h0
    · exact quiet_along hX hV hN h2 (quiet_along hX hV hN h2 h0)
  intro r hr' t ht
  unfold jetRules at hr'
  rcases List.mem_append.1 hr' with hr' | hr'
  · rcases List.mem_append.1 hr' with hr' | hr'
    · have hu : ∀ t ∈ syms, t ≠ p → r.1 ≠ dot t ∧ r.1 ≠ ddot t := fun t ht _ => other_name hr hN hr' ht
      obtain ⟨q, hq, he⟩ := hv t ht
      have h0 := hr.apart r hr' q hq
      rcases he with he | he | he <;> rw [he]
      · exact h0
      · exact quiet_other hX hV hu h0
      · exact quiet_other hX hV hu (quiet_other hX hV hu h0)
    · obtain ⟨q, hq, rfl⟩ := List.mem_map.1 hr'
      exact (moving q hq t ht).2.1
  · obtain ⟨q, hq, rfl⟩ := List.mem_map.1 hr'
    exact (moving q hq t ht).2.2

/-! ### The dictionary of rules -/

theorem mem_set_same [DecidableEq K] {d : Dict K K} {k v : K} (h : ∀ v', (k, v') ∈ d → v' = v) (q : K × K) :
    q ∈ Dict.set d k v ↔ q ∈ d ∨ q = (k, v) := by
  refine ⟨Dict.mem_set_iff, fun hq => ?_⟩
  induction d with
  | nil => exact hq.elim (fun hq => absurd hq List.not_mem_nil) fun hq => by rw [hq]; simp [Dict.set]
  | cons a d ih =>
    rw [Dict.set]
    split_ifs with ha
    · rcases hq with hq | rfl
      · rcases List.mem_cons.1 hq with rfl | hq
        · have h2 := h q.2 (by rw [← ha]; exact List.mem_cons_self)
          rw [show q = (k, v) from Prod.ext ha h2]
          exact List.mem_cons_self
        · exact List.mem_cons_of_mem _ hq
      · exact List.mem_cons_self
    · have ih := ih fun v' hv => h v' (List.mem_cons_of_mem _ hv)
      rcases hq with hq | rfl
      · rcases List.mem_cons.1 hq with rfl | hq
        · exact List.mem_cons_self
        · exact List.mem_cons_of_mem _ (ih (.inl hq))
      · exact List.mem_cons_of_mem _ (ih (.inr rfl))

theorem foldl_set_mem [DecidableEq K] {P : K → K → Prop} (hP : ∀ k v v', P k v → P k v' → v = v') :
    ∀ (l : List (K × K)) (d : Dict K K), (∀ q ∈ l, P q.1 q.2) → (∀ q ∈ d, P q.1 q.2) →
      ∀ q, q ∈ l.foldl (fun d r => d.set r.1 r.2) d ↔ q ∈ d ∨ q ∈ l
  | [], d, _, _, q => by simp
  | a :: l, d, hl, hd, q => by
    have hs := mem_set_same (d := d) (k := a.1) (v := a.2) fun v' hv =>
      hP _ _ _ (hd _ hv) (hl a List.mem_cons_self)
    rw [List.foldl_cons, foldl_set_mem hP l _ (fun q hq => hl q (List.mem_cons_of_mem _ hq)) ?_ q, hs, List.mem_cons,
      or_assoc]
    intro q hq
    rcases (hs q).1 hq with hq | rfl
    · exact hd q hq
    · exact hl a List.mem_cons_self

theorem var_inj [Nontrivial K] (hV : ∀ s t, E.diff s (C.var t) = if s = t then 1 else 0) {s t : Sym}
    (h : C.var s = C.var t) : s = t := by
  by_contra hne
  have h1 := hV s s
  rw [h, hV, if_neg hne, if_pos rfl] at h1
  exact zero_ne_one h1

theorem var_ne_zero [Nontrivial K] (hX : Calculus E) (hV : ∀ s t, E.diff s (C.var t) = if s = t then 1 else 0)
    (s : Sym) : C.var s ≠ 0 := by
  intro h
  have h1 := hV s s
  rw [h, diff_zero hX, if_pos rfl] at h1
  exact zero_ne_one h1

theorem nodup_fst_unique {l : List (Sym × K)} (h : (l.map Prod.fst).Nodup) {r t : Sym × K} (hr : r ∈ l) (ht : t ∈ l)
    (he : r.1 = t.1) : r = t := List.inj_on_of_nodup_map h hr ht he

/-- The rules that the code puts together. -/
theorem replaceRules_mem [DecidableEq K] [Nontrivial K] (hX : Calculus E)
    (hV : ∀ s t, E.diff s (C.var t) = if s = t then 1 else 0) (hN : JetNames p syms)
    (hr : Replacement E C R p syms rules) (q : K × K) (hq : q ≠ (0, 0)) :
    q ∈ replaceRules C R p syms (rules.map fun r => (C.var r.1, r.2)) ↔
      ∃ r ∈ jetRules E C p syms rules, q = (C.var r.1, r.2) := by
  have hL : replaceRules C R p syms (rules.map fun r => (C.var r.1, r.2)) = mergedRules
      (rules.map (fun r => (C.var r.1, r.2)) ++
        rules.map (fun r => (alongCurve E C p syms (C.var r.1), alongCurve E C p syms r.2)) ++
        rules.map fun r => (alongCurve E C p syms (alongCurve E C p syms (C.var r.1)),
          alongCurve E C p syms (alongCurve E C p syms r.2))) := by
    unfold replaceRules
    dsimp only
    rw [List.map_append, List.map_append]
    simp only [List.map_map]
    congr 2
    · congr 1
      · refine List.map_congr_left fun r h => ?_
        exact Prod.ext (hr.key r h).zero (hr.value r h).zero
      · refine List.map_congr_left fun r h => ?_
        exact Prod.ext (hr.key r h).one (hr.value r h).one
    · refine List.map_congr_left fun r h => ?_
      exact Prod.ext (hr.key r h).two (hr.value r h).two
  -- the entries
  have move : ∀ r ∈ rules, r.1 ∈ syms → alongCurve E C p syms (C.var r.1) = C.var (dot r.1) ∧
      alongCurve E C p syms (alongCurve E C p syms (C.var r.1)) = C.var (ddot r.1) := by
    intro r h hm
    have hp := (hr.kind r h).1
    rw [along_coord hV hN hm hp, along_dot hV hN hm hp]
    exact ⟨rfl, rfl⟩
  have stay : ∀ r ∈ rules, r.1 ∉ syms → alongCurve E C p syms (C.var r.1) = 0 ∧ alongCurve E C p syms r.2 = 0 := by
    intro r h hm
    obtain ⟨hp, hk⟩ := hr.kind r h
    obtain ⟨h1, h2, h3⟩ := hk.resolve_left hm
    exact ⟨along_const hV h1 hp, along_free h2 h3 fun s hs => (hr.place r h s hs).1⟩
  have mem : ∀ q : K × K, q ≠ (0, 0) → (q ∈ (rules.map (fun r => (C.var r.1, r.2)) ++
        rules.map (fun r => (alongCurve E C p syms (C.var r.1), alongCurve E C p syms r.2)) ++
        rules.map fun r => (alongCurve E C p syms (alongCurve E C p syms (C.var r.1)),
          alongCurve E C p syms (alongCurve E C p syms r.2))) ↔ ∃ r ∈ jetRules E C p syms rules, q = (C.var r.1, r.2)) := by
    intro q hq
    constructor
    · intro h
      rcases List.mem_append.1 h with h | h
      · rcases List.mem_append.1 h with h | h
        · obtain ⟨r, h1, rfl⟩ := List.mem_map.1 h
          exact ⟨r, List.mem_append_left _ (List.mem_append_left _ h1), rfl⟩
        · obtain ⟨r, h1, rfl⟩ := List.mem_map.1 h
          by_cases hm : r.1 ∈ syms
          · exact ⟨_, List.mem_append_left _ (List.mem_append_right _ (List.mem_map.2
              ⟨r, mem_movingRules.2 ⟨h1, hm⟩, rfl⟩)), Prod.ext (move r h1 hm).1 rfl⟩
          · exact absurd (Prod.ext (stay r h1 hm).1 (stay r h1 hm).2) hq
      · obtain ⟨r, h1, rfl⟩ := List.mem_map.1 h
        by_cases hm : r.1 ∈ syms
        · exact ⟨_, List.mem_append_right _ (List.mem_map.2 ⟨r, mem_movingRules.2 ⟨h1, hm⟩, rfl⟩),
            Prod.ext (move r h1 hm).2 rfl⟩
        · refine absurd (Prod.ext ?_ ?_) hq
          · show alongCurve E C p syms (alongCurve E C p syms (C.var r.1)) = 0
            rw [(stay r h1 hm).1, along_zero hX]
          · show alongCurve E C p syms (alongCurve E C p syms r.2) = 0
            rw [(stay r h1 hm).2, along_zero hX]
    · rintro ⟨r, h, rfl⟩
      unfold jetRules at h
      rcases List.mem_append.1 h with h | h
      · rcases List.mem_append.1 h with h | h
        · exact List.mem_append_left _ (List.mem_append_left _ (List.mem_map.2 ⟨r, h, rfl⟩))
        · obtain ⟨t, h1, rfl⟩ := List.mem_map.1 h
          obtain ⟨h1, h2⟩ := mem_movingRules.1 h1
          exact List.mem_append_left _ (List.mem_append_right _ (List.mem_map.2 ⟨t, h1, Prod.ext (move t h1 h2).1 rfl⟩))
      · obtain ⟨t, h1, rfl⟩ := List.mem_map.1 h
        obtain ⟨h1, h2⟩ := mem_movingRules.1 h1
        exact List.mem_append_right _ (List.mem_map.2 ⟨t, h1, Prod.ext (move t h1 h2).2 rfl⟩)
  rw [hL, ← mem q hq]
  unfold mergedRules
  rw [foldl_set_mem (P := fun k v => (k, v) = (0, 0) ∨ ∃ r ∈ jetRules E C p syms rules, (k, v) = (C.var r.1, r.2)) ?_ _ _
    ?_ (fun q hq => absurd hq List.not_mem_nil)]
  · simp
  · rintro k v v' (h1 | ⟨r, h1, h2⟩) (h3 | ⟨t, h3, h4⟩)
    · exact (Prod.mk.inj h1).2.trans (Prod.mk.inj h3).2.symm
    · exact absurd ((Prod.mk.inj h4).1.symm.trans (Prod.mk.inj h1).1) (var_ne_zero hX hV _)
    · exact absurd ((Prod.mk.inj h2).1.symm.trans (Prod.mk.inj h3).1) (var_ne_zero hX hV _)
    · have := nodup_fst_unique (jetRules_nodup hN hr) h1 h3
        (var_inj hV ((Prod.mk.inj h2).1.symm.trans (Prod.mk.inj h4).1))
      rw [this] at h2
      exact (Prod.mk.inj h2).2.trans (Prod.mk.inj h4).2.symm
  · intro q' h'
    by_cases h0 : q' = (0, 0)
    · exact .inl h0
    · exact .inr ((mem q' h0).1 h')

/-! ### Substituting -/

/-- Several independent substitutions one after the other. -/
def substEach (E : Engine K) (l : List (Sym × K)) (x : K) : K := l.foldl (fun x r => E.subst r.1 r.2 x) x

theorem substEach_one (hB : SubstOK E C) : ∀ l : List (Sym × K), substEach E l 1 = 1
  | [] => rfl
  | r :: l => by
    show substEach E l (E.subst r.1 r.2 1) = 1
    rw [hB.one, substEach_one hB l]

theorem substEach_add (hB : SubstOK E C) : ∀ (l : List (Sym × K)) (x y : K),
    substEach E l (x + y) = substEach E l x + substEach E l y
  | [], _, _ => rfl
  | r :: l, x, y => by
    show substEach E l (E.subst r.1 r.2 (x + y)) = _
    rw [hB.add, substEach_add hB l]
    rfl

theorem substEach_mul (hB : SubstOK E C) : ∀ (l : List (Sym × K)) (x y : K),
    substEach E l (x * y) = substEach E l x * substEach E l y
  | [], _, _ => rfl
  | r :: l, x, y => by
    show substEach E l (E.subst r.1 r.2 (x * y)) = _
    rw [hB.mul, substEach_mul hB l]
    rfl

theorem substEach_const (hB : SubstOK E C) : ∀ (l : List (Sym × K)) {x : K}, (∀ r ∈ l, E.diff r.1 x = 0) →
    substEach E l x = x
  | [], _, _ => rfl
  | r :: l, x, h => by
    show substEach E l (E.subst r.1 r.2 x) = x
    rw [hB.const _ _ _ (h r List.mem_cons_self), substEach_const hB l fun t ht => h t (List.mem_cons_of_mem _ ht)]

theorem substEach_var (hB : SubstOK E C) : ∀ (l : List (Sym × K)), (l.map Prod.fst).Nodup →
    (∀ r ∈ l, ∀ t ∈ l, E.diff r.1 t.2 = 0) → ∀ r ∈ l, substEach E l (C.var r.1) = r.2
  | [], _, _, _, hr => absurd hr List.not_mem_nil
  | t :: l, hn, ha, r, hr => by
    show substEach E l (E.subst t.1 t.2 (C.var r.1)) = r.2
    rw [List.map_cons, List.nodup_cons] at hn
    rw [hB.var]
    rcases List.mem_cons.1 hr with rfl | hr
    · rw [if_pos rfl]
      exact substEach_const hB l fun q hq => ha q (List.mem_cons_of_mem _ hq) r List.mem_cons_self
    · rw [if_neg fun he => hn.1 (by rw [he]; exact List.mem_map_of_mem hr)]
      exact substEach_var hB l hn.2 (fun q hq q' hq' => ha q (List.mem_cons_of_mem _ hq) q' (List.mem_cons_of_mem _ hq')) r hr

/-- All replacements together. -/
theorem allRules_ok (hX : Calculus E) (hV : ∀ s t, E.diff s (C.var t) = if s = t then 1 else 0) {kind : Kind}
    (hN : JetNames p syms) (h0 : kind = .geodesicTime → p ∈ syms) (hr : Replacement E C R p syms rules) :
    ((jetRules E C p syms rules ++ uniform kind p).map Prod.fst).Nodup ∧
      ∀ r ∈ jetRules E C p syms rules ++ uniform kind p, ∀ t ∈ jetRules E C p syms rules ++ uniform kind p,
        E.diff r.1 t.2 = 0 := by
  by_cases hk : kind = .geodesicTime
  · have hp := h0 hk
    have hu : (uniform kind p : List (Sym × K)) = [(dot p, 1), (ddot p, 0)] := by
      unfold uniform
      rw [if_pos hk]
    have hval : ∀ r ∈ (uniform kind p : List (Sym × K)), (r.1 = dot p ∨ r.1 = ddot p) ∧ (r.2 = 1 ∨ r.2 = 0) := by
      intro r h
      rw [hu] at h
      rcases List.mem_cons.1 h with rfl | h
      · exact ⟨.inl rfl, .inl rfl⟩
      · rw [List.mem_singleton.1 h]
        exact ⟨.inr rfl, .inr rfl⟩
    refine ⟨?_, fun r hrm t ht => ?_⟩
    · rw [List.map_append]
      refine List.nodup_append.2 ⟨jetRules_nodup hN hr, ?_, ?_⟩
      · rw [hu]
        simpa using (hN.coord_ne hp hp).2.2
      · rintro a ha b hb rfl
        obtain ⟨r, h1, rfl⟩ := List.mem_map.1 ha
        obtain ⟨t, h2, h3⟩ := List.mem_map.1 hb
        obtain ⟨q, h4, h5⟩ := jetRules_key h1
        have hq := (hr.kind q h4).1
        have hn := other_name hr hN h4 hp
        rcases (hval t h2).1 with he | he <;> rw [he] at h3
        · rcases h5 with h5 | ⟨hs, h5 | h5⟩ <;> rw [h5] at h3
          · exact hn.1 h3.symm
          · exact hq (dot_inj h3).symm
          · exact (hN.coord_ne hp hs).2.2 h3
        · rcases h5 with h5 | ⟨hs, h5 | h5⟩ <;> rw [h5] at h3
          · exact hn.2 h3.symm
          · exact (hN.coord_ne hs hp).2.2 h3.symm
          · exact hq (ddot_inj h3).symm
    · rcases List.mem_append.1 ht with ht | ht
      · rcases List.mem_append.1 hrm with hrm | hrm
        · exact jetRules_apart hX hV hN hr r hrm t ht
        · have hq : ∀ s ∈ syms, s ≠ p → r.1 ≠ dot s ∧ r.1 ≠ ddot s := by
            intro s hs hsp
            rcases (hval r hrm).1 with he | he <;> rw [he]
            · exact ⟨fun h => hsp (dot_inj h).symm, (hN.coord_ne hp hs).2.2⟩
            · exact ⟨(hN.coord_ne hs hp).2.2.symm, fun h => hsp (ddot_inj h).symm⟩
          obtain ⟨q, hqm, he⟩ := jetRules_value ht
          have h1 : E.diff r.1 q.2 = 0 := by
            rcases (hval r hrm).1 with he | he <;> rw [he]
            · exact (hr.place q hqm p hp).1
            · exact (hr.place q hqm p hp).2
          rcases he with he | he | he <;> rw [he]
          · exact h1
          · exact quiet_other hX hV hq h1
          · exact quiet_other hX hV hq (quiet_other hX hV hq h1)
      · rcases (hval t ht).2 with he | he <;> rw [he]
        · exact diff_one hX _
        · exact diff_zero hX _
  · have hu : (uniform kind p : List (Sym × K)) = [] := by
      unfold uniform
      rw [if_neg hk]
    rw [hu, List.append_nil]
    exact ⟨jetRules_nodup hN hr, jetRules_apart hX hV hN hr⟩

/-- What the code does with one component. -/
theorem curveReplace_eq [DecidableEq K] [Nontrivial K] (hX : Calculus E)
    (hV : ∀ s t, E.diff s (C.var t) = if s = t then 1 else 0) (hR : SubsOK E C R) {kind : Kind}
    (hN : JetNames (curveParameter C kind syms) syms)
    (h0 : kind = .geodesicTime → curveParameter C kind syms ∈ syms)
    (hr : Replacement E C R (curveParameter C kind syms) syms rules) (x : K) :
    curveReplace C R kind syms (rules.map fun r => (C.var r.1, r.2)) x =
      substEach E (jetRules E C (curveParameter C kind syms) syms rules ++ uniform kind (curveParameter C kind syms)) x := by
  have hA := allRules_ok (kind := kind) hX hV hN h0 hr
  have h1 : ∀ y, R.subs (replaceRules C R (curveParameter C kind syms) syms (rules.map fun r => (C.var r.1, r.2))) y =
      substEach E (jetRules E C (curveParameter C kind syms) syms rules) y :=
    hR _ _ (jetRules_nodup hN hr) (jetRules_apart hX hV hN hr) fun q hq => replaceRules_mem hX hV hN hr q hq
  rw [show ∀ l l' : List (Sym × K), substEach E (l ++ l') x = substEach E l' (substEach E l x) from
    fun l l' => List.foldl_append, ← h1]
  unfold curveReplace
  dsimp only
  by_cases hk : kind = .geodesicTime
  · subst hk
    dsimp only
    refine hR _ _ ?_ ?_ ?_ _
    · exact (List.nodup_append.1 (by simpa only [List.map_append] using hA.1)).2.1
    · exact fun r h t ht => hA.2 r (List.mem_append_right _ h) t (List.mem_append_right _ ht)
    · intro q _
      simp [uniform]
  · have hu : (uniform kind (curveParameter C kind syms) : List (Sym × K)) = [] := by
      unfold uniform
      rw [if_neg hk]
    rw [hu]
    cases kind <;> first | exact absurd rfl hk | rfl

theorem curveReplace_prolongs [DecidableEq K] [Nontrivial K] (hX : Calculus E)
    (hV : ∀ s t, E.diff s (C.var t) = if s = t then 1 else 0) (hB : SubstOK E C) (hR : SubsOK E C R) {kind : Kind}
    (hN : JetNames (curveParameter C kind syms) syms)
    (h0 : kind = .geodesicTime → curveParameter C kind syms ∈ syms)
    (hr : Replacement E C R (curveParameter C kind syms) syms rules) :
    Prolongs E C (curveParameter C kind syms) syms rules (uniform kind (curveParameter C kind syms))
      (curveReplace C R kind syms (rules.map fun r => (C.var r.1, r.2))) := by
  have hA := allRules_ok (kind := kind) hX hV hN h0 hr
  have e := fun x => curveReplace_eq (kind := kind) hX hV hR hN h0 hr x
  have hv := substEach_var hB _ hA.1 hA.2
  refine ⟨?_, fun x y => ?_, fun x y => ?_, fun r h => ?_, fun r h hm => ?_, fun r h hm => ?_, fun r h => ?_,
    fun x h h' => ?_⟩
  · rw [e, substEach_one hB]
  · rw [e, e, e, substEach_add hB]
  · rw [e, e, e, substEach_mul hB]
  · rw [e]
    exact hv r (List.mem_append_left _ (List.mem_append_left _ (List.mem_append_left _ h)))
  · rw [e]
    exact hv (dot r.1, alongCurve E C _ syms r.2) (List.mem_append_left _ (List.mem_append_left _ (List.mem_append_right _
      (List.mem_map.2 ⟨r, mem_movingRules.2 ⟨h, hm⟩, rfl⟩))))
  · rw [e]
    exact hv (ddot r.1, alongCurve E C _ syms (alongCurve E C _ syms r.2)) (List.mem_append_left _ (List.mem_append_right _
      (List.mem_map.2 ⟨r, mem_movingRules.2 ⟨h, hm⟩, rfl⟩)))
  · rw [e]
    exact hv r (List.mem_append_right _ h)
  · rw [e]
    refine substEach_const hB _ fun r hm => ?_
    rcases List.mem_append.1 hm with hm | hm
    · obtain ⟨q, hq, hk⟩ := jetRules_key hm
      rcases hk with hk | ⟨hs, hk | hk⟩ <;> rw [hk]
      · exact (h q hq).1
      · exact ((h q hq).2 hs).1
      · exact ((h q hq).2 hs).2
    · exact h' r hm

end PyOGRe
