import Verif.Lemmas.Core

/-! Helper lemmas about `tensorcontraction` and `transformComponents`. -/

namespace PyOGRe
open Spec Finset Arr
variable {K : Type}

/-- `withAxes` characterised by its entries. -/
theorem withAxes_eq_of (I L axes t : List Nat) (hlen : I.length = L.length) (hnd : axes.Nodup)
    (ht : t.length = axes.length)
    (h1 : ∀ m k : Nat, axes[m]? = some k → L[k]? = t[m]?)
    (h2 : ∀ k : Nat, k ∉ axes → I[k]? = L[k]?) : withAxes I axes t = L := by
  apply List.ext_getElem?
  intro k
  unfold withAxes
  rw [List.getElem?_map, List.getElem?_zipIdx]
  by_cases hk : k < I.length
  · rw [List.getElem?_eq_getElem hk]
    simp only [Option.map_some, zero_add]
    split_ifs with h
    · have hm := List.idxOf_lt_length_of_mem h
      have e : axes[axes.idxOf k]? = some k := by
        rw [List.getElem?_eq_getElem hm]; simp
      rw [h1 _ _ e, List.getD_eq_getElem?_getD, List.getElem?_eq_getElem (by omega)]; rfl
    · rw [← h2 k h, List.getElem?_eq_getElem hk]
  · rw [List.getElem?_eq_none (by omega), List.getElem?_eq_none (by omega)]; rfl

theorem map_zip_some (axes s : List Nat) :
    axes.zip (s.map some) = (axes.zip s).map fun p => (p.1, some p.2) := by
  rw [List.zip_map_right]; rfl

theorem Arr.get_tensorcontraction [CommRing K] {a : Arr K} {n r : Nat} (hn : 0 < n)
    (ha : a.shape = List.replicate r n) (ps : List (Nat × Nat))
    (hlt : ∀ p ∈ ps, p.1 < r ∧ p.2 < r) (hnd : (ps.flatMap fun p => [p.1, p.2]).Nodup) :
    ∃ c, a.tensorcontraction ps = .ok c ∧ c.WF ∧ c.shape = List.replicate (r - 2 * ps.length) n ∧
      (∀ I, Valid a.shape I → c.get (dropAxes (ps.flatMap fun p => [p.1, p.2]) I) =
        ((tuples n ps.length).map fun s =>
          a.get (withAxes I (ps.flatMap fun p => [p.1, p.2]) (s.flatMap fun v => [v, v]))).sum) ∧
      (∀ idx, Valid c.shape idx → ∃ I, Valid a.shape I ∧
        dropAxes (ps.flatMap fun p => [p.1, p.2]) I = idx) := by
  have hr : a.rank = r := by simp [Arr.rank, ha]
  set axes := ps.flatMap fun p => [p.1, p.2] with hax
  have haxlt : ∀ k ∈ axes, k < r := by
    intro k hk
    rw [hax, List.mem_flatMap] at hk
    obtain ⟨p, hp, hk⟩ := hk
    have := hlt p hp
    simp only [List.mem_cons, List.not_mem_nil, or_false] at hk
    rcases hk with rfl | rfl <;> omega
  have hlen : axes.length = 2 * ps.length := by
    rw [hax, List.length_flatMap]; simp [mul_comm]
  have hgD : ∀ k, k < r → a.shape.getD k 0 = n := by
    intro k hk
    rw [ha, List.getD_eq_getElem?_getD, List.getElem?_replicate]; simp [hk]
  have hcond : (axes.all (· < a.rank) && decide axes.Nodup &&
      ps.all (fun p => a.shape.getD p.1 0 == a.shape.getD p.2 0)) = true := by
    simp only [Bool.and_eq_true, List.all_eq_true, decide_eq_true_eq, beq_iff_eq]
    refine ⟨⟨fun k hk => by rw [hr]; exact haxlt k hk, hnd⟩, fun p hp => ?_⟩
    rw [hgD _ (hlt p hp).1, hgD _ (hlt p hp).2]
  have hdims : (ps.map fun p => a.shape.getD p.1 0) = List.replicate ps.length n := by
    rw [List.eq_replicate_iff]
    refine ⟨by simp, fun b hb => ?_⟩
    obtain ⟨p, hp, rfl⟩ := List.mem_map.1 hb
    exact hgD _ (hlt p hp).1
  have hfree : ∀ {α : Type} (xs : List α), xs.length = r →
      freePart (setAll (List.replicate a.rank (none : Option Nat)) (axes.map fun k => (k, some 0))) xs =
        dropAxes axes xs := by
    intro α xs hxs
    have := Arr.freePart_setAll (axes.map fun k => (k, 0)) xs
    rw [List.map_map, List.map_map] at this
    rw [hr, ← hxs]
    convert this using 2
    all_goals simp [Function.comp_def]
  have hshape : freePart (setAll (List.replicate a.rank (none : Option Nat))
      (axes.map fun k => (k, some 0))) a.shape = List.replicate (r - 2 * ps.length) n := by
    rw [hfree _ (by simp [ha]), ha, dropAxes_replicate axes r n hnd haxlt, hlen]
  refine ⟨Arr.ofFn (List.replicate (r - 2 * ps.length) n) fun idx =>
      ((allIdx (ps.map fun p => a.shape.getD p.1 0)).map fun s =>
        a.get (fill (setAll (List.replicate a.rank (none : Option Nat))
          (axes.zip ((s.flatMap fun v => [v, v]).map some))) idx)).sum, ?_, ?_, ?_, ?_, ?_⟩
  · unfold Arr.tensorcontraction
    simp only [← hax, hcond, if_true]
    rw [hshape]
  · exact Arr.wf_ofFn _ _
  · rfl
  · intro I hI
    have hIl : I.length = r := by rw [hI.length_eq, ha]; simp
    have hv : Valid (List.replicate (r - 2 * ps.length) n) (dropAxes axes I) := by
      rw [valid_replicate]
      refine ⟨by rw [length_dropAxes axes I hnd (by rw [hIl]; exact haxlt), hIl, hlen], ?_⟩
      intro x hx
      rw [ha, valid_replicate] at hI
      exact hI.2 x (mem_dropAxes hx)
    rw [Arr.get_ofFn hv, hdims, ← tuples_eq_allIdx]
    congr 1
    apply List.map_congr_left
    intro s hs
    rw [mem_tuples] at hs
    have hsl : (s.flatMap fun v => [v, v]).length = axes.length := by
      rw [List.length_flatMap, hlen]; simp [hs.1, mul_comm]
    congr 1
    have hf := Arr.freePart_setAll (axes.zip (s.flatMap fun v => [v, v])) I
    have hf2 := Arr.fill_setAll I (axes.zip (s.flatMap fun v => [v, v]))
    rw [hf, map_fst_zip_some _ _ hsl] at hf2
    rw [map_zip_some, hr, ← hIl, hf2, Arr.setAll_zip _ _ _ hnd hsl]
  · intro idx hidx
    have hidx' : Valid (List.replicate (r - axes.length) n) idx := by
      rw [hlen]; exact hidx
    obtain ⟨I, hI, h⟩ := Arr.exists_dropAxes hn axes hnd haxlt hidx'
    exact ⟨I, by rw [ha]; exact hI, h⟩

theorem Arr.foldl_tensorproduct [CommRing K] {n : Nat} (Ms : List (Arr K))
    (hM : ∀ M ∈ Ms, M.shape = [n, n]) (r : Nat) (a : Arr K) (ha : a.shape = List.replicate r n) :
    (Ms.foldl Arr.tensorproduct a).shape = List.replicate (r + 2 * Ms.length) n ∧
    ∀ (I : List Nat) (ps : List (Nat × Nat)), Valid a.shape I → ps.length = Ms.length → (∀ p ∈ ps, p.1 < n ∧ p.2 < n) →
      (Ms.foldl Arr.tensorproduct a).get (I ++ ps.flatMap fun p => [p.1, p.2]) =
        a.get I * (List.zipWith (fun (M : Arr K) p => M.mat p.1 p.2) Ms ps).prod := by
  induction Ms generalizing r a with
  | nil =>
    refine ⟨by simp [ha], ?_⟩
    intro I ps _ hl _
    cases ps with
    | nil => simp
    | cons p ps => simp at hl
  | cons M Ms ih =>
    have hMs := hM M (by simp)
    have hsh : (a.tensorproduct M).shape = List.replicate (r + 2) n := by
      show a.shape ++ M.shape = _
      rw [ha, hMs, List.replicate_add]; rfl
    obtain ⟨h1, h2⟩ := ih (fun M hM' => hM M (by simp [hM'])) (r + 2) (a.tensorproduct M) hsh
    refine ⟨by rw [List.foldl_cons, h1, List.length_cons]; congr 1; omega, ?_⟩
    intro I ps hI hl hp
    cases ps with
    | nil => simp at hl
    | cons p ps =>
      have hp0 := hp p (by simp)
      have hv : Valid M.shape [p.1, p.2] := by
        rw [hMs, valid_cons, valid_cons, valid_nil]; exact ⟨hp0.1, hp0.2, rfl⟩
      have hv2 : Valid (a.tensorproduct M).shape (I ++ [p.1, p.2]) := by
        show Valid (a.shape ++ M.shape) _
        rw [valid_append hI.length_eq]; exact ⟨hI, hv⟩
      have := h2 (I ++ [p.1, p.2]) ps hv2 (by simpa using hl) fun q hq => hp q (by simp [hq])
      rw [Arr.get_tensorproduct hI hv] at this
      rw [List.foldl_cons, List.flatMap_cons, ← List.append_assoc, this, List.zipWith_cons_cons,
        List.prod_cons, ← mul_assoc]
      rfl

/-- Positions not among `axes`, counting from `m`. -/
def dropFrom {α : Type} (m : Nat) (axes : List Nat) (xs : List α) : List α :=
  ((xs.zipIdx m).filter fun p => decide (p.2 ∉ axes)).map (·.1)

theorem dropFrom_cons {α : Type} (m : Nat) (axes : List Nat) (x : α) (xs : List α) :
    dropFrom m axes (x :: xs) = (if m ∈ axes then [] else [x]) ++ dropFrom (m + 1) axes xs := by
  unfold dropFrom
  rw [List.zipIdx_cons]
  split_ifs with h
  · rw [List.filter_cons_of_neg (by simpa using h)]; rfl
  · rw [List.filter_cons_of_pos (by simpa using h)]; rfl

theorem dropFrom_append {α : Type} (m : Nat) (axes : List Nat) (xs ys : List α) :
    dropFrom m axes (xs ++ ys) = dropFrom m axes xs ++ dropFrom (m + xs.length) axes ys := by
  induction xs generalizing m with
  | nil => rfl
  | cons x xs ih =>
    rw [List.cons_append, dropFrom_cons, dropFrom_cons, ih]
    simp [Nat.add_comm, Nat.add_left_comm]

theorem dropFrom_all {α : Type} (m : Nat) (axes : List Nat) (xs : List α)
    (h : ∀ k, m ≤ k → k < m + xs.length → k ∈ axes) : dropFrom m axes xs = [] := by
  induction xs generalizing m with
  | nil => rfl
  | cons x xs ih =>
    rw [dropFrom_cons, if_pos (h m (by omega) (by simp)),
      ih (m + 1) fun k h1 h2 => h k (by omega) (by simp at h2 ⊢; omega)]
    rfl

theorem jacobianFactors_eq (J Jinv : Arr K) (indices : List Int)
    (hi : ∀ x ∈ indices, x = 1 ∨ x = -1) :
    jacobianFactors J Jinv indices = indices.map fun i => if i = 1 then Jinv else J := by
  unfold jacobianFactors
  induction indices with
  | nil => rfl
  | cons a l ih =>
    rw [List.flatMap_cons, List.map_cons, ih fun x hx => hi x (by simp [hx])]
    rcases hi a (by simp) with rfl | rfl <;> simp

theorem jacobianPairs_eq (r : Nat) (indices : List Int) (hi : ∀ x ∈ indices, x = 1 ∨ x = -1) :
    jacobianPairs r indices = (List.range indices.length).map fun m =>
      (m, r + 2 * m + if indices.getD m 0 = 1 then 1 else 0) := by
  unfold jacobianPairs
  suffices h : ∀ (l : List Int) (k : Nat), (∀ x ∈ l, x = 1 ∨ x = -1) →
      ((l.zipIdx k).flatMap fun p =>
        (if p.1 = 1 then [(p.2, r + 2 * p.2 + 1)] else []) ++
        (if p.1 = -1 then [(p.2, r + 2 * p.2)] else [])) =
      (List.range l.length).map fun m =>
        (k + m, r + 2 * (k + m) + if l.getD m 0 = 1 then 1 else 0) by
    simpa using h indices 0 hi
  intro l
  induction l with
  | nil => intros; rfl
  | cons a l ih =>
    intro k h
    rw [List.zipIdx_cons, List.flatMap_cons, ih (k + 1) fun x hx => h x (by simp [hx]),
      List.length_cons, List.range_succ_eq_map, List.map_cons, List.map_map]
    have e : (List.range l.length).map (fun m =>
        (k + 1 + m, r + 2 * (k + 1 + m) + if l.getD m 0 = 1 then 1 else 0)) =
      (List.range l.length).map ((fun m =>
        (k + m, r + 2 * (k + m) + if (a :: l).getD m 0 = 1 then 1 else 0)) ∘ Nat.succ) := by
      apply List.map_congr_left
      intro m _
      simp [Nat.add_comm, Nat.add_left_comm]
    rw [e]
    rcases h a (by simp) with rfl | rfl <;> simp

theorem getElem?_flatMap_pair {α β : Type} (l : List α) (f g : α → β) (i : Nat) :
    (l.flatMap fun x => [f x, g x])[2 * i]? = l[i]?.map f ∧
    (l.flatMap fun x => [f x, g x])[2 * i + 1]? = l[i]?.map g := by
  have h0 := getElem?_flatMap_uniform (fun x => [f x, g x]) 2 l (by simp) i 0 (by omega)
  have h1 := getElem?_flatMap_uniform (fun x => [f x, g x]) 2 l (by simp) i 1 (by omega)
  rw [show i * 2 + 0 = 2 * i by omega] at h0
  rw [show i * 2 + 1 = 2 * i + 1 by omega] at h1
  rw [h0, h1]
  cases l[i]? <;> simp

/-- The position of the product array: one block of two entries per factor. -/
def blocks (f : Int → Nat × Nat → Nat × Nat) (indices : List Int) (J s : List Nat) : List (Nat × Nat) :=
  (indices.zip (J.zip s)).map fun p => f p.1 p.2

theorem transformComponents_spec [CommRing K] (E : Engine K) (hE : ∀ x, E.simp x = x) {n : Nat}
    (hn : 0 < n) (Jm Jinv comps : Arr K) (rules : List (Sym × K)) (indices : List Int)
    (hJ : Jm.shape = [n, n]) (hJi : Jinv.shape = [n, n])
    (hi : ∀ x ∈ indices, x = 1 ∨ x = -1)
    (hc : comps.shape = List.replicate indices.length n) :
    ∃ c, transformComponents E Jm Jinv rules indices comps = .ok c ∧ c.WF ∧ c.shape = comps.shape ∧
      ∀ J, Valid comps.shape J → c.get J = substRules E rules
        (applyFactors n (indices.map (coordFactor Jm.mat Jinv.mat)) comps.get J) := by
  set r := indices.length with hr
  set Ms := indices.map (fun i => if i = 1 then Jinv else Jm) with hMs
  have hMl : Ms.length = r := by simp [hMs, hr]
  have hMshape : ∀ M ∈ Ms, M.shape = [n, n] := by
    intro M hM
    obtain ⟨i, _, rfl⟩ := List.mem_map.1 hM
    split_ifs <;> assumption
  obtain ⟨hps, hpg⟩ := Arr.foldl_tensorproduct Ms hMshape r comps hc
  set P := Ms.foldl Arr.tensorproduct comps with hP
  set off : Nat → Nat := fun m => if indices.getD m 0 = 1 then 1 else 0 with hoff
  have hoff1 : ∀ m, off m ≤ 1 := by intro m; simp only [hoff]; split_ifs <;> omega
  set ps := (List.range r).map fun m => (m, r + 2 * m + off m) with hpsdef
  have hpl : ps.length = r := by simp [hpsdef]
  set axes := ps.flatMap fun p => [p.1, p.2] with haxes
  have hax0 : ∀ m, m < r → axes[2 * m]? = some m := by
    intro m hm
    rw [haxes, (getElem?_flatMap_pair ps (·.1) (·.2) m).1, hpsdef, List.getElem?_map,
      List.getElem?_range hm]; rfl
  have hax1 : ∀ m, m < r → axes[2 * m + 1]? = some (r + 2 * m + off m) := by
    intro m hm
    rw [haxes, (getElem?_flatMap_pair ps (·.1) (·.2) m).2, hpsdef, List.getElem?_map,
      List.getElem?_range hm]; rfl
  have hmem : ∀ k, k ∈ axes ↔ k < r ∨ ∃ m, m < r ∧ k = r + 2 * m + off m := by
    intro k
    rw [haxes, hpsdef, List.mem_flatMap]
    simp only [List.mem_map, List.mem_range, List.mem_cons, List.not_mem_nil, or_false]
    constructor
    · rintro ⟨p, ⟨m, hm, rfl⟩, h | h⟩
      · left; omega
      · right; exact ⟨m, hm, h⟩
    · rintro (h | ⟨m, hm, h⟩)
      · exact ⟨_, ⟨k, h, rfl⟩, Or.inl rfl⟩
      · exact ⟨_, ⟨m, hm, rfl⟩, Or.inr h⟩
  have hnd : axes.Nodup := by
    rw [haxes, List.nodup_flatMap]
    constructor
    · intro p hp
      obtain ⟨m, hm, rfl⟩ := List.mem_map.1 hp
      have := List.mem_range.1 hm
      simp; omega
    · rw [hpsdef, List.pairwise_map]
      refine List.Pairwise.imp_of_mem ?_ (List.pairwise_lt_range (n := r))
      intro a b ha hb hab
      have h1 := List.mem_range.1 ha
      have h2 := List.mem_range.1 hb
      have h3 := hoff1 a
      have h4 := hoff1 b
      simp only [Function.onFun, List.disjoint_cons_left, List.mem_cons, List.not_mem_nil, or_false,
        List.disjoint_nil_left, and_true]
      omega
  have hPs : P.shape = List.replicate (r + 2 * r) n := by rw [hps, hMl]
  obtain ⟨c, hcc, hcw, hcs, hcg, -⟩ := Arr.get_tensorcontraction hn hPs ps (by
    intro p hp
    obtain ⟨m, hm, rfl⟩ := List.mem_map.1 hp
    have := List.mem_range.1 hm
    have := hoff1 m
    constructor <;> dsimp only <;> omega) hnd
  rw [← haxes] at hcg
  have hcs' : c.shape = List.replicate r n := by rw [hcs, hpl]; congr 1; omega
  refine ⟨(c.map (substRules E rules)).map E.simp, ?_, Arr.wf_map _ _, ?_, ?_⟩
  · unfold transformComponents
    rw [jacobianFactors_eq _ _ _ hi, jacobianPairs_eq _ _ hi, ← hMs, ← hP]
    rw [show (List.range indices.length).map (fun m =>
      (m, indices.length + 2 * m + if indices.getD m 0 = 1 then 1 else 0)) = ps from rfl]
    dsimp only
    rw [hcc]
    rfl
  · rw [Arr.shape_map, Arr.shape_map, hcs', hc]
  · intro J hJv
    rw [hc] at hJv
    have hJ2 := valid_replicate.1 hJv
    rw [Arr.map_id' (Arr.wf_map _ _) hE, Arr.get_map (by rw [hcs']; exact hJv)]
    congr 1
    -- the position of the product array whose free part is `J`
    set F : Nat → Nat → Nat → Nat × Nat := fun m j s => if off m = 1 then (j, s) else (s, j) with hF
    set B : List Nat → List (Nat × Nat) :=
      fun s => (List.range r).map fun m => F m (J.getD m 0) (s.getD m 0) with hB
    set L : List Nat → List Nat := fun s => s ++ (B s).flatMap fun p => [p.1, p.2] with hL
    have hBl : ∀ s, ((B s).flatMap fun p => [p.1, p.2]).length = 2 * r := by
      intro s; rw [List.length_flatMap]; simp [hB, Function.comp_def, mul_comm]
    have hB0 : ∀ s m, m < r → ((B s).flatMap fun p => [p.1, p.2])[2 * m]? =
        some (F m (J.getD m 0) (s.getD m 0)).1 := by
      intro s m hm
      rw [(getElem?_flatMap_pair (B s) (·.1) (·.2) m).1, hB, List.getElem?_map,
        List.getElem?_range hm]; rfl
    have hB1 : ∀ s m, m < r → ((B s).flatMap fun p => [p.1, p.2])[2 * m + 1]? =
        some (F m (J.getD m 0) (s.getD m 0)).2 := by
      intro s m hm
      rw [(getElem?_flatMap_pair (B s) (·.1) (·.2) m).2, hB, List.getElem?_map,
        List.getElem?_range hm]; rfl
    have hBlt : ∀ s, (∀ x ∈ s, x < n) → ∀ p ∈ B s, p.1 < n ∧ p.2 < n := by
      intro s hs p hp
      obtain ⟨m, hm, rfl⟩ := List.mem_map.1 hp
      have key : ∀ l : List Nat, (∀ x ∈ l, x < n) → l.getD m 0 < n := by
        intro l hl
        rw [List.getD_eq_getElem?_getD]
        cases h : l[m]? with
        | none => exact hn
        | some x => exact hl x (List.mem_of_getElem? h)
      have h1 := key J hJ2.2
      have h2 := key s hs
      simp only [hF]; split_ifs <;> exact ⟨by assumption, by assumption⟩
    have hz : (List.replicate r 0).length = r := by simp
    have hzv : Valid P.shape (L (List.replicate r 0)) := by
      rw [hPs, valid_replicate]
      refine ⟨by simp [hL, hBl], ?_⟩
      intro x hx
      rcases List.mem_append.1 hx with h | h
      · rw [List.eq_of_mem_replicate h]; exact hn
      · obtain ⟨p, hp, hx⟩ := List.mem_flatMap.1 h
        have := hBlt (List.replicate r 0)
          (by intro x hx; rw [List.eq_of_mem_replicate hx]; exact hn) p hp
        simp only [List.mem_cons, List.not_mem_nil, or_false] at hx
        rcases hx with rfl | rfl
        · exact this.1
        · exact this.2
    have hdrop : dropAxes axes (L (List.replicate r 0)) = J := by
      show dropFrom 0 axes _ = J
      simp only [hL]
      rw [dropFrom_append, dropFrom_all 0 axes (List.replicate r 0) (by
        intro k _ hk; rw [hmem]; left; simpa using hk), hz, List.nil_append, zero_add]
      have key : ∀ (k d : Nat), k + d = r →
          dropFrom (r + 2 * k) axes (((List.range' k d).map fun m =>
            F m (J.getD m 0) ((List.replicate r 0).getD m 0)).flatMap fun p => [p.1, p.2]) =
          J.drop k := by
        intro k d
        induction d generalizing k with
        | zero =>
          intro h
          rw [List.range'_zero, List.drop_eq_nil_of_le (by omega)]; rfl
        | succ d ih =>
          intro h
          rw [List.range'_succ, List.map_cons, List.flatMap_cons, dropFrom_append]
          rw [show r + 2 * k + [(F k (J.getD k 0) ((List.replicate r 0).getD k 0)).1,
            (F k (J.getD k 0) ((List.replicate r 0).getD k 0)).2].length = r + 2 * (k + 1) from rfl,
            ih (k + 1) (by omega), List.drop_eq_getElem_cons (i := k) (by omega)]
          rw [dropFrom_cons, dropFrom_cons]
          have e : J.getD k 0 = J[k]'(by omega) := by
            rw [List.getD_eq_getElem?_getD, List.getElem?_eq_getElem (by omega)]; rfl
          have m0 : (r + 2 * k ∈ axes) ↔ off k = 0 := by
            rw [hmem]
            constructor
            · rintro (h | ⟨m, hm, h⟩)
              · omega
              · have := hoff1 m
                have : m = k := by omega
                subst this; omega
            · intro h; right; exact ⟨k, by omega, by omega⟩
          have m1 : (r + 2 * k + 1 ∈ axes) ↔ off k = 1 := by
            rw [hmem]
            constructor
            · rintro (h | ⟨m, hm, h⟩)
              · omega
              · have := hoff1 m
                have : m = k := by omega
                subst this; omega
            · intro h; right; exact ⟨k, by omega, by omega⟩
          have := hoff1 k
          by_cases h1 : off k = 1
          · rw [if_neg (by rw [m0]; omega), if_pos (m1.2 h1)]
            simp only [hF, h1, if_true, e]; rfl
          · rw [if_pos (m0.2 (by omega)), if_neg (by rw [m1]; exact h1)]
            simp only [hF, h1, if_false, e]; rfl
      have := key 0 r (by omega)
      rw [← List.range_eq_range'] at this
      rw [List.drop_zero] at this
      exact this
    have hwith : ∀ s, s.length = r →
        withAxes (L (List.replicate r 0)) axes (s.flatMap fun v => [v, v]) = L s := by
      intro s hs
      apply withAxes_eq_of
      · simp [hL, hBl, hs]
      · exact hnd
      · rw [haxes, List.length_flatMap, List.length_flatMap]; simp [hs, hpl]
      · intro m k hmk
        have hml : m < 2 * r := by
          have := (List.getElem?_eq_some_iff.1 hmk).1
          rw [haxes, List.length_flatMap] at this
          simp [hpl] at this; omega
        obtain ⟨q, hq | hq⟩ : ∃ q, m = 2 * q ∨ m = 2 * q + 1 := ⟨m / 2, by omega⟩
        · subst hq
          rw [hax0 q (by omega)] at hmk
          obtain rfl := Option.some.inj hmk
          rw [(getElem?_flatMap_pair s (fun v => v) (fun v => v) q).1]
          simp only [hL]
          rw [List.getElem?_append_left (by omega)]; simp
        · subst hq
          rw [hax1 q (by omega)] at hmk
          obtain rfl := Option.some.inj hmk
          rw [(getElem?_flatMap_pair s (fun v => v) (fun v => v) q).2]
          simp only [hL]
          rw [List.getElem?_append_right (by omega), hs]
          have e : s[q]? = some (s.getD q 0) := by
            rw [List.getD_eq_getElem?_getD, List.getElem?_eq_getElem (by omega)]; rfl
          have := hoff1 q
          by_cases h1 : off q = 1
          · rw [show r + 2 * q + off q - r = 2 * q + 1 by omega, hB1 s q (by omega), e]
            simp only [hF, h1, if_true]; rfl
          · rw [show r + 2 * q + off q - r = 2 * q by omega, hB0 s q (by omega), e]
            simp only [hF, h1, if_false]; rfl
      · intro k hk
        rw [hmem] at hk
        push_neg at hk
        simp only [hL]
        rw [List.getElem?_append_right (by simpa using hk.1),
          List.getElem?_append_right (by rw [hs]; exact hk.1), hz, hs]
        by_cases hkl : k - r < 2 * r
        · obtain ⟨q, hq | hq⟩ : ∃ q, k - r = 2 * q ∨ k - r = 2 * q + 1 := ⟨(k - r) / 2, by omega⟩
          · rw [hq, hB0 _ q (by omega), hB0 _ q (by omega)]
            have := hk.2 q (by omega)
            have h1 : off q = 1 := by have := hoff1 q; omega
            simp only [hF, h1, if_true]
          · rw [hq, hB1 _ q (by omega), hB1 _ q (by omega)]
            have := hk.2 q (by omega)
            have h1 : ¬ off q = 1 := by omega
            simp only [hF, h1, if_false]
        · rw [List.getElem?_eq_none (by rw [hBl]; omega), List.getElem?_eq_none (by rw [hBl]; omega)]
    have hg := hcg _ hzv
    rw [hdrop] at hg
    rw [hg, hpl, applyFactors, hJ2.1]
    congr 1
    apply List.map_congr_left
    intro s hs
    rw [mem_tuples] at hs
    rw [hwith s hs.1]
    simp only [hL]
    rw [hpg s (B s) (by rw [hc, valid_replicate]; exact hs) (by simp [hB, hMl]) (hBlt s hs.2), mul_comm]
    congr 1
    -- the product of the factors
    have key : ∀ (l : List Int) (k : Nat), (∀ m, m < l.length → indices.getD (k + m) 0 = l.getD m 0) →
        ∀ J' s' : List Nat, J'.length = l.length → s'.length = l.length →
        (List.zipWith (fun (M : Arr K) (p : Nat × Nat) => M.mat p.1 p.2)
          (l.map fun i => if i = 1 then Jinv else Jm)
          ((List.range l.length).map fun m => F (k + m) (J'.getD m 0) (s'.getD m 0))).prod =
        factorProd (l.map (coordFactor Jm.mat Jinv.mat)) J' s' := by
      intro l
      induction l with
      | nil => intro k _ J' s' _ _; cases J' <;> simp [factorProd]
      | cons i l ih =>
        intro k hk J' s' h1 h2
        cases J' with
        | nil => simp at h1
        | cons j J' =>
          cases s' with
          | nil => simp at h2
          | cons t s' =>
            have := ih (k + 1) (by
              intro m hm
              have := hk (m + 1) (by simpa using hm)
              rw [show k + 1 + m = k + (m + 1) by omega, this]; simp) J' s' (by simpa using h1)
                (by simpa using h2)
            rw [List.length_cons, List.range_succ_eq_map, List.map_cons, List.map_cons, List.map_cons,
              List.zipWith_cons_cons, List.prod_cons, List.map_map, factorProd, ← this]
            congr 1
            · have h0 : off k = if i = 1 then 1 else 0 := by
                have := hk 0 (by simp)
                simp only [Nat.add_zero, List.getD_cons_zero] at this
                simp only [hoff, this]
              simp only [hF, Nat.add_zero, List.getD_cons_zero, h0, coordFactor]
              by_cases h1 : i = 1
              · simp only [h1, if_true]
              · simp only [h1, if_false, zero_ne_one]
            · congr 2
              apply List.map_congr_left
              intro m _
              simp [Nat.add_comm, Nat.add_left_comm]
    have := key indices 0 (fun m _ => by rw [zero_add]) J s hJ2.1 hs.1
    simp only [zero_add] at this
    exact this

end PyOGRe
